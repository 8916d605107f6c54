import Verif.Model.BitOps
namespace StdSimd

theorem find?_range_spec (p : Nat → Bool) (n : Nat) :
    ((List.range n).find? p = none ↔ ∀ i < n, p i = false) ∧
    ∀ i, (List.range n).find? p = some i ↔ i < n ∧ p i = true ∧ ∀ j < i, p j = false := by
  constructor
  · simp [List.find?_eq_none]
  · intro i
    rw [List.find?_range_eq_some]
    simp [Bool.not_eq_true, and_comm, and_left_comm, and_assoc]

theorem ctz_spec {w : Nat} (x : BitVec w) (hx : x ≠ 0) :
    ctz x < w ∧ x.getLsbD (ctz x) = true ∧ ∀ j < ctz x, x.getLsbD j = false := by
  unfold ctz
  cases h : (List.range w).find? (fun i => x.getLsbD i) with
  | none =>
    have := (find?_range_spec (fun i => x.getLsbD i) w).1.1 h
    exact absurd (BitVec.eq_of_getLsbD_eq (by intro i hi; rw [this i hi]; simp)) hx
  | some i =>
    have := ((find?_range_spec (fun i => x.getLsbD i) w).2 i).1 h
    simpa using this

theorem ctz_unique {w : Nat} (x : BitVec w) {i : Nat} (h : x.getLsbD i = true) (hj : ∀ j < i, x.getLsbD j = false) :
    ctz x = i := by
  have hi := BitVec.lt_of_getLsbD h
  unfold ctz
  rw [((find?_range_spec (fun i => x.getLsbD i) w).2 i).2 ⟨hi, h, hj⟩]; rfl

theorem testBit_and_pred (k c : Nat) (h1 : k.testBit c = true) (h2 : ∀ j < c, k.testBit j = false) (j : Nat) :
    (k &&& (k - 1)).testBit j = (k.testBit j && decide (j ≠ c)) := by
  -- k = 2^c * q with q odd
  have hmod : k % 2 ^ c = 0 := by
    apply Nat.eq_of_testBit_eq
    intro j
    rw [Nat.testBit_mod_two_pow]
    by_cases hj : j < c
    · simp [h2 j hj]
    · simp [hj]
  have hk := Nat.div_add_mod k (2 ^ c)
  rw [hmod, Nat.add_zero] at hk
  have hodd : (k / 2 ^ c) % 2 = 1 := by
    rw [Nat.testBit_eq_decide_div_mod_eq] at h1; simpa using h1
  generalize hq : k / 2 ^ c = q at *
  obtain ⟨m, rfl⟩ : ∃ m, q = 2 * m + 1 := ⟨q / 2, by omega⟩
  have hpos : 0 < 2 ^ c := Nat.two_pow_pos c
  have hk1 : k - 1 = 2 ^ c * (2 * m) + (2 ^ c - 1) := by
    rw [← hk, Nat.mul_add, Nat.mul_one]; omega
  rw [Nat.testBit_and, hk1, Nat.testBit_two_pow_mul_add _ (by omega)]
  by_cases hj : j < c
  · simp [h2 j hj]
  · simp only [hj, if_false]
    by_cases hjc : j = c
    · subst hjc; simp [Nat.testBit_zero]
    · simp only [hjc, ne_eq, not_false_eq_true, decide_true, Bool.and_true]
      have : k.testBit j = (2 * m).testBit (j - c) := by
        rw [← hk]
        have hz : 2 ^ c * (2 * m + 1) = 2 ^ c * (2 * m + 1) + 0 := rfl
        rw [hz, Nat.testBit_two_pow_mul_add _ hpos]
        simp only [hj, if_false]
        obtain ⟨d, hd⟩ : ∃ d, j - c = d + 1 := ⟨j - c - 1, by omega⟩
        rw [hd, Nat.testBit_add_one, Nat.testBit_add_one]
        congr 1; omega
      rw [this]; simp

theorem getLsbD_and_pred {w : Nat} (k : BitVec w) (h : k ≠ 0) (j : Nat) :
    (k &&& (k - 1)).getLsbD j = (k.getLsbD j && decide (j ≠ ctz k)) := by
  obtain ⟨h1, h2, h3⟩ := ctz_spec k h
  have hk : 0 < k.toNat := by
    rcases Nat.eq_zero_or_pos k.toNat with h0 | h0
    · exact absurd (BitVec.eq_of_toNat_eq (by simpa using h0)) h
    · exact h0
  have hlt := k.isLt
  have hsub : (k - 1).toNat = k.toNat - 1 := by
    have h1lt : 1 < 2 ^ w := Nat.one_lt_two_pow (by omega)
    rw [BitVec.toNat_sub]
    simp only [show ((1 : BitVec w).toNat) = 1 by simp [Nat.mod_eq_of_lt h1lt]]
    have : 2 ^ w - 1 + k.toNat = 2 ^ w + (k.toNat - 1) := by omega
    rw [this, Nat.add_mod_left]
    exact Nat.mod_eq_of_lt (by omega)
  have := testBit_and_pred k.toNat (ctz k) h2 h3 j
  rw [← hsub, ← BitVec.toNat_and] at this
  exact this

/-- Filter of a range by a predicate with a known least element. -/
theorem filter_range_cons (p : Nat → Bool) (n c : Nat) (hc : c < n) (h : p c = true) (hl : ∀ j < c, p j = false) :
    (List.range n).filter p = c :: (List.range n).filter (fun j => p j && decide (j ≠ c)) := by
  obtain ⟨d, rfl⟩ : ∃ d, n = (c + 1) + d := ⟨n - (c + 1), by omega⟩
  have key : ∀ q : Nat → Bool, (∀ j < c, q j = false) → (List.range ((c + 1) + d)).filter q =
      (if q c then [c] else []) ++ ((List.range d).map (c + 1 + ·)).filter q := by
    intro q hq
    rw [List.range_add, List.filter_append, List.range_succ, List.filter_append]
    have : (List.range c).filter q = [] := by
      rw [List.filter_eq_nil_iff]; intro a ha; simp [hq a (List.mem_range.1 ha)]
    rw [this]
    cases hqc : q c <;> simp [hqc]
  rw [key p hl, key _ (by intro j hj; simp [hl j hj])]
  simp [h]
  apply List.filter_congr
  intro a ha
  simp only [List.mem_map] at ha
  obtain ⟨b, _, rfl⟩ := ha
  simp; omega

theorem bitIteration_eq {w : Nat} (k : BitVec w) :
    bitIteration k = (List.range w).filter (fun i => k.getLsbD i) := by
  induction hn : k.toNat using Nat.strongRecOn generalizing k with
  | _ n ih =>
    rw [bitIteration]
    split
    · subst_vars; simp
    · rename_i h
      rw [ih _ (by rw [← hn]; exact and_pred_lt k h) _ rfl]
      obtain ⟨h1, h2, h3⟩ := ctz_spec k h
      rw [filter_range_cons _ w (ctz k) h1 h2 h3]
      congr 1
      apply List.filter_congr
      intro a _
      rw [getLsbD_and_pred k h]

theorem bitWidth_spec {w : Nat} (x : BitVec w) (hx : x ≠ 0) :
    ∃ i, bitWidth x = i + 1 ∧ x.getLsbD i = true ∧ ∀ j, i < j → x.getLsbD j = false := by
  have hne : x.toNat ≠ 0 := fun h => hx (BitVec.eq_of_toNat_eq (by simpa using h))
  refine ⟨Nat.log2 x.toNat, by unfold bitWidth; rw [if_neg hx], ?_, ?_⟩
  · exact Nat.testBit_log2 hne
  · intro j hj
    apply Nat.testBit_lt_two_pow
    have := Nat.lt_log2_self (n := x.toNat)
    exact Nat.lt_of_lt_of_le this (Nat.pow_le_pow_right (by omega) hj)

end StdSimd
