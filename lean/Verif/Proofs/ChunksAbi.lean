import Verif.Model.Chunks
import Verif.Proofs.AbiStorage
/-! The ABI list of a fixed_size object in closed form. -/
namespace StdSimd.Abi

/-- Elements per native register. -/
def cap (t : Target) (T : Elem) : Nat := vecSizeof t T / T.size

/-- The ABI of a register of `k` elements. -/
def pick (t : Target) (T : Elem) (k : Nat) : Tag :=
  if k = 1 then .scalar else if valid t T (.btmsk (T.size * k)) then .btmsk (T.size * k) else .builtin (T.size * k)

theorem bestAbi_pick {t : Target} (hc : t.Consistent) {T : Elem} (hT : T.Ok) (h4 : 4 ≤ T.size) {n : Nat} (h1 : 1 ≤ n) :
    bestAbi t T n = pick t T (min n (cap t T)) := by
  have hs1 := elem_pos hT
  unfold cap
  by_cases hv : vecSizeof t T = T.size
  · rw [bestAbi_scalar hs1 hv, hv, Nat.div_self hs1, Nat.min_eq_right h1]; rfl
  · obtain ⟨hs, hvs⟩ := vec_cases hT hv
    obtain ⟨_, hs8, hdiv, hmod, hlt, hs2, hle, hpow, hmul⟩ := div_facts hs hvs
    by_cases hn1 : n = 1
    · subst hn1; rw [bestAbi_one, Nat.min_eq_left (by omega)]; rfl
    · unfold pick
      by_cases hn : vecSizeof t T / T.size < n
      · rw [Nat.min_eq_right (by omega), if_neg (by omega), hmul]
        rcases bestAbi_large hc hT hv hn with ⟨e, hva⟩ | ⟨e, hva⟩
        · rw [e, hva]; simp
        · rw [e, if_neg]
          intro hb
          rw [valid_btmsk hs1] at hb
          rw [valid_builtin hs1] at hva
          have := usable_vs hs8 hb.1
          have := hva.2.2.2 hb.1.1
          omega
      · rw [Nat.min_eq_left (by omega), if_neg hn1]
        by_cases hx : Exc t T n
        · rcases bestAbi_exc hT hv (by omega) hx with ⟨hss, _⟩ | ⟨hs4, hn2, e, hva⟩
          · omega
          · have h8 : T.size * n = 8 := by rw [hs4, hn2]
            rw [h8]
            by_cases hb : valid t T (.btmsk 8) = true
            · rw [if_pos hb]
              have hfn : findNext t T .btmsk (T.size * n) = .btmsk (T.size * n) := by
                rw [findNext, h8, dif_pos (by left; show bitCeil 8 / 2 < _; rw [hs4]; decide)]
              unfold bestAbi
              by_cases hh : fullSize t T (.btmsk (T.size * n)) / 2 < n
              · rw [bestWith_take hn1 (by rw [h8]; exact hb) hh, h8]
              · rw [bestWith_next hn1 (.inr hh) hfn (by rw [h8]; exact hb)
                  (by simp only [size]; rw [Nat.mul_div_cancel_left _ hs1]; exact Nat.le_refl _), h8]
            · rw [if_neg hb]
              rcases e with e | e
              · rw [e] at hva; exact absurd hva hb
              · exact e
        · by_cases hb : valid t T (.btmsk (T.size * n)) = true
          · rw [if_pos hb]
            have hx' : (t.i386 && bitCeil (n * T.size) == 8) = false := by
              rw [← Bool.not_eq_true]; simp only [Bool.and_eq_true, beq_iff_eq]; exact hx
            unfold bestAbi
            exact bestWith_take (by omega) hb (full_half_lt hs1 hx' (by omega) (.inl rfl) hb)
          · rw [if_neg hb]
            rcases bestAbi_small hc hT hv (by omega) (by omega) hx with ⟨e, hva⟩ | ⟨e, hva⟩
            · exact absurd hva hb
            · exact e

/-- Slots of a register of `k` elements. -/
def fullOf (t : Target) (T : Elem) (k : Nat) : Nat := if k = 1 then 1 else vecBytes t T.size k / T.size

theorem cap_cases {t : Target} {T : Elem} (hT : T.Ok) :
    (vecSizeof t T = T.size ∧ cap t T = 1) ∨
    (vecSizeof t T ≠ T.size ∧ T.size ∈ [1, 2, 4, 8] ∧ vecSizeof t T ∈ [16, 32, 64] ∧ T.size * cap t T = vecSizeof t T ∧ 2 ≤ cap t T) := by
  have hs1 := elem_pos hT
  by_cases hv : vecSizeof t T = T.size
  · left; exact ⟨hv, by unfold cap; rw [hv, Nat.div_self hs1]⟩
  · right
    obtain ⟨hs, hvs⟩ := vec_cases hT hv
    obtain ⟨_, hs8, hdiv, hmod, hlt, hs2, hle, hpow, hmul⟩ := div_facts hs hvs
    exact ⟨hv, hs, hvs, hmul, hdiv⟩

theorem cap_pos {t : Target} {T : Elem} (hT : T.Ok) : 1 ≤ cap t T := by
  rcases cap_cases (t := t) hT with ⟨_, h⟩ | ⟨_, _, _, _, h⟩ <;> omega

theorem cap_pow {t : Target} {T : Elem} (hT : T.Ok) : ∃ i, cap t T = 2 ^ i := by
  rcases cap_cases (t := t) hT with ⟨_, h⟩ | ⟨_, hs, hv, _, _⟩
  · exact ⟨0, h⟩
  · unfold cap
    rcases four_values hs with h | h | h | h <;> rcases three_values hv with h' | h' | h' <;> rw [h, h'] <;>
      first
        | exact ⟨1, rfl⟩ | exact ⟨2, rfl⟩ | exact ⟨3, rfl⟩ | exact ⟨4, rfl⟩ | exact ⟨5, rfl⟩ | exact ⟨6, rfl⟩

theorem pick_size {t : Target} {T : Elem} (hT : T.Ok) (k : Nat) : size T (pick t T k) = k := by
  have hs1 := elem_pos hT
  unfold pick
  split
  · simp only [size]; omega
  · split <;> exact Nat.mul_div_cancel_left _ hs1

theorem pick_valid {t : Target} (hc : t.Consistent) {T : Elem} (hT : T.Ok) (h4 : 4 ≤ T.size) {k : Nat} (h1 : 1 ≤ k) (hk : k ≤ cap t T) :
    valid t T (pick t T k) = true := by
  have h := bestAbi_pick hc hT h4 h1
  rw [Nat.min_eq_left hk] at h
  rw [← h]; exact (head_facts hc hT h1).1

theorem pick_full {t : Target} (hc : t.Consistent) {T : Elem} (hT : T.Ok) (h4 : 4 ≤ T.size) {k : Nat} (h1 : 1 ≤ k) (hk : k ≤ cap t T) :
    fullSize t T (pick t T k) = fullOf t T k := by
  have hv := pick_valid hc hT h4 h1 hk
  have hz := pick_size (t := t) hT k
  unfold fullOf
  unfold pick at hv hz ⊢
  by_cases hk1 : k = 1
  · simp only [hk1, if_true, fullSize]
  · simp only [hk1, if_false] at hv hz ⊢
    by_cases hb : valid t T (.btmsk (T.size * k)) = true
    · simp only [hb, if_true] at hz ⊢
      simp only [fullSize, hb, if_true, hz]
    · simp only [hb, if_false, Bool.false_eq_true] at hv hz ⊢
      simp only [fullSize, hv, if_true, hz]

private def fullTab (i s k : Nat) : Nat := if k = 1 then 1 else (if i = 1 && bitCeil (k * s) == 8 then 16 else if bitCeil (k * s) < 2 * s then 2 * s else bitCeil (k * s)) / s

private def chk1 (s v i k : Nat) : Bool := decide (k ≤ fullTab i s k) && decide (fullTab i s k ≤ v / s) &&
  decide (fullTab i s (v / s) = v / s) && decide (fullTab i s k ∈ [1, 2, 4, 8, 16])

private def chk2 (s k j : Nat) : Bool := decide (2 ^ j = k → fullTab 0 s k = k) && decide (2 ^ j < k → 2 ^ (j + 1) ≤ fullTab 0 s k) &&
  decide (k ≤ 2 ^ j → fullTab 0 s k ≤ 2 ^ j)

private theorem chk1_ok : ∀ s ∈ [4, 8], ∀ v ∈ [16, 32, 64], ∀ i < 2, ∀ k < 17, (1 ≤ k ∧ k ≤ v / s) → chk1 s v i k = true := by
  decide +kernel

private theorem chk2_ok : ∀ s ∈ [4, 8], ∀ k < 17, ∀ j < 5, 1 ≤ k → chk2 s k j = true := by
  decide +kernel

private theorem fullTab_ok1 : ∀ s ∈ [4, 8], ∀ v ∈ [16, 32, 64], ∀ i < 2, ∀ k < 17, 1 ≤ k → k ≤ v / s →
    k ≤ fullTab i s k ∧ fullTab i s k ≤ v / s ∧ fullTab i s (v / s) = v / s ∧ fullTab i s k ∈ [1, 2, 4, 8, 16] := by
  intro s hs v hv i hi k hk h1 h2
  have := chk1_ok s hs v hv i hi k hk ⟨h1, h2⟩
  unfold chk1 at this
  rw [Bool.and_eq_true, Bool.and_eq_true, Bool.and_eq_true] at this
  obtain ⟨⟨⟨a, b⟩, c⟩, d⟩ := this
  exact ⟨of_decide_eq_true a, of_decide_eq_true b, of_decide_eq_true c, of_decide_eq_true d⟩

private theorem fullTab_ok2 : ∀ s ∈ [4, 8], ∀ k < 17, 1 ≤ k → ∀ j < 5,
    (2 ^ j = k → fullTab 0 s k = k) ∧ (2 ^ j < k → 2 ^ (j + 1) ≤ fullTab 0 s k) ∧ (k ≤ 2 ^ j → fullTab 0 s k ≤ 2 ^ j) := by
  intro s hs k hk h1 j hj
  have := chk2_ok s hs k hk j hj h1
  unfold chk2 at this
  rw [Bool.and_eq_true, Bool.and_eq_true] at this
  obtain ⟨⟨a, b⟩, c⟩ := this
  exact ⟨of_decide_eq_true a, of_decide_eq_true b, of_decide_eq_true c⟩

theorem fullOf_tab (t : Target) (T : Elem) (k : Nat) : fullOf t T k = fullTab t.i386.toNat T.size k := by
  unfold fullOf fullTab vecBytes
  cases t.i386 <;> simp

private theorem fullTab_mono : ∀ s ∈ [4, 8], ∀ i < 2, ∀ k < 17, ∀ k' < 17, 1 ≤ k → k ≤ k' → fullTab i s k ≤ fullTab i s k' := by
  decide +kernel

theorem fullOf_mono {t : Target} {T : Elem} (hT : T.Ok) (h4 : 4 ≤ T.size) {k k' : Nat} (h1 : 1 ≤ k) (hk : k ≤ k')
    (hk' : k' ≤ cap t T) : fullOf t T k ≤ fullOf t T k' := by
  rcases cap_cases (t := t) hT with ⟨_, h⟩ | ⟨_, hs, hv, he, h2⟩
  · have : k = k' := by omega
    rw [this]; exact Nat.le_refl _
  · rw [fullOf_tab, fullOf_tab]
    have h16 : cap t T < 17 := by
      simp only [List.mem_cons, List.not_mem_nil, or_false] at hs hv
      rcases hs with h | h | h | h <;> rcases hv with h' | h' | h' <;> rw [h, h'] at he <;> omega
    refine fullTab_mono T.size ?_ _ ?_ k (by omega) k' (by omega) h1 hk
    · simp only [List.mem_cons, List.not_mem_nil, or_false] at hs ⊢; omega
    · cases t.i386 <;> decide

/-- Facts about register sizes. -/
theorem fullOf_facts {t : Target} {T : Elem} (hT : T.Ok) (h4 : 4 ≤ T.size) {k : Nat} (h1 : 1 ≤ k) (hk : k ≤ cap t T) :
    k ≤ fullOf t T k ∧ fullOf t T k ≤ cap t T ∧ fullOf t T (cap t T) = cap t T ∧ (∃ i, fullOf t T k = 2 ^ i) ∧
    (t.i386 = false → ∀ j, 2 ^ j = k → fullOf t T k = k) ∧ (t.i386 = false → ∀ j, 2 ^ j < k → 2 ^ (j + 1) ≤ fullOf t T k) ∧
    (t.i386 = false → ∀ j, k ≤ 2 ^ j → fullOf t T k ≤ 2 ^ j) := by
  rcases cap_cases (t := t) hT with ⟨_, h⟩ | ⟨_, hs, hv, he, h2⟩
  · have : k = 1 := by omega
    subst this
    rw [h]
    have h1 : fullOf t T 1 = 1 := rfl
    rw [h1]
    exact ⟨by omega, by omega, rfl, ⟨0, rfl⟩, fun _ _ _ => rfl, fun _ j hj => absurd (Nat.two_pow_pos j) (by omega),
      fun _ j _ => Nat.two_pow_pos j⟩
  · have hs' : T.size ∈ [4, 8] := by
      simp only [List.mem_cons, List.not_mem_nil, or_false] at hs ⊢; omega
    have hk17 : k < 17 := by
      have : cap t T ≤ 16 := by
        unfold cap
        rcases three_values hv with h | h | h <;> rw [h] <;>
          (simp only [List.mem_cons, List.not_mem_nil, or_false] at hs'; rcases hs' with h | h <;> rw [h] <;> omega)
      omega
    have hi : t.i386.toNat < 2 := by cases t.i386 <;> decide
    obtain ⟨a1, a2, a3, a4⟩ := fullTab_ok1 T.size hs' _ hv _ hi k hk17 h1 hk
    have a5 := fun (h : t.i386 = false) j hj => by
      have := fullTab_ok2 T.size hs' k hk17 h1 j hj
      rw [show (0 : Nat) = t.i386.toNat by rw [h]; rfl] at this
      simpa only [← fullOf_tab] using this
    simp only [← fullOf_tab] at a1 a2 a3 a4
    have hj : ∀ j, 2 ^ j ≤ k → j < 5 := by
      intro j hj
      rcases Nat.lt_or_ge j 5 with h | h
      · exact h
      · have : 2 ^ 5 ≤ 2 ^ j := Nat.pow_le_pow_right (by omega) h
        omega
    refine ⟨a1, a2, a3, ?_, fun hi j e => (a5 hi j (hj j (by omega))).1 e,
      fun hi j e => (a5 hi j (hj j (by omega))).2.1 e, fun hi j e => ?_⟩
    · simp only [List.mem_cons, List.not_mem_nil, or_false] at a4
      rcases a4 with h | h | h | h | h
      · exact ⟨0, h⟩
      · exact ⟨1, h⟩
      · exact ⟨2, h⟩
      · exact ⟨3, h⟩
      · exact ⟨4, h⟩
    · rcases Nat.lt_or_ge j 5 with h | h
      · exact (a5 hi j h).2.2 e
      · have : 2 ^ 5 ≤ 2 ^ j := Nat.pow_le_pow_right (by omega) h
        simp only [List.mem_cons, List.not_mem_nil, or_false] at a4
        omega

theorem storage_pick {t : Target} (hc : t.Consistent) {T : Elem} (hT : T.Ok) (h4 : 4 ≤ T.size) {n : Nat} (h1 : 1 ≤ n) :
    storage t T n = pick t T (min n (cap t T)) :: storage t T (n - min n (cap t T)) := by
  rw [storage_pos (by omega), bestAbi_pick hc hT h4 h1, pick_size hT]

end StdSimd.Abi
