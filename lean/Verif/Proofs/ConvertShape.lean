import Verif.Model.Convert
import Verif.Proofs.Storage
/-! # Facts about the register layout used by the conversion proofs -/
namespace StdSimd.Convert
open Abi Tuple

theorem bitCeil_mul_le {k : Nat} (hk : 1 ≤ k) (j : Nat) : bitCeil k * 2 ^ j ≤ bitCeil (k * 2 ^ j) := by
  have hpos := Nat.two_pow_pos j
  unfold bitCeil
  by_cases h : k ≤ 1
  · have : k = 1 := by omega
    subst this
    have := bitCeil_ge (1 * 2 ^ j)
    unfold bitCeil at this
    simpa using this
  · rw [if_neg h]
    have h1 : 2 ^ (k - 1).log2 ≤ k - 1 := Nat.log2_self_le (by omega)
    have h2 : 2 ^ ((k - 1).log2 + j) < k * 2 ^ j := by
      rw [Nat.pow_add]
      exact Nat.mul_lt_mul_of_pos_right (by omega) hpos
    have := bitCeil_gt h2
    unfold bitCeil at this
    calc 2 ^ ((k - 1).log2 + 1) * 2 ^ j = 2 ^ ((k - 1).log2 + j + 1) := by rw [← Nat.pow_add]; congr 1; omega
      _ ≤ _ := this

theorem vecFull_ge {t : Target} {T : Elem} (hT : T.Ok) (n : Nat) : n ≤ vecFull t T n := by
  unfold vecFull
  split
  · omega
  · rw [Nat.le_div_iff_mul_le (elem_pos hT)]; exact vecBytes_ge t T.size n

theorem geo_full {t : Target} {T : Elem} {a : Tag} (hT : T.Ok) (hv : valid t T a = true) (hn : ∀ m, a ≠ .fixed m) :
    (Geo.ofTag t T a).full = vecFull t T (size T a) ∧ (Geo.ofTag t T a).size = size T a := by
  obtain ⟨_, h2, h3⟩ := ofTag_ok hT hv hn
  refine ⟨?_, h2⟩
  rw [h3]
  have h := valid_gt t T
  cases a with
  | scalar => rfl
  | fixed m => exact absurd rfl (hn m)
  | builtin b =>
    have := h.2 b hv
    unfold vecFull
    rw [if_neg (by simp only [size]; omega)]
    simp only [fullSize, hv, if_true]
  | btmsk b =>
    have := h.1 b hv
    unfold vecFull
    rw [if_neg (by simp only [size]; omega)]
    simp only [fullSize, hv, if_true]

theorem size_one {t : Target} {T : Elem} {a : Tag} (hv : valid t T a = true) (hn : ∀ m, a ≠ .fixed m) :
    size T a = 1 ↔ a = .scalar := by
  have h := valid_gt t T
  cases a with
  | scalar => simp [size]
  | fixed m => exact absurd rfl (hn m)
  | builtin b => have := h.2 b hv; simp [size]; omega
  | btmsk b => have := h.1 b hv; simp [size]; omega

/-- Native lanes. -/
theorem width_facts {t : Target} {T : Elem} (hT : T.Ok) : ∃ j, vecSizeof t T / T.size = 2 ^ j := by
  by_cases hv : vecSizeof t T = T.size
  · exact ⟨0, by rw [hv, Nat.div_self (elem_pos hT)]⟩
  · obtain ⟨hs, hvs⟩ := vec_cases hT hv
    rcases four_values hs with h | h | h | h <;> rcases three_values hvs with h' | h' | h' <;> rw [h, h']
    · exact ⟨4, rfl⟩
    · exact ⟨5, rfl⟩
    · exact ⟨6, rfl⟩
    · exact ⟨3, rfl⟩
    · exact ⟨4, rfl⟩
    · exact ⟨5, rfl⟩
    · exact ⟨2, rfl⟩
    · exact ⟨3, rfl⟩
    · exact ⟨4, rfl⟩
    · exact ⟨1, rfl⟩
    · exact ⟨2, rfl⟩
    · exact ⟨3, rfl⟩

/-- For at least a register's worth of elements the native register is chosen. -/
theorem bestAbi_native_eq {t : Target} (hc : t.Consistent) {T : Elem} (hT : T.Ok) {n : Nat} (hn : vecSizeof t T / T.size ≤ n) :
    bestAbi t T n = bestAbi t T (vecSizeof t T / T.size) := by
  by_cases hv : vecSizeof t T = T.size
  · rw [bestAbi_scalar (elem_pos hT) hv, bestAbi_scalar (elem_pos hT) hv]
  · obtain ⟨hs, hvs⟩ := vec_cases hT hv
    obtain ⟨hs1, hs8, hdiv, hmod, hlt, hs2, hle, hpow, hmul⟩ := div_facts hs hvs
    rcases Nat.lt_or_ge (vecSizeof t T / T.size) n with h | h
    · have hx : ¬ Exc t T (vecSizeof t T / T.size) := by
        rintro ⟨_, hx⟩
        rw [Nat.mul_comm, hmul] at hx
        rcases three_values hvs with h | h | h <;> rw [h] at hx <;> revert hx <;> decide
      have hu := vs64_usable hc hv
      have hb : 1 ≤ T.size := hs1
      rcases bestAbi_large hc hT hv h with ⟨e1, v1⟩ | ⟨e1, v1⟩ <;>
        rcases bestAbi_small hc hT hv (by omega) (Nat.le_refl _) hx with ⟨e2, v2⟩ | ⟨e2, v2⟩ <;> rw [hmul] at e2 v2
      · rw [e1, e2]
      · exfalso
        rw [valid_btmsk hs1] at v1
        rw [valid_builtin hs1] at v2
        have := usable_vs hs8 v1.1
        have := v2.2.2.2 v1.1.1
        omega
      · exfalso
        rw [valid_btmsk hs1] at v2
        rw [valid_builtin hs1] at v1
        have := usable_vs hs8 v2.1
        have := v1.2.2.2 v2.1.1
        omega
      · rw [e1, e2]
    · have : n = vecSizeof t T / T.size := by omega
      rw [this]

/-- A `_VecBuiltin` is chosen only if the `_VecBltnBtmsk` of this size is not valid. -/
theorem bestAbi_builtin {t : Target} {T : Elem} {n b : Nat} (h : bestAbi t T n = .builtin b) : valid t T (.btmsk b) = false := by
  rw [← Bool.not_eq_true]
  intro hv
  have hfn : ∀ B, findNext t T .builtin B = .builtin b → ∃ b' ≤ B, findNext t T .btmsk B = .btmsk b' ∧ valid t T (.btmsk b') = true := by
    intro B
    fun_induction findNext t T .builtin B with
    | case1 B next h0 =>
      intro e
      have e : B = b := by injection e
      subst e
      refine ⟨B, Nat.le_refl _, ?_, hv⟩
      rw [findNext, dif_pos h0]
    | case2 B next h0 hg =>
      intro e
      have e : next = b := by injection e
      simp only [Bool.and_eq_true] at hg
      have hp : isPartial t T (.btmsk next) = false := by
        have := hg.1
        rw [beq_iff_eq] at this
        simp only [isPartial, fullSize, hg.2, if_true, size] at this
        simp only [isPartial, fullSize, e ▸ hv, if_true, size]
        simpa using this
      have hle : next ≤ B := by
        rcases Nat.eq_zero_or_pos B with h | h
        · subst h; change bitCeil 0 / 2 ≤ 0; decide
        · exact Nat.le_of_lt (bitCeil_half_lt h)
      refine ⟨next, hle, ?_, e ▸ hv⟩
      rw [findNext, dif_neg h0]
      change (if (isPartial t T (.btmsk next) == false && valid t T (.btmsk next)) = true then _ else _) = _
      rw [if_pos (by rw [hp, e, hv]; rfl)]
    | case3 B next h0 hg ih =>
      intro e
      have hle : next ≤ B := by
        rcases Nat.eq_zero_or_pos B with h | h
        · subst h; change bitCeil 0 / 2 ≤ 0; decide
        · exact Nat.le_of_lt (bitCeil_half_lt h)
      obtain ⟨b', h1, h2, h3⟩ := ih e
      rw [findNext, dif_neg h0]
      by_cases hb : (isPartial t T (.btmsk next) == false && valid t T (.btmsk next)) = true
      · refine ⟨next, hle, ?_, by simp at hb; exact hb.2⟩
        change (if (isPartial t T (.btmsk next) == false && valid t T (.btmsk next)) = true then _ else _) = _
        rw [if_pos hb]
      · refine ⟨b', by omega, ?_, h3⟩
        change (if (isPartial t T (.btmsk next) == false && valid t T (.btmsk next)) = true then _ else _) = _
        rw [if_neg hb]; exact h2
  unfold bestAbi at h
  rw [bestWith] at h
  split at h
  · cases h
  · rename_i h1
    simp only [] at h
    split at h
    · cases h
    · rename_i h2
      split at h
      · rename_i h3
        obtain ⟨b', e⟩ := findNext_mk t T .btmsk (T.size * n)
        rw [e] at h; cases h
      · rename_i h3
        rw [bestWith, if_neg h1] at h
        simp only [] at h
        split at h
        · rename_i h4
          have e : T.size * n = b := by injection h
          subst e
          simp only [Bool.and_eq_true] at h4
          apply h2
          simp only [fullSize, h4.1, hv, if_true, size, Bool.true_and] at h4 ⊢
          exact h4.2
        · split at h
          · obtain ⟨b', hle, e, hv'⟩ := hfn _ h
            apply h3
            rw [e, hv', Bool.true_and, decide_eq_true_eq]
            simp only [size]
            rcases Nat.eq_zero_or_pos T.size with h0 | h0
            · rw [h0]; simp
            · exact Nat.div_le_of_le_mul hle
          · cases h

/-- What the proofs use about the first register of `n` elements. -/
structure First (t : Target) (T : Elem) (n : Nat) (a : Tag) : Prop where
  valid : Abi.valid t T a = true
  notFixed : ∀ m, a ≠ .fixed m
  pos : 1 ≤ Abi.size T a
  le : Abi.size T a ≤ n
  le_w : Abi.size T a ≤ vecSizeof t T / T.size
  scalar : a = .scalar → n = 1 ∨ vecSizeof t T = T.size
  full : Abi.size T a < n → vecFull t T (Abi.size T a) = Abi.size T a
  pow : Abi.size T a < n → ∃ j, Abi.size T a = 2 ^ j
  rep : ∀ m, Abi.size T a ≤ m → m ≤ n → bestAbi t T m = a
  bound : Abi.size T a < n → Abi.size T a = vecSizeof t T / T.size ∨ (2 ≤ Abi.size T a ∧ n ≤ 2 * Abi.size T a ∧
    ∀ m, 1 ≤ m → m < Abi.size T a → Abi.size T (bestAbi t T m) = m)

theorem tag_det {t : Target} (hc : t.Consistent) {T : Elem} (hT : T.Ok) {n m b : Nat} (h1 : 1 ≤ n) (h2 : 1 ≤ m)
    (e1 : bestAbi t T n = .btmsk b ∨ bestAbi t T n = .builtin b) (e2 : bestAbi t T m = .btmsk b ∨ bestAbi t T m = .builtin b) :
    bestAbi t T m = bestAbi t T n := by
  have v1 := (head_facts hc hT h1).1
  have v2 := (head_facts hc hT h2).1
  rcases e1 with e1 | e1 <;> rcases e2 with e2 | e2
  · rw [e1, e2]
  · rw [e1, bestAbi_builtin e2] at v1; cases v1
  · rw [e2, bestAbi_builtin e1] at v2; cases v2
  · rw [e1, e2]

theorem vecFull_native {t : Target} {T : Elem} (hT : T.Ok) : vecFull t T (vecSizeof t T / T.size) = vecSizeof t T / T.size := by
  unfold vecFull
  split
  · omega
  · by_cases hv : vecSizeof t T = T.size
    · rename_i h; exact absurd (by rw [hv, Nat.div_self (elem_pos hT)]) h
    · obtain ⟨hs, hvs⟩ := vec_cases hT hv
      exact vecBytes_pow hs hvs

theorem first {t : Target} (hc : t.Consistent) {T : Elem} (hT : T.Ok) {n : Nat} (h1 : 1 ≤ n) : First t T n (bestAbi t T n) := by
  obtain ⟨hv, hw, _, _⟩ := head_facts hc hT h1
  obtain ⟨hp, hle⟩ := size_bestAbi t T n h1
  have hnf := bestAbi_native t T n
  have key : (bestAbi t T n = .scalar → n = 1 ∨ vecSizeof t T = T.size) ∧
      (size T (bestAbi t T n) < n → vecFull t T (size T (bestAbi t T n)) = size T (bestAbi t T n) ∧
        (∃ j, size T (bestAbi t T n) = 2 ^ j) ∧ (∀ m, size T (bestAbi t T n) ≤ m → m ≤ n → bestAbi t T m = bestAbi t T n) ∧
        (size T (bestAbi t T n) = vecSizeof t T / T.size ∨ (2 ≤ size T (bestAbi t T n) ∧ n ≤ 2 * size T (bestAbi t T n) ∧
          ∀ m, 1 ≤ m → m < size T (bestAbi t T n) → size T (bestAbi t T m) = m))) := by
    have hs1 := elem_pos hT
    have nat : vecSizeof t T / T.size ≤ n → (size T (bestAbi t T n) = vecSizeof t T / T.size) →
        vecFull t T (size T (bestAbi t T n)) = size T (bestAbi t T n) ∧
        (∃ j, size T (bestAbi t T n) = 2 ^ j) ∧ (∀ m, size T (bestAbi t T n) ≤ m → m ≤ n → bestAbi t T m = bestAbi t T n) ∧
        (size T (bestAbi t T n) = vecSizeof t T / T.size ∨ (2 ≤ size T (bestAbi t T n) ∧ n ≤ 2 * size T (bestAbi t T n) ∧
          ∀ m, 1 ≤ m → m < size T (bestAbi t T n) → size T (bestAbi t T m) = m)) := by
      intro hn e
      rw [e]
      refine ⟨vecFull_native hT, width_facts hT, fun m hm _ => ?_, .inl rfl⟩
      rw [bestAbi_native_eq hc hT hm, bestAbi_native_eq hc hT hn]
    by_cases hsc : vecSizeof t T = T.size
    · have e := bestAbi_scalar hs1 hsc n
      have ew : vecSizeof t T / T.size = 1 := by rw [hsc, Nat.div_self hs1]
      refine ⟨fun _ => .inr hsc, fun _ => nat (by omega) ?_⟩
      rw [e, ew]; rfl
    · obtain ⟨hs, hvs⟩ := vec_cases hT hsc
      obtain ⟨_, hs8, hdiv, hmod, hlt, hs2, hle', hpow, hmul⟩ := div_facts hs hvs
      by_cases hn1 : n = 1
      · refine ⟨fun _ => .inl hn1, fun h => by omega⟩
      · rcases Nat.lt_or_ge (vecSizeof t T / T.size) n with hn | hn
        · have hb := bestAbi_large hc hT hsc hn
          refine ⟨fun e => ?_, fun _ => nat (by omega) ?_⟩
          · rcases hb with ⟨h, _⟩ | ⟨h, _⟩ <;> rw [e] at h <;> cases h
          · rcases hb with ⟨h, _⟩ | ⟨h, _⟩ <;> rw [h] <;> rfl
        · by_cases hx : Exc t T n
          · have hx' := hx
            obtain ⟨hi, hce⟩ := hx'
            obtain ⟨hlo, hhi⟩ := bitCeil_eq8 hce
            rcases bestAbi_exc hT hsc (by omega) hx with ⟨hs12, hb, hbv, hbp⟩ | ⟨hs4, hn2, hb, hbv⟩
            · have hsz : size T (bestAbi t T n) = 4 / T.size := by rcases hb with h | h <;> rw [h] <;> rfl
              have h4 : 2 ≤ 4 / T.size ∧ n ≤ 2 * (4 / T.size) ∧ 4 / T.size < n := by
                rcases hs12 with h | h <;> rw [h] at hlo hhi ⊢ <;> omega
              refine ⟨fun e => ?_, fun _ => ?_⟩
              · rcases hb with h | h <;> rw [e] at h <;> cases h
              · rw [hsz]
                refine ⟨?_, ?_, ?_, .inr ⟨h4.1, h4.2.1, ?_⟩⟩
                · unfold vecFull; rw [if_neg (by omega)]; exact vecBytes_four hs12
                · rcases hs12 with h | h <;> rw [h]
                  · exact ⟨2, rfl⟩
                  · exact ⟨1, rfl⟩
                · intro m hm hmn
                  by_cases hmx : Exc t T m
                  · rcases bestAbi_exc hT hsc (by omega) hmx with ⟨_, hb', _, _⟩ | ⟨h4', _⟩
                    · exact tag_det hc hT h1 (by omega) hb hb'
                    · omega
                  · have hm4 : T.size * m = 4 := by
                      rcases Nat.lt_or_ge 4 (m * T.size) with h | h
                      · exfalso; apply hmx; refine ⟨hi, ?_⟩
                        have h8 : m * T.size ≤ 8 := Nat.le_trans (Nat.mul_le_mul_right _ hmn) hhi
                        have : ∀ k, 4 < k → k ≤ 8 → bitCeil k = 8 := by
                          intro k hk hk'
                          have : k = 5 ∨ k = 6 ∨ k = 7 ∨ k = 8 := by omega
                          rcases this with rfl | rfl | rfl | rfl <;> decide
                        exact this _ h h8
                      · rcases hs12 with h' | h' <;> rw [h'] at hm h ⊢ <;> omega
                    have hb' := bestAbi_small hc hT hsc (n := m) (by omega) (by omega) hmx
                    rw [hm4] at hb'
                    exact tag_det hc hT h1 (by omega) hb (hb'.imp And.left And.left)
                · intro m hm hm4
                  by_cases hm1 : m = 1
                  · subst hm1; rw [bestAbi_one]; rfl
                  · have hmx : ¬ Exc t T m := by
                      rintro ⟨_, hce'⟩
                      obtain ⟨hlo', _⟩ := bitCeil_eq8 hce'
                      rcases hs12 with h' | h' <;> rw [h'] at hlo' hm4 <;> omega
                    rcases bestAbi_small hc hT hsc (n := m) (by omega) (by omega) hmx with ⟨h', _⟩ | ⟨h', _⟩ <;> rw [h'] <;>
                      simp only [size, Nat.mul_div_cancel_left _ hs1]
            · have hsz : size T (bestAbi t T n) = 2 := by rcases hb with h | h <;> rw [h] <;> simp [size, hs4]
              refine ⟨fun e => ?_, fun h => by omega⟩
              rcases hb with h | h <;> rw [e] at h <;> cases h
          · have hb := bestAbi_small hc hT hsc (by omega) hn hx
            refine ⟨fun e => ?_, fun h => ?_⟩
            · rcases hb with ⟨h, _⟩ | ⟨h, _⟩ <;> rw [e] at h <;> cases h
            · exfalso
              rcases hb with ⟨h', _⟩ | ⟨h', _⟩ <;> rw [h'] at h <;> simp only [size, Nat.mul_div_cancel_left _ hs1] at h <;> omega
  refine ⟨hv, hnf, hp, hle, hw, key.1, fun h => (key.2 h).1, fun h => (key.2 h).2.1, fun m hm hmn => ?_, fun h => (key.2 h).2.2.2⟩
  rcases Nat.lt_or_ge (size T (bestAbi t T n)) n with h | h
  · exact (key.2 h).2.2.1 m hm hmn
  · have : m = n := by omega
    rw [this]

/-- As many registers like the first one as fit, then the registers of the rest. -/
theorem storage_rep {t : Target} (hc : t.Consistent) {T : Elem} (hT : T.Ok) {n : Nat} (h1 : 1 ≤ n) :
    ∀ k, k * size T (bestAbi t T n) ≤ n →
    storage t T n = List.replicate k (bestAbi t T n) ++ storage t T (n - k * size T (bestAbi t T n)) := by
  have hf := first hc hT h1
  intro k
  induction k with
  | zero => intro _; simp
  | succ k ih =>
    intro hk
    rw [Nat.succ_mul] at hk
    have hp := hf.pos
    rw [ih (by omega)]
    have e := hf.rep (n - k * size T (bestAbi t T n)) (by omega) (by omega)
    rw [storage_pos (n := n - k * size T (bestAbi t T n)) (by omega), e, List.replicate_succ', List.append_assoc]
    congr 1
    rw [Nat.succ_mul, Nat.sub_sub]
    rfl

theorem storage_eq_replicate {t : Target} (hc : t.Consistent) {T : Elem} (hT : T.Ok) {n : Nat} (h1 : 1 ≤ n) {k m : Nat}
    (hm : m = k * size T (bestAbi t T n)) (hk : 1 ≤ k) (hmn : m ≤ n) : storage t T m = List.replicate k (bestAbi t T n) := by
  have hf := first hc hT h1
  have hp := hf.pos
  have hle : size T (bestAbi t T n) ≤ m := by rw [hm]; exact Nat.le_mul_of_pos_left _ hk
  have e := hf.rep m hle hmn
  have := storage_rep hc hT (n := m) (by omega) k (by rw [e]; omega)
  rw [this, e, ← hm, Nat.sub_self, storage_zero, List.append_nil]

/-- The lane counts of two vectorized types differ by a factor of at most 16. -/
theorem width_ratio {t : Target} (hc : t.Consistent) {T U : Elem} (hT : T.Ok) (hU : U.Ok) (hv : vecSizeof t T ≠ T.size) :
    vecSizeof t U / U.size ≤ 16 * (vecSizeof t T / T.size) := by
  by_cases hv' : vecSizeof t U = U.size
  · rw [hv', Nat.div_self (elem_pos hU)]
    obtain ⟨hs, hvs⟩ := vec_cases hT hv
    obtain ⟨_, _, hdiv, _⟩ := div_facts hs hvs
    omega
  · obtain ⟨hs, hvs⟩ := vec_cases hT hv
    obtain ⟨hs', hvs'⟩ := vec_cases hU hv'
    obtain ⟨c1, c2, c3, c4, c5, c6, c7, c8, c9, c10⟩ := hc
    obtain ⟨sT, fT⟩ := T
    obtain ⟨sU, fU⟩ := U
    simp only at hs hvs hs' hvs' hv hv' ⊢
    have hT8 : sT ≤ 8 := by rcases four_values hs with h | h | h | h <;> omega
    have hU8 : sU ≤ 8 := by rcases four_values hs' with h | h | h | h <;> omega
    by_cases h64 : vecSizeof t ⟨sU, fU⟩ = 64
    · by_cases hbw : t.avx512bw = true
      · have : vecSizeof t ⟨sT, fT⟩ = 64 := by unfold vecSizeof; simp [hT8, hbw]
        rw [this, h64]
        rcases four_values hs with rfl | rfl | rfl | rfl <;> rcases four_values hs' with rfl | rfl | rfl | rfl <;> decide
      · have hf : t.avx512f = true ∧ 4 ≤ sU := by
          have := vs64_usable ⟨c1, c2, c3, c4, c5, c6, c7, c8, c9, c10⟩ hv' h64
          obtain ⟨h1, h2⟩ := this
          exact ⟨h1, h2.resolve_left hbw⟩
        have hv32 : 32 ≤ vecSizeof t ⟨sT, fT⟩ := by
          have := c3 hf.1
          unfold vecSizeof
          simp only [hT8, hbw, hf.1, this, if_true]
          split <;> simp
          split <;> simp
        rw [h64]
        have h1 : 64 / sU ≤ 16 := by
          rcases four_values hs' with rfl | rfl | rfl | rfl <;> first | decide | (exfalso; omega)
        have h2 : 4 ≤ vecSizeof t ⟨sT, fT⟩ / sT := by
          rcases four_values hs with rfl | rfl | rfl | rfl <;> omega
        omega
    · by_cases h32 : vecSizeof t ⟨sU, fU⟩ = 32
      · by_cases hav2 : t.avx2 = true
        · have hv32 : 32 ≤ vecSizeof t ⟨sT, fT⟩ := by
            unfold vecSizeof
            simp only [hT8, hav2, if_true]
            split
            · omega
            · split <;> omega
          rw [h32]
          have h1 : 32 / sU ≤ 32 := Nat.div_le_self _ _
          have h2 : 4 ≤ vecSizeof t ⟨sT, fT⟩ / sT := by
            rcases four_values hs with rfl | rfl | rfl | rfl <;> omega
          omega
        · have h16 : 16 ≤ vecSizeof t ⟨sT, fT⟩ := by rcases three_values hvs with h | h | h <;> omega
          rw [h32]
          have h2 : 2 ≤ vecSizeof t ⟨sT, fT⟩ / sT := by
            rcases four_values hs with rfl | rfl | rfl | rfl <;> omega
          have : 32 / sU ≤ 32 := Nat.div_le_self _ _
          omega
      · have hu16 : vecSizeof t ⟨sU, fU⟩ = 16 := by rcases three_values hvs' with h | h | h <;> omega
        rw [hu16]
        have h1 : 16 / sU ≤ 16 := Nat.div_le_self _ _
        have h2 : 2 ≤ vecSizeof t ⟨sT, fT⟩ / sT := by
          rcases three_values hvs with h | h | h <;> rw [h] <;> rcases four_values hs with rfl | rfl | rfl | rfl <;> decide
        omega

end StdSimd.Convert
