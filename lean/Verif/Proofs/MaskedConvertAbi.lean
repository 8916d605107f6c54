import Verif.Proofs.MaskedConvert
import Verif.Props.Rebind
/-!
# The ABIs of converting masked stores
-/
namespace StdSimd.Native
open Abi Tuple

theorem xfer_max {t : Target} {U : Elem} (hU : U.Ok) (hv : vecSizeof t U > U.size) (same : Bool) :
    (Xfer.of t U same).max ≤ vecSizeof t U ∧ (Xfer.of t U same).max ∈ [16, 32, 64] ∧ U.size ∈ [1, 2, 4, 8] := by
  obtain ⟨h1, h2⟩ := vec_cases hU (by omega : vecSizeof t U ≠ U.size)
  refine ⟨?_, ?_, h1⟩
  · have h16 : 16 ≤ vecSizeof t U := by rcases three_values h2 with h | h | h <;> omega
    have h8 : U.size ≤ 8 := by rcases four_values h1 with h | h | h | h <;> omega
    unfold Xfer.of
    simp only []
    split
    · rename_i h
      have : vecSizeof t U = 64 := by
        unfold vecSizeof
        rw [if_pos h8]
        by_cases hb : t.avx512bw = true
        · rw [if_pos hb]
        · rw [if_neg hb, if_pos]
          simp only [Bool.or_eq_true, Bool.and_eq_true, decide_eq_true_eq] at h ⊢
          rcases h with h | h
          · exact ⟨h.2, h.1⟩
          · exact absurd h hb
      omega
    · split
      · rename_i h
        unfold vecSizeof
        rw [if_pos h8]
        split
        · omega
        · split
          · omega
          · split
            · omega
            · rename_i ha2
              have hcond : (t.avx && U.fp) = true := by
                simp only [Bool.or_eq_true, Bool.and_eq_true] at h ⊢
                rcases h with h | h
                · exact ⟨h.2, h.1⟩
                · exact absurd h ha2
              rw [if_pos hcond]; omega
      · exact h16
  · unfold Xfer.of; simp only []; split
    · decide
    · split <;> decide

/-- The ABI of the pieces is a register ABI. -/
theorem piece_tag {t : Target} (ht : t.Consistent) {U : Elem} (hU : U.Ok) (hv : vecSizeof t U > U.size) (same : Bool) {n : Nat} (hn : 2 ≤ n)
    (b : Tag) (hb : deduce t U (min n ((Xfer.of t U same).max / U.size)) = some b) :
    valid t U b = true ∧ Abi.size U b = min n ((Xfer.of t U same).max / U.size) ∧ (∀ m, b ≠ .fixed m) ∧ b ≠ .scalar := by
  obtain ⟨h1, h2⟩ := Props.C08_deduce_exact t U hU _ b hb
  obtain ⟨x1, x2, x3⟩ := xfer_max hU hv same
  have hs := elem_pos hU
  have h64 := (vecSizeof_le64 hU (by omega : vecSizeof t U ≠ U.size)).1
  generalize hm : min n ((Xfer.of t U same).max / U.size) = m at *
  have hm2 : 2 ≤ m := by
    have : 2 ≤ (Xfer.of t U same).max / U.size := by
      rcases four_values x3 with h | h | h | h <;> rcases three_values x2 with h' | h' | h' <;> rw [h, h'] <;> decide
    omega
  have hmb : U.size * m ≤ vecSizeof t U := by
    have : m ≤ (Xfer.of t U same).max / U.size := by omega
    have := Nat.mul_le_mul_left U.size this
    have := Nat.mul_div_le (Xfer.of t U same).max U.size
    omega
  have hdiv : U.size * m / U.size = m := Nat.mul_div_cancel_left _ hs
  have hmod : U.size * m % U.size = 0 := Nat.mul_mod_right ..
  refine ⟨h1, h2, fun m' hf => ?_, fun hf => ?_⟩
  · subst hf
    have hmm : m' = m := h2
    subst hmm
    by_cases hc : t.avx512f = true → U.size * m' ≤ 32
    · have hval : valid t U (.builtin (U.size * m')) = true := by
        rw [valid_builtin hs, hdiv]; exact ⟨by omega, hmod, hmb, hc⟩
      have := Props.C73_prefers_registers hU m' hb (.builtin (U.size * m')) hval hdiv
      exact absurd this (by simp)
    · have hc' : t.avx512f = true ∧ 32 < U.size * m' := by
        refine ⟨Decidable.byContradiction fun h => hc (fun h' => absurd h' h), ?_⟩
        exact Decidable.byContradiction fun h => hc (fun _ => by omega)
      have h64' : vecSizeof t U = 64 := by
        rcases three_values (vec_cases hU (by omega : vecSizeof t U ≠ U.size)).2 with h | h | h <;> omega
      have hus : Usable t U := vs64_usable ht (by omega) h64'
      have hval : valid t U (.btmsk (U.size * m')) = true := by
        rw [valid_btmsk hs, hdiv]; exact ⟨hus, hv, by omega, hmod, by omega, Or.inl hc'.2⟩
      have := Props.C73_prefers_registers hU m' hb (.btmsk (U.size * m')) hval hdiv
      exact absurd this (by simp)
  · subst hf
    have : (1 : Nat) = m := h2
    omega

/-- `__vector_type_t` on targets that differ from `t` in nothing but the architecture. -/
theorem vecBytes_i386 (t : Target) (s n : Nat) : vecBytes t s n = vecBytes { i386 := t.i386 } s n := rfl

theorem split_table : ∀ s ∈ [1, 2, 4, 8], ∀ us ∈ [1, 2, 4, 8], ∀ mx ∈ [16, 32, 64], ∀ i : Bool, ∀ n < 65, n * s ≤ 64 → mx / us < n →
    vecBytes { i386 := i } s n / s % (mx / us) = 0 := by
  decide +kernel

theorem kbits_table : ∀ s ∈ [1, 2, 4, 8], ∀ i : Bool, ∀ n < 65, n * s ≤ 64 → 8 < n → kBits n = vecBytes { i386 := i } s n / s := by
  decide +kernel

theorem kbits_pow : ∀ us ∈ [1, 2, 4, 8], ∀ mx ∈ [16, 32, 64], 8 ≤ mx / us → kBits (mx / us) = mx / us := by
  decide +kernel

/-- The numbers of elements of the registers that are cut into pieces. -/
theorem split_facts {t : Target} (ht : t.Consistent) {T U : Elem} (hT : T.Ok) (hU : U.Ok) (hv : vecSizeof t U > U.size) (same : Bool)
    {a b : Tag} (ha : valid t T a = true) (hf : ∀ m, a ≠ .fixed m) (hs : a ≠ .scalar) (hvb : valid t U b = true)
    (hfb : ∀ m, b ≠ .fixed m) (hsb : b ≠ .scalar) (hb : Abi.size U b = min (Abi.size T a) ((Xfer.of t U same).max / U.size))
    (hlt : (Xfer.of t U same).max / U.size < Abi.size T a) :
    (Xfer.of t U same).max / U.size * U.size = (Xfer.of t U same).max ∧ (Xfer.of t U same).max / U.size ∣ (Geo.ofTag t T a).full ∧
      maskFull (Geo.ofTag t T a) = (Geo.ofTag t T a).full ∧ rawCount (Geo.ofTag t U b) = (Geo.ofTag t U b).size := by
  obtain ⟨x1, x2, x3⟩ := xfer_max hU hv same
  have hsT := elem_pos hT
  have hne : vecSizeof t T ≠ T.size := by
    cases a with
    | scalar => exact absurd rfl hs
    | fixed m => exact absurd rfl (hf m)
    | builtin c =>
      rw [valid_builtin hsT] at ha
      intro h
      have : c / T.size ≤ T.size / T.size := Nat.div_le_div_right (by omega)
      rw [Nat.div_self hsT] at this; omega
    | btmsk c => rw [valid_btmsk hsT] at ha; omega
  have hs4 := (vec_cases hT hne).1
  have h64 := (vecSizeof_le64 hT hne).1
  have hbytes : Abi.size T a * T.size ≤ 64 := by
    cases a with
    | scalar => exact absurd rfl hs
    | fixed m => exact absurd rfl (hf m)
    | builtin c =>
      rw [valid_builtin hsT] at ha
      have := Nat.div_mul_le_self c T.size
      show c / T.size * T.size ≤ 64; omega
    | btmsk c =>
      rw [valid_btmsk hsT] at ha
      have := Nat.div_mul_le_self c T.size
      show c / T.size * T.size ≤ 64; omega
  have hn65 : Abi.size T a < 65 := by
    have := Nat.le_mul_of_pos_right (Abi.size T a) hsT
    omega
  have hfull : (Geo.ofTag t T a).full = vecBytes t T.size (Abi.size T a) / T.size := by
    rw [(ofTag_ok hT ha hf).2.2]
    cases a with
    | scalar => exact absurd rfl hs
    | fixed m => exact absurd rfl (hf m)
    | builtin c => simp [fullSize, ha]
    | btmsk c => simp [fullSize, ha]
  have hbs : Abi.size U b = (Xfer.of t U same).max / U.size := by omega
  refine ⟨?_, ?_, ?_, ?_⟩
  · rcases four_values x3 with h | h | h | h <;> rcases three_values x2 with h' | h' | h' <;> rw [h, h']
  · rw [hfull]
    exact Nat.dvd_of_mod_eq_zero (split_table T.size hs4 U.size x3 _ x2 t.i386 _ hn65 hbytes hlt)
  · cases a with
    | scalar => exact absurd rfl hs
    | fixed m => exact absurd rfl (hf m)
    | builtin c => rfl
    | btmsk c =>
      have hus := ((valid_btmsk hsT c).1 ha).1
      have h8 : 8 ≤ (Xfer.of t U same).max / U.size := by
        have h2 := ht.f hus.1
        unfold Xfer.of
        simp only [hus.1, h2, Bool.and_true, Bool.or_true, if_true]
        rcases four_values x3 with h | h | h | h <;> rw [h] <;> split <;> first | decide | (rename_i hh; simp at hh)
      exact (kbits_table T.size hs4 t.i386 _ hn65 hbytes (by omega)).trans hfull.symm
  · cases b with
    | scalar => exact absurd rfl hsb
    | fixed m => exact absurd rfl (hfb m)
    | builtin c =>
      have hF := (ofTag_ok hU hvb hfb).2.2
      have : fullSize t U (.builtin c) = vecBytes t U.size (Abi.size U (.builtin c)) / U.size := by simp [fullSize, hvb]
      rw [this, hbs, vecBytes_pow x3 x2] at hF
      show (Geo.ofTag t U (.builtin c)).full = (Geo.ofTag t U (.builtin c)).size
      rw [hF, (ofTag_ok hU hvb hfb).2.1, hbs]
    | btmsk c =>
      have hus := ((valid_btmsk (elem_pos hU) c).1 hvb).1
      have h8 : 8 ≤ (Xfer.of t U same).max / U.size := by
        have h2 := ht.f hus.1
        unfold Xfer.of
        simp only [hus.1, h2, Bool.and_true, Bool.or_true, if_true]
        rcases four_values x3 with h | h | h | h <;> rw [h] <;> split <;> first | decide | (rename_i hh; simp at hh)
      show kBits (Abi.size U (.btmsk c)) = Abi.size U (.btmsk c)
      rw [hbs]; exact kbits_pow U.size x3 _ x2 h8

end StdSimd.Native
