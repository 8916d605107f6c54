import Verif.Proofs.AbiStorage
import Verif.Proofs.TupleMem
/-! The register sequence of a `fixed_size` object satisfies the assumptions of the tuple theorems. -/
namespace StdSimd.Tuple
open Abi Native

theorem bestAbi_native (t : Target) (T : Elem) (n : Nat) : ∀ m, bestAbi t T n ≠ .fixed m := by
  intro m h
  have key : ∀ (mk : Nat → Tag) (rest : Tag), (∀ b, mk b ≠ .fixed m) → rest ≠ .fixed m → bestWith t T n mk rest ≠ .fixed m := by
    intro mk rest h1 h2
    unfold bestWith
    split
    · simp
    · simp only []
      split
      · exact h1 _
      · split
        · obtain ⟨b', hb'⟩ := findNext_mk t T mk (T.size * n)
          rw [hb']; exact h1 _
        · exact h2
  exact key _ _ (by simp) (key _ _ (by simp) (by simp)) h

theorem storage_native (t : Target) (T : Elem) (n : Nat) : ∀ a ∈ storage t T n, ∀ m, a ≠ .fixed m := by
  fun_induction storage t T n with
  | case1 => simp
  | case2 n h next ih =>
    intro a ha m
    rcases List.mem_cons.1 ha with rfl | ha
    · exact bestAbi_native t T n m
    · exact ih a ha m

theorem vecBytes_ge (t : Target) (s n : Nat) : n * s ≤ vecBytes t s n := by
  unfold vecBytes
  have := bitCeil_ge (n * s)
  simp only []
  split
  · rename_i h; simp at h; omega
  · split <;> omega

theorem le_fullSize {s n : Nat} (hs : 1 ≤ s) (t : Target) : n ≤ vecBytes t s n / s := by
  rw [Nat.le_div_iff_mul_le hs]; exact vecBytes_ge t s n

theorem vecSizeof_le64 {t : Target} {T : Elem} (hT : T.Ok) (hv : vecSizeof t T ≠ T.size) : vecSizeof t T ≤ 64 ∧ T.size ≤ 8 := by
  obtain ⟨hs, hvs⟩ := vec_cases hT hv
  rcases four_values hs with h | h | h | h <;> rcases three_values hvs with h' | h' | h' <;> omega

theorem ofTag_ok {t : Target} {T : Elem} (hT : T.Ok) {a : Tag} (hv : valid t T a = true) (hn : ∀ m, a ≠ .fixed m) :
    (Geo.ofTag t T a).Ok ∧ (Geo.ofTag t T a).size = Abi.size T a ∧ (Geo.ofTag t T a).full = fullSize t T a := by
  have hs := elem_pos hT
  cases a with
  | scalar => exact ⟨trivial, rfl, rfl⟩
  | fixed n => exact absurd rfl (hn n)
  | builtin b =>
    refine ⟨?_, rfl, rfl⟩
    have hfull : fullSize t T (.builtin b) = vecBytes t T.size (Abi.size T (.builtin b)) / T.size := by
      simp [fullSize, hv]
    have hv' := hv
    rw [valid_builtin hs] at hv'
    have hne : vecSizeof t T ≠ T.size := by
      intro h
      have : b / T.size ≤ 1 := by
        have : b / T.size ≤ T.size / T.size := Nat.div_le_div_right (by omega)
        rw [Nat.div_self hs] at this; exact this
      omega
    obtain ⟨h64, h8⟩ := vecSizeof_le64 hT hne
    have hb := Nat.div_le_self b T.size
    refine ⟨by omega, by omega, by simp only [Abi.size]; omega, ?_, by simp only [Abi.size]; omega⟩
    rw [hfull]; exact le_fullSize hs t
  | btmsk b =>
    refine ⟨?_, rfl, rfl⟩
    have hfull : fullSize t T (.btmsk b) = vecBytes t T.size (Abi.size T (.btmsk b)) / T.size := by
      simp [fullSize, hv]
    have hv' := hv
    rw [valid_btmsk hs] at hv'
    have hb := Nat.div_le_self b T.size
    refine ⟨by simp only [Abi.size]; omega, ?_, by simp only [Abi.size]; omega⟩
    rw [hfull]; exact le_fullSize hs t

theorem regs_facts {t : Target} (hc : t.Consistent) {T : Elem} (hT : T.Ok) {n : Nat} (h1 : 1 ≤ n) :
    regs t T n ≠ [] ∧ Oks (regs t T n) ∧ total (regs t T n) = n ∧ FullButLast (regs t T n) := by
  have hok : ∀ a ∈ storage t T n, (Geo.ofTag t T a).Ok ∧ (Geo.ofTag t T a).size = Abi.size T a ∧
      (Geo.ofTag t T a).full = fullSize t T a :=
    fun a ha => ofTag_ok hT (storage_valid hc hT n a ha) (storage_native t T n a ha)
  refine ⟨?_, ?_, ?_, ?_⟩
  · unfold regs; rw [storage_pos (by omega)]; simp
  · intro g hg
    obtain ⟨a, ha, rfl⟩ := List.mem_map.1 hg
    exact (hok a ha).1
  · rw [total_eq_sum, regs, List.map_map]
    have e : (storage t T n).map (Geo.size ∘ Geo.ofTag t T) = (storage t T n).map (Abi.size T) :=
      List.map_congr_left (fun a ha => (hok a ha).2.1)
    rw [e]; exact storage_sum t T n
  · intro g hg
    rw [regs, ← List.map_dropLast] at hg
    obtain ⟨a, ha, rfl⟩ := List.mem_map.1 hg
    have hm := (List.dropLast_sublist _).subset ha
    obtain ⟨_, h2, h3⟩ := hok a hm
    have hp := storage_dropLast hc hT n a ha
    have hv := storage_valid hc hT n a hm
    rw [h2, h3]
    cases a with
    | scalar => rfl
    | fixed n => rfl
    | builtin b => simp only [isPartial, hv, if_true, bne_eq_false_iff_eq] at hp; exact hp.symm
    | btmsk b => simp only [isPartial, hv, if_true, bne_eq_false_iff_eq] at hp; exact hp.symm

end StdSimd.Tuple
