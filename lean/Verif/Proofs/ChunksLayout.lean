import Verif.Proofs.ChunksAbi
/-! The layout of a fixed_size object: element `i` is slot `i`. -/
namespace StdSimd.Chunks
open Abi
variable {V : Type}

theorem roundUp_eq {x y c : Nat} (h1 : 1 ≤ c) (hd : c ∣ y) (hle : x ≤ y) (hlt : y < x + c) : roundUp x c = y := by
  obtain ⟨q, rfl⟩ := hd
  unfold roundUp
  have : (x + (c - 1)) / c = q := by
    apply Nat.div_eq_of_lt_le
    · rw [Nat.mul_comm]; omega
    · rw [Nat.add_mul, Nat.mul_comm q c]; omega
  rw [this, Nat.mul_comm]

theorem roundUp_spec (x : Nat) {c : Nat} (h1 : 1 ≤ c) : c ∣ roundUp x c ∧ x ≤ roundUp x c ∧ roundUp x c < x + c := by
  unfold roundUp
  have h := Nat.div_add_mod (x + (c - 1)) c
  have h2 := Nat.mod_lt (x + (c - 1)) (show c > 0 by omega)
  rw [Nat.mul_comm] at h
  exact ⟨Nat.dvd_mul_left _ _, by omega, by omega⟩

theorem pow_dvd_of_le {a b : Nat} (ha : ∃ i, a = 2 ^ i) (hb : ∃ j, b = 2 ^ j) (h : a ≤ b) : a ∣ b := by
  obtain ⟨i, rfl⟩ := ha
  obtain ⟨j, rfl⟩ := hb
  exact Nat.pow_dvd_pow 2 ((Nat.pow_le_pow_iff_right (by omega)).1 h)

/-- Multiples of `c` are at least `c` apart. -/
theorem dvd_add_le {x y c : Nat} (hx : c ∣ x) (hy : c ∣ y) (h : x < y) : x + c ≤ y := by
  have := Nat.le_of_dvd (by omega) (Nat.dvd_sub hy hx)
  omega

section
variable {t : Target} (hc : t.Consistent) {U : Elem} (hU : U.Ok) (h4 : 4 ≤ U.size)
include hc hU h4

theorem storage_small {n : Nat} (h1 : 1 ≤ n) (hn : n ≤ cap t U) : storage t U n = [pick t U n] := by
  rw [storage_pick hc hU h4 h1, Nat.min_eq_left hn, Nat.sub_self, storage_zero]

theorem storage_big {n : Nat} (hn : cap t U < n) :
    storage t U n = pick t U (cap t U) :: storage t U (n - cap t U) := by
  have := cap_pos (t := t) hU
  rw [storage_pick hc hU h4 (by omega), Nat.min_eq_right (by omega)]

theorem storage_ne {n : Nat} (h1 : 1 ≤ n) : ∃ a as, storage t U n = a :: as :=
  ⟨_, _, storage_pick hc hU h4 h1⟩

theorem full_cap : fullSize t U (pick t U (cap t U)) = cap t U := by
  have h1 := cap_pos (t := t) hU
  rw [pick_full hc hU h4 h1 (Nat.le_refl _)]
  exact (fullOf_facts hU h4 h1 (Nat.le_refl _)).2.2.1

theorem alignOf_storage {n : Nat} (h1 : 1 ≤ n) :
    alignOf t U (storage t U n) = if n ≤ cap t U then fullOf t U n else cap t U := by
  have hcp := cap_pos (t := t) hU
  induction n using Nat.strongRecOn with
  | _ n ih =>
    split
    · rename_i h
      have hf := fullOf_facts hU h4 h1 h
      rw [storage_small hc hU h4 h1 h, alignOf, alignOf, pick_full hc hU h4 h1 h]; omega
    · rename_i h
      rw [storage_big hc hU h4 (by omega), alignOf, full_cap hc hU h4, ih (n - cap t U) (by omega) (by omega)]
      split
      · rename_i h'
        have hf := fullOf_facts hU h4 (k := n - cap t U) (by omega) h'
        omega
      · omega

theorem sndPos_storage {n : Nat} (hn : cap t U < n) :
    sndPos t U (pick t U (cap t U)) (storage t U (n - cap t U)) = cap t U := by
  have hcp := cap_pos (t := t) hU
  unfold sndPos
  rw [full_cap hc hU h4, alignOf_storage hc hU h4 (by omega)]
  split
  · rename_i h
    obtain ⟨f1, f2, _, f4, _⟩ := fullOf_facts hU h4 (k := n - cap t U) (by omega) h
    exact roundUp_eq (by omega) (pow_dvd_of_le f4 (cap_pow hU) f2) (Nat.le_refl _) (by omega)
  · exact roundUp_eq (by omega) (Nat.dvd_refl _) (Nat.le_refl _) (by omega)

theorem sizeOf_storage {n : Nat} (h1 : 1 ≤ n) :
    sizeOf t U (storage t U n) = if n ≤ cap t U then fullOf t U n else roundUp n (cap t U) := by
  have hcp := cap_pos (t := t) hU
  induction n using Nat.strongRecOn with
  | _ n ih =>
    split
    · rename_i h
      rw [storage_small hc hU h4 h1 h, sizeOf, pick_full hc hU h4 h1 h]
    · rename_i h
      have ha := alignOf_storage hc hU h4 h1
      rw [if_neg h] at ha
      rw [storage_big hc hU h4 (by omega)] at ha ⊢
      obtain ⟨b, bs, e⟩ := storage_ne hc hU h4 (n := n - cap t U) (by omega)
      have hp := sndPos_storage hc hU h4 (n := n) (by omega)
      have hi := ih (n - cap t U) (by omega) (by omega)
      rw [e] at ha hp hi ⊢
      rw [sizeOf, ha, hp, hi]
      obtain ⟨r1, r2, r3⟩ := roundUp_spec n hcp
      split
      · rename_i h'
        have hf := fullOf_facts hU h4 (k := n - cap t U) (by omega) h'
        have e1 : roundUp n (cap t U) = 2 * cap t U := roundUp_eq hcp (Nat.dvd_mul_left _ _) (by omega) (by omega)
        rw [e1]
        exact roundUp_eq hcp (Nat.dvd_mul_left _ _) (by omega) (by omega)
      · obtain ⟨s1, s2, s3⟩ := roundUp_spec (n - cap t U) hcp
        have : cap t U + roundUp (n - cap t U) (cap t U) = roundUp n (cap t U) :=
          (roundUp_eq hcp (Nat.dvd_add (Nat.dvd_refl _) s1) (by omega) (by omega)).symm
        rw [this]
        exact roundUp_eq hcp r1 (Nat.le_refl _) (by omega)

theorem le_sizeOf {n : Nat} (h1 : 1 ≤ n) : n ≤ sizeOf t U (storage t U n) := by
  have hcp := cap_pos (t := t) hU
  rw [sizeOf_storage hc hU h4 h1]
  split
  · exact (fullOf_facts hU h4 h1 (by assumption)).1
  · exact (roundUp_spec n hcp).2.1

theorem lanesOf_storage (n : Nat) (s : List V) : lanesOf t U (storage t U n) s = s.take n := by
  have hcp := cap_pos (t := t) hU
  induction n using Nat.strongRecOn generalizing s with
  | _ n ih =>
    rcases Nat.eq_zero_or_pos n with rfl | h1
    · rw [storage_zero]; simp [lanesOf]
    · by_cases h : n ≤ cap t U
      · rw [storage_small hc hU h4 h1 h, lanesOf, pick_size hU]
      · have hp := sndPos_storage hc hU h4 (n := n) (by omega)
        rw [storage_big hc hU h4 (by omega)]
        obtain ⟨b, bs, e⟩ := storage_ne hc hU h4 (n := n - cap t U) (by omega)
        have hi := ih (n - cap t U) (by omega) (s.drop (cap t U))
        rw [e] at hp hi ⊢
        rw [lanesOf, hp, hi, pick_size hU]
        conv => rhs; rw [show n = cap t U + (n - cap t U) by omega, List.take_add]

theorem setLanes_storage (n : Nat) (s v : List V) (hv : v.length = n) :
    setLanes t U (storage t U n) s v = v ++ s.drop n := by
  have hcp := cap_pos (t := t) hU
  induction n using Nat.strongRecOn generalizing s v with
  | _ n ih =>
    rcases Nat.eq_zero_or_pos n with rfl | h1
    · rw [storage_zero, setLanes, List.length_eq_zero_iff.1 hv]; simp
    · by_cases h : n ≤ cap t U
      · rw [storage_small hc hU h4 h1 h, setLanes, pick_size hU, List.take_of_length_le (by omega)]
      · have hp := sndPos_storage hc hU h4 (n := n) (by omega)
        rw [storage_big hc hU h4 (by omega)]
        obtain ⟨b, bs, e⟩ := storage_ne hc hU h4 (n := n - cap t U) (by omega)
        have hi := ih (n - cap t U) (by omega) (s.drop (cap t U)) (v.drop (cap t U)) (by simp; omega)
        rw [e] at hp hi ⊢
        rw [setLanes, hp, pick_size hU, hi, List.drop_take, Nat.sub_self, List.take_zero, List.append_nil,
          ← List.append_assoc, List.take_append_drop, List.drop_drop]
        congr 2; omega

theorem storage_length_mono {m n : Nat} (h : m ≤ n) : (storage t U m).length ≤ (storage t U n).length := by
  have hcp := cap_pos (t := t) hU
  induction n using Nat.strongRecOn generalizing m with
  | _ n ih =>
    rcases Nat.eq_zero_or_pos m with rfl | h1
    · rw [storage_zero]; simp
    · by_cases hm : m ≤ cap t U
      · rw [storage_small hc hU h4 h1 hm, storage_pick hc hU h4 (n := n) (by omega)]; simp
      · rw [storage_big hc hU h4 (n := m) (by omega), storage_big hc hU h4 (n := n) (by omega)]
        simp only [List.length_cons]
        have := @ih (n - cap t U) (by omega) (m - cap t U) (by omega)
        omega

end
end StdSimd.Chunks
