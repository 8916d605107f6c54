import Verif.Proofs.ChunksLayout
import Mathlib.Data.List.Forall2
/-! One argument of `_M_apply_per_chunk`: extraction, write-back, skipping. -/
namespace StdSimd.Chunks
open Abi
variable {V : Type}

theorem write_spec {obj v : List V} {p : Nat} (h : p + v.length ≤ obj.length) :
    ∃ o, write obj p v = some o ∧ o.length = obj.length ∧
      ∀ i, o[i]? = if p ≤ i ∧ i < p + v.length then v[i - p]? else obj[i]? := by
  refine ⟨_, by unfold write; rw [if_pos h], by simp; omega, fun i => ?_⟩
  have hl : (obj.take p).length = p := by simp; omega
  rw [List.append_assoc, List.getElem?_append, hl]
  split
  · rw [List.getElem?_take_of_lt (by omega), if_neg (by omega)]
  · rw [List.getElem?_append]
    split
    · rw [if_pos (by omega)]
    · rw [if_neg (by omega), List.getElem?_drop]; congr 1; omega

theorem pick_inj {t : Target} {U : Elem} (hU : U.Ok) {a b : Nat} : pick t U a = pick t U b ↔ a = b := by
  constructor
  · intro h
    have := congrArg (size U) h
    rwa [pick_size hU, pick_size hU] at this
  · rintro rfl; rfl

section
variable {t : Target} (hc : t.Consistent) {U : Elem} (hU : U.Ok) (h4 : 4 ≤ U.size)
include hc hU h4

theorem sizeOf_tail {m : Nat} (hm : cap t U < m) :
    cap t U + sizeOf t U (storage t U (m - cap t U)) ≤ sizeOf t U (storage t U m) := by
  have hcp := cap_pos (t := t) hU
  rw [sizeOf_storage hc hU h4 (by omega), sizeOf_storage hc hU h4 (by omega), if_neg (show ¬ m ≤ cap t U by omega)]
  obtain ⟨r1, r2, r3⟩ := roundUp_spec m hcp
  split
  · have hf := fullOf_facts hU h4 (k := m - cap t U) (by omega) (by assumption)
    have := dvd_add_le (Nat.dvd_refl (cap t U)) r1 (by omega)
    omega
  · obtain ⟨s1, s2, s3⟩ := roundUp_spec (m - cap t U) hcp
    have : cap t U + roundUp (m - cap t U) (cap t U) = roundUp m (cap t U) :=
      (roundUp_eq hcp (Nat.dvd_add (Nat.dvd_refl _) s1) (by omega) (by omega)).symm
    omega

theorem storage_sum' (n : Nat) : ((storage t U n).map (size U)).sum = n := storage_sum t U n

theorem assignTup_spec (m : Nat) : ∀ (R pos off : Nat) (src obj : List V), 1 ≤ m → m ≤ R →
    (off ≠ 0 → min R (cap t U) ≠ min m (cap t U)) → sizeOf t U (storage t U m) ≤ src.length →
    pos + off + sizeOf t U (storage t U m) ≤ obj.length →
    (∀ j, m ≤ j → j < sizeOf t U (storage t U m) → src[j]? = obj[pos + off + j]?) →
    ∃ o, assignTup t U off (storage t U R) pos (storage t U m) src obj = some o ∧ o.length = obj.length ∧
      ∀ i, o[i]? = if pos + off ≤ i ∧ i < pos + off + m then src[i - (pos + off)]? else obj[i]? := by
  have hcp := cap_pos (t := t) hU
  induction m using Nat.strongRecOn with
  | _ m ih =>
    intro R pos off src obj h1 hR hoff hs ho hpad
    have hS := le_sizeOf hc hU h4 h1
    have hsum := storage_sum t U m
    rw [storage_pick hc hU h4 (n := R) (by omega)]
    rw [storage_pick hc hU h4 h1] at hsum ⊢
    rw [assignTup]
    simp only [pick_inj hU]
    split
    · rename_i he
      have h0 : off = 0 := by
        by_contra h
        exact hoff h he
      subst h0
      rw [if_pos rfl]
      by_cases hm : m ≤ cap t U
      · have hsz := sizeOf_storage hc hU h4 h1
        rw [if_pos hm] at hsz
        rw [Nat.min_eq_left hm, Nat.sub_self, storage_zero, pick_full hc hU h4 h1 hm, ← hsz]
        have hlen : (src.take (sizeOf t U (storage t U m))).length = sizeOf t U (storage t U m) := by simp; omega
        obtain ⟨o, e1, e2, e3⟩ := write_spec (obj := obj) (v := src.take (sizeOf t U (storage t U m))) (p := pos)
          (by rw [hlen]; omega)
        refine ⟨o, by rw [e1]; rfl, e2, fun i => ?_⟩
        rw [e3, hlen, Nat.add_zero]
        split
        · rw [List.getElem?_take_of_lt (by omega)]
          split
          · rfl
          · rw [hpad _ (by omega) (by omega)]; congr 1; omega
        · rw [if_neg (by omega)]
      · have hmc : min m (cap t U) = cap t U := by omega
        have hRc : cap t U < R := by omega
        have htail := sizeOf_tail hc hU h4 (m := m) (by omega)
        have hl2 := le_sizeOf hc hU h4 (n := m - cap t U) (by omega)
        rw [he, hmc, full_cap hc hU h4]
        have hlen : (src.take (cap t U)).length = cap t U := by simp; omega
        obtain ⟨o, e1, e2, e3⟩ := write_spec (obj := obj) (v := src.take (cap t U)) (p := pos)
          (by rw [hlen]; omega)
        have hne : storage t U (m - cap t U) ≠ [] := by
          rw [storage_pick hc hU h4 (by omega)]; simp
        rw [e1]
        simp only [Option.bind_eq_bind, Option.bind_some]
        rw [if_neg hne, if_pos (storage_length_mono hc hU h4 (by omega)), sndPos_storage hc hU h4 hRc,
          sndPos_storage hc hU h4 (n := m) (by omega)]
        obtain ⟨o', f1, f2, f3⟩ := ih (m - cap t U) (by omega) (R - cap t U) (pos + cap t U) 0 (src.drop (cap t U)) o
          (by omega) (by omega) (by simp) (by simp; omega) (by omega) (by
            intro j hj1 hj2
            rw [List.getElem?_drop, e3, hlen, if_neg (by omega), hpad _ (by omega) (by omega)]
            congr 1; omega)
        refine ⟨o', f1, by omega, fun i => ?_⟩
        rw [f3, List.getElem?_drop, e3, hlen]
        simp only [Nat.add_zero]
        by_cases c1 : pos + cap t U ≤ i ∧ i < pos + cap t U + (m - cap t U)
        · rw [if_pos c1, if_pos (by omega)]; congr 1; omega
        · rw [if_neg c1]
          by_cases c2 : pos ≤ i ∧ i < pos + cap t U
          · rw [if_pos c2, if_pos (by omega), List.getElem?_take_of_lt (by omega)]
          · rw [if_neg c2, if_neg (by omega)]
    · rw [hsum]
      have hlen : (src.take m).length = m := by simp; omega
      obtain ⟨o, e1, e2, e3⟩ := write_spec (obj := obj) (v := src.take m) (p := pos + off) (by rw [hlen]; omega)
      refine ⟨o, e1, e2, fun i => ?_⟩
      rw [e3, hlen]
      split
      · rw [List.getElem?_take_of_lt (by omega)]
      · rfl

theorem popFront_spec (q : Nat) : ∀ (R pos : Nat), cap t U * q < R →
    popFront t U (storage t U R) (cap t U * q) pos = some (pos + cap t U * q, storage t U (R - cap t U * q)) := by
  have hcp := cap_pos (t := t) hU
  induction q with
  | zero =>
    intro R pos h
    rw [storage_pick hc hU h4 (by omega), popFront]
    simp only [Nat.mul_zero, if_true, Nat.add_zero, Nat.sub_zero]
    rw [← storage_pick hc hU h4 (by omega)]
  | succ q ih =>
    intro R pos h
    rw [Nat.mul_succ] at h ⊢
    rw [storage_big hc hU h4 (by omega), popFront, if_neg (by omega), pick_size hU, if_pos (by omega),
      sndPos_storage hc hU h4 (by omega), Nat.add_sub_cancel, ih _ _ (by omega)]
    congr 2
    · omega
    · congr 1; omega

end
end StdSimd.Chunks
