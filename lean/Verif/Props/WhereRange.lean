import Verif.Proofs.WhereRange
import Verif.Spec.Lanes
/-!
# Property theorems about the range `where(mask)`  (C56)
-/
namespace StdSimd.Props
open WhereRange MaskSplit

private theorem lanes_length' {a : MAbi} (h : a.Ok) (k : Data a) (hk : MOk a k) : (lanes a k).length = a.size := by
  obtain ⟨h1, _⟩ := toBits_spec h k hk
  rw [← h1]; simp [BitMask.lanes]

/-- What `for (auto i : where(k))` visits in general: the set lanes whose index is smaller than the number of bits of `size_t`, in
increasing order (as long as these fit into `unsigned long`). -/
theorem C56_where_range_visits (dm : DataModel) {a : MAbi} (h : a.Ok) (k : Data a) (hk : MOk a k)
    (hl : min a.size dm.sz ≤ dm.lg) :
    forWhere dm a k = some ((Spec.setLanes (lanes a k)).filter (· < dm.sz)) := by
  obtain ⟨v, hv, hb⟩ := toBitset_spec h k hk
  have h64 := h.bounds.2
  have hlen := lanes_length' h k hk
  have hout : ∀ i, a.size ≤ i → v.getLsbD i = false := fun i hi => BitVec.getLsbD_of_ge v i hi
  have hm : ∀ i, ((v.setWidth 64).setWidth dm.sz).getLsbD i = (decide (i < dm.sz) && v.getLsbD i) := by
    intro i
    rw [BitVec.getLsbD_setWidth, BitVec.getLsbD_setWidth]
    by_cases hi : i < a.size
    · simp [show i < 64 by omega]
    · rw [hout i (by omega)]; simp
  rw [forWhere, hv, Option.map_some, loop_eq _ rfl]
  · rw [bitIteration_eq]
    show some ((List.range dm.sz).filter _) = _
    congr 1
    unfold Spec.setLanes
    rw [hlen, List.filter_filter]
    have key : ∀ N, (List.range N).filter (fun i => decide (i < dm.sz) && v.getLsbD i)
        = (List.range (min N dm.sz)).filter (fun i => v.getLsbD i) := by
      intro N
      induction N with
      | zero => simp
      | succ N ih =>
        rw [List.range_succ, List.filter_append, ih]
        by_cases hN : N < dm.sz
        · rw [show min (N + 1) dm.sz = min N dm.sz + 1 by omega, List.range_succ, List.filter_append,
            show min N dm.sz = N by omega]
          simp [List.filter_cons, hN]
        · rw [show min (N + 1) dm.sz = min N dm.sz by omega]
          simp [hN]
    have key2 : ∀ N, a.size ≤ N → (List.range N).filter (fun i => v.getLsbD i)
        = (List.range a.size).filter (fun i => v.getLsbD i) := by
      intro N hN
      induction N, hN using Nat.le_induction with
      | base => rfl
      | succ N hN ih => rw [List.range_succ, List.filter_append, ih]; simp [hout N hN]
    calc (List.range dm.sz).filter (fun i => ((v.setWidth 64).setWidth dm.sz).getLsbD i)
        = (List.range dm.sz).filter (fun i => decide (i < dm.sz) && v.getLsbD i) := by simp only [hm]
      _ = (List.range dm.sz).filter (fun i => v.getLsbD i) := by rw [key, Nat.min_self]
      _ = (List.range (min a.size dm.sz)).filter (fun i => v.getLsbD i) := by
          rcases Nat.le_total a.size dm.sz with h1 | h1
          · rw [key2 _ h1, Nat.min_eq_left h1]
          · rw [Nat.min_eq_right h1]
      _ = (List.range a.size).filter (fun i => decide (i < dm.sz) && v.getLsbD i) := (key _).symm
      _ = _ := by
          apply List.filter_congr
          intro i hi
          rw [hb]
          have : i < (lanes a k).length := by rw [hlen]; exact List.mem_range.1 hi
          simp [VMask.bit, List.getElem?_eq_getElem this]
  · intro i hi
    show ((v.setWidth 64).setWidth dm.sz).getLsbD i = false
    rw [hm]
    rcases Nat.lt_or_ge i dm.sz with h1 | h1
    · rw [hout i (by omega), Bool.and_false]
    · simp [Nat.not_lt.2 h1]

/-- C56. `for (auto i : where(k))` visits exactly the indices of the set lanes of `k`, each once, in increasing order, on every system
whose `size_t` and `unsigned long` have at least as many bits as the mask has lanes. -/
theorem C56_where_range_partial (dm : DataModel) {a : MAbi} (h : a.Ok) (k : Data a) (hk : MOk a k) (hs : a.size ≤ dm.sz)
    (hl : a.size ≤ dm.lg) : forWhere dm a k = some (Spec.setLanes (lanes a k)) := by
  rw [C56_where_range_visits dm h k hk (by omega)]
  congr 1
  rw [List.filter_eq_self]
  intro i hi
  have := List.mem_range.1 (List.mem_filter.1 hi).1
  rw [lanes_length' h k hk] at this
  simp; omega

/-- C56, the usual case: LP64 systems (Linux on 64-bit processors), every mask. -/
theorem C56_where_range_lp64 (c : Nat) {a : MAbi} (h : a.Ok) (k : Data a) (hk : MOk a k) :
    forWhere ⟨64, 64, c⟩ a k = some (Spec.setLanes (lanes a k)) :=
  C56_where_range_partial _ h k hk h.bounds.2 h.bounds.2

/-- The two loops agree. -/
theorem loopPost_eq {dm : DataModel} (m : Nat) : ∀ it : Iter dm, it.mask.toNat ≤ m → loopPost it = loop it := by
  induction m with
  | zero =>
    intro it hm
    have : it.mask = 0 := BitVec.eq_of_toNat_eq (by simp; omega)
    have he : it.eq end' = true := by simp [Iter.eq, end', Iter.mk', this]
    rw [loopPost, loop, dif_pos he, dif_pos he]
  | succ m ih =>
    intro it hm
    rw [loopPost, loop]
    by_cases h : it.eq end' = true
    · rw [dif_pos h, dif_pos h]
    · rw [dif_neg h, dif_neg h]
      have hlt : it.inc.mask.toNat < it.mask.toNat := by
        apply and_pred_lt
        intro h0
        exact h (by simp [Iter.eq, end', Iter.mk', h0])
      show it.deref :: loopPost it.inc = it.deref :: loop it.inc
      rw [ih it.inc (by omega)]

/-- C56. The loop `while (it != end) visit(*it++);` visits the same indices: `it++` yields the position before the step. -/
theorem C56_post_increment_partial (dm : DataModel) {a : MAbi} (h : a.Ok) (k : Data a) (hk : MOk a k) (hs : a.size ≤ dm.sz)
    (hl : a.size ≤ dm.lg) : postWhere dm a k = some (Spec.setLanes (lanes a k)) := by
  rw [← C56_where_range_partial dm h k hk hs hl]
  unfold postWhere forWhere
  congr 1
  funext bits
  exact loopPost_eq _ _ (Nat.le_refl _)

/-- A mask of 40 lanes (`fixed_size` masks of that size exist for one-byte elements with AVX-512BW) with lanes 3, 5 and 37 set. -/
def mask40 : Data (.fixed 40) := (BitMask.ofULL 40 false 0x2000000028).sanitized

theorem mask40_ok : (MAbi.fixed 40).Ok ∧ MOk (.fixed 40) mask40 :=
  ⟨⟨by decide, by decide⟩, BitMask.clean_sanitized (by decide) _⟩

theorem mask40_lanes : Spec.setLanes (lanes (.fixed 40) mask40) = [3, 5, 37] := by decide +kernel

/-- Non-vacuity: the mask meets the hypotheses, and the loop visits its three lanes. -/
example : forWhere ⟨64, 64, 0⟩ (.fixed 40) mask40 = some [3, 5, 37] := by
  rw [C56_where_range_lp64 0 mask40_ok.1 mask40 mask40_ok.2, mask40_lanes]

example : postWhere ⟨64, 64, 0⟩ (.fixed 40) mask40 = some [3, 5, 37] := by
  rw [C56_post_increment_partial ⟨64, 64, 0⟩ mask40_ok.1 mask40 mask40_ok.2 (by decide) (by decide), mask40_lanes]

/-- C56 fails where `size_t` is narrower than the mask: with 32 bits (i386), lane 37 of the mask above is not visited. -/
theorem C56_where_range_ilp32_false (c : Nat) :
    Spec.setLanes (lanes (.fixed 40) mask40) = [3, 5, 37] ∧ forWhere ⟨32, 32, c⟩ (.fixed 40) mask40 = some [3, 5] := by
  refine ⟨mask40_lanes, ?_⟩
  rw [C56_where_range_visits _ mask40_ok.1 mask40 mask40_ok.2 (Nat.min_le_right _ _), mask40_lanes]
  rfl

end StdSimd.Props
