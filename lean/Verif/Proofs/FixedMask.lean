import Verif.Spec.Lanes
import Verif.Model.FixedMask
import Verif.Proofs.BitMask
import Verif.Proofs.BitOps
import Verif.Proofs.Memory
namespace StdSimd
namespace BitMask
variable {n m : Nat} {s s' : Bool}

@[simp] theorem length_lanes (x : BitMask n s) : x.lanes.length = n := by simp [lanes]

theorem lanes_getElem? (x : BitMask n s) (i : Nat) :
    x.lanes[i]? = if i < n then some (x.lane i) else none := by
  unfold lanes
  by_cases h : i < n
  · simp [h]
  · simp [h]

theorem lanes_getElem (x : BitMask n s) (i : Nat) (h : i < x.lanes.length) :
    x.lanes[i] = x.lane i := by simp [lanes]

theorem lanes_ext (x : BitMask n s) (l : List Bool) (hl : l.length = n)
    (h : ∀ i (hi : i < n), x.lane i = l[i]'(by omega)) : x.lanes = l := by
  apply List.ext_getElem (by simp [hl])
  intro i h1 h2
  rw [lanes_getElem]
  exact h i (by omega)

theorem mem_lanes (x : BitMask n s) (b : Bool) : b ∈ x.lanes ↔ ∃ i < n, x.lane i = b := by
  simp [lanes]

theorem popcount_lanes (x : BitMask n s) : (List.range n).countP x.lane = x.lanes.count true := by
  unfold lanes
  rw [List.count, List.countP_map]
  apply List.countP_congr
  intro i _
  simp [Function.comp]

end BitMask
end StdSimd
