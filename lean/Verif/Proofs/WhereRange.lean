import Verif.Model.WhereRange
import Verif.Proofs.MaskSplit
import Verif.Proofs.BitOps
/-! # Lemmas about the range `where(mask)` -/
namespace StdSimd.WhereRange
open MaskSplit

variable {dm : DataModel}

/-- The masks the loop works on keep fitting into `unsigned long`. -/
theorem loop_eq (it : Iter dm) (hb : it.bit = ctzl it.mask) (hf : ∀ i, dm.lg ≤ i → it.mask.getLsbD i = false) :
    loop it = bitIteration it.mask := by
  induction hn : it.mask.toNat using Nat.strongRecOn generalizing it with
  | _ n ih =>
    rw [loop, bitIteration]
    by_cases h : it.mask = 0
    · simp [Iter.eq, end', Iter.mk', h]
    · have h' : ¬ it.eq end' = true := by simp [Iter.eq, end', Iter.mk']; exact h
      rw [dif_neg h', dif_neg h]
      have hlt := and_pred_lt it.mask h
      congr 1
      · show it.bit = _
        rw [hb]
        obtain ⟨h1, h2, h3⟩ := ctz_spec it.mask h
        have hlg : ctz it.mask < dm.lg := by
          rcases Nat.lt_or_ge (ctz it.mask) dm.lg with h4 | h4
          · exact h4
          · rw [hf _ h4] at h2; simp at h2
        have hne : it.mask.setWidth dm.lg ≠ 0 := by
          intro h0
          have : (it.mask.setWidth dm.lg).getLsbD (ctz it.mask) = false := by rw [h0]; simp
          rw [BitVec.getLsbD_setWidth, h2] at this
          simp [hlg] at this
        unfold ctzl
        rw [if_neg hne]
        obtain ⟨g1, g2, g3⟩ := ctz_spec _ hne
        rw [BitVec.getLsbD_setWidth] at g2
        simp only [Bool.and_eq_true, decide_eq_true_eq] at g2
        rcases Nat.lt_trichotomy (ctz (it.mask.setWidth dm.lg)) (ctz it.mask) with h5 | h5 | h5
        · rw [h3 _ h5] at g2; simp at g2
        · exact h5
        · have := g3 _ h5
          rw [BitVec.getLsbD_setWidth, h2] at this
          simp [hlg] at this
      · apply ih _ (by rw [← hn]; exact hlt) _ rfl _ rfl
        intro i hi
        show (it.mask &&& (it.mask - 1)).getLsbD i = false
        rw [BitVec.getLsbD_and, hf i hi, Bool.false_and]

end StdSimd.WhereRange
