import Verif.Props.RegBits
import Verif.Proofs.SignMask
import Verif.Spec.FloatMath
/-!
# C80 the sign bit of the elements of registers
-/
namespace StdSimd.Props
open Spec Spec.Bits RegBits

variable {N : Nat} {f : Fmt}

theorem signTy_ok (hf : f = ⟨8, 23⟩ ∨ f = ⟨11, 52⟩) : f.Ok ∧ f.mbits < f.bias ∧ 0 < f.width := by rcases hf with rfl | rfl <;> decide

theorem signTy_bit (hf : f = ⟨8, 23⟩ ∨ f = ⟨11, 52⟩) (hN : f.width ∣ N) : BitTyOk (SignMask.ty f) N :=
  ⟨by rcases hf with rfl | rfl <;> decide, hN⟩

/-- C80. The mask the functions use for the sign is computed as `(0. + 1) ^ (0. - 1)`: in every rounding mode it has the sign bit of every element and
nothing else. -/
theorem C80_sign_mask (hf : f = ⟨8, 23⟩ ∨ f = ⟨11, 52⟩) (env : f.Env) (hN : f.width ∣ N) (i : Nat) (hi : i < N / f.width) (j : Nat) :
    (lane f.width i (SignMask.signMask env N)).getLsbD j = decide (j = f.width - 1) := by
  obtain ⟨h1, h2, h3⟩ := signTy_ok hf
  have h := (C80_and_or_xor (SignMask.ty f) (signTy_bit hf hN) (SignMask.plusOne env N) (SignMask.minusOne env N)).2.2 i hi
  have e : lane f.width i (SignMask.signMask env N) = FloatBits.signMask f := by
    refine h.trans ?_
    unfold SignMask.plusOne SignMask.minusOne
    show lane f.width i _ ^^^ lane f.width i _ = _
    rw [SignMask.map1_lane h3 _ _ hi, SignMask.map1_lane h3 _ _ hi, SignMask.lane_zero]
    exact SignMask.xor_ones_eq (SignMask.zero_add_one env h1 h2) (SignMask.zero_sub_one env h1 h2)
  rw [e]
  by_cases hj : j < f.width
  · rw [FloatBits.signMask_getLsbD hj]; rfl
  · rw [BitVec.getLsbD_of_ge _ _ (by omega), decide_eq_false (by omega)]

theorem signMask_lane (hf : f = ⟨8, 23⟩ ∨ f = ⟨11, 52⟩) (env : f.Env) (hN : f.width ∣ N) {i : Nat} (hi : i < N / f.width) :
    lane f.width i (SignMask.signMask env N) = FloatBits.signMask f := by
  apply BitVec.eq_of_getLsbD_eq
  intro j hj
  rw [C80_sign_mask hf env hN i hi, FloatBits.signMask_getLsbD hj]; rfl

theorem allBits_lane {w : Nat} (h8 : 8 ∣ N) {i : Nat} (hi : i < N / w) : lane w i (SignMask.allBits N) = BitVec.allOnes w := by
  have h := map1_lanes (w := w) (by decide) h8 (fun x => ~~~x) (fun x => ~~~x) (fun b => !b) not_bit not_bit (0#N) i hi
  refine h.trans ?_
  rw [SignMask.lane_zero]; simp

/-- C80. `abs` and `fabs` of registers: the sign bit of every element is cleared, exponent and fraction stay, also of NaNs; in every rounding mode, on every target. -/
theorem C80_abs (hf : f = ⟨8, 23⟩ ∨ f = ⟨11, 52⟩) (env : f.Env) (t : Feat) (known : Bool) (k : Nat) (hk : N = 2 ^ k) (hN : f.width ∣ N) (x : BitVec N) (i : Nat)
    (hi : i < N / f.width) :
    let r : f.Bits := lane f.width i (SignMask.abs env t known x)
    f.sign r = false ∧ f.expo r = f.expo (lane f.width i x) ∧ f.mant r = f.mant (lane f.width i x) := by
  have h8 : 8 ∣ N := Nat.dvd_trans (by rcases hf with rfl | rfl <;> decide) hN
  have ha := (C80_and_or_xor (SignMask.ty f) (signTy_bit hf hN) (SignMask.absMask env t known N) x).1 i hi
  have hn := C80_andnot t known (SignMask.ty f) (signTy_bit hf hN) k hk (SignMask.signMask env N) (SignMask.allBits N) i hi
  have e : lane f.width i (SignMask.abs env t known x) = FloatBits.abs f (lane f.width i x) := by
    refine ha.trans ?_
    show lane f.width i (SignMask.absMask env t known N) &&& lane f.width i x = _
    have hn' : lane f.width i (SignMask.absMask env t known N) = ~~~(lane f.width i (SignMask.signMask env N)) &&& lane f.width i (SignMask.allBits N) := hn
    rw [hn', signMask_lane hf env hN hi, allBits_lane h8 hi, BitVec.and_allOnes]; rfl
  dsimp only
  rw [e]
  exact ⟨FloatBits.sign_abs _, by rw [FloatBits.expo_eq, FloatBits.expo_eq, FloatBits.mag_abs], by rw [FloatBits.mant_eq, FloatBits.mant_eq, FloatBits.mag_abs]⟩

/-- C80. `copysign` of registers, computed with the operators `&`, `|`, `^` of floating-point values: every element has exponent and fraction of the element of
the first argument and the sign of the element of the second, in every rounding mode. -/
theorem C80_copysign (hf : f = ⟨8, 23⟩ ∨ f = ⟨11, 52⟩) (env : f.Env) (hN : f.width ∣ N) (x y : BitVec N) (i : Nat) (hi : i < N / f.width) :
    f.IsCopysign (lane f.width i x) (lane f.width i y) (lane f.width i (SignMask.copysign env x y)) := by
  obtain ⟨h1, h2, h3⟩ := signTy_ok hf
  have hb := fun a b => C80_and_or_xor (SignMask.ty f) (signTy_bit hf hN) (N := N) a b
  have hm : lane f.width i (RegBits.xor (SignMask.ty f) (SignMask.broadcast env N 1) (SignMask.broadcast env N (-1))) = FloatBits.signMask f := by
    refine ((hb _ _).2.2 i hi).trans ?_
    unfold SignMask.broadcast
    show lane f.width i _ ^^^ lane f.width i _ = _
    rw [SignMask.map1_lane h3 _ _ hi, SignMask.map1_lane h3 _ _ hi]
    exact SignMask.xor_ones_eq (Rounding.one_num env h1 h2) (SignMask.negOne_num env h1 h2)
  have e : lane f.width i (SignMask.copysign env x y) = Math.copysign (f := f) (lane f.width i x) (lane f.width i y) := by
    unfold SignMask.copysign Math.copysign
    dsimp only
    rw [Math.copysign_mask, ← hm]
    have e1 := (hb (RegBits.and (SignMask.ty f) x (RegBits.xor (SignMask.ty f) x (RegBits.xor (SignMask.ty f) (SignMask.broadcast env N 1) (SignMask.broadcast env N (-1)))))
      (RegBits.and (SignMask.ty f) y (RegBits.xor (SignMask.ty f) (SignMask.broadcast env N 1) (SignMask.broadcast env N (-1))))).2.1 i hi
    refine e1.trans ?_
    exact congrArg₂ (· ||| ·) (((hb _ _).1 i hi).trans (congrArg₂ (· &&& ·) rfl ((hb _ _).2.2 i hi))) ((hb _ _).1 i hi)
  rw [e]
  exact ⟨by rw [FloatBits.expo_eq, FloatBits.expo_eq, Math.mag_copysign], by rw [FloatBits.mant_eq, FloatBits.mant_eq, Math.mag_copysign], Math.sign_copysign _ _⟩

/-! ## cases that meet the hypotheses -/

example : (Fmt.mk 11 52).width ∣ 256 ∧ (256 : Nat) = 2 ^ 8 ∧ 3 < 256 / (Fmt.mk 11 52).width := by decide
/-- Four `float`s, one of them a NaN. -/
example : RegBits.and (SignMask.ty ⟨8, 23⟩) (0x7fffffff7fffffff7fffffff7fffffff#128) (0xffc00001bf8000004000000080000000#128) = 0x7fc000013f8000004000000000000000#128 := by
  decide +kernel

end StdSimd.Props
