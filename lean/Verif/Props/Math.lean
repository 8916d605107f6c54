import Verif.Proofs.Math
import Verif.Props.Rounding
/-!
# C47 `frexp`, C48 `logb`, C49 `modf`, C50 `copysign`

For binary32 and binary64 (`float` and `double`), in every rounding direction, for every vector of every length.  The conditions on
`isnormal`, `trunc` and the mask of nonzero numbers are what C34 and C35 prove about their implementations; the instances are below.
-/
namespace StdSimd.Props
open Spec FloatBits Rounding Math

variable {f : Fmt} (env : f.Env)

/-- C47. `frexp` without AVX-512: every element of the result is right, whatever the other elements are (and so whichever branch the
vector as a whole takes).  With `-ffinite-math-only` the elements have to be finite. -/
theorem C47_frexp (hf : f = ⟨8, 23⟩ ∨ f = ⟨11, 52⟩) (fin : Bool) (nrm : f.Bits → Bool) (xs : List f.Bits)
    (hn : ∀ x ∈ xs, nrm x = decide (f.isNormal x)) (hfin : fin = true → ∀ x ∈ xs, f.isFinite x) :
    List.Forall₂ (fun x r => f.IsFrexp x r.1 r.2.toInt) xs (frexp env fin nrm xs) := by
  have g : Good f := by rcases hf with rfl | rfl; exacts [good32, good64]
  unfold frexp
  split
  · rename_i h
    rw [List.forall₂_map_right_iff, List.forall₂_same]
    intro x hx
    refine frexp_normal g ?_
    have := List.all_eq_true.1 h x hx
    rw [hn x hx] at this; simpa using this
  · rw [List.forall₂_map_right_iff, List.forall₂_same]
    exact fun x hx => frexpElem_spec env g (hn x hx) (fun h => hfin h x hx)

/-- C47. `frexp` with AVX-512; what `getmant` returns for zeros, infinities and NaNs does not matter. -/
theorem C47_frexp_avx512 (hf : f = ⟨8, 23⟩ ∨ f = ⟨11, 52⟩) (junk : f.Bits → f.Bits) (nz : f.Bits → Bool) (xs : List f.Bits)
    (hn : ∀ x ∈ xs, nz x = decide (f.isFinite x ∧ ¬ f.isZero x)) :
    List.Forall₂ (fun x r => f.IsFrexp x r.1 r.2.toInt) xs (frexpAvx512 env junk nz xs) := by
  have g : Good f := by rcases hf with rfl | rfl; exacts [good32, good64]
  unfold frexpAvx512
  rw [List.forall₂_map_right_iff, List.forall₂_same]
  exact fun x hx => frexpAvx512_spec env g junk x (hn x hx)

/-- The condition of `C47_frexp` holds for `isnormal`, also with `-ffinite-math-only` if the elements are finite, that of
`C47_frexp_avx512` for both implementations of `_S_isnonzerovalue_mask`. -/
theorem C47_conditions (hf : f.Ok) (x : f.Bits) : FloatBits.isnormal f x = decide (f.isNormal x) ∧
    (f.isFinite x → isnormalFinite f x = decide (f.isNormal x)) ∧
    x86IsnonzerovalueDq f x = decide (f.isFinite x ∧ ¬ f.isZero x) ∧ x86Isnonzerovalue f x = decide (f.isFinite x ∧ ¬ f.isZero x) := by
  refine ⟨(C34_isnormal hf x).1, fun h => ?_, C34_nonzero_value hf x⟩
  unfold isnormalFinite BitVec.sle
  rw [min_toInt hf, abs_toInt]
  apply decide_eq_decide.2
  rw [isFinite_iff] at h
  rw [isNormal_iff]
  constructor
  · intro h1; exact ⟨by exact_mod_cast h1, h⟩
  · intro h1; exact_mod_cast h1.1

/-- C48. `logb` without AVX-512: every element is right, whichever of the three returns the vector takes. -/
theorem C48_logb (hf : f = ⟨8, 23⟩ ∨ f = ⟨11, 52⟩) (nrm : f.Bits → Bool) (xs : List f.Bits) (hn : ∀ x ∈ xs, nrm x = decide (f.isNormal x)) :
    List.Forall₂ (fun x r => f.IsLogb x r) xs (logb env nrm xs) := by
  have g : Good f := by rcases hf with rfl | rfl; exacts [good32, good64]
  unfold logb
  split
  · rename_i h
    rw [List.forall₂_map_right_iff, List.forall₂_same]
    intro x hx
    refine logb_of_normal env g ?_
    have := List.all_eq_true.1 h x hx
    rw [hn x hx] at this; simpa using this
  · split
    · rename_i h
      rw [List.forall₂_map_right_iff, List.forall₂_same]
      intro x hx
      have hs := logbSpecial_spec env g (hn x hx)
      have := List.all_eq_true.1 h x hx
      rw [hs.1] at this
      exact hs.2 (by simpa using this)
    · rw [List.forall₂_map_right_iff, List.forall₂_same]
      intro x hx
      have hs := logbSpecial_spec env g (hn x hx)
      dsimp only
      rw [hs.1]
      split
      · rename_i h; exact hs.2 (by simpa using h)
      · rename_i h
        exact logb_scaled env g (by simpa using h)

/-- C48. `logb` with AVX-512. -/
theorem C48_logb_avx512 (hf : f = ⟨8, 23⟩ ∨ f = ⟨11, 52⟩) (xs : List f.Bits) :
    List.Forall₂ (fun x r => f.IsLogb x r) xs (logbAvx512 env xs) := by
  have g : Good f := by rcases hf with rfl | rfl; exacts [good32, good64]
  unfold logbAvx512
  rw [List.forall₂_map_right_iff, List.forall₂_same]
  exact fun x _ => getexp_logb env g x

/-- C49. `modf`: integral and fractional part, and the sign of the fractional part, for every `trunc` that truncates. -/
theorem C49_modf_partial (hf : f.Ok) (tr : f.Bits → f.Bits) (htr : Fmt.RoundsTo f tr truncZ) (fin : Bool) (x : f.Bits)
    (hfin : fin = true → f.isFinite x) : f.IsModf x (modf env tr fin x).1 (modf env tr fin x).2 :=
  modf_spec env hf ⟨fun x hx => (htr.finite x hx).1, fun x hx => (htr.finite x hx).2, htr.inf, htr.nan⟩ hfin

/-- C49. The integral part has the sign of the operand if `trunc` keeps signs (SSE4.1 and later: C44). -/
theorem C49_integral_sign_partial (tr : f.Bits → f.Bits) (htr : Fmt.KeepsSign f tr) (fin : Bool) (x : f.Bits) (hx : f.isFinite x) :
    f.sign (modf env tr fin x).1 = f.sign x := htr x hx

/-- C49 is wrong for the sign of the integral part with SSE2: the integral part of `-0.25f` is `+0.f`. -/
theorem C49_integral_sign_wrong : ¬ ∀ x : b32.Bits, b32.isFinite x →
    b32.sign (modf (env32 .nearest) (truncSse2 (env32 .nearest)) false x).1 = b32.sign x := fun h => C44_sse2_wrong.1 h

/-- C50. `copysign` for every pair of bit patterns, of every format. -/
theorem C50_copysign (x y : f.Bits) : f.IsCopysign x y (copysign x y) :=
  ⟨by rw [expo_eq, expo_eq, mag_copysign], by rw [mant_eq, mant_eq, mag_copysign], sign_copysign x y⟩

/-- C50. `fabs`: the magnitude of the operand with a positive sign. -/
theorem C50_fabs (x : f.Bits) : f.IsCopysign x 0 (FloatBits.abs f x) :=
  ⟨(abs_value x).1, by rw [mant_eq, mant_eq, mag_abs], by rw [sign_abs]; exact (pos_const (Nat.two_pow_pos _)).2.symm⟩

/-! ## Instances -/

private abbrev e32 := env32 .nearest
-- 3.0 = 0.75 * 2 ^ 2, the smallest subnormal number 2 ^ -149 = 0.5 * 2 ^ -148
example : (frexp e32 false (FloatBits.isnormal b32) [0x40400000#32, 0xc0400000#32]) = [(0x3f400000#32, 2#32), (0xbf400000#32, 2#32)] := by decide +kernel
example : (frexp e32 false (FloatBits.isnormal b32) [0x40400000#32, 1#32, 0x80000000#32, 0x7f800000#32]).map Prod.fst =
    [0x3f400000#32, 0x3f000000#32, 0x80000000#32, 0x7f800000#32] := by decide +kernel
example : ((frexp e32 false (FloatBits.isnormal b32) [0x40400000#32, 1#32, 0x80000000#32]).map fun r => r.2.toInt) = [2, -148, 0] := by decide +kernel
example : logb e32 (FloatBits.isnormal b32) [0x40400000#32, 1#32, 0#32, 0xff800000#32] =
    [0x3f800000#32, 0xc3150000#32, 0xff800000#32, 0x7f800000#32] := by decide +kernel
example : b32.ratValue 0xc3150000#32 = -149 := by decide +kernel
example : modf e32 (trunc e32) false 0xc0200000#32 = (0xc0000000#32, 0xbf000000#32) := by decide +kernel       -- -2.5 = -2 + -0.5
example : modf e32 (trunc e32) false 0xff800000#32 = (0xff800000#32, 0x80000000#32) := by decide +kernel       -- -inf: -0
example : Fmt.RoundsTo b32 (trunc e32) truncZ := C35_trunc e32 b32_ok.1 b32_ok.2
example : copysign (f := b32) 0x7fc00001#32 0x80000000#32 = 0xffc00001#32 := by decide +kernel
example : Fmt.mul e32 0x40400000#32 0xbf000000#32 = 0xbfc00000#32 := by decide +kernel                         -- 3 * -0.5 = -1.5

end StdSimd.Props
