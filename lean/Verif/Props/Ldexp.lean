import Verif.Proofs.Ldexp
import Verif.Props.Math
/-!
# C58: `ldexp` is correctly rounded for every exponent

For binary32 and binary64 (`float` and `double`), in every rounding direction, for vectors of every length in AVX-512 registers, whatever
the padding of the registers contains.
-/
namespace StdSimd.Props
open Spec

variable {f : Fmt} (env : f.Env)

theorem C58_wide (hf : f = ⟨8, 23⟩ ∨ f = ⟨11, 52⟩) : Ldexp.Wide f := by
  rcases hf with rfl | rfl
  · exact ⟨by decide, by decide, by decide, by decide⟩
  · exact ⟨by decide, by decide, by decide, by decide⟩

/-- C58. Every element of `ldexp(x, e)` is `x * 2 ^ e`, rounded once, for every `int` exponent, although the exponents are converted to the
floating-point type, which cannot represent all of them; zeros and infinities are unchanged, NaNs stay NaNs. -/
theorem C58_ldexp (hf : f = ⟨8, 23⟩ ∨ f = ⟨11, 52⟩) (n : Nat) (pad x : Nat → f.Bits) (e : Nat → BitVec 32) (i : Nat) (hi : i < n) :
    Fmt.IsLdexp env (x i) (e i).toInt (Ldexp.ldexp env n pad x e i) := by
  unfold Ldexp.ldexp Ldexp.maskzScalef Ldexp.exponents
  rw [if_pos (decide_eq_true hi), if_pos hi]
  exact Ldexp.scalef_spec env (C58_wide hf) _ _

/-- C58. If a number `y` of the format with the sign of `x` is `x * 2 ^ e`, the result is `y`. -/
theorem C58_ldexp_exact (hf : f = ⟨8, 23⟩ ∨ f = ⟨11, 52⟩) (n : Nat) (pad x : Nat → f.Bits) (e : Nat → BitVec 32) (i : Nat) (hi : i < n)
    (y : f.Bits) (hx : f.isFinite (x i)) (hy : f.isFinite y) (hv : f.ratValue y = f.ratValue (x i) * 2 ^ (e i).toInt)
    (hs : f.sign y = f.sign (x i)) : Ldexp.ldexp env n pad x e i = y :=
  Ldexp.scale_exact env (C58_wide hf).ok (C58_ldexp env hf n pad x e i hi) hx hy hv hs

/-- C58. `ldexp` undoes `frexp`, bit by bit, for every element other than NaN. -/
theorem C58_ldexp_frexp (hf : f = ⟨8, 23⟩ ∨ f = ⟨11, 52⟩) (junk : f.Bits → f.Bits) (nz : f.Bits → Bool) (xs : List f.Bits)
    (hn : ∀ x ∈ xs, nz x = decide (f.isFinite x ∧ ¬ f.isZero x)) (pad : Nat → f.Bits) (i : Nat) (hi : i < xs.length) (hnan : ¬ f.isNaN xs[i]) :
    let r := Math.frexpAvx512 env junk nz xs
    Ldexp.ldexp env xs.length pad (fun i => (r.getD i default).1) (fun i => (r.getD i default).2) i = xs[i] := by
  intro r
  have h := C47_frexp_avx512 env hf junk nz xs hn
  have hl : xs.length = r.length := h.length_eq
  have h1 := h.get hi (hl ▸ hi)
  have h2 := C58_ldexp env hf xs.length pad (fun i => (r.getD i default).1) (fun i => (r.getD i default).2) i hi
  refine Ldexp.frexp_inverse env (C58_wide hf).ok (x := xs[i]) ?_ h2 hnan
  have h3 : r.getD i default = r[i]'(hl ▸ hi) := by
    rw [List.getD_eq_getElem?_getD, List.getElem?_eq_getElem (hl ▸ hi)]; rfl
  rw [h3]
  exact h1

/-- The smallest subnormal `float` scaled by `2 ^ 149` is one: exact, with an exponent far above that of any normal number's field. -/
example (env : Fmt.Env ⟨8, 23⟩) (pad : Nat → Fmt.Bits ⟨8, 23⟩) :
    Ldexp.ldexp env 3 pad (fun _ => (1#32 : Fmt.Bits ⟨8, 23⟩)) (fun _ => 149#32) 2 = (0x3f800000#32 : Fmt.Bits ⟨8, 23⟩) := by
  refine C58_ldexp_exact env (Or.inl rfl) 3 pad _ _ 2 (by decide) _ (by decide) (by decide) ?_ (by decide)
  have h1 : Fmt.ratValue ⟨8, 23⟩ (1#32 : Fmt.Bits ⟨8, 23⟩) = 2 ^ (-149 : ℤ) := by
    have e : Fmt.expo ⟨8, 23⟩ (1#32 : Fmt.Bits ⟨8, 23⟩) = 0 := by decide
    have m : Fmt.mant ⟨8, 23⟩ (1#32 : Fmt.Bits ⟨8, 23⟩) = 1 := by decide
    have s : Fmt.sign ⟨8, 23⟩ (1#32 : Fmt.Bits ⟨8, 23⟩) = false := by decide
    unfold Fmt.ratValue Fmt.significand
    rw [e, m, s]; norm_num [Fmt.bias]
  have h2 : Fmt.ratValue ⟨8, 23⟩ (0x3f800000#32 : Fmt.Bits ⟨8, 23⟩) = 1 := by
    have e : Fmt.expo ⟨8, 23⟩ (0x3f800000#32 : Fmt.Bits ⟨8, 23⟩) = 127 := by decide
    have m : Fmt.mant ⟨8, 23⟩ (0x3f800000#32 : Fmt.Bits ⟨8, 23⟩) = 0 := by decide
    have s : Fmt.sign ⟨8, 23⟩ (0x3f800000#32 : Fmt.Bits ⟨8, 23⟩) = false := by decide
    unfold Fmt.ratValue Fmt.significand
    rw [e, m, s]; norm_num [Fmt.bias]
  have h3 : (149#32 : BitVec 32).toInt = 149 := by decide
  rw [h1, h2, h3, ← zpow_add₀ (by norm_num)]
  norm_num

/-- The exponent 16777217 is not a `float`. -/
example (env : Fmt.Env ⟨8, 23⟩) (pad x : Nat → Fmt.Bits ⟨8, 23⟩) :
    Fmt.IsLdexp env (x 4) 16777217 (Ldexp.ldexp env 5 pad x (fun _ => 16777217#32) 4) :=
  C58_ldexp env (Or.inl rfl) 5 pad x (fun _ => 16777217#32) 4 (by decide)

end StdSimd.Props
