import Verif.Proofs.ConvertFixed
import Verif.Props.FixedSize
/-!
# C21: conversions between `simd` types

`c.cast` is `static_cast` of one element.  `c.junkA`, `c.junkB` (the contents of padding elements) and `c.x86` (which implementation of a
register conversion is used) are arbitrary.
-/
namespace StdSimd.Props
open Abi Tuple Convert

variable {α β : Type}

/-- **C21** `static_simd_cast` between `fixed_size` objects, every size, all pairs of decompositions that the element sizes and the
instruction set produce: the conversion compiles, and element `i` of the result is `static_cast` of element `i` of the source.
`same`: both element types are integers of the same size. -/
theorem C21_fixed_size (c : Ctx α β) (t : Target) (hc : t.Consistent) (T U : Elem) (hT : T.Ok) (hU : U.Ok) (same : Bool)
    (hsame : same = true → T = U) (n : Nat) (hn : 1 ≤ n) (x : Tup α) (hx : Wf (regs t T n) x) :
    ∃ y, fixedCvt c t T U same n x = some y ∧ Wf (regs t U n) y ∧ lanes (regs t U n) y = (lanes (regs t T n) x).map c.cast :=
  fixedCvt_all c hc hT hU hsame hn hx

/-- **C21** `static_simd_cast` between any two `simd` types of the same number of elements: scalar, native, partial and `fixed_size` ABI
tags in any combination.  `ident`: the element types are the same type. -/
theorem C21_static_simd_cast (c : Ctx α β) (t : Target) (hc : t.Consistent) (T U : Elem) (hT : T.Ok) (hU : U.Ok) (same ident : Bool)
    (hsame : same = true → T = U) (hident : ident = true → T = U) (a b : Tag) (ha : valid t T a = true) (hb : valid t U b = true)
    (hs : size T a = size U b) (x : Tup α) (hx : Wf (geos t T a) x) :
    ∃ y, staticSimdCast c t T U same ident a b x = some y ∧ Wf (geos t U b) y ∧
      lanes (geos t U b) y = (lanes (geos t T a) x).map c.cast :=
  staticSimdCast_spec c hc hT hU hsame hident ha hb hs hx

/-- **C21** There is no `static_simd_cast` between types of different numbers of elements. -/
theorem C21_no_resize (c : Ctx α β) (t : Target) (T U : Elem) (same ident : Bool) (a b : Tag) (hs : size T a ≠ size U b) (x : Tup α) :
    staticSimdCast c t T U same ident a b x = none := by
  unfold staticSimdCast
  rw [if_pos hs]

/-- **C21** The implicit conversion between `fixed_size` objects gives the same elements (for its alignment promise see C40). -/
theorem C21_implicit (c : Ctx α β) (t : Target) (hc : t.Consistent) (T U : Elem) (hT : T.Ok) (hU : U.Ok) (n : Nat) (hn : 1 ≤ n)
    (x : Tup α) (hx : Wf (regs t T n) x) :
    ∃ y, implicitCvt c t T U n x = some y ∧ Wf (regs t U n) y ∧ lanes (regs t U n) y = (lanes (regs t T n) x).map c.cast := by
  obtain ⟨_, hok, htot, hf⟩ := regs_facts hc hT hn
  have e := lanes_prefix hok hf hx
  have hl := length_lanes hok hx
  rw [htot] at e hl
  unfold implicitCvt
  simp only []
  rw [← e, if_pos hl]
  have hz : (lanes (regs t T n) x) ≠ [] := by intro h; rw [h] at hl; simp at hl; omega
  obtain ⟨y, y1, y2, y3⟩ := C11_load hc hU hn hT false c.cast c.zeroB (fun (i : Nat) => (lanes (regs t T n) x)[i]?) 0
    (fun i => ((lanes (regs t T n) x)[i]?).getD ((lanes (regs t T n) x).head hz)) (fun i hi => by
      rw [Nat.zero_add, List.getElem?_eq_getElem (by omega)]; rfl)
  refine ⟨y, y1, y2, ?_⟩
  rw [y3]
  apply List.ext_getElem?
  intro i
  by_cases hi : i < n
  · simp [hi, hl]
  · rw [List.getElem?_eq_none (by simp; omega), List.getElem?_eq_none (by simp; omega)]

/-! ## Cases

AVX2: eleven `float`s are in registers of 8 and 3, eleven `double`s in registers of 4, 4 and 3: the first register is split in two, the
second is converted to one.  The padding element of the source, 99, does not show. -/

private abbrev f32 : Elem := ⟨4, true⟩
private abbrev f64 : Elem := ⟨8, true⟩
private def ctx : Ctx Nat Int := ⟨fun x => -(x : Int), 0, 0, fun _ => 77, fun _ => 78, fun _ => true⟩

private theorem regs_f64 : regs exAvx2 f64 11 = [.vec 64 4 4, .vec 64 4 4, .vec 64 3 4] := by
  unfold regs
  rw [Abi.storage_pos (by decide), show (11 - Abi.size f64 (Abi.bestAbi exAvx2 f64 11)) = 7 by decide +kernel,
    Abi.storage_pos (by decide), show (7 - Abi.size f64 (Abi.bestAbi exAvx2 f64 7)) = 3 by decide +kernel,
    Abi.storage_pos (by decide), show (3 - Abi.size f64 (Abi.bestAbi exAvx2 f64 3)) = 0 by decide +kernel, Abi.storage_zero]
  decide +kernel

example : ∃ y, fixedCvt ctx exAvx2 f32 f64 false 11 exTup = some y ∧ y.map List.length = [4, 4, 4] ∧
    lanes (regs exAvx2 f64 11) y = [-1, -2, -3, -4, -5, -6, -7, -8, -9, -10, -11] := by
  obtain ⟨y, h1, h2, h3⟩ := C21_fixed_size ctx exAvx2 exAvx2_ok f32 f64 (by decide) (by decide) false (by decide) 11 (by decide) exTup exTup_wf
  refine ⟨y, h1, ?_, ?_⟩
  · rw [regs_f64] at h2
    match y, h2 with
    | [a, b, c], ⟨ha, hb, hc, _⟩ =>
      change a.length = 4 at ha; change b.length = 4 at hb; change c.length = 4 at hc
      simp [ha, hb, hc]
  · rw [h3, exRegs_avx2]; rfl

/-- Four `float`s in a 16-byte register to four `double`s in a 32-byte register, with the tags of AVX. -/
example : valid exAvx2 f32 (.builtin 16) = true ∧ valid exAvx2 f64 (.builtin 32) = true ∧
    size f32 (.builtin 16) = 4 ∧ size f64 (.builtin 32) = 4 ∧ Wf (geos exAvx2 f32 (.builtin 16)) [[1, 2, 3, 4]] ∧
    staticSimdCast ctx exAvx2 f32 f64 false false (.builtin 16) (.builtin 32) [[1, 2, 3, 4]] = some [[-1, -2, -3, -4]] := by
  refine ⟨by decide, by decide, rfl, rfl, ⟨rfl, trivial⟩, rfl⟩

end StdSimd.Props
