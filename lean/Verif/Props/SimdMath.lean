import Verif.Props.SimdNative
import Verif.Proofs.SimdMath
/-!
# C63 for programs that call functions

The programs of `Spec/Program.lean` may call `abs`, `min`, `max`, `clamp`, `signbit`, and for floating-point types the functions of [simd.math]
with one to three arguments that return a value or a mask (`VE.call1` ... `VE.call3`, `VE.clamp`, `ME.test1`, `ME.test2`).
`Spec/ElemFuns.lean` says what the functions do with one element.
-/
namespace StdSimd.Props
open StdSimd Spec Spec.Program SimdClass Tuple Native
variable {β : Type} {t : Abi.Target} {T : Abi.Elem} {n : Nat} {g : Geo}

/-- **C63** for integers with functions: any implementation of the operators, together with the code of `abs`, `min`, `max`, `clamp` and `signbit`. -/
theorem C63_int_functions {signed : Bool} (ht : t.Consistent) (hT : T.Ok) (hs : T.size ∈ [1, 2, 4, 8]) (h1 : 1 ≤ n) (h64 : n ≤ 64)
    {E : Program.Elem (.int signed (8 * T.size))} (C : Cfg (.int signed (8 * T.size)) β) (R : RegImpl (.int signed (8 * T.size)))
    (hR : ∀ g ∈ regs t T n, Implements R E g) (a : Geo → IntAbs.Ctx (8 * T.size)) (hC : C.R = R.withFuns (intRegFuns signed (8 * T.size) a C.ctx))
    {U : Abi.Elem} (hU : U.Ok) (same : Bool) (hX : C.xfer = Xfer.of t U same) (base : Nat → Nat)
    (p : Stmt (.int signed (8 * T.size))) (hp : p.WellFormed) (S : State (fixedImpl C (regs t T n) n))
    (L L' : Nat → Lane (.int signed (8 * T.size)) β) (hS : Observed C t T n base S L)
    (hL : ∀ i < n, p.exec (E.withFuns (intFuns signed (8 * T.size))) C.ld C.st n i (L i) = some (L' i)) :
    ∃ S', run (fixedImpl C (regs t T n) n) E.width base p S = some S' ∧ Observed C t T n base S' L' ∧
      ∀ j a, (a < base j ∨ base j + n ≤ a) → S'.mem j a = S.mem j a :=
  C63_program ht hT h1 h64 (E := E.withFuns (intFuns signed (8 * T.size))) C (fun g hg => by
    rw [hC]
    exact (hR g hg).withFuns (intRegFuns_implements signed (by have := hT; simp at hs; omega) a C.ctx ((regs_facts ht hT h1).2.1 g hg)
      (fun _ => IntAbs_fits ht hT hs n g hg))) hU same hX base p hp S L L' hS hL

/-- **C63** for integers of native ABIs with functions; partial as `C63_native_partial`. -/
theorem C63_native_int_functions_partial {signed : Bool} {w : Nat} (hw : 0 < w) (hg : g.Ok) (hf : signed = true → IntAbs.Fits w g)
    {E : Program.Elem (.int signed w)} (C : Cfg (.int signed w) β) (R : RegImpl (.int signed w)) (hR : Implements R E g)
    (a : Geo → IntAbs.Ctx w) (hC : C.R = R.withFuns (intRegFuns signed w a C.ctx)) {U : Abi.Elem} (hU : U.Ok) (same : Bool)
    (hX : C.xfer = Xfer.of t U same) (hp : C.path g = .raw → Exact g) (base : Nat → Nat) (p : Stmt (.int signed w)) (hpw : p.WellFormed)
    (S : State (nativeImpl C g)) (L L' : Nat → Lane (.int signed w) β) (hS : ObservedNative C g base S L)
    (hL : ∀ i < g.size, p.exec (E.withFuns (intFuns signed w)) C.ld C.st g.size i (L i) = some (L' i)) :
    ∃ S', run (nativeImpl C g) E.width base p S = some S' ∧ ObservedNative C g base S' L' ∧
      ∀ j a, (a < base j ∨ base j + g.size ≤ a) → S'.mem j a = S.mem j a :=
  C63_native_partial hg (E := E.withFuns (intFuns signed w)) C
    (by rw [hC]; exact hR.withFuns (intRegFuns_implements signed hw a C.ctx hg hf)) hU same hX hp base p hpw S L L' hS hL

/-- **C63** for floating-point types: programs with the operators of IEEE 754 and the functions, for every floating-point environment, C library and
choice of code (generic, SSE2, SSE4.1, AVX-512; it may differ between the registers of an object). -/
theorem C63_ieee {f : Fmt} (hf : f.Ok) (hw : f.mbits < f.bias) (ht : t.Consistent) (hT : T.Ok) (h1 : 1 ≤ n) (h64 : n ≤ 64) (env : f.Env)
    (lib : Lib f) (F : Geo → FloatCtx f) (hF : ∀ g, (F g).env = env ∧ (F g).lib = lib) (C : Cfg (.float f) β) (hC : C.R = floatReg env F)
    {U : Abi.Elem} (hU : U.Ok) (same : Bool) (hX : C.xfer = Xfer.of t U same) (base : Nat → Nat) (p : Stmt (.float f)) (hp : p.WellFormed)
    (S : State (fixedImpl C (regs t T n) n)) (L L' : Nat → Lane (.float f) β) (hS : Observed C t T n base S L)
    (hL : ∀ i < n, p.exec (ieeeElem env lib) C.ld C.st n i (L i) = some (L' i)) :
    ∃ S', run (fixedImpl C (regs t T n) n) 0 base p S = some S' ∧ Observed C t T n base S' L' ∧
      ∀ j a, (a < base j ∨ base j + n ≤ a) → S'.mem j a = S.mem j a :=
  C63_program ht hT h1 h64 (E := ieeeElem env lib) C (fun g hg => by
    rw [hC]; exact floatReg_implements hf hw env lib F ((regs_facts ht hT h1).2.1 g hg) (hF g).1 (hF g).2) hU same hX base p hp S L L' hS hL

/-- **C63** for floating-point types of native ABIs; partial as `C63_native_partial`. -/
theorem C63_native_ieee_partial {f : Fmt} (hf : f.Ok) (hw : f.mbits < f.bias) (hg : g.Ok) (env : f.Env) (lib : Lib f) (F : Geo → FloatCtx f)
    (hF : ∀ g, (F g).env = env ∧ (F g).lib = lib) (C : Cfg (.float f) β) (hC : C.R = floatReg env F) {U : Abi.Elem} (hU : U.Ok) (same : Bool)
    (hX : C.xfer = Xfer.of t U same) (hp : C.path g = .raw → Exact g) (base : Nat → Nat) (p : Stmt (.float f)) (hpw : p.WellFormed)
    (S : State (nativeImpl C g)) (L L' : Nat → Lane (.float f) β) (hS : ObservedNative C g base S L)
    (hL : ∀ i < g.size, p.exec (ieeeElem env lib) C.ld C.st g.size i (L i) = some (L' i)) :
    ∃ S', run (nativeImpl C g) 0 base p S = some S' ∧ ObservedNative C g base S' L' ∧
      ∀ j a, (a < base j ∨ base j + g.size ≤ a) → S'.mem j a = S.mem j a :=
  C63_native_partial hg (E := ieeeElem env lib) C
    (by rw [hC]; exact floatReg_implements hf hw env lib F hg (hF g).1 (hF g).2) hU same hX hp base p hpw S L L' hS hL

/-! ## concrete programs -/

section
open Rounding

/-- A C library: `exp` is taken to be the identity, `fdim` the first, `fma`-like functions the third argument. -/
def exLib : Lib b32 := ⟨fun _ a => a, fun _ a _ => a, fun _ _ _ c => c⟩
/-- SSE2. -/
def exSse2 (_ : Geo) : FloatCtx b32 := ⟨env32 .nearest, exLib, .sse2, true, false, true, .base, .sse2Float⟩

def exFCfg (F : Geo → FloatCtx b32) : Cfg (.float b32) (BitVec 32) where
  R := floatReg (env32 .nearest) F
  c _ := false
  ctx _ := ⟨true, false, [], []⟩
  xfer := Xfer.of exAvx2 ⟨4, true⟩ true
  path _ := .bits
  junk := 0#32
  ld a := a
  st a := a

/-- `v1 = sqrt(fabs(v0) * v0 * copysign(1, v0)); v2 = clamp(floor(v0 / 2), -1, 100); m0 = isless(v2, v1) && !signbit(v0); where (m0) v1 = fma(v0, v0, round(v1))` -/
def exFProg : Stmt (.float b32) :=
  .seq (.assign 1 (.call1 .sqrt (.bin .mul (.bin .mul (.call1 .fabs (.var 0)) (.var 0)) (.call2 .copysign (.const (0x3f800000#32 : BitVec 32)) (.var 0))))) <|
  .seq (.assign 2 (.clamp (.call1 .floor (.bin .div (.var 0) (.const (0x40000000#32 : BitVec 32)))) (.const (0xbf800000#32 : BitVec 32))
    (.const (0x42c80000#32 : BitVec 32)))) <|
  .seq (.massign 0 (.bin .and (.test2 .isless (.var 2) (.var 1)) (.not (.test1 .signbit (.var 0)))))
    (.whereAssign (.var 0) 1 (.call3 .fma (.var 0) (.var 0) (.call1 .round (.var 1))))

/-- The values 2.5, -7, 1000. -/
def exFLane (i : Nat) : Lane (.float b32) (BitVec 32) where
  v := fun (_ : Nat) => ((if i = 0 then 0x40200000#32 else if i = 1 then 0xc0e00000#32 else 0x447a0000#32) : BitVec 32)
  m := fun _ => false
  arr := fun _ => 77#32

/-- Three elements in an SSE register; the fourth is a NaN. -/
def exFState (F : Geo → FloatCtx b32) : State (nativeImpl (exFCfg F) (.vec 32 3 4)) where
  v := fun (_ : Nat) => ([0x40200000#32, 0xc0e00000#32, 0x447a0000#32, 0x7fc00000#32] : List (BitVec 32))
  m := fun (_ : Nat) => (List.replicate 4 0#32 : VMask 32)
  mem := fun _ a => if a < 10 then some 77#32 else none

-- the program is defined for every element: 2.5 gives (9.25, 1), -7 gives (7, -1), 1000 gives (1001000, 100)
example : (List.range 3).map (fun i => (exFProg.exec (ieeeElem (env32 .nearest) exLib) id id 3 i (exFLane i)).map
    fun L => ((L.v 1 : BitVec 32), (L.v 2 : BitVec 32), L.m 0)) =
    [some (0x41140000#32, 0x3f800000#32, true), some (0x40e00000#32, 0xbf800000#32, false), some (0x49746280#32, 0x42c80000#32, true)] := by decide +kernel

example : ((run (nativeImpl (exFCfg exSse2) (.vec 32 3 4)) 0 (fun _ => 4) exFProg (exFState exSse2)).map fun S =>
    (List.take 3 (S.v 1 : List (BitVec 32)), List.take 3 (S.v 2 : List (BitVec 32)), maskLanes (.vec 32 3 4) (S.m 0))) =
    some ([0x41140000#32, 0x40e00000#32, 0x49746280#32], [0x3f800000#32, 0xbf800000#32, 0x42c80000#32], [true, false, true]) := by decide +kernel

-- the objects of that run meet the hypothesis `hS`
example (F : Geo → FloatCtx b32) : ObservedNative (exFCfg F) (.vec 32 3 4) (fun _ => 4) (exFState F) exFLane := by
  refine ⟨fun x => ⟨rfl, rfl⟩, fun x => ⟨⟨rfl, ?_⟩, rfl⟩, fun j i hi => ?_⟩
  · intro v hv
    exact .inl (List.eq_of_mem_replicate (List.mem_of_mem_take hv))
  · have : i < 3 := hi
    simp only [exFState, exFLane]; rw [if_pos (by omega)]

-- the hypotheses about the format hold for `float` and `double`
example : b32.Ok ∧ b32.mbits < b32.bias ∧ (⟨11, 52⟩ : Fmt).Ok ∧ (⟨11, 52⟩ : Fmt).mbits < (⟨11, 52⟩ : Fmt).bias := by
  refine ⟨b32_ok.1, b32_ok.2, ⟨by decide, by decide⟩, by decide⟩

/-- One element, and four elements: all zeros, `v0` negative, the others positive. -/
def exZeroLane (_ : Nat) : Lane (.float b32) (BitVec 32) where
  v := fun (x : Nat) => ((if x = 0 then 0x80000000#32 else 0#32) : BitVec 32)
  m := fun _ => false
  arr := fun _ => 77#32
def exZeroState (g : Geo) : State (nativeImpl (exFCfg exSse2) g) where
  v := fun (x : Nat) => (List.replicate g.full (if x = 0 then 0x80000000#32 else 0#32) : List (BitVec 32))
  m := fun (_ : Nat) => IntAbs.zeroMask g
  mem := fun _ a => if a < 10 then some 77#32 else none

/-- **C63, finding.** `v2 = min(v0, v1)` with `v0 = -0.f`, `v1 = 0.f`: `std::min` returns its first argument, and so does `min` with the scalar ABI; with
vectors the result is the second argument.  The specification of `min` above leaves the result open for this reason. -/
theorem C63_min_zero_wrong :
    let p : Stmt (.float b32) := .assign 2 (.call2 .min (.var 0) (.var 1))
    (∀ g, g = .scalar ∨ g = .vec 32 4 4 → ObservedNative (exFCfg exSse2) g (fun _ => 4) (exZeroState g) exZeroLane) ∧
    (run (nativeImpl (exFCfg exSse2) .scalar) 0 (fun _ => 4) p (exZeroState .scalar)).map (fun S => (S.v 2 : List (BitVec 32))) = some [0x80000000#32] ∧
    (run (nativeImpl (exFCfg exSse2) (.vec 32 4 4)) 0 (fun _ => 4) p (exZeroState (.vec 32 4 4))).map (fun S => (S.v 2 : List (BitVec 32))) =
      some (List.replicate 4 0#32) := by
  refine ⟨?_, by decide +kernel, by decide +kernel⟩
  rintro g (rfl | rfl)
  · refine ⟨fun x => ⟨rfl, ?_⟩, fun x => ⟨trivial, rfl⟩, fun j i hi => ?_⟩
    · rfl
    · have : i < 1 := hi
      simp only [exZeroState, exZeroLane]; rw [if_pos (by omega)]
  · refine ⟨fun x => ⟨rfl, ?_⟩, fun x => ⟨⟨rfl, ?_⟩, rfl⟩, fun j i hi => ?_⟩
    · rfl
    · intro v hv
      exact .inl (List.eq_of_mem_replicate (List.mem_of_mem_take hv))
    · have : i < 4 := hi
      simp only [exZeroState, exZeroLane]; rw [if_pos (by omega)]

/-- `v1 = clamp(abs(v0), 3, 10); m0 = signbit(v0); where (m0) v1 = max(v0, v1) - 1` for `signed char`. -/
def exIProg : Stmt (.int true 8) :=
  .seq (.assign 1 (.clamp (.call1 .abs (.var 0)) (.const (3#8 : BitVec 8)) (.const (10#8 : BitVec 8)))) <|
  .seq (.massign 0 (.test1 .signbit (.var 0))) (.whereAssign (.var 0) 1 (.bin .sub (.call2 .max (.var 0) (.var 1)) (.const (1#8 : BitVec 8))))

-- -128 has no magnitude; the other values are defined
example : ([-1#8, 5#8, 127#8, -100#8, -128#8].map fun (a : BitVec 8) =>
    (exIProg.exec ((intElem true 8 8).withFuns (intFuns true 8)) id id 4 0 (⟨fun (_ : Nat) => a, fun _ => false, fun _ => (0 : BitVec 8)⟩ : Lane (.int true 8) (BitVec 8))).map
      fun L => ((L.v 1 : BitVec 8), L.m 0)) = [some (2#8, true), some (5#8, false), some (10#8, false), some (9#8, true), none] := by decide +kernel

end

end StdSimd.Props
