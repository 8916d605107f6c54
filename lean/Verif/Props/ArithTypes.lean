import Verif.Model.ArithTypes
import Verif.Props.SimdMath
import Verif.Props.Control
import Verif.Props.MultiAbi
/-!
# C64 and C65 for floating-point types, and for programs that mix integer and floating-point types

The operators, functions and conversions of `Spec/ArithTypes.lean`.
-/
namespace StdSimd.Props
open StdSimd Spec Spec.Program Spec.Control Spec.Multi SimdClass Tuple Native MaskSplit
variable {ι : Type} [DecidableEq ι] {t : Abi.Target}

/-- **C64** for floating-point types: programs with branches and loops on reductions of masks, with the operators of IEEE 754 and the functions.
(`reduce` with `+` and `*` of floating-point numbers is not in these programs, as its result depends on the order of the operations.) -/
theorem C64_ieee {f : Fmt} (hf : f.Ok) (hw : f.mbits < f.bias) {T : Abi.Elem} {n : Nat} {β : Type} (ht : t.Consistent) (hT : T.Ok) (h1 : 1 ≤ n)
    (h64 : n ≤ 64) (env : f.Env) (lib : Lib f) (F : Geo → FloatCtx f) (hF : ∀ g, (F g).env = env ∧ (F g).lib = lib) (A : Arith (.float f))
    (C : Cfg (.float f) β) (hC : C.R = floatReg env F) {U : Abi.Elem} (hU : U.Ok) (same : Bool) (hX : C.xfer = Xfer.of t U same) (c : Bool)
    (isConst : BitMask n true → Bool) (base : Nat → Nat) (p : Ctl (.float f)) (hp : p.WellFormed A) (S : State (fixedImpl C (regs t T n) n))
    (L : Nat → Lane (.float f) β) (hS : Observed C t T n base S L) (fuel : Nat) :
    (∀ L', p.exec (ieeeElem env lib) A C.ld C.st n fuel L = .done L' →
      ∃ S', runCtl (fixedRed C t T.size A c (regs t T n) n isConst) 0 base fuel p S = .done S' ∧ Observed C t T n base S' L' ∧
        ∀ j a, (a < base j ∨ base j + n ≤ a) → S'.mem j a = S.mem j a) ∧
    (p.exec (ieeeElem env lib) A C.ld C.st n fuel L = .running →
      runCtl (fixedRed C t T.size A c (regs t T n) n isConst) 0 base fuel p S = .running) :=
  C64_control ht hT h1 h64 (E := ieeeElem env lib) A C (fun g hg => by
    rw [hC]; exact floatReg_implements hf hw env lib F ((regs_facts ht hT h1).2.1 g hg) (hF g).1 (hF g).2) hU same hX c isConst base p hp S L hS fuel

/-- `while (any_of(fabs(v0) > 3)) where(fabs(v0) > 3, v0) = v0 / 2` -/
def exCtlF : Ctl (.float Rounding.b32) :=
  .while (.anyOf (.cmp .gt (.call1 .fabs (.var 0)) (.const (0x40400000#32 : BitVec 32))))
    (.base (.whereAssign (.cmp .gt (.call1 .fabs (.var 0)) (.const (0x40400000#32 : BitVec 32))) 0 (.bin .div (.var 0) (.const (0x40000000#32 : BitVec 32)))))

/-- No reductions are used. -/
def exNoArith : Arith (.float Rounding.b32) := ⟨fun (a _ : BitVec 32) => (a : BitVec 32), fun (a _ : BitVec 32) => (a : BitVec 32), (0#32 : BitVec 32)⟩
/-- The results for 2.5, -7, 1000. -/
def exCtlFinal (fuel : Nat) : Option (List (BitVec 32)) :=
  match exCtlF.exec (ieeeElem (Props.env32 .nearest) exLib) exNoArith
    (id : BitVec 32 → BitVec 32) id 3 fuel exFLane with
  | .done L => some ((List.range 3).map fun i => ((L i).v 0 : BitVec 32))
  | _ => none

-- after 10 rounds the program has ended, before it is running: 2.5, -1.75, 1.953125
example : exCtlF.WellFormed exNoArith := trivial
example : exCtlFinal 10 = some [0x40200000#32, 0xbfe00000#32, 0x3ffa0000#32] ∧ exCtlFinal 9 = none := by decide +kernel

/-- Integer types have 8, 16, 32 or 64 bits, as many as the size says. -/
def TyOk (T : Abi.Elem) : ArithTy → Prop
  | .int _ w => w = 8 * T.size ∧ T.size ∈ [1, 2, 4, 8]
  | .float _ _ _ => True

theorem abi_fits (ht : t.Consistent) {T : Abi.Elem} (hT : T.Ok) (hs : T.size ∈ [1, 2, 4, 8]) {a : Abi.Tag} (hv : Abi.valid t T a = true) :
    ∀ g ∈ abiRegs t T (shape t T a), IntAbs.Fits (8 * T.size) g := by
  intro g hg
  by_cases hfix : ∃ m, a = .fixed m
  · obtain ⟨m, rfl⟩ := hfix
    exact IntAbs_fits ht hT hs m g hg
  · have hnf : ∀ m, a ≠ .fixed m := fun m h => hfix ⟨m, h⟩
    have hg' : g = Geo.ofTag t T a := by
      cases a with
      | fixed m => exact absurd rfl (hnf m)
      | scalar => exact List.mem_singleton.1 hg
      | builtin b => exact List.mem_singleton.1 hg
      | btmsk b => exact List.mem_singleton.1 hg
    subst hg'
    refine ⟨by simp at hs; omega, fun _ => ?_⟩
    rcases regular_of_valid hT hv hnf with h | ⟨_, h2, _⟩
    · exact .inl h
    · have := (ofTag_ok hT hv hnf).1.size_le
      exact .inr (by omega)

theorem arithReg_implements (ht : t.Consistent) {T : Abi.Elem} (hT : T.Ok) {y : ArithTy} (hK : TyOk T y) (W : FloatSem) (X : ArithCtx)
    (hF : ∀ f h g, (X.flt f h g).env = W.env f h ∧ (X.flt f h g).lib = W.lib f) (ops : BOp → Bool) {tag : Abi.Tag} (hv : Abi.valid t T tag = true)
    (ho : (ops .div = true ∨ ops .mod = true) → (∀ w, y ≠ .int true w) ∨ ∀ g ∈ abiRegs t T (shape t T tag), g.size = g.full) :
    ∀ g ∈ abiRegs t T (shape t T tag), Implements (arithReg W X y) (arithElem W ops y) g := by
  intro g hg
  have hg' : g.Ok := (abiRegs_facts ht hT (shape_ok hT hv).1).1 g hg
  cases y with
  | int s w =>
    obtain ⟨rfl, hs⟩ := hK
    refine (builtinInt_implements s (by simp at hs; omega) (X.junk _) hg' ops (fun h => ?_)).withFuns
      (intRegFuns_implements s (by simp at hs; omega) (X.abs _) (X.cmp s _) hg' (fun _ => abi_fits ht hT hs hv g hg))
    rcases ho h with h | h
    · left
      cases s
      · rfl
      · exact absurd rfl (h _)
    · exact .inr (h g hg)
  | float f h1 h2 => exact floatReg_implements h1 h2 (W.env f h1) (W.lib f) (X.flt f h1) hg' (hF f h1 g).1 (hF f h1 g).2

/-- **C65** for all arithmetic types of any ABI, partial: as `C65_abi_partial`, and without `/` and `%` of signed integers with partially filled registers
(`C63_signed_division_wrong`).  Conversions that truncate a value that the integer type cannot represent are undefined, as in C++. -/
theorem C65_arithmetic_partial (ty : ι → ArithTy) {β : ι → Type} (ht : t.Consistent) {T : ι → Abi.Elem} (hT : ∀ a, (T a).Ok)
    (hK : ∀ a, TyOk (T a) (ty a))
    (W : FloatSem) (X : ArithCtx) (hF : ∀ f h g, (X.flt f h g).env = W.env f h ∧ (X.flt f h g).lib = W.lib f) (Y : Types (fun a => (ty a).kind) β) (ops : ι → BOp → Bool)
    (hE : ∀ a, Y.E a = arithElem W (ops a) (ty a)) (hcv : ∀ a b, Y.cv a b = arithCast W (ty a) (ty b))
    (tag : ι → Abi.Tag) (hv : ∀ a, Abi.valid t (T a) (tag a) = true) (hn : ∀ a, Y.n a = Abi.size (T a) (tag a))
    (hops : ∀ a, (ops a .div = true ∨ ops a .mod = true) → (∀ w, ty a ≠ .int true w) ∨ ∀ g ∈ abiRegs t (T a) (shape t (T a) (tag a)), g.size = g.full)
    (C : ∀ a, Cfg (ty a).kind (β a)) (hld : ∀ a, (C a).ld = Y.ld a) (hst : ∀ a, (C a).st = Y.st a) (hC : ∀ a, (C a).R = arithReg W X (ty a)) {U : ι → Abi.Elem}
    (hU : ∀ a, (U a).Ok) (memSame : ι → Bool) (hX : ∀ a, (C a).xfer = Xfer.of t (U a) (memSame a))
    (hraw : ∀ a g, shape t (T a) (tag a) = .native g → (C a).path g = .raw → Exact g)
    (ctx : ∀ a b, Convert.Ctx (ty a).kind.Bits (ty b).kind.Bits)
    (hcast : ∀ a b x y, arithCast W (ty a) (ty b) x = some y → (ctx a b).cast x = y) (same ident : ι → ι → Bool)
    (hsame : ∀ a b, same a b = true → T a = T b) (hident : ∀ a b, ident a b = true → T a = T b) (c : ι → Bool) (path : ι → VecPath) (wide : ι → Bool)
    (hf : ∀ a, AbiFit (path a) (wide a) (shape t (T a) (tag a))) (isConst : ∀ a, (abiImpl (C a) t (T a) (shape t (T a) (tag a))).M → Bool)
    (base : ι → Nat → Nat) (p : Prog (fun a => (ty a).kind)) (hp : p.WellFormed Y)
    (hq : p.Convs (fun a b => IsFixed (shape t (T a) (tag a)) ∧ IsFixed (shape t (T b) (tag b))) (fun a b => T a = T b)
      (fun a b => Resizable (shape t (T a) (tag a)) (shape t (T b) (tag b))))
    (hl : ∀ a, p.usesLast a = true → AbiLast (shape t (T a) (tag a)))
    (S : ∀ a, State (abiImpl (C a) t (T a) (shape t (T a) (tag a)))) (L : ∀ a, Nat → Lane (ty a).kind (β a))
    (hS : ∀ a, ObservedAbi (C a) t (T a) (shape t (T a) (tag a)) (base a) (S a) (L a)) (fuel : Nat) :
    (∀ L', p.exec Y fuel L = .done L' →
      ∃ S', runMulti (fun a => abiRed (C a) t (T a) (Y.A a) (path a) (wide a) (c a) (shape t (T a) (tag a)) (isConst a))
          (abiCasts t T tag C ctx same ident) (fun a => (Y.E a).width) base fuel p S = .done S' ∧
        (∀ a, ObservedAbi (C a) t (T a) (shape t (T a) (tag a)) (base a) (S' a) (L' a)) ∧
        ∀ a j x, (x < base a j ∨ base a j + Y.n a ≤ x) → (S' a).mem j x = (S a).mem j x) ∧
    (p.exec Y fuel L = .running →
      runMulti (fun a => abiRed (C a) t (T a) (Y.A a) (path a) (wide a) (c a) (shape t (T a) (tag a)) (isConst a))
        (abiCasts t T tag C ctx same ident) (fun a => (Y.E a).width) base fuel p S = .running) := by
  refine C65_abi_partial ht hT Y tag hv hn C hld hst (fun a g hg => ?_) hU memSame hX hraw ctx
    (fun a b x y h => hcast a b x y (by rw [← hcv]; exact h)) same ident hsame hident c path wide hf isConst base p hp hq hl S L hS fuel
  rw [hC a, hE a]
  exact arithReg_implements ht (hT a) (hK a) W X hF (ops a) (hv a) (hops a) g hg

/-! ## a concrete program -/

/-- Every format has NaNs. -/
theorem isNaN_infMag_succ {f : Fmt} (h : f.Ok) : f.isNaN (f.ofMag false (f.infMag + 1)) := by
  have hm : 2 ≤ 2 ^ f.mbits := Nat.pow_le_pow_right (n := 2) (by decide) h.2
  have he := Nat.two_pow_pos f.ebits
  have hlt : f.infMag + 1 < 2 ^ (f.ebits + f.mbits) := by
    unfold Fmt.infMag
    rw [Nat.pow_add, Nat.sub_mul]
    have : 1 * 2 ^ f.mbits ≤ 2 ^ f.ebits * 2 ^ f.mbits := Nat.mul_le_mul_right _ he
    omega
  have ht : (f.ofMag false (f.infMag + 1)).toNat = (2 ^ f.ebits - 1) * 2 ^ f.mbits + 1 := by
    rw [StdSimd.FloatBits.ofMag_toNat false hlt]; simp [Fmt.infMag]
  constructor
  · unfold Fmt.expo
    rw [ht, Nat.mul_comm, Nat.mul_add_div (Nat.two_pow_pos _), Nat.div_eq_of_lt (show 1 < 2 ^ f.mbits by omega), Nat.add_zero,
      Nat.mod_eq_of_lt (show 2 ^ f.ebits - 1 < 2 ^ f.ebits by omega)]
  · unfold Fmt.mant
    rw [ht, Nat.mul_comm, Nat.mul_add_mod, Nat.mod_eq_of_lt (show 1 < 2 ^ f.mbits by omega)]
    omega

/-- Round to nearest; every NaN result is the same; the functions of the C library return their first argument. -/
def exArSem : FloatSem where
  env _ h := ⟨.nearest, fun _ _ => Fmt.ofMag _ false (Fmt.infMag _ + 1), fun _ _ => isNaN_infMag_succ h⟩
  lib _ := ⟨fun _ a => a, fun _ a _ => a, fun _ a _ _ => a⟩
  nan _ d _ := d.ofMag false (d.infMag + 1)

/-- The code for AVX2. -/
def exArCtx : ArithCtx where
  junk _ x i := x + BitVec.ofNat _ i
  abs _ _ := ⟨32, true, []⟩
  cmp _ _ _ := ⟨true, false, [], []⟩
  flt f h _ := ⟨exArSem.env f h, exArSem.lib f, .instr, true, false, true, .base, .cmp⟩

/-- `fixed_size_simd<unsigned char, 4>`, and `simd<int, _VecBuiltin<16>>`, `simd<float, _VecBuiltin<16>>`, `simd<double, _VecBuiltin<32>>`. -/
inductive ExAr
  | bytes | ints | flts | dbls
  deriving DecidableEq

namespace ExAr
abbrev ty : ExAr → ArithTy
  | bytes => .int false 8
  | ints => .int true 32
  | flts => .float ⟨8, 23⟩ (by decide) (by decide)
  | dbls => .float ⟨11, 52⟩ (by decide) (by decide)
abbrev elem : ExAr → Abi.Elem
  | bytes => ⟨1, false⟩
  | ints => ⟨4, false⟩
  | flts => ⟨4, true⟩
  | dbls => ⟨8, true⟩
abbrev tag : ExAr → Abi.Tag
  | bytes => .fixed 4
  | ints => .builtin 16
  | flts => .builtin 16
  | dbls => .builtin 32
end ExAr
open ExAr in
/-- Elements and memory are bit patterns; signed division is left out. -/
def exArTypes : Types (fun a => (ty a).kind) (fun a => (ty a).kind.Bits) where
  E a := arithElem exArSem (fun o => !(o == .div) && !(o == .mod)) (ty a)
  A
    | bytes => ⟨fun (x y : BitVec 8) => (x + y : BitVec 8), fun (x y : BitVec 8) => (x * y : BitVec 8), (1#8 : BitVec 8)⟩
    | ints => ⟨fun (x y : BitVec 32) => (x + y : BitVec 32), fun (x y : BitVec 32) => (x * y : BitVec 32), (1#32 : BitVec 32)⟩
    | flts => ⟨fun (x _ : BitVec 32) => x, fun (x _ : BitVec 32) => x, (1#32 : BitVec 32)⟩
    | dbls => ⟨fun (x _ : BitVec 64) => x, fun (x _ : BitVec 64) => x, (1#64 : BitVec 64)⟩
  ld _ := id
  st _ := id
  n _ := 4
  cv a b := arithCast exArSem (ty a) (ty b)

open ExAr in
/-- `c0 = 60 * i + 9; f0 = static_simd_cast<float>(c0); f1 = sqrt(f0) * 10; while (any_of(f1 > 50)) where(f1 > 50, f1) = f1 / 2; f2 = floor(f1);
i0 = static_simd_cast<int>(-f1); i1 = abs(i0 + 40); i_mask0 = static_simd_cast<int>(isless(f2, f1)); where(i_mask0, i1) = max(i1, 9); i2 = reduce(i1);
d0 = static_simd_cast<double>(f1); d1 = fma(d0, d0, 1.0); f3 = static_simd_cast<float>(d1)` -/
def exArProg : Prog (fun a => (ty a).kind) :=
  .seq (.on bytes (.base (.assign 0 (.gen fun i => (BitVec.ofNat 8 (60 * i + 9) : BitVec 8))))) <|
  .seq (.cast false bytes flts 0 (.var 0)) <|
  .seq (.on flts (.base (.assign 1 (.bin .mul (.call1 .sqrt (.var 0)) (.const (0x41200000#32 : BitVec 32)))))) <|
  .seq (.while (.on flts (.anyOf (.cmp .gt (.var 1) (.const (0x42480000#32 : BitVec 32)))))
    (.on flts (.base (.whereAssign (.cmp .gt (.var 1) (.const (0x42480000#32 : BitVec 32))) 1 (.bin .div (.var 1) (.const (0x40000000#32 : BitVec 32))))))) <|
  .seq (.on flts (.base (.assign 2 (.call1 .floor (.var 1))))) <|
  .seq (.cast false flts ints 0 (.neg (.var 1))) <|
  .seq (.on ints (.base (.assign 1 (.call1 .abs (.bin .add (.var 0) (.const (40#32 : BitVec 32))))))) <|
  .seq (.mcast false flts ints 0 (.test2 .isless (.var 2) (.var 1))) <|
  .seq (.on ints (.base (.whereAssign (.var 0) 1 (.call2 .max (.var 1) (.const (9#32 : BitVec 32)))))) <|
  .seq (.on ints (.reduce 2 .plus (.var 1))) <|
  .seq (.cast false flts dbls 0 (.var 1)) <|
  .seq (.on dbls (.base (.assign 1 (.call3 .fma (.var 0) (.var 0) (.const (0x3ff0000000000000#64 : BitVec 64)))))) <|
  (.cast false dbls flts 3 (.var 1))

open ExAr in
def exArZero (a : ExAr) (_ : Nat) : Lane (ty a).kind (ty a).kind.Bits where
  v := fun _ => match a with
    | bytes => (0#8 : BitVec 8)
    | ints => (0#32 : BitVec 32)
    | flts => (0#32 : BitVec 32)
    | dbls => (0#64 : BitVec 64)
  m := fun _ => false
  arr := fun _ => match a with
    | bytes => (0#8 : BitVec 8)
    | ints => (0#32 : BitVec 32)
    | flts => (0#32 : BitVec 32)
    | dbls => (0#64 : BitVec 64)

open ExAr in
/-- `f1`, `i1`, `i2`, `d1`, `f3` at the end. -/
def exArShow (L : ∀ a, Nat → Lane (ty a).kind (ty a).kind.Bits) : List Nat × List Int × List Int × List Nat × List Nat :=
  ((List.range 4).map fun i => BitVec.toNat ((L flts i).v 1 : BitVec 32),
   (List.range 4).map fun i => BitVec.toInt ((L ints i).v 1 : BitVec 32),
   (List.range 4).map fun i => BitVec.toInt ((L ints i).v 2 : BitVec 32),
   (List.range 4).map fun i => BitVec.toNat ((L dbls i).v 1 : BitVec 64),
   (List.range 4).map fun i => BitVec.toNat ((L flts i).v 3 : BitVec 32))

def exArFinal : Option (List Nat × List Int × List Int × List Nat × List Nat) :=
  match exArProg.exec exArTypes 9 exArZero with
  | .done L => some (exArShow L)
  | _ => none

-- the specified program ends: `f1 = 30, 41.53.., 28.39.., 34.37..`
theorem exArFinal_eq : exArFinal = some
    ([0x41f00000, 0x422621ea, 0x41e32806, 0x42097a2f], [10, 9, 12, 9], [40, 40, 40, 40],
      [4651136495631990784, 4655305843683260672, 4650311862393242752, 4652914406600288320], [1147224064, 1154990080, 1145688065, 1150535681]) := by decide +kernel

theorem exArProg_wf : exArProg.WellFormed exArTypes :=
  ⟨trivial, rfl, trivial, trivial, trivial, rfl, trivial, rfl, trivial,
    ⟨fun (a b c : BitVec 32) => BitVec.add_assoc a b c, fun (a b : BitVec 32) => BitVec.add_comm a b, fun (a : BitVec 32) => BitVec.add_zero a⟩, rfl, trivial, rfl⟩

open ExAr

theorem exArProg_convs : exArProg.Convs (fun a b => IsFixed (shape exAvx2 (elem a) (tag a)) ∧ IsFixed (shape exAvx2 (elem b) (tag b)))
    (fun a b => elem a = elem b) (fun a b => Resizable (shape exAvx2 (elem a) (tag a)) (shape exAvx2 (elem b) (tag b))) :=
  ⟨trivial, nofun, trivial, trivial, trivial, nofun, trivial, nofun, trivial, trivial, nofun, trivial, nofun⟩

def exArCfg (a : ExAr) : Cfg (ty a).kind (ty a).kind.Bits where
  R := arithReg exArSem exArCtx (ty a)
  c _ := true
  ctx _ := ⟨true, false, [], []⟩
  xfer := Xfer.of exAvx2 (elem a) true
  path _ := .iter
  junk := (exArZero a 0).v 0
  ld := id
  st := id

def exArCvt (a b : ExAr) : Convert.Ctx (ty a).kind.Bits (ty b).kind.Bits where
  cast x := (arithCast exArSem (ty a) (ty b) x).getD ((exArZero b 0).v 0)
  zeroA := (exArZero a 0).v 0
  zeroB := (exArZero b 0).v 0
  junkA _ := (exArZero a 0).v 0
  junkB _ := (exArZero b 0).v 0
  x86 := fun l => l.length == 1

/-- The objects at the beginning exist, the theorem applies, and the user sees the numbers above in the objects at the end. -/
example : ∃ S : ∀ a, State (abiImpl (exArCfg a) exAvx2 (elem a) (shape exAvx2 (elem a) (tag a))), ∃ S',
    (∀ a, ObservedAbi (exArCfg a) exAvx2 (elem a) (shape exAvx2 (elem a) (tag a)) (fun j => 100 * j) (S a) (exArZero a)) ∧
    runMulti (fun a => abiRed (exArCfg a) exAvx2 (elem a) (exArTypes.A a) .generic false true (shape exAvx2 (elem a) (tag a)) (fun _ => false))
      (abiCasts exAvx2 elem tag exArCfg exArCvt (fun a b => a == b) (fun a b => a == b)) (fun a => (exArTypes.E a).width) (fun _ j => 100 * j) 9
      exArProg S = .done S' ∧
    (((S' ints).v 1 : List (BitVec 32)).take 4).map BitVec.toInt = [10, 9, 12, 9] ∧
    (((S' flts).v 1 : List (BitVec 32)).take 4).map BitVec.toNat = [0x41f00000, 0x422621ea, 0x41e32806, 0x42097a2f] := by
  have hc : exAvx2.Consistent := exAvx2_ok
  have hT : ∀ a, (elem a).Ok := by intro a; cases a <;> decide
  have hv : ∀ a, Abi.valid exAvx2 (elem a) (tag a) = true := by intro a; cases a <;> decide
  have hK : ∀ a, TyOk (elem a) (ty a) := by intro a; cases a <;> trivial
  have hok := fun a => (shape_ok (hT a) (hv a)).1
  have hops : ∀ a : ExAr, ((fun o => !(o == BOp.div) && !(o == .mod)) BOp.div = true ∨ (fun o => !(o == BOp.div) && !(o == .mod)) BOp.mod = true) →
      (∀ w, ty a ≠ .int true w) ∨ ∀ g ∈ abiRegs exAvx2 (elem a) (shape exAvx2 (elem a) (tag a)), g.size = g.full := fun a h => by simp at h
  have hS : ∀ a, ∃ S, ObservedAbi (exArCfg a) exAvx2 (elem a) (shape exAvx2 (elem a) (tag a)) (fun j => 100 * j) S (exArZero a) := by
    intro a
    obtain ⟨S, hS⟩ := exists_rep (abi_correct hc (hT a) (hok a) (exArCfg a) (E := exArTypes.E a)
      (fun g hg => arithReg_implements hc (hT a) (hK a) exArSem exArCtx (fun _ _ _ => ⟨rfl, rfl⟩) _ (hv a) (hops a) g hg) (hT a) true rfl (fun _ _ h => by cases h))
      (fun j => 100 * j) (exArZero a)
    exact ⟨S, (observedAbi_iff hc (hT a) (hok a) _ _ _ _).2 hS⟩
  obtain ⟨L, hL, hs⟩ : ∃ L, exArProg.exec exArTypes 9 exArZero = .done L ∧ some (exArShow L) = exArFinal := by
    have h := exArFinal_eq
    unfold exArFinal at h ⊢
    split at h
    · rename_i L e; exact ⟨L, e, rfl⟩
    · cases h
  rw [exArFinal_eq] at hs
  have hs := Option.some.inj hs
  have h1 := congrArg (fun (x : List Nat × List Int × List Int × List Nat × List Nat) => x.2.1) hs
  have h2 := congrArg (fun (x : List Nat × List Int × List Int × List Nat × List Nat) => x.1) hs
  refine ⟨fun a => (hS a).choose, ?_⟩
  obtain ⟨S', e, o, _⟩ := (C65_arithmetic_partial ty hc hT hK exArSem exArCtx (fun _ _ _ => ⟨rfl, rfl⟩) exArTypes (fun _ o => !(o == .div) && !(o == .mod))
    (fun a => rfl) (fun a b => rfl) tag hv (by intro a; cases a <;> rfl) hops exArCfg (fun a => rfl) (fun a => rfl) (fun a => rfl) hT
    (fun _ => true) (fun a => rfl) (fun _ _ _ h => by cases h) exArCvt (fun a b x y h => by simp [exArCvt, h])
    (fun a b => a == b) (fun a b => a == b) (fun a b h => by rw [eq_of_beq h]) (fun a b h => by rw [eq_of_beq h]) (fun _ => true)
    (fun _ => .generic) (fun _ => false) (by intro a; cases a <;> trivial)
    (fun _ _ => false) (fun _ j => 100 * j) exArProg exArProg_wf exArProg_convs (fun a h => by cases a <;> exact absurd h (by decide)) _ exArZero
    (fun a => (hS a).choose_spec) 9).1 L hL
  refine ⟨S', fun a => (hS a).choose_spec, e, ?_, ?_⟩
  · refine (congrArg (List.map BitVec.toInt) ((List.append_nil _).symm.trans ((o ints).v 1).2)).trans ?_
    exact (List.map_map (f := fun i => ((L ints i).v 1 : BitVec 32)) (g := BitVec.toInt) (l := List.range 4)).trans h1
  · refine (congrArg (List.map BitVec.toNat) ((List.append_nil _).symm.trans ((o flts).v 1).2)).trans ?_
    exact (List.map_map (f := fun i => ((L flts i).v 1 : BitVec 32)) (g := BitVec.toNat) (l := List.range 4)).trans h2

end StdSimd.Props
