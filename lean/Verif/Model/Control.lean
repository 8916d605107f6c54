import Verif.Model.SimdNative
import Verif.Model.MaskConst
import Verif.Model.Reduce
import Verif.Spec.Control
/-!
# Model: programs whose control flow depends on masks

The free functions `all_of`, ..., `find_last_set` (experimental/bits/simd.h:4627-4735) in front of the functions of the mask implementation
classes, the subscript operators and `reduce`, and a program that uses them (`runCtl`).
-/
namespace StdSimd.SimdClass
open Spec Spec.Program Spec.Control Native

/-- The reductions of a mask implementation class: `_S_all_of`, ..., `_S_find_last_set`. -/
structure MaskFns (M : Type) where
  allOf : M → Bool
  anyOf : M → Bool
  noneOf : M → Bool
  someOf : M → Bool
  popcount : M → Option Int
  first : M → Option Int
  last : M → Option Int

/-- `_MaskImplFixedSize` (simd_fixed_size.h:2012-2066). -/
def fixedFns (n : Nat) : MaskFns (BitMask n true) where
  allOf := FixedMask.allOf
  anyOf := FixedMask.anyOf
  noneOf := FixedMask.noneOf
  someOf := FixedMask.someOf
  popcount k := some (FixedMask.popcount k)
  first k := (FixedMask.findFirstSet k).map fun (i : Nat) => (i : Int)
  last := FixedMask.findLastSet

/-- `_MaskImplScalar` (simd_scalar.h:718-765). -/
def scalarFns : MaskFns Bool where
  allOf k := k
  anyOf k := k
  noneOf k := !k
  someOf _ := false
  popcount k := some (if k then 1 else 0)
  first _ := some 0
  last _ := some 0

/-- Which functions a vector mask has: those of `_MaskImplBuiltin` or of `_MaskImplX86`, and what the latter depend on: SSE4.1, POPCNT, floating-point
elements, `testc_ps` etc. (which look at signs only), and which `movemask` is used. -/
inductive VecPath where
  | generic
  | x86 (sse41 popcnt fp signOnly isInt : Bool)

/-- `_MaskImplX86::_S_popcount` without POPCNT (simd_x86.h:5065-5137).  For registers of 32 bytes with elements of 1, 2 or 4 bytes the code computes
the count but has no `return` (5123-5133): `none`. -/
def x86Popcount (n full : Nat) : {w : Nat} → VMask w → Option Int
  | 64, k => some (if n = 2 then VMask.x86Popcount8x2 full k else VMask.x86Popcount8x4 n full k)
  | 32, k => if n ≤ 4 then some (VMask.x86Popcount4x4 n full k) else none
  | 16, k => if n ≤ 8 then some (VMask.x86Popcount2x8 n full k) else none
  | 8, k => if n ≤ 16 then some (VMask.x86Popcount1x16 n full k : Nat) else none
  | _, _ => none

/-- `_MaskImplBuiltin` (simd_builtin.h:2889-2965), `_MaskImplX86` for vector masks (simd_x86.h:4877-5160). -/
def vecFns (p : VecPath) (w n full : Nat) : MaskFns (VMask w) where
  allOf k := match p with | .generic => VMask.allOf n k | .x86 sse41 _ fp so _ => VMask.x86AllOf sse41 fp so n full k
  anyOf k := match p with | .generic => VMask.anyOf n k | .x86 sse41 _ fp so _ => VMask.x86AnyOf sse41 fp so n full k
  noneOf k := match p with | .generic => VMask.noneOf n k | .x86 sse41 _ fp so _ => VMask.x86NoneOf sse41 fp so n full k
  someOf k := match p with | .generic => VMask.someOf n k | .x86 sse41 _ fp so _ => VMask.x86SomeOf sse41 fp so n full k
  popcount k := match p with
    | .generic => some (VMask.popcount n k)
    | .x86 _ true fp _ _ => some (VMask.x86PopcountPopcnt fp n full k : Nat)
    | .x86 _ false _ _ _ => x86Popcount n full k
  first k := match p with
    | .generic => (VMask.findFirstSet n (VMask.toBits n k)).map fun (i : Nat) => (i : Int)
    | .x86 _ _ _ _ isInt => (VMask.findFirstSet n (VMask.x86ToBitsSign n isInt k)).map fun (i : Nat) => (i : Int)
  last k := match p with
    | .generic => VMask.findLastSet n (VMask.toBits n k)
    | .x86 _ _ _ _ isInt => VMask.findLastSet n (VMask.x86ToBitsSign n isInt k)

/-- `_MaskImplX86` for bit masks (simd_x86.h:4900-5160). -/
def kFns (wide : Bool) (n : Nat) : MaskFns (KMask n) where
  allOf := KMask.allOf wide
  anyOf := KMask.anyOf
  noneOf := KMask.noneOf
  someOf := KMask.someOf wide
  popcount k := some (KMask.popcount k : Nat)
  first k := some (KMask.findFirstSet k : Nat)
  last k := some (KMask.findLastSet k)

/-- The mask implementation class of a native ABI. -/
def nativeFns (p : VecPath) (wide : Bool) : (g : Geo) → MaskFns (MaskM g)
  | .scalar => scalarFns
  | .vec w n f => vecFns p w n f
  | .bitmask n _ => kFns wide n

/-- What a program needs besides `Impl`. -/
structure RedImpl {K : Kind} {β : Type} (I : Impl K β) where
  fns : MaskFns I.M
  /-- the compiler knows the value of the mask (`_M_is_constprop`, simd.h:4629); simplification: it depends on the value, not on the call -/
  isConst : I.M → Bool
  /-- `k[i]` -/
  mget : I.M → Nat → Option Bool
  /-- `v[i]` -/
  get : I.V → Nat → Option K.Bits
  reduce : ROp K → I.V → Option K.Bits
  whereReduce : ROp K → I.M → I.V → K.Bits → Option K.Bits

variable {K : Kind} {β : Type}

section run
variable {I : Impl K β} (R : RedImpl I) (width : Nat) (base : Nat → Nat)

/-- `simd_mask::operator[]` with an `int` (simd.h:4402-4411): a subscript out of range calls `__invoke_ub`. -/
def RedImpl.sub (k : I.M) (i : Int) : Option Bool := if i < 0 then none else if I.size ≤ i.toNat then none else R.mget k i.toNat

/-- `all_of` (simd.h:4627-4640). -/
def RedImpl.allOf (k : I.M) : Option Bool := if R.isConst k then MaskConst.allOf I.size (fun i => R.sub k i) else some (R.fns.allOf k)
/-- `any_of` (simd.h:4642-4655). -/
def RedImpl.anyOf (k : I.M) : Option Bool := if R.isConst k then MaskConst.anyOf I.size (fun i => R.sub k i) else some (R.fns.anyOf k)
/-- `none_of` (simd.h:4657-4670). -/
def RedImpl.noneOf (k : I.M) : Option Bool := if R.isConst k then MaskConst.noneOf I.size (fun i => R.sub k i) else some (R.fns.noneOf k)
/-- `some_of` (simd.h:4672-4685). -/
def RedImpl.someOf (k : I.M) : Option Bool := if R.isConst k then MaskConst.someOf I.size (fun i => R.sub k i) else some (R.fns.someOf k)
/-- `popcount` (simd.h:4687-4699). -/
def RedImpl.popcount (k : I.M) : Option Int :=
  if R.isConst k then (MaskConst.popcount I.size (fun i => R.sub k i)).map fun (c : Nat) => (c : Int) else R.fns.popcount k
/-- `find_first_set` (simd.h:4701-4717). -/
def RedImpl.first (k : I.M) : Option Int :=
  if R.isConst k then (MaskConst.findFirstSet I.size (fun i => R.sub k i)).map fun (c : Nat) => (c : Int) else R.fns.first k
/-- `find_last_set` (simd.h:4719-4735). -/
def RedImpl.last (k : I.M) : Option Int := if R.isConst k then MaskConst.findLastSet I.size (fun i => R.sub k i) else R.fns.last k

/-- `simd::operator[] const` (simd.h:4991-5002). -/
def RedImpl.elemAt (x : I.V) (i : Int) : Option K.Bits := if i < 0 then none else R.get x i.toNat

/-- Integer expressions. -/
def evalN (S : State I) : NE K → Option Int
  | .lit i => some i
  | .popcount k => do let x ← evalM I width S k; R.popcount x
  | .first k => do let x ← evalM I width S k; R.first x
  | .last k => do let x ← evalM I width S k; R.last x

/-- Conditions. -/
def evalC (S : State I) : CE K → Option Bool
  | .allOf k => do let x ← evalM I width S k; R.allOf x
  | .anyOf k => do let x ← evalM I width S k; R.anyOf x
  | .noneOf k => do let x ← evalM I width S k; R.noneOf x
  | .someOf k => do let x ← evalM I width S k; R.someOf x
  | .bit k i => do let x ← evalM I width S k; let j ← evalN R width S i; R.sub x j
  | .num i p => do let j ← evalN R width S i; pure (p j)
  | .elem e i p => do let x ← evalV I width S e; let j ← evalN R width S i; let a ← R.elemAt x j; pure (p a)
  | .not c => do let b ← evalC S c; pure !b
  | .and c d => do let b ← evalC S c; if b then evalC S d else pure false

/-- Programs.  `v[i] = a` (simd.h:4988-4990) with an index from another operation; `simd(a)` is the broadcast constructor (4923-4928); `reduce`
(3438-3464). -/
def runCtl (fuel : Nat) : Ctl K → State I → Outcome (State I)
  | .base s, S => .ofOption (run I width base s S)
  | .seq p q, S => (runCtl fuel p S).bind (runCtl fuel q)
  | .ite c p q, S =>
    match evalC R width S c with
    | none => .undef
    | some b => if b then runCtl fuel p S else runCtl fuel q S
  | .while c p, S => loop (fun S => evalC R width S c) (runCtl fuel p) fuel S
  | .pick d e i, S => .ofOption do
    let x ← evalV I width S e
    let j ← evalN R width S i
    let a ← R.elemAt x j
    pure (setV I S d (I.broadcast a))
  | .put d i e j, S => .ofOption do
    let x ← evalV I width S e
    let b ← evalN R width S j
    let a ← R.elemAt x b
    let c ← evalN R width S i
    if 0 ≤ c ∧ c < I.size then pure (setV I S d (I.set (S.v d) c.toNat a)) else none
  | .reduce d o e, S => .ofOption do
    let x ← evalV I width S e
    let a ← R.reduce o x
    pure (setV I S d (I.broadcast a))
  | .whereReduce d o k v ident, S => .ofOption do
    let x ← evalM I width S k
    let a ← R.whereReduce o x (S.v v) ident
    pure (setV I S d (I.broadcast a))

end run

/-- What `_S_reduce` distinguishes (simd_builtin.h:1828, 1837). -/
def redKind : ROp K → Reduce.Kind
  | .plus => .plus
  | .multiplies => .multiplies
  | .other _ => .other

/-- `fixed_size<n>`: `simd_mask::operator[]` is `_SanitizedBitMask::operator[]` (simd.h:4402-4411), `simd::operator[]` is `_SimdTuple::operator[]`
(4991-5002); `c` and `ch` say what the compiler knows in `reduce`. -/
def fixedRed (C : Cfg K β) (t : Abi.Target) (s : Nat) (A : Arith K) (c : Bool) (gs : List Geo) (n : Nat)
    (isConst : BitMask n true → Bool) :
    RedImpl (fixedImpl C gs n) where
  fns := fixedFns n
  isConst := isConst
  mget k i := BitMask.get (n := n) (s := true) k i
  get x i := Tuple.get gs x i
  reduce o x := Reduce.reduceFixed t (redKind o) (o.fn A) 0#K.width A.one s c gs x
  whereReduce o k v ident := Reduce.maskedReduceFixed (n := n) t (redKind o) (o.fn A) 0#K.width A.one s c C.c gs k v ident

/-- `simd_mask::operator[] const` for native masks (simd.h:4402-4411): of an in-range subscript. -/
def nmGet : (g : Geo) → MaskM g → Nat → Option Bool
  | .scalar, (k : Bool), _ => some k
  | .vec w _ _, (k : VMask w), i => (k[i]?).map (· != 0#w)
  | .bitmask n _, (k : KMask n), i => some (k.getLsbD i)

/-- Native ABIs. -/
def nativeRed (C : Cfg K β) (t : Abi.Target) (s : Nat) (A : Arith K) (p : VecPath) (wide : Bool) (g : Geo) (isConst : MaskM g → Bool) :
    RedImpl (nativeImpl C g) where
  fns := nativeFns p wide g
  isConst := isConst
  mget k i := nmGet g k i
  get x i := Native.get x i
  reduce o x := Reduce.reduceGeo t (redKind o) (o.fn A) 0#K.width A.one s g x
  whereReduce o k v ident := Reduce.maskedReduceGeo t (redKind o) (o.fn A) 0#K.width A.one s (C.c 0) g k v ident

end StdSimd.SimdClass
