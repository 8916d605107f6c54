import Verif.Model.WhereExpr
import Verif.Model.Compare
import Verif.Model.FixedMask
import Verif.Model.Division
import Verif.Spec.Program
/-!
# Model of the class templates `simd` and `simd_mask` (experimental/bits/simd.h:4264-4547, 4764-5130)

The class templates are written in terms of the functions of an implementation class (`_Impl`).  Here an implementation class is a
record (`Impl`), and a program on objects of these classes is run by `run`, which does what the operators of the classes do.  The
implementation class given here is `fixedImpl`, `_SimdImplFixedSize` and `_MaskImplFixedSize` on a tuple of registers.  It is parameterised by
what the native implementation does with the elements of one register (`RegImpl`).  Arrays do not overlap.
-/
namespace StdSimd.SimdClass
open Spec Spec.Program Native

/-- The functions on whole registers behind [simd.math], `min` and `max`: `f1` ... `f3` are the functions for native objects
(simd_math.h:59-180, 563-1600, simd.h:3547-3555), `t1` `_S_isfinite`, ... (simd_builtin.h:2189-2330), `t2` `isless`, ... (simd_math.h:1311-1350). -/
structure RegFuns (K : Kind) where
  f1 : Fn1 → Geo → List K.Bits → Option (List K.Bits) := fun _ _ _ => none
  f2 : Fn2 → Geo → List K.Bits → List K.Bits → Option (List K.Bits) := fun _ _ _ _ => none
  f3 : Fn3 → Geo → List K.Bits → List K.Bits → List K.Bits → Option (List K.Bits) := fun _ _ _ _ _ => none
  t1 : Test1 → (g : Geo) → List K.Bits → Option (MaskM g) := fun _ _ _ => none
  t2 : Test2 → (g : Geo) → List K.Bits → List K.Bits → Option (MaskM g) := fun _ _ _ _ => none

/-- `_SimdImplBuiltin`, `_SimdImplX86`, ...: the functions on whole registers, padding included. `un`: `_S_unary_minus`,
`_S_complement`, `_S_increment`, `_S_decrement`; `bin`: `_S_plus` ... `_S_bit_shift_right`; `shift`: `_S_bit_shift_left` and
`_S_bit_shift_right` with an `int` (simd_builtin.h:1634-1735, 2437-2449). -/
structure RegImpl (K : Kind) where
  un : UOp → Geo → List K.Bits → Option (List K.Bits)
  bin : BOp → Geo → List K.Bits → List K.Bits → Option (List K.Bits)
  shift : Bool → Geo → List K.Bits → Nat → Option (List K.Bits)
  fn : RegFuns K := {}

/-- The functions of `_Impl` that the class templates use. -/
structure Impl (K : Kind) (β : Type) where
  V : Type
  M : Type
  size : Nat
  broadcast : K.Bits → V
  generator : (Nat → K.Bits) → V
  un : UOp → V → Option V
  bin : BOp → V → V → Option V
  shift : Bool → V → Nat → Option V
  f1 : Fn1 → V → Option V
  f2 : Fn2 → V → V → Option V
  f3 : Fn3 → V → V → V → Option V
  t1 : Test1 → V → Option M
  t2 : Test2 → V → V → Option M
  cmp : Compare.Op → V → V → Option M
  negate : V → Option M
  maskedAssign : M → V → V → Option V
  maskedCassign : WhereExpr.Op → M → V → V → Option V
  maskedUnary : WhereExpr.UFn → M → V → Option V
  set : V → Nat → K.Bits → V
  load : Mem β → Nat → Option V
  store : V → Mem β → Nat → Option (Mem β)
  maskedLoad : V → M → Mem β → Nat → Option V
  maskedStore : V → Mem β → Nat → M → Option (Mem β)
  mbroadcast : Bool → M
  mnot : M → M
  mbin : MOp → M → M → M
  mset : M → Nat → Bool → M
  mmaskedAssign : M → M → M → M

/-- The objects of a program. -/
structure State {K : Kind} {β : Type} (I : Impl K β) where
  v : Nat → I.V
  m : Nat → I.M
  mem : Nat → Mem β

variable {K : Kind} {β : Type}

section class_
variable (I : Impl K β) (width : Nat) (base : Nat → Nat)

/-- `x << s`, `x >> s` with an `int` (simd.h:4783-4805, 4843-4879): negative counts and counts not less than the number of bits of the promoted
type call `__invoke_ub`. -/
def shiftInt (left : Bool) (x : I.V) (s : Int) : Option I.V :=
  if s < 0 then none else if width ≤ s.toNat then none else I.shift left x s.toNat

/-- The comparison operators of `simd` (simd.h:5087-5117): `x > y` is `_S_less(y, x)`. -/
def rel (r : Kind.Rel) (x y : I.V) : Option I.M :=
  match r with
  | .eq => I.cmp .equal x y
  | .ne => I.cmp .notEqual x y
  | .lt => I.cmp .less x y
  | .le => I.cmp .lessEqual x y
  | .gt => I.cmp .less y x
  | .ge => I.cmp .lessEqual y x

/-- Expressions: broadcast constructor (simd.h:4923-4928), generator constructor (4953-4959), `operator-`, `operator~`, `operator+` (5040-5046,
4882-4883), binary operators (5070-5084, 4807-4841), functions (simd_math.h:59-180), `min`, `max`, `clamp` (simd.h:3547-3577). -/
def evalV (S : State I) : VE K → Option I.V
  | .var v => some (S.v v)
  | .const a => some (I.broadcast a)
  | .gen f => some (I.generator f)
  | .neg e => do let x ← evalV S e; I.un .neg x
  | .compl e => do let x ← evalV S e; I.un .compl x
  | .pos e => evalV S e
  | .bin o e f => do let x ← evalV S e; let y ← evalV S f; I.bin o x y
  | .shift left e s => do let x ← evalV S e; shiftInt I width left x s
  | .call1 o e => do let x ← evalV S e; I.f1 o x
  | .call2 o e f => do let x ← evalV S e; let y ← evalV S f; I.f2 o x y
  | .call3 o e f h => do let x ← evalV S e; let y ← evalV S f; let z ← evalV S h; I.f3 o x y z
  | .clamp e lo hi => do
    let x ← evalV S e
    let y ← evalV S lo
    let z ← evalV S hi
    let r ← I.f2 .max y x
    I.f2 .min z r

/-- `x != y` of masks (simd.h:4494-4496). -/
def mne (x y : I.M) : I.M := I.mbin .xor x y
/-- `x == y` of masks (simd.h:4490-4492). -/
def meq (x y : I.M) : I.M := I.mnot (mne I x y)

/-- Mask expressions: broadcast constructor (simd.h:4332-4334), `operator!` of `simd` (5036-5038), `operator!` of `simd_mask` (4414-4416), `&&`, `||`,
`&`, `|`, `^` (4443-4465), classification and comparison functions (simd_math.h:1311-1380). -/
def evalM (S : State I) : ME K → Option I.M
  | .var m => some (S.m m)
  | .const b => some (I.mbroadcast b)
  | .cmp r e f => do let x ← evalV I width S e; let y ← evalV I width S f; rel I r x y
  | .isZero e => do let x ← evalV I width S e; I.negate x
  | .not k => do let x ← evalM S k; pure (I.mnot x)
  | .bin o k l => do let x ← evalM S k; let y ← evalM S l; pure (I.mbin o x y)
  | .eq k l => do let x ← evalM S k; let y ← evalM S l; pure (meq I x y)
  | .ne k l => do let x ← evalM S k; let y ← evalM S l; pure (mne I x y)
  | .test1 o e => do let x ← evalV I width S e; I.t1 o x
  | .test2 o e f => do let x ← evalV I width S e; let y ← evalV I width S f; I.t2 o x y

/-- `++x`, `--x` in place: `_S_increment`, `_S_decrement` (simd.h:5005-5033). -/
def stepV (inc : Bool) (x : I.V) : Option I.V := I.un (if inc then .inc else .dec) x

/-- The operator of a `where` expression that a program names. -/
def whereOp : BOp → WhereExpr.Op
  | .add => .plus | .sub => .minus | .mul => .multiplies | .div => .divides | .mod => .modulus
  | .and => .bitAnd | .or => .bitOr | .xor => .bitXor | .shl => .shiftLeft | .shr => .shiftRight

/-- `where(k, v) op= x`: the function named by the operator, if the implementation class has it (simd.h:3212-3232). -/
def whereCompound (o : BOp) (k : I.M) (v x : I.V) : Option I.V := do
  let f ← WhereExpr.compound .simd (whereOp o)
  I.maskedCassign f k v x

def setV (S : State I) (v : Nat) (x : I.V) : State I := { S with v := upd S.v v x }
def setM (S : State I) (m : Nat) (x : I.M) : State I := { S with m := upd S.m m x }
def setMem (S : State I) (j : Nat) (x : Mem β) : State I := { S with mem := upd S.mem j x }

/-- Statements.  Compound assignments compute `lhs op rhs` and assign it (simd.h:4783-4805, 5053-5067; of masks 4467-4487); `x++` copies
the object first (5013-5018, 5028-5033); `v[i] = a` goes through `_S_set` (4988-4990; of masks with a check, 4393-4399); `where` assignments
(3201-3207), increments (3235-3262), loads and stores (3265-3275, 3116-3123); `copy_from`, `copy_to` (4971-4985).  Array `j` begins at
address `base j`. -/
def run : Stmt K → State I → Option (State I)
  | .assign v e, S => do let x ← evalV I width S e; pure (setV I S v x)
  | .compound o v e, S => do let x ← evalV I width S e; let r ← I.bin o (S.v v) x; pure (setV I S v r)
  | .compoundShift left v s, S => do let r ← shiftInt I width left (S.v v) s; pure (setV I S v r)
  | .step inc v, S => do let r ← stepV I inc (S.v v); pure (setV I S v r)
  | .preStep inc d v, S => do let r ← stepV I inc (S.v v); pure (setV I (setV I S v r) d r)
  | .postStep inc d v, S => do
    let old := S.v v
    let r ← stepV I inc (S.v v)
    pure (setV I (setV I S v r) d old)
  | .massign m k, S => do let x ← evalM I width S k; pure (setM I S m x)
  | .mcompound o m k, S => do let x ← evalM I width S k; pure (setM I S m (I.mbin o (S.m m) x))
  | .elem v i a, S => if i < I.size then some (setV I S v (I.set (S.v v) i a)) else none
  | .melem m i b, S => if i < I.size then some (setM I S m (I.mset (S.m m) i b)) else none
  | .whereAssign k v e, S => do
    let c ← evalM I width S k
    let x ← evalV I width S e
    let r ← I.maskedAssign c (S.v v) x
    pure (setV I S v r)
  | .whereCompound k o v e, S => do
    let c ← evalM I width S k
    let x ← evalV I width S e
    let r ← whereCompound I o c (S.v v) x
    pure (setV I S v r)
  | .whereStep k inc v, S => do
    let c ← evalM I width S k
    let r ← I.maskedUnary ((if inc then WhereExpr.UOp.preInc else WhereExpr.UOp.preDec).fn) c (S.v v)
    pure (setV I S v r)
  | .whereMask k m l, S => do
    let c ← evalM I width S k
    let x ← evalM I width S l
    pure (setM I S m (I.mmaskedAssign c (S.m m) x))
  | .load v j, S => do let r ← I.load (S.mem j) (base j); pure (setV I S v r)
  | .store v j, S => do let r ← I.store (S.v v) (S.mem j) (base j); pure (setMem I S j r)
  | .whereLoad k v j, S => do
    let c ← evalM I width S k
    let r ← I.maskedLoad (S.v v) c (S.mem j) (base j)
    pure (setV I S v r)
  | .whereStore k v j, S => do
    let c ← evalM I width S k
    let r ← I.maskedStore (S.v v) (S.mem j) (base j) c
    pure (setMem I S j r)
  | .skip, S => some S
  | .seq s t, S => do let S' ← run s S; run t S'
  | .loop c s, S => iter (run s) c S

end class_

/-! ## implementation classes -/

/-- What else the code depends on: the constant-propagation and path choices of the registers, conversions of memory elements. -/
structure Cfg (K : Kind) (β : Type) where
  R : RegImpl K
  c : Nat → Bool
  ctx : Geo → Compare.Ctx K
  xfer : Native.Xfer
  path : Geo → MaskedPath
  junk : K.Bits
  ld : β → K.Bits
  st : K.Bits → β

/-- The function `f` of `_S_masked_cassign<f>` on a register. -/
def regBin (R : RegImpl K) : WhereExpr.Op → Geo → List K.Bits → List K.Bits → Option (List K.Bits)
  | .plus => R.bin .add | .minus => R.bin .sub | .multiplies => R.bin .mul | .divides => R.bin .div | .modulus => R.bin .mod
  | .bitAnd => R.bin .and | .bitOr => R.bin .or | .bitXor => R.bin .xor | .shiftLeft => R.bin .shl | .shiftRight => R.bin .shr

/-- The template argument of `_S_masked_unary` on a register. -/
def regUn (R : RegImpl K) : WhereExpr.UFn → Geo → List K.Bits → Option (List K.Bits)
  | .negate => R.un .neg
  | .increment => R.un .inc
  | .decrement => R.un .dec

/-- `operator!` on one element: `x == 0` (simd_builtin.h:1758-1763, simd_scalar.h:180-183, simd_x86.h:2574-2583). -/
def isZero (a : K.Bits) : Bool := Compare.elem K .equal a 0#K.width

/-- Bit masks of equal width (the type of `_M_test`'s result and of the mask member, simd_fixed_size.h:567-580). -/
def sameWidth {m n : Nat} (k : BitMask m true) : Option (BitMask n true) := if h : m = n then some (h ▸ k) else none

/-- `_SimdImplFixedSize` and `_MaskImplFixedSize` for `n` elements in the registers `gs` (simd_fixed_size.h:1310-1855, 1858-2020). -/
def fixedImpl (C : Cfg K β) (gs : List Geo) (n : Nat) : Impl K β where
  V := Tuple.Tup K.Bits
  M := BitMask n true
  size := n
  broadcast a := Tuple.broadcast gs a
  generator f := Id.run (Tuple.generator (m := Id) gs 0#K.width (fun i => pure (f i)))
  un o x := match o with
    | .inc | .dec => Tuple.forEach1 (fun g _ xx => C.R.un o g xx) gs 0 x
    | .neg | .compl => Tuple.applyPerChunk1 (fun g xx => C.R.un o g xx) gs x
  bin o x y := Tuple.applyPerChunk2 (fun g xx yy => C.R.bin o g xx yy) gs x y
  shift l x s := Tuple.applyPerChunk1 (fun g xx => C.R.shift l g xx s) gs x
  f1 o x := Tuple.applyPerChunk1 (fun g xx => C.R.fn.f1 o g xx) gs x
  f2 o x y := Tuple.applyPerChunk2 (fun g xx yy => C.R.fn.f2 o g xx yy) gs x y
  f3 o x y z := Tuple.applyPerChunk3 (fun g xx yy zz => C.R.fn.f3 o g xx yy zz) gs x y z
  t1 o x := do let k ← Tuple.test1 (fun g xx => C.R.fn.t1 o g xx) gs x; sameWidth k
  t2 o x y := do let k ← Tuple.test2 (fun g xx yy => C.R.fn.t2 o g xx yy) gs x y; sameWidth k
  cmp o x y := do let k ← Tuple.test2 (fun g xx yy => Compare.compare K (C.ctx g) o g xx yy) gs x y; sameWidth k
  negate x := do let k ← Tuple.negate isZero gs x; sameWidth k
  maskedAssign k v x := Tuple.maskedAssign C.c gs k v x
  maskedCassign o k v x := Tuple.maskedCassign C.c gs k v x (regBin C.R o)
  maskedUnary o k v := Tuple.maskedUnary C.c gs k v (regUn C.R o)
  set x i a := Tuple.set gs x i a
  load mem b := Tuple.load C.xfer C.ld 0#K.width gs mem b
  store x mem b := Tuple.store C.xfer C.st gs x mem b
  maskedLoad x k mem b := Tuple.maskedLoad C.path C.ld gs x k mem b
  maskedStore x mem b k := Tuple.maskedStore C.path C.st C.junk gs x mem b k
  mbroadcast b := FixedMask.broadcast n b
  mnot := FixedMask.bitNot
  mbin o := match o with | .and => FixedMask.bitAnd | .or => FixedMask.bitOr | .xor => FixedMask.bitXor
  mset := FixedMask.set
  mmaskedAssign := FixedMask.maskedAssign

/-! ## native implementations -/

/-- `_SimdImplBuiltin` for integers with `w` bits (simd_builtin.h:1634-1735, 2437-2449; simd_scalar.h:186-279).  Arithmetic is modulo `2 ^ w`; a vector
shift whose count is not less than `w` gives an unspecified element (`junk`) and nothing else.  Division is `Division.divides`. -/
def builtinInt (signed : Bool) (w : Nat) (junk : BitVec w → Nat → BitVec w) : RegImpl (.int signed w) where
  un o _ x := match o with
    | .neg => map1 (fun (a : BitVec w) => some (-a)) x
    | .compl => map1 (fun (a : BitVec w) => some (~~~a)) x
    | .inc => map1 (fun (a : BitVec w) => some (a + 1#w)) x
    | .dec => map1 (fun (a : BitVec w) => some (a - 1#w)) x
  bin o g x y := match o with
    | .add => map2 (fun (a b : BitVec w) => some (a + b)) x y
    | .sub => map2 (fun (a b : BitVec w) => some (a - b)) x y
    | .mul => map2 (fun (a b : BitVec w) => some (a * b)) x y
    | .div => Division.divides g (Spec.div signed) x y
    | .mod => Division.divides g (Spec.mod signed) x y
    | .and => map2 (fun (a b : BitVec w) => some (a &&& b)) x y
    | .or => map2 (fun (a b : BitVec w) => some (a ||| b)) x y
    | .xor => map2 (fun (a b : BitVec w) => some (a ^^^ b)) x y
    | .shl => map2 (fun (a b : BitVec w) => some (if b.toNat < w then a <<< b.toNat else junk a b.toNat)) x y
    | .shr => map2 (fun (a b : BitVec w) => some (if b.toNat < w then (if signed then a.sshiftRight b.toNat else a >>> b.toNat)
        else junk a b.toNat)) x y
  shift left _ x s := map1 (fun (a : BitVec w) => some (if s < w then (if left then a <<< s else if signed then a.sshiftRight s else a >>> s)
    else junk a s)) x

/-- `_SimdImplBuiltin` for floating-point types (simd_builtin.h:1640-1676, 2437-2449): one instruction per operator, `u` and `b` on each
element; the divisor's padding is made one. -/
def builtinFloat {K : Kind} (one : K.Bits) (u : UOp → K.Bits → K.Bits) (b : BOp → K.Bits → K.Bits → K.Bits) : RegImpl K where
  un o _ x := map1 (fun a => some (u o a)) x
  bin o g x y := match o with
    | .div => Division.dividesFloat g one (fun a c => some (b .div a c)) x y
    | o => map2 (fun a c => some (b o a c)) x y
  shift _ _ _ _ := none

end StdSimd.SimdClass
