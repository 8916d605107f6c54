import Verif.Model.Tuple
/-!
# Model of the class templates `const_where_expression` and `where_expression` (experimental/bits/simd.h:3055-3368)

The operators of a where expression name a function of the implementation class; a name the class does not have makes the call
ill-formed (`none`).  What the element-wise functions do with two elements is a parameter (`sem`).
-/
namespace StdSimd.WhereExpr
open Native Tuple

/-- The compound assignment operators. -/
inductive Op where
  | plus | minus | multiplies | divides | modulus | bitAnd | bitOr | bitXor | shiftLeft | shiftRight
  deriving DecidableEq, Repr

/-- What a where expression refers to. -/
inductive Target where
  | simd | mask
  deriving DecidableEq

/-- The function that `operator __op##=` names (simd.h:3223-3232). -/
def callee : Op → String
  | .plus => "_S_plus"
  | .minus => "_S_minus"
  | .multiplies => "_S_multiplies"
  | .divides => "_S_divides"
  | .modulus => "_S_modulus"
  | .bitAnd => "_S_bit_and"
  | .bitOr => "_S_bit_or"
  | .bitXor => "_S_bit_xor"
  | .shiftLeft => "_S_shift_left"
  | .shiftRight => "_S_shift_right"

/-- The binary functions of the implementation classes: `_SimdImplScalar` (simd_scalar.h:210-291), `_SimdImplBuiltin`
(simd_builtin.h:1642-1735; the same names in simd_x86.h and simd_ppc.h), `_SimdImplFixedSize` (simd_fixed_size.h:1542-1572), and the
operation on elements each of them does. -/
def simdMember : String → Option Op
  | "_S_plus" => some .plus
  | "_S_minus" => some .minus
  | "_S_multiplies" => some .multiplies
  | "_S_divides" => some .divides
  | "_S_modulus" => some .modulus
  | "_S_bit_and" => some .bitAnd
  | "_S_bit_or" => some .bitOr
  | "_S_bit_xor" => some .bitXor
  | "_S_bit_shift_left" => some .shiftLeft
  | "_S_bit_shift_right" => some .shiftRight
  | _ => none

/-- Does the implementation class have `_S_masked_cassign` and `_S_masked_unary`?  `_SimdImpl*` has (simd_scalar.h:601-612,
simd_builtin.h:2495-2534, simd_fixed_size.h:1803-1845), `_MaskImpl*` has only `_S_masked_assign` (simd_scalar.h:709-715,
simd_builtin.h:2864-2892, simd_fixed_size.h:1994-2009, simd_x86.h:4851-4873). -/
def hasCompound : Target → Bool
  | .simd => true
  | .mask => false

/-- The operation of `where(k, v) op= x`, if the call is well-formed (simd.h:3212-3222). -/
def compound (tg : Target) (op : Op) : Option Op := if hasCompound tg then simdMember (callee op) else none

variable {α : Type}

/-- `where(k, v) op= x` for `fixed_size` (simd.h:3212-3222): the new value of `v`. -/
def cassign (sem : Op → α → α → Option α) (c : Nat → Bool) (gs : List Geo) {n : Nat} (op : Op) (k : BitMask n true) (v x : Tup α) :
    Option (Tup α) := do
  let o ← compound .simd op
  Tuple.maskedCassign c gs k v x (fun _ l r => map2 (sem o) l r)

/-- `where(k, v) op= x` with one register. -/
def nativeCassign (sem : Op → α → α → Option α) (c : Bool) (g : Geo) (op : Op) (k : MaskM g) (v x : List α) : Option (List α) := do
  let o ← compound .simd op
  Native.maskedCassign g (hintOf c g k) k v x (map2 (sem o))

/-- The prefix and postfix operators of where expressions: `-where(k, v)`, `++where(k, v)`, `where(k, v)++`, `--where(k, v)`,
`where(k, v)--`. -/
inductive UOp where
  | minus | preInc | postInc | preDec | postDec
  deriving DecidableEq

/-- The operation on elements: `negate`, `__increment`, `__decrement`. -/
inductive UFn where
  | negate | increment | decrement
  deriving DecidableEq

/-- The template argument of `_S_masked_unary` (simd.h:3098-3104, 3235-3262). -/
def UOp.fn : UOp → UFn
  | .minus => .negate
  | .preInc => .increment
  | .postInc => .increment
  | .preDec => .decrement
  | .postDec => .decrement

/-- `-where(k, v)` and the others for `fixed_size`: the result, which `++` and `--` assign to `v` (simd.h:3098-3104, 3235-3262). -/
def unary (sem : UFn → α → Option α) (c : Nat → Bool) (gs : List Geo) {n : Nat} (op : UOp) (k : BitMask n true) (v : Tup α) :
    Option (Tup α) :=
  Tuple.maskedUnary c gs k v (fun _ l => map1 (sem op.fn) l)

/-! ## where expressions of `bool` and an arithmetic type (simd.h:3122-3166, 3278-3325) -/

/-- `where(k, v) op= x` (simd.h:3294-3309): `if (_M_k) _M_value op= x`. -/
def boolCassign (sem : Op → α → α → Option α) (op : Op) (k : Bool) (v x : α) : Option α := if k then sem op v x else some v

/-- `where(k, v) = x` (simd.h:3299). -/
def boolAssign (k : Bool) (v x : α) : α := if k then x else v

/-- `-where(k, v)`, and `v` after `++` and `--` (simd.h:3154-3155, 3312-3322). -/
def boolUnary (sem : UFn → α → Option α) (op : UOp) (k : Bool) (v : α) : Option α := if k then sem op.fn v else some v

/-- `where(k, v).copy_from(mem, flags)` (simd.h:3157-3160, 3325-3328). -/
def boolCopyFrom {β : Type} (cvt : β → α) (k : Bool) (v : α) (mem : Mem β) (base : Nat) : Option α :=
  if k then (mem.read base).map cvt else some v

/-- `where(k, v).copy_to(mem, flags)` (simd.h:3162-3168). -/
def boolCopyTo {β : Type} (cvt : α → β) (k : Bool) (v : α) (mem : Mem β) (base : Nat) : Option (Mem β) :=
  if k then mem.write base (cvt v) else some mem

/-! ## the conditional operator (`__GXX_CONDITIONAL_IS_OVERLOADABLE__`, simd.h:4548-4590, 5118-5128) -/

/-- `k ? x : y` for `fixed_size` values (simd.h:5119-5127): `__ret = __where_false`, then `_S_masked_assign`. -/
def cond (c : Nat → Bool) (gs : List Geo) {n : Nat} (k : BitMask n true) (x y : Tup α) : Option (Tup α) :=
  Tuple.maskedAssign c gs k y x

end StdSimd.WhereExpr
