import Verif.Model.Tuple
import Verif.Model.FixedMask
/-!
# Model of element references: `_SmartReference` (simd.h:3985-4121)

`v[i]` of a non-constant `simd` or `simd_mask` object is a pair of a reference to the data member of the object and an index (simd.h:4393-4399, 4988-4991).
The objects of one type are kept in a store; references to the same object alias.
-/
namespace StdSimd.SmartRef
open Native

/-- The types with element references: native values, `fixed_size` values (`alias` selects the form of the element access, simd_detail.h:274), native masks,
`fixed_size` masks. -/
inductive Cls where
  | value (g : Geo)
  | tuple (gs : List Geo) (alias : Bool)
  | mask (g : Geo)
  | bits (n : Nat)

/-- `value_type`: `bool` for masks. -/
abbrev Val (α : Type) : Cls → Type
  | .value _ => α
  | .tuple _ _ => α
  | .mask _ => Bool
  | .bits _ => Bool

/-- The data member. -/
abbrev Data (α : Type) : Cls → Type
  | .value _ => List α
  | .tuple _ _ => Tuple.Tup α
  | .mask g => MaskM g
  | .bits n => BitMask n true

variable {α : Type}

/-- `_M_read` (simd.h:3994-4000): the object itself if it is of arithmetic type (scalar ABI), else `_M_obj[_M_index]` (`_SimdWrapper::operator[]` simd.h:2516-2518,
2369-2371, `_SimdTuple::operator[]` simd_fixed_size.h:592-612, `_BitMask::operator[]` simd.h:1176-1190), converted to `bool` for masks. -/
def readData : (c : Cls) → Data α c → Nat → Option (Val α c)
  | .value .scalar, x, _ => x[0]?
  | .value _, x, i => Native.get x i
  | .tuple gs false, x, i => Tuple.get gs x i
  | .tuple _ true, x, i => Tuple.getAlias x i
  | .mask .scalar, (k : Bool), _ => some k
  | .mask (.vec w _ _), (k : VMask w), i => (k[i]?).map (fun e => e != 0#w)
  | .mask (.bitmask _ _), k, i => some (BitVec.getLsbD k i)
  | .bits _, k, i => BitMask.get k i

/-- `_M_write` (simd.h:4002-4004): `_S_set` (simd_scalar.h:588-594, 702-709, simd_builtin.h:2450-2453, 2840-2852, simd_fixed_size.h:1771-1774, 1990-1992). -/
def writeData : (c : Cls) → Data α c → Nat → Val α c → Data α c
  | .value .scalar, x, _, v => Native.set x 0 v
  | .value _, x, i, v => Native.set x i v
  | .tuple gs false, x, i, v => Tuple.set gs x i v
  | .tuple _ true, x, i, v => Tuple.setAlias x i v
  | .mask .scalar, (_ : Bool), _, v => v
  | .mask (.vec _ _ _), k, i, v => VMask.set k i v
  | .mask (.bitmask _ _), k, i, v => KMask.set k i v
  | .bits _, k, i, v => FixedMask.set k i v

/-- The objects of a type, by name. -/
abbrev Store (α : Type) (c : Cls) := Nat → Data α c

/-- A reference: `_M_obj`, `_M_index`. -/
structure Ref where
  obj : Nat
  idx : Nat
  deriving DecidableEq

variable {c : Cls}

/-- `_M_read` on a stored object. -/
def read (h : Store α c) (r : Ref) : Option (Val α c) := readData c (h r.obj) r.idx
/-- `_M_write` on a stored object. -/
def write (h : Store α c) (r : Ref) (v : Val α c) : Store α c :=
  fun o => if o = r.obj then writeData c (h o) r.idx v else h o

/-- `operator=` (simd.h:4018-4025); the returned reference refers to the same element. -/
def assign (h : Store α c) (r : Ref) (v : Val α c) : Store α c × Ref := (write h r v, ⟨r.obj, r.idx⟩)

/-- `operator op=` (simd.h:4027-4042); the operation on the values may be undefined. -/
def compound {β : Type} (op : Val α c → β → Option (Val α c)) (h : Store α c) (r : Ref) (x : β) : Option (Store α c × Ref) := do
  let lhs ← read h r
  let v ← op lhs x
  pure (write h r v, ⟨r.obj, r.idx⟩)

/-- `operator++()`, `operator--()` (simd.h:4045-4052, 4066-4073). -/
def preInc (f : Val α c → Option (Val α c)) (h : Store α c) (r : Ref) : Option (Store α c × Ref) := do
  let x ← read h r
  let x ← f x
  pure (write h r x, ⟨r.obj, r.idx⟩)

/-- `operator++(int)`, `operator--(int)` (simd.h:4055-4063, 4076-4084): the old value is returned. -/
def postInc (f : Val α c → Option (Val α c)) (h : Store α c) (r : Ref) : Option (Store α c × Val α c) := do
  let old ← read h r
  let x := old
  let x ← f x
  pure (write h r x, old)

/-- `swap(v[i], w[j])` (simd.h:4087-4096). -/
def swap (h : Store α c) (a b : Ref) : Option (Store α c) := do
  let tmp ← read h a
  let y ← read h b
  let h := write h a y
  pure (write h b tmp)

/-- `swap(x, v[i])` (simd.h:4098-4108). -/
def swapLeft (h : Store α c) (x : Val α c) (b : Ref) : Option (Val α c × Store α c) := do
  let tmp := x
  let x ← read h b
  pure (x, write h b tmp)

/-- `swap(v[i], x)` (simd.h:4110-4119). -/
def swapRight (h : Store α c) (a : Ref) (x : Val α c) : Option (Store α c × Val α c) := do
  let tmp ← read h a
  let h := write h a x
  let x := tmp
  pure (h, x)

end StdSimd.SmartRef
