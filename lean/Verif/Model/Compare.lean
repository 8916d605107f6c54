import Verif.Model.Tuple
import Verif.Spec.Compare
/-!
# Model of the comparison operators and of `min`, `max`, `minmax`, `clamp`

experimental/bits/simd.h:3547-3577, 5087-5117, simd_scalar.h:191-199, 566-585, simd_builtin.h:1734-1757, 1764-1787, simd_fixed_size.h:1485-1507,
1743-1763, simd_x86.h:2211-2571.

Trusted: comparisons of two floating-point elements, by the C++ operators, by GNU vector comparisons or by the AVX-512 instructions with one of the
predicates `EQ_OQ`, `LT_OS`, `LE_OS`, `NEQ_UQ`, are the IEEE comparisons `Spec.Fmt.eq`, `lt`, `le` and the complement of `eq` (Intel SDM, `CMPPS`).
-/
namespace StdSimd.Compare
open Spec Native

/-- The four comparisons the implementations offer. -/
inductive Op where
  | equal | notEqual | less | lessEqual
  deriving DecidableEq

/-- One element of `x == y`, `x != y`, `x < y`, `x <= y` for scalars (simd_scalar.h:566-585) and GNU vectors (simd_builtin.h:1734-1757): signed or
unsigned comparison depending on the element type. -/
def elem : (k : Kind) → Op → k.Bits → k.Bits → Bool
  | .int _ _, .equal, x, y => x == y
  | .int _ _, .notEqual, x, y => x != y
  | .int true _, .less, x, y => BitVec.slt x y
  | .int false _, .less, x, y => BitVec.ult x y
  | .int true _, .lessEqual, x, y => BitVec.sle x y
  | .int false _, .lessEqual, x, y => BitVec.ule x y
  | .float f, .equal, x, y => f.eq x y
  | .float f, .notEqual, x, y => !(f.eq x y)
  | .float f, .less, x, y => f.lt x y
  | .float f, .lessEqual, x, y => f.le x y

/-- The predicates of `_mm*_mask_cmp_p[sd]_mask` that are used, in the order of their encoding (0, 1, 2, 4). -/
inductive Pred where
  | EQ_OQ | LT_OS | LE_OS | NEQ_UQ

def Pred.eval (f : Fmt) : Pred → f.Bits → f.Bits → Bool
  | EQ_OQ, x, y => f.eq x y
  | LT_OS, x, y => f.lt x y
  | LE_OS, x, y => f.le x y
  | NEQ_UQ, x, y => f.unordered x y || f.lessGreater x y

/-- The AVX-512 comparisons (simd_x86.h:2222-2272, 2306-2348, 2376-2446, 2470-2540): floating-point predicates; `cmpeq_epi`, `~cmpeq_epi`,
`cmplt_epi`/`cmplt_epu`, `cmple_epi`/`cmple_epu`. -/
def avx512 (n : Nat) : (k : Kind) → Op → List k.Bits → List k.Bits → KMask n
  | .float f, .equal, x, y => KMask.cmp n (Pred.EQ_OQ.eval f) x y
  | .float f, .notEqual, x, y => KMask.cmp n (Pred.NEQ_UQ.eval f) x y
  | .float f, .less, x, y => KMask.cmp n (Pred.LT_OS.eval f) x y
  | .float f, .lessEqual, x, y => KMask.cmp n (Pred.LE_OS.eval f) x y
  | .int _ _, .equal, x, y => KMask.cmp n (fun a b => a == b) x y
  | .int _ _, .notEqual, x, y => KMask.intNotEqual n (fun a b => a == b) x y
  | .int true _, .less, x, y => KMask.cmp n (fun a b => BitVec.slt a b) x y
  | .int false _, .less, x, y => KMask.cmp n (fun a b => BitVec.ult a b) x y
  | .int true _, .lessEqual, x, y => KMask.cmp n (fun a b => BitVec.sle a b) x y
  | .int false _, .lessEqual, x, y => KMask.cmp n (fun a b => BitVec.ule a b) x y

/-- What else decides the code that is used: x86 or not, operands known to the compiler, and the (unspecified) second half of a register into which
an 8-byte vector is put. -/
structure Ctx (k : Kind) where
  x86 : Bool
  const : Bool
  junkX : List k.Bits
  junkY : List k.Bits

/-- The comparison of two 8-byte vectors as 16-byte vectors, of whose result the first 8 bytes are copied (simd_x86.h:2275-2282, 2343-2350). -/
def wide (k : Kind) (c : Ctx k) (op : Op) (w f : Nat) (x y : List k.Bits) : VMask w :=
  (List.zipWith (fun a b => VMask.elem w (elem k op a b)) (x ++ c.junkX) (y ++ c.junkY)).take f

/-- `_S_equal_to`, `_S_not_equal_to`, `_S_less`, `_S_less_equal` (simd_scalar.h:566-585, simd_builtin.h:1734-1757, simd_x86.h:2211-2571). -/
def compare (k : Kind) (c : Ctx k) (op : Op) : (g : Geo) → List k.Bits → List k.Bits → Option (MaskM g)
  | .scalar, [x], [y] => some (elem k op x y : Bool)
  | .scalar, _, _ => none
  | .vec w _ f, x, y =>
    some (if c.x86 ∧ w * f = 64 then wide k c op w f x y else List.zipWith (fun a b => VMask.elem w (elem k op a b)) x y : VMask w)
  | .bitmask n _, x, y => some (if c.const then KMask.cmpConst n (elem k op) x y else avx512 n k op x y)

/-- The comparison operators of `simd` (simd.h:5087-5117): `x > y` is `_S_less(y, x)`, `x >= y` is `_S_less_equal(y, x)`. -/
def operator (k : Kind) (c : Ctx k) (r : Kind.Rel) (g : Geo) (x y : List k.Bits) : Option (MaskM g) :=
  match r with
  | .eq => compare k c .equal g x y
  | .ne => compare k c .notEqual g x y
  | .lt => compare k c .less g x y
  | .le => compare k c .lessEqual g x y
  | .gt => compare k c .less g y x
  | .ge => compare k c .lessEqual g y x

/-- The comparison operators of `fixed_size` objects (simd_fixed_size.h:1743-1763): `_M_test` of the comparisons of the registers.  (Whether operands are
known to the compiler is decided per kind of register here.) -/
def fixedOperator (k : Kind) (c : Geo → Ctx k) (r : Kind.Rel) (gs : List Geo) (x y : Tuple.Tup k.Bits) :
    Option (BitMask (Tuple.total gs) true) :=
  match r with
  | .eq => Tuple.test2 (fun g x y => compare k (c g) .equal g x y) gs x y
  | .ne => Tuple.test2 (fun g x y => compare k (c g) .notEqual g x y) gs x y
  | .lt => Tuple.test2 (fun g x y => compare k (c g) .less g x y) gs x y
  | .le => Tuple.test2 (fun g x y => compare k (c g) .lessEqual g x y) gs x y
  | .gt => Tuple.test2 (fun g x y => compare k (c g) .less g x y) gs y x
  | .ge => Tuple.test2 (fun g x y => compare k (c g) .lessEqual g x y) gs y x

/-! ## min, max -/

/-- `std::min`, called by the scalar implementation (simd_scalar.h:193-195). -/
def scalarMin (k : Kind) (a b : k.Bits) : k.Bits := if elem k .less b a then b else a
/-- `std::max` (simd_scalar.h:197-199). -/
def scalarMax (k : Kind) (a b : k.Bits) : k.Bits := if elem k .less a b then b else a
/-- One element of `a < b ? a : b` (simd_builtin.h:1765-1769). -/
def vecMin (k : Kind) (a b : k.Bits) : k.Bits := if elem k .less a b then a else b
/-- One element of `a > b ? a : b` (simd_builtin.h:1771-1775). -/
def vecMax (k : Kind) (a b : k.Bits) : k.Bits := if elem k .less b a then a else b

/-- `_S_min` of the implementation of a register, one element. -/
def elemMin (k : Kind) : Geo → k.Bits → k.Bits → k.Bits
  | .scalar => scalarMin k
  | _ => vecMin k
/-- `_S_max` of the implementation of a register, one element. -/
def elemMax (k : Kind) : Geo → k.Bits → k.Bits → k.Bits
  | .scalar => scalarMax k
  | _ => vecMax k

/-- `min` of native objects (simd.h:3547-3550). -/
def min (k : Kind) (g : Geo) (a b : List k.Bits) : Option (List k.Bits) := map2 (fun a b => some (elemMin k g a b)) a b
/-- `max` of native objects (simd.h:3552-3555). -/
def max (k : Kind) (g : Geo) (a b : List k.Bits) : Option (List k.Bits) := map2 (fun a b => some (elemMax k g a b)) a b
/-- `minmax` of native objects (simd.h:3557-3566) via `_S_minmax` (simd_builtin.h:1777-1785), which exists for vectors only. -/
def minmax (k : Kind) : Geo → List k.Bits → List k.Bits → Option (List k.Bits × List k.Bits)
  | .scalar, _, _ => none
  | _, a, b => do
    let lo ← map2 (fun a b => some (if elem k .less a b then a else b)) a b
    let hi ← map2 (fun a b => some (if elem k .less a b then b else a)) a b
    pure (lo, hi)
/-- `clamp` of native objects (simd.h:3568-3577). -/
def clamp (k : Kind) (g : Geo) (v lo hi : List k.Bits) : Option (List k.Bits) := do
  let m ← max k g lo v
  min k g hi m

/-- `min` of `fixed_size` objects (simd.h:3547-3550, simd_fixed_size.h:1486-1496). -/
def fixedMin (k : Kind) (gs : List Geo) (a b : Tuple.Tup k.Bits) : Option (Tuple.Tup k.Bits) :=
  Tuple.applyPerChunk2 (fun g a b => min k g a b) gs a b
/-- `max` of `fixed_size` objects (simd.h:3552-3555, simd_fixed_size.h:1498-1507). -/
def fixedMax (k : Kind) (gs : List Geo) (a b : Tuple.Tup k.Bits) : Option (Tuple.Tup k.Bits) :=
  Tuple.applyPerChunk2 (fun g a b => max k g a b) gs a b
/-- `clamp` of `fixed_size` objects (simd.h:3568-3577). -/
def fixedClamp (k : Kind) (gs : List Geo) (v lo hi : Tuple.Tup k.Bits) : Option (Tuple.Tup k.Bits) := do
  let m ← fixedMax k gs lo v
  fixedMin k gs hi m

end StdSimd.Compare
