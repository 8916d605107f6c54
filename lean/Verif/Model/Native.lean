import Verif.Model.KMask
import Verif.Model.Abi
import Verif.Spec.Lanes
/-!
# Model of native `simd` values

`_SimdImplScalar` (simd_scalar.h:131-614), `_SimdImplBuiltin` (simd_builtin.h:1375-2537) and the parts of
`_SimdImplX86` / `_CommonImplX86` that replace them (simd_x86.h).

A native `simd<T, Abi>` object is a register: a list of `full` elements, of which the first `size` are lanes and the
rest is padding with arbitrary contents (`_SimdWrapper<_Tp, _Np>`, simd.h:2446-2545; for the scalar ABI the register
is the element itself).  An element-wise GNU vector operation acts on every element of the register, padding included;
an operation that is undefined on one element is undefined as a whole (`none`).
-/
namespace StdSimd

/-- The register of a native ABI as far as the implementation looks at it: `scalar` (simd_scalar.h:52-108),
`_VecBuiltin` with elements of `w` bits (simd_builtin.h:929-1060), `_VecBltnBtmsk` (simd_builtin.h:1064-1216).
`n` is `_S_size`, `full` is `_S_full_size`. -/
inductive Geo where
  | scalar
  | vec (w n full : Nat)
  | bitmask (n full : Nat)
  deriving DecidableEq

namespace Geo
/-- `_S_size` -/
def size : Geo → Nat
  | scalar => 1 | vec _ n _ => n | bitmask n _ => n
/-- `_S_full_size` -/
def full : Geo → Nat
  | scalar => 1 | vec _ _ f => f | bitmask _ f => f

@[simp] theorem size_scalar : Geo.scalar.size = 1 := rfl
@[simp] theorem size_vec (w n f : Nat) : (Geo.vec w n f).size = n := rfl
@[simp] theorem size_bitmask (n f : Nat) : (Geo.bitmask n f).size = n := rfl
@[simp] theorem full_scalar : Geo.scalar.full = 1 := rfl
@[simp] theorem full_vec (w n f : Nat) : (Geo.vec w n f).full = f := rfl
@[simp] theorem full_bitmask (n f : Nat) : (Geo.bitmask n f).full = f := rfl

/-- Size constraints every valid ABI satisfies (simd_builtin.h:938-943, 1069-1089; at most 64 one-byte elements). -/
def Ok : Geo → Prop
  | scalar => True
  | vec w n f => 0 < w ∧ w ≤ 64 ∧ 1 ≤ n ∧ n ≤ f ∧ n ≤ 64
  | bitmask n f => 2 ≤ n ∧ n ≤ f ∧ n ≤ 64

instance (g : Geo) : Decidable g.Ok := by cases g <;> unfold Ok <;> infer_instance

/-- The geometry of an ABI tag for element type `T` (simd_builtin.h:932, 990-996, 1067, 1107-1116). -/
def ofTag (t : Abi.Target) (T : Abi.Elem) : Abi.Tag → Geo
  | .builtin b => .vec (8 * T.size) (Abi.size T (.builtin b)) (Abi.fullSize t T (.builtin b))
  | .btmsk b => .bitmask (Abi.size T (.btmsk b)) (Abi.fullSize t T (.btmsk b))
  | _ => .scalar
end Geo

namespace Native

/-- `_MaskMember` (simd_scalar.h:96, simd_builtin.h:995-996, 1110). -/
abbrev MaskM : Geo → Type
  | .scalar => Bool
  | .vec w _ _ => VMask w
  | .bitmask n _ => KMask n

/-- Abstraction: the lanes of a mask. -/
def maskLanes : (g : Geo) → MaskM g → List Bool
  | .scalar, (k : Bool) => [k]
  | .vec _ n _, k => VMask.lanes n k
  | .bitmask _ _, k => KMask.lanes k

/-- What the library guarantees about every mask object: vector-mask lanes are all-zeros or all-ones (nothing is
known about padding elements or phantom bits). -/
def MaskOk : (g : Geo) → MaskM g → Prop
  | .scalar, _ => True
  | .vec _ n f, k => VMask.Wf n f k
  | .bitmask _ _, _ => True

/-- The mask has no set bit outside its lanes. -/
def MaskClean : (g : Geo) → MaskM g → Prop
  | .scalar, _ => True
  | .vec w n _, (k : VMask w) => ∀ i, n ≤ i → (k[i]?).getD 0#w = 0#w
  | .bitmask _ _, k => KMask.Clean k

/-- `_MaskImpl::_S_convert<_Tp>(_SanitizedBitMask)` (simd_scalar.h:645-648, simd_builtin.h:2691-2701). -/
def maskOfBits : (g : Geo) → BitMask g.size true → Option (MaskM g)
  | .scalar, x => x.get 0
  | .vec w _ f, x => VMask.ofBits w f x
  | .bitmask _ _, x => KMask.ofBits x

/-- `_MaskImpl::_S_to_bits` (simd_scalar.h:638-640, simd_builtin.h:2621-2634, simd_x86.h:4116-4240; the x86 forms
for vector masks are `VMask.x86ToBits*`, proved to agree with this one). -/
def maskToBits : (g : Geo) → MaskM g → BitMask g.size true
  | .scalar, (k : Bool) => BitMask.ofULL 1 true (if k then 1#64 else 0#64)
  | .vec _ n _, k => VMask.toBits n k
  | .bitmask _ _, k => KMask.toBits k

variable {α β : Type}

/-- Blend with a bit mask (`_S_blend_avx512`, simd_x86.h:617-665: `_mm*_mask_blend`): element `i` of `at1` if bit `i`
is set, else of `at0`. -/
def kblend {n : Nat} (k : KMask n) (at0 at1 : List α) : List α :=
  (at0.zip at1).mapIdx (fun i p => if k.getLsbD i then p.2 else p.1)

/-- `_CommonImpl::_S_blend(k, at0, at1)` (simd_builtin.h:1363-1369, simd_x86.h:763-821) and the `if (k)` of the scalar
implementation (simd_scalar.h:597-611). -/
def blend : (g : Geo) → MaskM g → List α → List α → List α
  | .scalar, (k : Bool), at0, at1 => if k then at1 else at0
  | .vec _ _ _, k, at0, at1 => VMask.blend k at0 at1
  | .bitmask _ _, k, at0, at1 => kblend k at0 at1

/-- `_S_blend` for vector masks on x86 with SSE4.1 (simd_x86.h:811-814, `_S_blend_intrin` 668-690: `blendv`): chooses by
the sign bit of the mask element. -/
def blendv {w : Nat} (k : VMask w) (at0 at1 : List α) : List α :=
  List.zipWith (fun (b : BitVec w) (p : α × α) => if b.msb then p.2 else p.1) k (at0.zip at1)

/-- `_S_blend` for vector masks on x86 before SSE4.1 and in constant evaluation (simd_x86.h:798, 816):
`(~k & at0) | (k & at1)`. -/
def blendLogic {w : Nat} (k : VMask w) (at0 at1 : List (BitVec w)) : List (BitVec w) :=
  List.zipWith (fun (b : BitVec w) (p : BitVec w × BitVec w) => (~~~b &&& p.1) ||| (b &&& p.2)) k (at0.zip at1)

/-! ## construction -/

/-- `_S_broadcast` (simd_scalar.h:143-145, simd_builtin.h:1411-1415): every element of the register. -/
def broadcast (g : Geo) (x : α) : List α := List.replicate g.full x

/-- `_S_generator` (simd_scalar.h:148-152, simd_builtin.h:1417-1429): `__generate_vector` evaluates a braced list, so
elements are computed from left to right; `gen` is only called for lanes, padding is zero.  `m` is the monad of
`gen`'s side effects. -/
def generator {m : Type → Type} [Monad m] (g : Geo) (zero : α) (gen : Nat → m α) : m (List α) :=
  match g with
  | .scalar => do let x ← gen 0; pure [x]
  | g => (List.range g.full).mapM (fun i => if i < g.size then gen i else pure zero)

/-! ## element-wise operations -/

/-- A unary element-wise operation on the register. -/
def map1 (f : α → Option β) (x : List α) : Option (List β) := x.mapM f
/-- A binary element-wise operation on the registers, e.g. `_S_plus` ... `_S_bit_shift_right`
(simd_builtin.h:1650-1732), `_S_min`/`_S_max` (1763-1776). -/
def map2 {γ : Type} (f : α → β → Option γ) (x : List α) (y : List β) : Option (List γ) :=
  (x.zip y).mapM (fun p => f p.1 p.2)
/-- A ternary element-wise operation on the registers (`fma`). -/
def map3 (f : α → α → α → Option α) (x y z : List α) : Option (List α) :=
  (x.zip (y.zip z)).mapM (fun p => f p.1 p.2.1 p.2.2)

/-- `_S_equal_to`, `_S_less`, ... (simd_scalar.h:566-585, simd_builtin.h:1734-1757, simd_x86.h:2211-2571): a GNU vector
comparison gives an all-ones or all-zeros element for every element of the register; the AVX-512 comparison is
`KMask.cmp`. -/
def cmp (p : α → α → Bool) : (g : Geo) → List α → List α → Option (MaskM g)
  | .scalar, [x], [y] => some (p x y : Bool)
  | .scalar, _, _ => none
  | .vec w _ _, x, y => some (List.zipWith (fun a b => VMask.elem w (p a b)) x y : VMask w)
  | .bitmask n _, x, y => some (KMask.cmp n p x y)

/-- Integer `_S_not_equal_to` (simd_x86.h:2318-2341 for AVX-512; element-wise otherwise). -/
def cmpNe [DecidableEq α] : (g : Geo) → List α → List α → Option (MaskM g)
  | .bitmask n _, x, y => some (KMask.intNotEqual n (fun a b => a == b) x y)
  | g, x, y => cmp (fun a b => a != b) g x y

/-- Unary classification: `_S_negate` (simd_scalar.h:181-183, simd_builtin.h:1759-1762: `!x`, on AVX-512
`_S_equal_to(x, 0)`, simd_x86.h:2576-2583), `_S_isnan`, ... : as `cmp`. -/
def classify (p : α → Bool) : (g : Geo) → List α → Option (MaskM g)
  | g, x => cmp (fun a _ => p a) g x x

/-- `_S_isinf`, `_S_signbit` on AVX-512 (simd_x86.h:2829-2869, 3018-3034) leave padding bits in the mask;
element-wise otherwise. -/
def classifyRaw (p : α → Bool) : (g : Geo) → List α → Option (MaskM g)
  | .bitmask n _, x => some (KMask.classifyRaw n p x)
  | g, x => classify p g x

/-! ## element access -/

/-- `operator[]` on the register (simd.h:5070-5081 via `_SimdWrapper::operator[]`, 2423-2425; scalar: simd.h:5083-5093);
an index outside the register is undefined. -/
def get (x : List α) (i : Nat) : Option α := x[i]?
/-- `_S_set` (simd_builtin.h:2450-2453 via `_SimdWrapper::_M_set`, simd.h:2531-2533; simd_scalar.h:588-594, where the
index must be 0). -/
def set (x : List α) (i : Nat) (v : α) : List α := List.set x i v

/-! ## where -/

/-- Which branch the constant-propagation tests select: `__k._M_is_constprop_none_of()`, `..._all_of()`
(simd_builtin.h:2461, 2463, 2472, ...). -/
inductive Hint where | unknown | noneOf | allOf
  deriving DecidableEq

/-- `__active_mask` of `_SimdWrapper<bool, _Width>` (simd.h:2394-2395, 2406-2407): `~_BuiltinType() >> (nbits - _Width)`; for 8- and
16-bit storage the complement is promoted to `int`, the shift is arithmetic and the conversion back gives all ones. -/
def activeMask (n : Nat) : KMask n :=
  if kBits n < 32 then BitVec.allOnes _ else BitVec.allOnes _ >>> (kBits n - n)

/-- `_M_is_constprop_none_of()` when the mask is a compile-time constant (simd.h:2389-2399, 2530-2548). -/
def constNoneOf : (g : Geo) → MaskM g → Bool
  | .scalar, _ => false
  | .vec w n _, (k : VMask w) => (List.range n).all (fun i => (k[i]?).getD 0#w == 0#w)
  | .bitmask n _, k => k &&& activeMask n == 0#_

/-- `_M_is_constprop_all_of()` when the mask is a compile-time constant (simd.h:2401-2411, 2550-2568). -/
def constAllOf : (g : Geo) → MaskM g → Bool
  | .scalar, _ => false
  | .vec w n _, (k : VMask w) => (List.range n).all (fun i => (k[i]?).getD 0#w == BitVec.allOnes w)
  | .bitmask n _, k => k &&& activeMask n == activeMask n

/-- The branch taken; `c` says whether the compiler knows the mask (`__builtin_constant_p`). -/
def hintOf (c : Bool) (g : Geo) (k : MaskM g) : Hint :=
  if c && constNoneOf g k then .noneOf else if c && constAllOf g k then .allOf else .unknown

/-- `_S_masked_assign(k, lhs, rhs)` (simd_builtin.h:2456-2467, simd_scalar.h:597-600). -/
def maskedAssign (g : Geo) (h : Hint) (k : MaskM g) (lhs rhs : List α) : List α :=
  match h with
  | .noneOf => lhs
  | .allOf => rhs
  | .unknown => blend g k lhs rhs

/-- The branches of `_S_masked_assign(k, lhs, scalar)` (simd_builtin.h:2472-2492). -/
def assignScalarBranches (g : Geo) (h : Hint) (isZero : α → Bool) (zero : α) (k : MaskM g) (lhs : List α) (rhs : α) :
    List α :=
  match h with
  | .noneOf => lhs
  | .allOf => broadcast g rhs
  | .unknown => if isZero rhs then blend g k lhs (broadcast g zero) else blend g k lhs (broadcast g rhs)

/-- `_S_masked_assign(k, lhs, scalar)` (simd_builtin.h:2469-2493, simd_scalar.h:597-600).  `isZero` is the test
`__builtin_constant_p(__rhs) && __rhs == 0` of line 2478 (constantly `false` when the value is not known to the compiler);
`zero` is the all-zero bit pattern.  For vector masks line 2482 computes `~k & lhs`; on lanes that are all-ones or
all-zeros this is the blend with zero (`andnot_get`). -/
def maskedAssignScalar (g : Geo) (h : Hint) (isZero : α → Bool) (zero : α) (k : MaskM g) (lhs : List α) (rhs : α) :
    List α :=
  match g, k with
  | .scalar, (k : Bool) => if k then [rhs] else lhs
  | .vec w n f, k => assignScalarBranches (.vec w n f) h isZero zero k lhs rhs
  | .bitmask n f, k => assignScalarBranches (.bitmask n f) h isZero zero k lhs rhs

/-- `__andnot(__k, __lhs)` (simd_builtin.h:2481-2483): `~k & lhs`. -/
def maskedAssignZero {w : Nat} (k : VMask w) (lhs : List (BitVec w)) : List (BitVec w) :=
  List.zipWith (fun a b => ~~~a &&& b) k lhs

/-- `_S_masked_cassign(k, lhs, rhs, op)` (simd_builtin.h:2496-2517, simd_scalar.h:602-605).  The vector forms apply the
operation to the whole register and blend; the scalar form only evaluates it when the mask is set. -/
def maskedCassign (g : Geo) (h : Hint) (k : MaskM g) (lhs rhs : List α)
    (op : List α → List α → Option (List α)) : Option (List α) :=
  match g, k with
  | .scalar, (k : Bool) => if k then op lhs rhs else some lhs
  | g, k =>
    match h with
    | .noneOf => some lhs
    | .allOf => op lhs rhs
    | .unknown => do let r ← op lhs rhs; pure (blend g k lhs r)

/-- `_S_masked_unary<Op>(k, v)` (simd_builtin.h:2520-2534, simd_scalar.h:608-611). -/
def maskedUnary (g : Geo) (h : Hint) (k : MaskM g) (v : List α) (op : List α → Option (List α)) :
    Option (List α) :=
  match g, k with
  | .scalar, (k : Bool) => if k then op v else some v
  | g, k =>
    match h with
    | .noneOf => some v
    | .allOf => op v
    | .unknown => do let r ← op v; pure (blend g k v r)

/-! ## loads and stores

Memory cells are the elements of the user's array of type `_Up`; `cvt` is `static_cast<_Tp>` resp. `static_cast<_Up>`. -/

/-- The memory accesses of `_S_load` (simd_builtin.h:1431-1490), as (first element, number of elements): one element at
a time for 16-byte types, one block if no conversion or if it fits a register, otherwise several equal blocks or single
elements.  `up = sizeof(_Up)`, `max = __max_load_size`. -/
def loadPlan (up : Nat) (same : Bool) (max n : Nat) : List (Nat × Nat) :=
  let bytes := up * n
  if up > 8 then (List.range n).map (fun i => (i, 1))
  else if same then [(0, n)]
  else if bytes ≤ max then [(0, n)]
  else if bytes % max = 0 then
    let loads := bytes / max
    let per := n / loads
    (List.range loads).map (fun i => (i * per, per))
  else if bytes % (max / 2) = 0 ∧ max > 16 then
    let loads := bytes / (max / 2)
    let per := n / loads
    (List.range loads).map (fun i => (i * per, per))
  else (List.range n).map (fun i => (i, 1))

/-- The memory accesses of `_S_store` (simd_builtin.h:1505-1539); `max = _S_max_store_size<_Up>`. -/
def storePlan (up : Nat) (same : Bool) (max n : Nat) : List (Nat × Nat) :=
  if up > 8 then (List.range n).map (fun i => (i, 1))
  else if same then [(0, n)]
  else if up * n ≤ max then [(0, n)]
  else
    let vsize := max / up
    let stores := divRoundup n vsize
    let full := n / vsize
    (List.range full).map (fun i => (i * vsize, vsize)) ++
      (if full < stores then [(full * vsize, n - full * vsize)] else [])

/-- The element indices touched by a plan, in order. -/
def planIdx (plan : List (Nat × Nat)) : List Nat := plan.flatMap (fun p => List.range' p.1 p.2)

/-- Constants of the load and store code that depend on the types and the target. -/
structure Xfer where
  up : Nat
  same : Bool
  max : Nat

/-- `__max_load_size` (simd_builtin.h:1440-1443) and `_S_max_store_size` (simd_builtin.h:1380, simd_x86.h:842-846) for
elements of type `Up` in memory. -/
def Xfer.of (t : Abi.Target) (Up : Abi.Elem) (same : Bool) : Xfer :=
  { up := Up.size
    same := same
    max := if (decide (4 ≤ Up.size) && t.avx512f) || t.avx512bw then 64
      else if (Up.fp && t.avx) || t.avx2 then 32 else 16 }

/-- `_S_load` (simd_scalar.h:155-158, simd_builtin.h:1431-1490 with `_CommonImplBuiltin::_S_load` 1233-1272 copying
exactly the requested bytes).  That `__convert` converts element-wise is part of property C21. -/
def load (c : Xfer) (cvt : β → α) (zero : α) (g : Geo) (mem : Mem β) (base : Nat) : Option (List α) :=
  match g with
  | .scalar => do let x ← mem.read base; pure [cvt x]
  | g => do
    let xs ← (planIdx (loadPlan c.up c.same c.max g.size)).mapM (fun i => mem.read (base + i))
    pure (xs.map cvt ++ List.replicate (g.full - g.size) zero)

/-- `_S_store` (simd_scalar.h:172-174, simd_builtin.h:1505-1539 with `_CommonImplBuiltin::_S_store` 1276-1315, which
copies exactly the requested bytes; simd_x86.h:470-534 does it by a masked store). -/
def store (c : Xfer) (cvt : α → β) (g : Geo) (v : List α) (mem : Mem β) (base : Nat) : Option (Mem β) :=
  match g with
  | .scalar => do let x ← v[0]?; mem.write base (cvt x)
  | g => (planIdx (storePlan c.up c.same c.max g.size)).foldlM (fun (m : Mem β) i => do
      let x ← v[i]?
      m.write (base + i) (cvt x)) mem

/-- How a native masked load or store selects the elements it touches. -/
inductive MaskedPath where
  /-- `_BitOps::_S_bit_iteration(_S_to_bits(k), ...)` (simd_builtin.h:1492-1503, 1541-1552, 1626-1631,
  simd_x86.h:996-1002) -/
  | iter
  /-- an AVX-512 masked move with the sanitised bits (`_S_to_bits(__k)._M_to_bits()`: loads simd_x86.h:866-932,
  945-975, truncating stores 1230-1301) -/
  | bits
  /-- a masked move with the mask register as it is: `vpmaskmov`, `vmaskmovps`, `maskmovdqu` use the sign bits of all
  elements of the vector mask (loads simd_x86.h:933-944, 976-993, stores 1164-1226); AVX-512 stores use all bits of
  the `k` register (simd_x86.h:1036-1162) -/
  | raw
  /-- NEON: a test of every element of the mask, `if (__k[__i] != 0)` (simd_neon.h:60-84) -/
  | elem
  deriving DecidableEq

/-- Is element `i` of the register touched by a hardware masked move? -/
def rawBit : (g : Geo) → MaskM g → Nat → Bool
  | .scalar, (k : Bool), i => decide (i = 0) && k
  | .vec w _ _, (k : VMask w), i => ((k[i]?).getD 0#w).msb
  | .bitmask _ _, k, i => BitVec.getLsbD k i

/-- Number of elements a hardware masked move can touch: the register, resp. all bits of the mask type. -/
def rawCount : Geo → Nat
  | .scalar => 1
  | .vec _ _ f => f
  | .bitmask n _ => kBits n

/-- `__k[__i] != 0` (simd_neon.h:67, 81). -/
def elemBit : (g : Geo) → MaskM g → Nat → Bool
  | .scalar, (k : Bool), i => decide (i = 0) && k
  | .vec w _ _, (k : VMask w), i => (k[i]?).getD 0#w != 0#w
  | .bitmask _ _, k, i => BitVec.getLsbD k i

/-- The indices of the elements touched by a masked move. -/
def touched (p : MaskedPath) (g : Geo) (k : MaskM g) : Option (List Nat) :=
  match p with
  | .iter => (maskToBits g k).toULL.map bitIteration
  | .bits => (maskToBits g k).toULL.map (fun b => (List.range 64).filter (fun i => b.getLsbD i))
  | .raw => some ((List.range (rawCount g)).filter (rawBit g k))
  | .elem => some ((List.range g.size).filter (elemBit g k))

/-- `_S_masked_load(merge, k, mem)` (simd_scalar.h:161-169, simd_builtin.h:1492-1503, simd_x86.h:850-1032): the touched
elements are replaced by the loaded ones; elements beyond the register are read but dropped.  The AVX form
`(~k & merge) | maskload(k)` is `maskLoadAvx`. -/
def maskedLoad (p : MaskedPath) (cvt : β → α) (g : Geo) (merge : List α) (k : MaskM g) (mem : Mem β) (base : Nat) :
    Option (List α) :=
  match g, k with
  | .scalar, (k : Bool) => if k then do let x ← mem.read base; pure [cvt x] else some merge
  | g, k => do
    let idx ← touched p g k
    idx.foldlM (fun (r : List α) i => do
      let x ← mem.read (base + i)
      pure (set r i (cvt x))) merge

/-- The AVX masked load (simd_x86.h:933-944, 976-993): `vmaskmov` reads the elements whose mask element has its sign bit
set, gives zero elsewhere; result `(~k & merge) | loaded`. -/
def maskLoadAvx {w : Nat} (merge k : List (BitVec w)) (mem : Mem (BitVec w)) (base : Nat) :
    Option (List (BitVec w)) := do
  let ld ← (List.range k.length).mapM (fun i =>
    if ((k[i]?).getD 0#w).msb then mem.read (base + i) else some 0#w)
  pure (List.zipWith (· ||| ·) (List.zipWith (fun a b => ~~~a &&& b) k merge) ld)

/-- `_S_masked_store(v, mem, k)` (simd_scalar.h:177-179, simd_builtin.h:1541-1632, simd_x86.h:1036-1301), one register or one
piece of it; the cutting of converting stores into pieces is `maskedStoreAny` in MaskedConvert.lean.  A touched element beyond the register has unspecified value: `junk`. -/
def maskedStore (p : MaskedPath) (cvt : α → β) (junk : α) (g : Geo) (v : List α) (mem : Mem β) (base : Nat)
    (k : MaskM g) : Option (Mem β) :=
  match g, k with
  | .scalar, (k : Bool) => if k then do let x ← v[0]?; mem.write base (cvt x) else some mem
  | g, k => do
    let idx ← touched p g k
    idx.foldlM (fun (m : Mem β) i => m.write (base + i) (cvt ((v[i]?).getD junk))) mem

end Native
end StdSimd
