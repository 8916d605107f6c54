import Verif.Model.Native
import Verif.Model.FixedMask
/-!
# Model of `_SimdTuple` and `_SimdImplFixedSize` (experimental/bits/simd_fixed_size.h)

A `_SimdTuple<T, A0, A1, ...>` (simd_fixed_size.h:283-647) is a list of native registers, one for each geometry in
`gs`.  The recursion `first` / `second` of the C++ code is the recursion over the list; the functions below stop at
`_S_tuple_size == 1` as the code does.  The empty tuple is never used for a fixed_size object (`none`).
-/
namespace StdSimd.Tuple
open Native
variable {α β : Type}

/-- `_SimdTuple` data: `first`, `second.first`, ... (simd_fixed_size.h:288-307). -/
abbrev Tup (α : Type) := List (List α)

/-- `_SimdTuple::_S_size()` (simd_fixed_size.h:331-332). -/
def total : List Geo → Nat
  | [] => 0
  | [g] => g.size
  | g :: g' :: gs => total (g' :: gs) + g.size

/-- Every register has the number of elements its geometry says. -/
def Wf : List Geo → Tup α → Prop
  | [], [] => True
  | g :: gs, r :: rs => r.length = g.full ∧ Wf gs rs
  | _, _ => False

/-- Abstraction: the lanes of the object, padding dropped. -/
def lanes (gs : List Geo) (t : Tup α) : List α := (List.zipWith (fun (g : Geo) (r : List α) => r.take g.size) gs t).flatten

/-! ## application functions -/

/-- `_S_generate<_Offset>(gen)` (simd_fixed_size.h:398-410): `gen(meta)` for each register with the running offset. -/
def generate {m : Type → Type} [Monad m] (gen : Geo → Nat → m (List α)) : List Geo → Nat → m (Tup α)
  | [], _ => pure []
  | [g], off => do let f ← gen g off; pure [f]
  | g :: g' :: gs, off => do
    let f ← gen g off
    let r ← generate gen (g' :: gs) (off + g.size)
    pure (f :: r)

/-- `_M_apply_wrapped<_Offset>(fun)` without further arguments (simd_fixed_size.h:412-425) and
`__for_each(tuple&, fun)` (863-893): `fun(meta, first)` for each register. -/
def forEach1 (f : Geo → Nat → List α → Option (List β)) : List Geo → Nat → Tup α → Option (Tup β)
  | [g], off, [x] => do let r ← f g off x; pure [r]
  | g :: g' :: gs, off, x :: xs => do
    let r ← f g off x
    let rs ← forEach1 f (g' :: gs) (off + g.size) xs
    pure (r :: rs)
  | _, _, _ => none

/-- `__for_each(tuple&, const tuple&, fun)` (simd_fixed_size.h:896-913) with a result per register. -/
def forEach2 (f : Geo → Nat → List α → List β → Option (List α)) :
    List Geo → Nat → Tup α → Tup β → Option (Tup α)
  | [g], off, [x], [y] => do let r ← f g off x y; pure [r]
  | g :: g' :: gs, off, x :: xs, y :: ys => do
    let r ← f g off x y
    let rs ← forEach2 f (g' :: gs) (off + g.size) xs ys
    pure (r :: rs)
  | _, _, _, _ => none

/-- `__for_each(const tuple&, fun)` (simd_fixed_size.h:863-877) where `fun` updates a captured state. -/
def foldEach {σ : Type} (f : σ → Geo → Nat → List α → Option σ) : σ → List Geo → Nat → Tup α → Option σ
  | s, [g], off, [x] => f s g off x
  | s, g :: g' :: gs, off, x :: xs => do
    let s' ← f s g off x
    foldEach f s' (g' :: gs) (off + g.size) xs
  | _, _, _, _ => none

/-- `_M_apply_per_chunk(fun)` (simd_fixed_size.h:541-550) without further arguments. -/
def applyPerChunk1 (f : Geo → List α → Option (List β)) : List Geo → Tup α → Option (Tup β)
  | [g], [x] => do let r ← f g x; pure [r]
  | g :: g' :: gs, x :: xs => do
    let r ← f g x
    let rs ← applyPerChunk1 f (g' :: gs) xs
    pure (r :: rs)
  | _, _ => none

/-- `_M_apply_per_chunk(fun, more)` (simd_fixed_size.h:541-550) where `more` is a tuple of the same type:
`_M_extract_argument` is `more.first` (430-431) and `_M_skip_argument` is `more.second` (455-456).  Different types are
modelled in `Verif.Model.Chunks`. -/
def applyPerChunk2 (f : Geo → List α → List β → Option (List α)) : List Geo → Tup α → Tup β → Option (Tup α)
  | [g], [x], [y] => do let r ← f g x y; pure [r]
  | g :: g' :: gs, x :: xs, y :: ys => do
    let r ← f g x y
    let rs ← applyPerChunk2 f (g' :: gs) xs ys
    pure (r :: rs)
  | _, _, _ => none

/-- `_M_apply_per_chunk(fun, more1, more2)`, as above. -/
def applyPerChunk3 (f : Geo → List α → List α → List α → Option (List α)) :
    List Geo → Tup α → Tup α → Tup α → Option (Tup α)
  | [g], [x], [y], [z] => do let r ← f g x y z; pure [r]
  | g :: g' :: gs, x :: xs, y :: ys, z :: zs => do
    let r ← f g x y z
    let rs ← applyPerChunk3 f (g' :: gs) xs ys zs
    pure (r :: rs)
  | _, _, _, _ => none

/-- `_M_test(fun, x, more)` (simd_fixed_size.h:567-580): the bits of the first register are prepended to the bits of the
rest. -/
def test2 (f : (g : Geo) → List α → List α → Option (MaskM g)) :
    (gs : List Geo) → Tup α → Tup α → Option (BitMask (total gs) true)
  | [g], [x], [y] => do let k ← f g x y; pure (maskToBits g k)
  | g :: g' :: gs, x :: xs, y :: ys => do
    let k ← f g x y
    let r ← test2 f (g' :: gs) xs ys
    r.prepend (maskToBits g k)
  | _, _, _ => none

/-- `_M_test(fun, x)` (simd_fixed_size.h:567-580). -/
def test1 (f : (g : Geo) → List α → Option (MaskM g)) :
    (gs : List Geo) → Tup α → Option (BitMask (total gs) true)
  | [g], [x] => do let k ← f g x; pure (maskToBits g k)
  | g :: g' :: gs, x :: xs => do
    let k ← f g x
    let r ← test1 f (g' :: gs) xs
    r.prepend (maskToBits g k)
  | _, _ => none

/-- `operator[](size_t)` (simd_fixed_size.h:592-612), recursive form; also `operator[](integral_constant)`
(582-590). -/
def get : List Geo → Tup α → Nat → Option α
  | [_], [x], i => Native.get x i
  | g :: g' :: gs, x :: xs, i => if i < g.size then Native.get x i else get (g' :: gs) xs (i - g.size)
  | _, _, _ => none

/-- `_M_set` (simd_fixed_size.h:614-629), recursive form. -/
def set : List Geo → Tup α → Nat → α → Tup α
  | [_], [x], i, v => [Native.set x i v]
  | g :: g' :: gs, x :: xs, i, v =>
    if i < g.size then Native.set x i v :: xs else x :: set (g' :: gs) xs (i - g.size) v
  | _, t, _, _ => t

/-- `operator[](size_t)`, form with `_GLIBCXX_SIMD_USE_ALIASING_LOADS` (simd_fixed_size.h:599, simd_detail.h:274): the
object is read as an array of `_Tp`.  The registers lie one after the other (every register but the last is a full
power-of-two register and sizes do not increase, so the nested structs have no padding between members). -/
def getAlias (t : Tup α) (i : Nat) : Option α :=
  match t with
  | [x] => Native.get x i
  | t => t.flatten[i]?

/-- Overwrite element `i` of the concatenation of the registers. -/
def setFlat : Tup α → Nat → α → Tup α
  | [], _, _ => []
  | x :: xs, i, v => if i < x.length then x.set i v :: xs else x :: setFlat xs (i - x.length) v

/-- `_M_set`, form with `_GLIBCXX_SIMD_USE_ALIASING_LOADS` (simd_fixed_size.h:620-621). -/
def setAlias (t : Tup α) (i : Nat) (v : α) : Tup α :=
  match t with
  | [x] => [Native.set x i v]
  | t => setFlat t i v

/-! ## mask metadata -/

/-- `__tuple_element_meta::_S_submask(bits).any()` (simd_fixed_size.h:188-191). -/
def submaskAny {n : Nat} (g : Geo) (off : Nat) (bits : BitMask n true) : Option Bool := do
  let e ← bits.extract off g.size
  pure e.any

/-- `__tuple_element_meta::_S_make_mask(bits)` (simd_fixed_size.h:193-199). -/
def makeMask {n : Nat} (g : Geo) (off : Nat) (bits : BitMask n true) : Option (MaskM g) := do
  let e ← bits.extract off g.size
  maskOfBits g e.sanitized

/-- `__tuple_element_meta::_S_mask_to_shifted_ullong(k)` (simd_fixed_size.h:201-203). -/
def maskToShifted (g : Geo) (off : Nat) (k : MaskM g) : Option (BitVec 64) :=
  (maskToBits g k).toULL.map (fun (v : BitVec 64) => v <<< off)

/-! ## `_SimdImplFixedSize` -/

/-- `_S_broadcast` (simd_fixed_size.h:1310-1316). -/
def broadcast (gs : List Geo) (x : α) : Tup α :=
  Id.run (generate (m := Id) (fun g _ => pure (Native.broadcast g x)) gs 0)

/-- `_S_generator` (simd_fixed_size.h:1318-1332). -/
def generator {m : Type → Type} [Monad m] (gs : List Geo) (zero : α) (gen : Nat → m α) : m (Tup α) :=
  generate (fun g off => Native.generator g zero
    (fun i => if i < total gs then gen (off + i) else pure zero)) gs 0

/-- `_S_load` (simd_fixed_size.h:1334-1342). -/
def load (c : Xfer) (cvt : β → α) (zero : α) (gs : List Geo) (mem : Mem β) (base : Nat) : Option (Tup α) :=
  generate (fun g off => Native.load c cvt zero g mem (base + off)) gs 0

/-- `_S_masked_load` (simd_fixed_size.h:1344-1367). -/
def maskedLoad (p : Geo → MaskedPath) (cvt : β → α) (gs : List Geo) {n : Nat} (old : Tup α) (bits : BitMask n true)
    (mem : Mem β) (base : Nat) : Option (Tup α) :=
  forEach1 (fun g off native => do
    let a ← submaskAny g off bits
    if a then do
      let k ← makeMask g off bits
      Native.maskedLoad (p g) cvt g native k mem (base + off)
    else pure native) gs 0 old

/-- `_S_store` (simd_fixed_size.h:1367-1375). -/
def store (c : Xfer) (cvt : α → β) (gs : List Geo) (v : Tup α) (mem : Mem β) (base : Nat) : Option (Mem β) :=
  foldEach (fun m g off native => Native.store c cvt g native m (base + off)) mem gs 0 v

/-- `_S_masked_store` (simd_fixed_size.h:1377-1395). -/
def maskedStore (p : Geo → MaskedPath) (cvt : α → β) (junk : α) (gs : List Geo) {n : Nat} (v : Tup α) (mem : Mem β)
    (base : Nat) (bits : BitMask n true) : Option (Mem β) :=
  foldEach (fun m g off native => do
    let a ← submaskAny g off bits
    if a then do
      let k ← makeMask g off bits
      Native.maskedStore (p g) cvt junk g native m (base + off) k
    else pure m) mem gs 0 v

/-- `_S_negate`, i.e. `operator!` (simd_fixed_size.h:1397-1409): the bits of each register, shifted to the register's
offset, are or-ed. -/
def negate (p : α → Bool) (gs : List Geo) (x : Tup α) : Option (BitMask (total gs) true) :=
  foldEach (fun (r : BitMask (total gs) true) g off native => do
    let k ← classify p g native
    let b ← maskToShifted g off k
    pure (r.or (BitMask.ofULL _ true b))) (BitMask.ofULL (total gs) true 0#64) gs 0 x

/-- `_S_complement`, `_S_unary_minus`, shifts by an `int`, one-argument math functions
(simd_fixed_size.h:1510-1528, 1556-1572, 1575-1676). -/
def unary (f : α → Option α) (gs : List Geo) (x : Tup α) : Option (Tup α) :=
  applyPerChunk1 (fun _ xx => map1 f xx) gs x

/-- `_S_plus`, ..., `_S_bit_shift_right`, `_S_min`, `_S_max`, two-argument math functions
(simd_fixed_size.h:1485-1508, 1532-1554, 1595-1604): the registers are combined by the native operation. -/
def binary (f : α → α → Option α) (gs : List Geo) (x y : Tup α) : Option (Tup α) :=
  applyPerChunk2 (fun _ xx yy => map2 f xx yy) gs x y

/-- Three-argument math functions such as `fma` (simd_fixed_size.h:1595-1604). -/
def ternary (f : α → α → α → Option α) (gs : List Geo) (x y z : Tup α) : Option (Tup α) :=
  applyPerChunk3 (fun _ xx yy zz => map3 f xx yy zz) gs x y z

/-- `_S_increment`, `_S_decrement` (simd_fixed_size.h:1722-1741). -/
def incr (f : α → Option α) (gs : List Geo) (x : Tup α) : Option (Tup α) :=
  forEach1 (fun _ _ xx => map1 f xx) gs 0 x

/-- Comparison operators (simd_fixed_size.h:1744-1767). -/
def cmp (p : α → α → Bool) (gs : List Geo) (x y : Tup α) : Option (BitMask (total gs) true) :=
  test2 (fun g xx yy => Native.cmp p g xx yy) gs x y

/-- `operator!=` on integers (simd_fixed_size.h:1744-1767 with `Native.cmpNe`). -/
def cmpNe [DecidableEq α] (gs : List Geo) (x y : Tup α) : Option (BitMask (total gs) true) :=
  test2 (fun g xx yy => Native.cmpNe g xx yy) gs x y

/-- `isnan`, `isfinite`, `isnormal` (simd_fixed_size.h:1705-1720). -/
def classify (p : α → Bool) (gs : List Geo) (x : Tup α) : Option (BitMask (total gs) true) :=
  test1 (fun g xx => Native.classify p g xx) gs x

/-- `isinf`, `signbit` (simd_fixed_size.h:1705-1720 with `Native.classifyRaw`). -/
def classifyRaw (p : α → Bool) (gs : List Geo) (x : Tup α) : Option (BitMask (total gs) true) :=
  test1 (fun g xx => Native.classifyRaw p g xx) gs x

/-- `_S_masked_assign` (simd_fixed_size.h:1775-1787); `c off` says whether the compiler knows the mask of the register at
offset `off`. -/
def maskedAssign (c : Nat → Bool) (gs : List Geo) {n : Nat} (bits : BitMask n true) (lhs rhs : Tup α) :
    Option (Tup α) :=
  forEach2 (fun g off l r => do
    let k ← makeMask g off bits
    pure (Native.maskedAssign g (hintOf (c off) g k) k l r)) gs 0 lhs rhs

/-- `_S_masked_assign` with a scalar (simd_fixed_size.h:1791-1801). -/
def maskedAssignScalar (c : Nat → Bool) (isZero : α → Bool) (zero : α) (gs : List Geo) {n : Nat} (bits : BitMask n true)
    (lhs : Tup α) (rhs : α) : Option (Tup α) :=
  forEach1 (fun g off l => do
    let k ← makeMask g off bits
    pure (Native.maskedAssignScalar g (hintOf (c off) g k) isZero zero k l rhs)) gs 0 lhs

/-- `_S_masked_cassign` (simd_fixed_size.h:1803-1816). -/
def maskedCassign (c : Nat → Bool) (gs : List Geo) {n : Nat} (bits : BitMask n true) (lhs rhs : Tup α)
    (op : Geo → List α → List α → Option (List α)) : Option (Tup α) :=
  forEach2 (fun g off l r => do
    let k ← makeMask g off bits
    Native.maskedCassign g (hintOf (c off) g k) k l r (op g)) gs 0 lhs rhs

/-- `_S_masked_cassign` with a scalar (simd_fixed_size.h:1818-1830, simd_builtin.h:2512-2517). -/
def maskedCassignScalar (c : Nat → Bool) (gs : List Geo) {n : Nat} (bits : BitMask n true) (lhs : Tup α) (rhs : α)
    (op : Geo → List α → List α → Option (List α)) : Option (Tup α) :=
  forEach1 (fun g off l => do
    let k ← makeMask g off bits
    Native.maskedCassign g (hintOf (c off) g k) k l (Native.broadcast g rhs) (op g)) gs 0 lhs

/-- `_S_masked_unary` (simd_fixed_size.h:1832-1845). -/
def maskedUnary (c : Nat → Bool) (gs : List Geo) {n : Nat} (bits : BitMask n true) (v : Tup α)
    (op : Geo → List α → Option (List α)) : Option (Tup α) :=
  forEach1 (fun g off l => do
    let k ← makeMask g off bits
    Native.maskedUnary g (hintOf (c off) g k) k l (op g)) gs 0 v

/-- The registers of `simd<T, fixed_size<n>>`: `__fixed_size_storage_t<_Tp, _Np>` (simd_fixed_size.h:1008-1029,
1193-1195) with the geometry of each ABI. -/
def regs (t : Abi.Target) (T : Abi.Elem) (n : Nat) : List Geo := (Abi.storage t T n).map (Geo.ofTag t T)

end StdSimd.Tuple
