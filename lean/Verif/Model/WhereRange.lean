import Verif.Model.MaskSplit
/-!
# Model of the range `__proposed::where(mask)` (experimental/bits/simd.h:3371-3440)

`for (size_t i : where(k))` is meant to visit the indices of the set lanes of `k`.  Parameters of the data model: `sz` is the width
of `size_t`, `lg` the width of `unsigned long` (64/64 on LP64, 32/32 on ILP32, 64/32 on LLP64 systems).
-/
namespace StdSimd.WhereRange
open MaskSplit

/-- Widths of `size_t` and `unsigned long`, and the value `__builtin_ctzl(0)` happens to give (the compiler leaves it undefined). -/
structure DataModel where
  sz : Nat
  lg : Nat
  ctzl0 : Nat

/-- `where_range::iterator` (simd.h:3380-3383): `__mask`, `__bit`. -/
structure Iter (dm : DataModel) where
  mask : BitVec dm.sz
  bit : Nat

variable {dm : DataModel}

/-- `__builtin_ctzl(__mask)` (simd.h:3386): the argument is converted to `unsigned long`. -/
def ctzl (m : BitVec dm.sz) : Nat :=
  if m.setWidth dm.lg = 0 then dm.ctzl0 else ctz (m.setWidth dm.lg)

/-- The constructor (simd.h:3397), with `__next_bit` (simd.h:3385-3386). -/
def Iter.mk' (m : BitVec dm.sz) : Iter dm := ⟨m, ctzl m⟩

/-- `operator++` (simd.h:3407-3412): `__reset_lsb` (simd.h:3388-3393), `__next_bit`. -/
def Iter.inc (it : Iter dm) : Iter dm := Iter.mk' (it.mask &&& (it.mask - 1))

/-- `operator++(int)` (simd.h:3414-3420): the iterator afterwards, and the result. -/
def Iter.postInc (it : Iter dm) : Iter dm × Iter dm := (it.inc, it)

/-- `operator*` and `operator->` (simd.h:3401-3405). -/
def Iter.deref (it : Iter dm) : Nat := it.bit

/-- `operator==` (simd.h:3422-3423); `operator!=` (simd.h:3425-3426) is its negation. -/
def Iter.eq (a b : Iter dm) : Bool := a.mask == b.mask

/-- `begin()` (simd.h:3429-3430): `to_ullong()` (64 bits) converted to `size_t`, the parameter of the iterator's constructor. -/
def begin' {n : Nat} (bits : BitVec n) : Iter dm := Iter.mk' ((bits.setWidth 64).setWidth dm.sz)

/-- `end()` (simd.h:3432-3433). -/
def end' : Iter dm := Iter.mk' 0

/-- The range-based for statement: `for (it = begin; it != end; ++it) visit(*it);` the sequence of visited values. -/
def loop (it : Iter dm) : List Nat :=
  if h : it.eq end' then [] else it.deref :: loop it.inc
termination_by it.mask.toNat
decreasing_by
  apply and_pred_lt
  intro h0
  exact h (by simp [Iter.eq, end', Iter.mk', h0])

/-- `for (auto i : where(k))` (simd.h:3435-3438): `where_range` keeps the bitset of the mask. -/
def forWhere (dm : DataModel) (a : MAbi) (k : Data a) : Option (List Nat) :=
  (toBitset a k).map (fun bits => loop (begin' (dm := dm) bits))

/-- A loop that uses `operator++(int)`: `for (it = begin; it != end;) visit(*it++);`. -/
def loopPost (it : Iter dm) : List Nat :=
  if h : it.eq end' then [] else it.postInc.2.deref :: loopPost it.postInc.1
termination_by it.mask.toNat
decreasing_by
  apply and_pred_lt
  intro h0
  exact h (by simp [Iter.eq, end', Iter.mk', h0])

/-- The indices such a loop over `where_range(k)` visits (simd.h:3414-3438). -/
def postWhere (dm : DataModel) (a : MAbi) (k : Data a) : Option (List Nat) :=
  (toBitset a k).map (fun bits => loopPost (begin' (dm := dm) bits))

end StdSimd.WhereRange
