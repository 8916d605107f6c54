import Verif.Model.Tuple
/-!
# Model of `reduce`, `hmin`, `hmax` (simd.h:3442-3543, simd_builtin.h:1785-1918, simd_fixed_size.h:1411-1483,
simd_scalar.h:185-189, simd_neon.h:88-135)

The operation is called with `simd` objects of different sizes; it is assumed to act lane-wise, i.e. it is given by a
function `f` on elements that is applied to every element of the registers, padding included.  Operations are total:
wrapping integer arithmetic, floating-point arithmetic, minimum and maximum.  `zero` and `one` are the elements `_Tp()`
and `_Tp(1)`.

Simplification: one function `f` serves all registers.  `_Minimum` and `_Maximum` of floating-point objects apply the
conditional of `simd_abi::scalar` in the last step of a reduction of two elements and that of the vector types elsewhere;
the two differ for operands that compare equal (`-0`, `+0`) and for NaNs (`Compare.scalarMin`, `Compare.vecMin`).
-/
namespace StdSimd
open Tuple

namespace Reduce
variable {α : Type}

/-- The cases distinguished by `is_same_v<_BinaryOperation, plus<>>` and `multiplies<>` (simd_builtin.h:1828, 1837). -/
inductive Kind where | plus | multiplies | other
  deriving DecidableEq

/-- `__vector_bitcast<_Up>`, `__vector_permute<idx...>`, `__vector_bitcast<_Tp>` (simd_builtin.h:57-67, 1870-1905): the
register is seen as `idx.length` groups of equal size; group `j` of the result is group `idx[j]` of the operand. -/
def permGroups (idx : List Nat) (zero : α) (x : List α) : List α :=
  let g := x.length / idx.length
  (List.range x.length).map (fun i => (x[(idx.getD (i / g) 0) * g + i % g]?).getD zero)

/-- The branch for 16-byte registers (simd_builtin.h:1870-1907), `_Np ∈ {4, 8, 16}`. -/
def tree16 (f : α → α → α) (zero : α) (n : Nat) (x : List α) : Option α :=
  let x := if n = 16 then
      List.zipWith f (permGroups [0, 0, 1, 1, 2, 2, 3, 3, 4, 4, 5, 5, 6, 6, 7, 7] zero x)
        (permGroups [8, 8, 9, 9, 10, 10, 11, 11, 12, 12, 13, 13, 14, 14, 15, 15] zero x)
    else x
  let x := if 8 ≤ n then
      List.zipWith f (permGroups [0, 0, 1, 1, 2, 2, 3, 3] zero x) (permGroups [4, 4, 5, 5, 6, 6, 7, 7] zero x)
    else x
  let x := if 4 ≤ n then List.zipWith f x (permGroups [3, 2, 1, 0] zero x) else x
  let x := List.zipWith f x (permGroups [1, 1] zero x)
  x[0]?

/-- `_SimdImplBuiltin::_S_reduce` for registers without padding (simd_builtin.h:1811-1818, 1868-1917); `s` is
`sizeof(_Tp)`.  The halves of a full register are full registers, so the recursive call meets the same branches. -/
def reduceFull (f : α → α → α) (zero : α) (s : Nat) (n : Nat) (x : List α) : Option α :=
  if n = 0 then none
  else if n = 1 then x[0]?
  else if n = 2 then do let a ← x[0]?; let b ← x[1]?; pure (f a b)
  else if s * n = 16 then tree16 f zero n x
  else reduceFull f zero s (n / 2) (List.zipWith f (x.take (n / 2)) (x.drop (n / 2)))
  termination_by n
  decreasing_by omega

/-- `_S_full_size` of the vector type for `n` elements of `s` bytes (simd.h:1354-1370). -/
def fullOf (t : Abi.Target) (s n : Nat) : Nat := Abi.vecBytes t s n / s

/-- `_SimdImplBuiltin::_S_reduce` (simd_builtin.h:1809-1918) and `_S_reduce_partial` (1786-1807).  Partial registers:
three lanes one after the other; `plus` with the padding masked to zero; `multiplies` with the padding blended to one;
an odd number of lanes reduces the others first; an even number combines the upper half of the lanes with the lower
half. -/
def reduceNative (t : Abi.Target) (kd : Kind) (f : α → α → α) (zero one : α) (s : Nat) (n : Nat) (x : List α) :
    Option α :=
  if n = 0 then none
  else if n = 1 then x[0]?
  else if n = 2 then do let a ← x[0]?; let b ← x[1]?; pure (f a b)
  else if fullOf t s n ≠ n then
    if n = 3 then do let a ← x[0]?; let b ← x[1]?; let c ← x[2]?; pure (f (f a b) c)
    else if kd = .plus then
      reduceFull f zero s (fullOf t s n) ((List.range (fullOf t s n)).map (fun i => if i < n then (x[i]?).getD zero else zero))
    else if kd = .multiplies then
      reduceFull f zero s (fullOf t s n) ((List.range (fullOf t s n)).map (fun i => if i < n then (x[i]?).getD zero else one))
    else if n % 2 = 1 then do
      let a ← reduceNative t kd f zero one s (n - 1) (x.take (fullOf t s (n - 1)))
      let b ← x[n - 1]?
      pure (f a b)
    else
      let fh := fullOf t s (n / 2)
      let hi := (List.range x.length).map (fun i => if i < n / 2 then (x[n / 2 + i]?).getD zero else zero)
      reduceNative t kd f zero one s (n / 2) (List.zipWith f (x.take fh) (hi.take fh))
  else reduceFull f zero s n x
  termination_by n
  decreasing_by all_goals omega

/-- `_SimdImplNeon::_S_reduce` (simd_neon.h:88-135) for registers without padding: 16-byte registers of at least four
lanes are halved, then butterfly permutations. -/
def reduceNeon (f : α → α → α) (zero : α) (s n : Nat) (x : List α) : Option α :=
  if n = 0 then none
  else if s * n = 16 ∧ 4 ≤ n then reduceNeon f zero s (n / 2) (List.zipWith f (x.take (n / 2)) (x.drop (n / 2)))
  else if n = 8 then
    let x := List.zipWith f x (permGroups [1, 0, 3, 2, 5, 4, 7, 6] zero x)
    let x := List.zipWith f x (permGroups [3, 2, 1, 0, 7, 6, 5, 4] zero x)
    (List.zipWith f x (permGroups [7, 6, 5, 4, 3, 2, 1, 0] zero x))[0]?
  else if n = 4 then
    let x := List.zipWith f x (permGroups [1, 0, 3, 2] zero x)
    (List.zipWith f x (permGroups [3, 2, 1, 0] zero x))[0]?
  else if n = 2 then (List.zipWith f x (permGroups [1, 0] zero x))[0]?
  else reduceFull f zero s n x
  termination_by n
  decreasing_by omega

/-- `reduce` of one register: `_SimdImplScalar::_S_reduce` (simd_scalar.h:185-189) or the above. -/
def reduceGeo (t : Abi.Target) (kd : Kind) (f : α → α → α) (zero one : α) (s : Nat) : Geo → List α → Option α
  | .scalar, x => x[0]?
  | g, x => reduceNative t kd f zero one s g.size x

/-- `simd_mask(__private_init, gen)` (simd.h:4505-4514): `_S_set(_M_data, i, gen(i))` for every lane of a
zero-initialised mask. -/
def maskGen (p : Nat → Bool) : (g : Geo) → Native.MaskM g
  | .scalar => p 0
  | .vec w n f => (List.range n).foldl (fun (k : VMask w) i => VMask.set k i (p i)) (List.replicate f 0#w)
  | .bitmask n _ => (List.range n).foldl (fun (k : KMask n) i => KMask.set k i (p i)) 0

/-- `__proposed::resizing_simd_cast` between native ABIs for a smaller source (simd.h:2957-2984): the lanes of the source,
zeros above. -/
def resize (zero : α) (gr gl : Geo) (x : List α) : List α :=
  (List.range gl.full).map (fun i => if i < gr.size then (x[i]?).getD zero else zero)

/-- Combination of two neighbouring registers (simd_fixed_size.h:1455-1479). -/
def combine2 (f : α → α → α) (zero : α) (c : Bool) (gl gr : Geo) (left right : List α) : List α :=
  if gl.size = gr.size then List.zipWith f left right
  else
    let k := maskGen (fun j => decide (j < gr.size)) gl
    let ext := Native.maskedAssign gl (Native.hintOf c gl k) k left (resize zero gr gl right)
    Native.maskedAssign gl (Native.hintOf c gl k) k left (List.zipWith f left ext)

/-- The elements with even index. -/
def evens {β : Type} : List β → List β
  | g :: _ :: gs => g :: evens gs
  | gs => gs

/-- The ABIs of the combined registers: those of the registers with even index (simd_fixed_size.h:1436-1481). -/
def combineGeo (gs : List Geo) : List Geo := evens gs

/-- The combined registers. -/
def combine (f : α → α → α) (zero : α) (c : Bool) : List Geo → Tup α → Tup α
  | gl :: gr :: gs, l :: r :: xs => combine2 f zero c gl gr l r :: combine f zero c gs xs
  | _, t => t

theorem length_evens {β : Type} (gs : List β) : (evens gs).length = (gs.length + 1) / 2 := by
  fun_induction evens gs with
  | case1 g g' gs ih => simp [ih]; omega
  | case2 gs h =>
    match gs, h with
    | [], _ => simp
    | [_], _ => simp
    | g :: g' :: gs, h => exact absurd rfl (h g g' gs)

theorem length_combineGeo (gs : List Geo) : (combineGeo gs).length = (gs.length + 1) / 2 := length_evens gs

/-- `_SimdImplFixedSize::_S_reduce` (simd_fixed_size.h:1411-1483).  `c` says whether the compiler knows the mask of
`combine2`.  The recursive `reduce(__x2, ...)` is the native one when a single register is left, otherwise this function
again: the registers of `__x2` are those of a `fixed_size` object (`C16_combine_layout`). -/
def reduceFixed (t : Abi.Target) (kd : Kind) (f : α → α → α) (zero one : α) (s : Nat) (c : Bool) (gs : List Geo) (x : Tup α) :
    Option α :=
  match gs, x with
  | [g], [x] => reduceGeo t kd f zero one s g x
  | [g0, g1], [x0, x1] =>
    if total [g0, g1] > 2 ∧ g1.size = 1 then do
      let a ← reduceGeo t kd f zero one s g0 x0
      let b ← x1[0]?
      pure (f a b)
    else if total [g0, g1] > 4 ∧ g1.size = 2 then do
      let a ← reduceGeo t kd f zero one s g0 x0
      let b ← reduceGeo t kd f zero one s g1 x1
      pure (f a b)
    else reduceGeo t kd f zero one s g0 (combine2 f zero c g0 g1 x0 x1)
  | g0 :: g1 :: g2 :: gs, x =>
    reduceFixed t kd f zero one s c (combineGeo (g0 :: g1 :: g2 :: gs)) (combine f zero c (g0 :: g1 :: g2 :: gs) x)
  | _, _ => none
  termination_by gs.length
  decreasing_by rw [length_combineGeo]; simp; omega

/-- `reduce(where(k, v), identity, op)` (simd.h:3450-3464) for `fixed_size`. -/
def maskedReduceFixed (t : Abi.Target) (kd : Kind) (f : α → α → α) (zero one : α) (s : Nat) (c : Bool) (ch : Nat → Bool)
    (gs : List Geo) {n : Nat} (k : BitMask n true) (v : Tup α) (ident : α) : Option α :=
  if k.isNone then some ident
  else do
    let tmp ← Tuple.maskedAssign ch gs k (Tuple.broadcast gs ident) v
    reduceFixed t kd f zero one s c gs tmp

/-- `hmin(where(k, v))`, `hmax(where(k, v))` (simd.h:3503-3543) for `fixed_size`; `f` is `_Minimum` or `_Maximum`
(simd.h:209-229), `ident` is `__finite_max_v` resp. `__finite_min_v`: GCC defines `__FINITE_MATH_ONLY__` always (as 0 or
1), so `#ifdef` selects the first alternative. -/
def maskedHFixed (t : Abi.Target) (f : α → α → α) (zero one : α) (s : Nat) (c : Bool) (ch : Nat → Bool) (gs : List Geo)
    {n : Nat} (k : BitMask n true) (v : Tup α) (ident : α) : Option α := do
  let tmp ← Tuple.maskedAssign ch gs k (Tuple.broadcast gs ident) v
  reduceFixed t .other f zero one s c gs tmp

/-- `none_of(__k)` for a native mask; the x86 forms agree (`Props.C31_*`). -/
def noneOfGeo : (g : Geo) → Native.MaskM g → Bool
  | .scalar, (k : Bool) => !k
  | .vec _ n _, k => VMask.noneOf n k
  | .bitmask _ _, k => KMask.noneOf k

/-- `reduce(where(k, v), identity, op)` (simd.h:3450-3464) for a native ABI. -/
def maskedReduceGeo (t : Abi.Target) (kd : Kind) (f : α → α → α) (zero one : α) (s : Nat) (c : Bool) (g : Geo)
    (k : Native.MaskM g) (v : List α) (ident : α) : Option α :=
  if noneOfGeo g k then some ident
  else reduceGeo t kd f zero one s g
    (Native.maskedAssign g (Native.hintOf c g k) k (Native.broadcast g ident) v)

/-- `hmin(where(k, v))`, `hmax(where(k, v))` (simd.h:3503-3543) for a native ABI. -/
def maskedHGeo (t : Abi.Target) (f : α → α → α) (zero one : α) (s : Nat) (c : Bool) (g : Geo) (k : Native.MaskM g) (v : List α)
    (ident : α) : Option α :=
  reduceGeo t .other f zero one s g (Native.maskedAssign g (Native.hintOf c g k) k (Native.broadcast g ident) v)

end Reduce
end StdSimd
