/-!
# Model of the generic mask reductions: the constant-propagation branches (simd.h:4627-4735) and the
`_ExactBool` overloads (simd.h:4737-4763)

`sub i` is `__k[__i]`, `simd_mask::operator[]`; it is `none` (undefined) for an index out of range.
-/
namespace StdSimd.MaskConst

/-- The loop of `all_of` (simd.h:4633-4636), over the indices still to be visited. -/
def allLoop (sub : Nat → Option Bool) : List Nat → Option Bool
  | [] => some true
  | i :: is => do
    let b ← sub i
    if !b then pure false else allLoop sub is
/-- The loop of `any_of` (simd.h:4648-4651). -/
def anyLoop (sub : Nat → Option Bool) : List Nat → Option Bool
  | [] => some false
  | i :: is => do
    let b ← sub i
    if b then pure true else anyLoop sub is
/-- The loop of `none_of` (simd.h:4663-4666). -/
def noneLoop (sub : Nat → Option Bool) : List Nat → Option Bool
  | [] => some true
  | i :: is => do
    let b ← sub i
    if b then pure false else noneLoop sub is
/-- The loop of `some_of` (simd.h:4678-4681). -/
def someLoop (sub : Nat → Option Bool) : List Nat → Option Bool
  | [] => some false
  | i :: is => do
    let a ← sub i
    let b ← sub (i - 1)
    if a != b then pure true else someLoop sub is

/-- `all_of` (simd.h:4627-4640). -/
def allOf (n : Nat) (sub : Nat → Option Bool) : Option Bool := allLoop sub (List.range n)
/-- `any_of` (simd.h:4642-4655). -/
def anyOf (n : Nat) (sub : Nat → Option Bool) : Option Bool := anyLoop sub (List.range n)
/-- `none_of` (simd.h:4657-4670). -/
def noneOf (n : Nat) (sub : Nat → Option Bool) : Option Bool := noneLoop sub (List.range n)
/-- `some_of` (simd.h:4672-4685): `i` runs from 1. -/
def someOf (n : Nat) (sub : Nat → Option Bool) : Option Bool := someLoop sub ((List.range n).drop 1)
/-- `popcount` (simd.h:4687-4699): `((elements != 0) + ...)`. -/
def popcount (n : Nat) (sub : Nat → Option Bool) : Option Nat := do
  let l ← (List.range n).mapM sub
  pure ((l.map (fun b => if b then 1 else 0)).foldr (· + ·) 0)
/-- `find_first_set` (simd.h:4701-4717): `std::min` over `k[i] ? i : N`; `N` is UB. -/
def findFirstSet (n : Nat) (sub : Nat → Option Bool) : Option Nat := do
  let l ← (List.range n).mapM (fun i => (sub i).map (fun b => if b then i else n))
  let idx := l.foldl min n
  if n ≤ idx then none else pure idx
/-- `find_last_set` (simd.h:4719-4735): `std::max` over `k[i] ? int(i) : -1`; negative is UB. -/
def findLastSet (n : Nat) (sub : Nat → Option Bool) : Option Int := do
  let l ← (List.range n).mapM (fun i => (sub i).map (fun b => if b then (i : Int) else -1))
  let idx := l.foldl max (-1)
  if idx < 0 then none else pure idx

/-- `all_of(_ExactBool)`, `any_of(_ExactBool)`, `none_of(_ExactBool)`, `some_of(_ExactBool)`,
`popcount(_ExactBool)`, `find_first_set(_ExactBool)`, `find_last_set(_ExactBool)` (simd.h:4737-4763). -/
def exactAllOf (x : Bool) : Bool := x
@[inherit_doc exactAllOf] def exactAnyOf (x : Bool) : Bool := x
@[inherit_doc exactAllOf] def exactNoneOf (x : Bool) : Bool := !x
@[inherit_doc exactAllOf] def exactSomeOf (_ : Bool) : Bool := false
@[inherit_doc exactAllOf] def exactPopcount (x : Bool) : Nat := x.toNat
@[inherit_doc exactAllOf] def exactFindFirstSet (_ : Bool) : Nat := 0
@[inherit_doc exactAllOf] def exactFindLastSet (_ : Bool) : Nat := 0

end StdSimd.MaskConst
