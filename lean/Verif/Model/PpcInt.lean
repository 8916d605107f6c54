/-!
# Model of the shifts of `_SimdImplPpc` (simd_ppc.h:38-116)

Trusted, after the comment in simd_ppc.h:43-46: a GNU vector shift on PowerPC uses the amount modulo the width of the element.  Vectors are
lists of elements.  `none` is undefined behaviour (shift amounts the language does not define for elements of at least the size of `int`).
-/
namespace StdSimd.Ppc

variable {w : Nat}

/-- The instructions behind `_Base::_S_bit_shift_left(x, y)` (simd_builtin.h:1706-1707, 1725-1726), one element. -/
def hwShl (x : BitVec w) (s : Nat) : BitVec w := x <<< (s % w)
/-- The instructions behind `_Base::_S_bit_shift_right(x, y)` (simd_builtin.h:1711-1721, 1730-1731), one element. -/
def hwShr (signed : Bool) (x : BitVec w) (s : Nat) : BitVec w := if signed then x.sshiftRight (s % w) else x >>> (s % w)

/-- `_S_bit_shift_left(x, y)` for two vectors (simd_ppc.h:49-58); `y < sizeof(T) * 8` compares elements of type `T`, signed if `T` is. -/
def shlv (signed : Bool) (xs ys : List (BitVec w)) : List (BitVec w) :=
  let r := List.zipWith (fun x (y : BitVec w) => hwShl x y.toNat) xs ys
  if w < 32 then
    List.zipWith (fun (y r : BitVec w) =>
      (if (if signed then y.slt (BitVec.ofNat w w) else y.ult (BitVec.ofNat w w)) then BitVec.allOnes w else 0#w) &&& r) ys r
  else r

/-- `_S_bit_shift_left(x, int)` (simd_ppc.h:60-71). -/
def shl (xs : List (BitVec w)) (s : Nat) : List (BitVec w) :=
  if w < 32 ∧ w ≤ s then xs.map (fun _ => 0#w) else xs.map (fun x => hwShl x s)

/-- `_S_bit_shift_right(x, y)` for two vectors (simd_ppc.h:75-95). -/
def shrv (signed : Bool) (xs ys : List (BitVec w)) : List (BitVec w) :=
  if w < 32 then
    if signed then
      let ys := ys.map (fun y => if (BitVec.ofNat w w).sle y then BitVec.ofNat w (w - 1) else y)       -- `_S_masked_assign`
      List.zipWith (fun x (y : BitVec w) => hwShr true x y.toNat) xs ys
    else
      List.zipWith (fun (y r : BitVec w) => (if y.ult (BitVec.ofNat w w) then BitVec.allOnes w else 0#w) &&& r) ys
        (List.zipWith (fun x (y : BitVec w) => hwShr false x y.toNat) xs ys)
  else List.zipWith (fun x (y : BitVec w) => hwShr signed x y.toNat) xs ys

/-- `_S_bit_shift_right(x, int)` (simd_ppc.h:97-113). -/
def shr (signed : Bool) (xs : List (BitVec w)) (s : Nat) : List (BitVec w) :=
  if w < 32 ∧ w ≤ s then
    if signed then xs.map (fun x => hwShr true x (w - 1)) else xs.map (fun _ => 0#w)
  else xs.map (fun x => hwShr signed x s)

end StdSimd.Ppc
