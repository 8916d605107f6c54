import Verif.Model.FixedMask
import Verif.Model.KMask
/-!
# Model: masks that are default-initialised and then assigned lane by lane

`simd_mask() = default` (simd.h:4302), `_BitMask() noexcept = default` (simd.h:998) and the default constructors of `_SimdWrapper` (simd.h:2344-2414, 2417-2458) leave the object uninitialised: its
content is arbitrary.  `m[i] = b` is `_S_set` through `_SmartReference`.  `to_fixed_size` of a mask (simd.h:3018-3025) is written this way.
-/
namespace StdSimd.UninitMask

/-- `m[i] = b` for the pairs of the list, in order, with the `_S_set` of the mask type. -/
def assign {M : Type} (set : M → Nat → Bool → M) (k : M) (ws : List (Nat × Bool)) : M := ws.foldl (fun (k : M) (w : Nat × Bool) => set k w.1 w.2) k

/-- `to_fixed_size(const simd_mask&)` (simd.h:3018-3025): `r` is declared without initialiser (`junk`), then `r[i] = x[i]` for all `i`; `sub` is `operator[]` of the
argument. -/
def toFixedSize {n : Nat} (junk : FixedMask.Member n) (sub : Nat → Option Bool) : Option (FixedMask.Member n) :=
  (List.range n).foldlM (fun (r : FixedMask.Member n) (i : Nat) => do
    let b ← sub i
    pure (FixedMask.set r i b)) junk

end StdSimd.UninitMask
