/-!
# Specification: masks in registers and `resizing_simd_cast`

[Proposed specification in simd.h:2923-2951] `resizing_simd_cast`: element `i` is `x[i]` for `i < min(T::size(), x.size())`, the
remaining elements are value-initialised (`false` for masks).
-/
namespace StdSimd.Spec

/-- The lanes of `resizing_simd_cast` to `m` elements of an object with lanes `xs`; `z` is the value-initialised element. -/
def resize {α : Type} (z : α) (m : Nat) (xs : List α) : List α := (List.range m).map (fun i => (xs[i]?).getD z)

/-- A register, given byte by byte, starts with the `n` lanes `b 0`, ..., `b (n - 1)` of a vector mask with elements of `e` bytes:
every byte of a true lane is `0xff`, every byte of a false lane is `0`. -/
def HoldsMask (e n : Nat) (b : Nat → Bool) (r : Nat → BitVec 8) : Prop :=
  ∀ i < n, ∀ t < e, r (e * i + t) = if b i then 0xff#8 else 0#8

instance (e n : Nat) (b : Nat → Bool) (r : Nat → BitVec 8) : Decidable (HoldsMask e n b r) := by
  unfold HoldsMask; infer_instance

end StdSimd.Spec
