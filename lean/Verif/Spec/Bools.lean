import Verif.Model.Memory
/-!
# Specification: arrays of `bool` in byte memory

A `bool` is stored as the byte 0 or 1.
-/
namespace StdSimd.Spec

/-- The `n` bytes at `base` are the `bool`s `b 0`, ..., `b (n - 1)`. -/
def BoolsAt (n : Nat) (b : Nat → Bool) (mem : Mem (BitVec 8)) (base : Nat) : Prop :=
  ∀ i < n, mem (base + i) = some (if b i then 1#8 else 0#8)

/-- Every byte outside the `n` bytes at `base` is as before. -/
def SameOutside (n : Nat) (mem mem' : Mem (BitVec 8)) (base : Nat) : Prop :=
  ∀ a, a < base ∨ base + n ≤ a → mem' a = mem a

/-- The `n` bytes at `base` may be accessed. -/
def Mapped (n : Nat) (mem : Mem (BitVec 8)) (base : Nat) : Prop := ∀ i < n, (mem (base + i)).isSome

end StdSimd.Spec
