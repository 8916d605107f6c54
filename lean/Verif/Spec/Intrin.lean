import Verif.Spec.CTypes
/-!
# Specification: objects of vector types

A register of the x86 intrinsics (`__m128`, `__m256d`, `__m512i`, ...) and an object of a GNU vector type are rows of bytes; element `i` of type `T` are the
bytes that `*(reinterpret_cast<T*>(&x) + i)` names.
-/
namespace StdSimd.Spec.Intrin
open StdSimd Spec

/-- A vector type: element type and size in bytes. -/
structure VecTy where
  elem : CType
  bytes : Nat
  deriving DecidableEq

/-- The bytes of element `i` of a row of elements of `s` bytes. -/
def element (s : Nat) (x : List (BitVec 8)) (i : Nat) : List (BitVec 8) := (x.drop (i * s)).take s

/-- `r` is the register type of the x86 intrinsics for `n` elements of type `t` with `s` bytes: the smallest one they fit in; all integer types share the
registers `__m128i`, `__m256i` and `__m512i`, vectors of `long long`. -/
def IsRegister (p : Platform) (t : CType) (s n : Nat) (r : VecTy) : Prop :=
  r.elem = (if p.isFloat t then t else .llong) ∧ r.bytes ∈ [16, 32, 64] ∧ n * s ≤ r.bytes ∧ ∀ b ∈ [16, 32, 64], n * s ≤ b → r.bytes ≤ b

end StdSimd.Spec.Intrin
