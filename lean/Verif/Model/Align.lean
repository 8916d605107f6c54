import Verif.Model.Abi
/-!
# Model of alignment: load and store flags, layout of `fixed_size` objects, the loads the library makes itself

Addresses are natural numbers.  A pointer that does not have the alignment promised to the compiler (`__builtin_assume_aligned`) is undefined behaviour: `none`.
-/
namespace StdSimd.Align
open Abi

/-- The load/store flags (simd.h:162-204). -/
inductive Flag where
  | element | vector | over (n : Nat)

/-- `_S_alignment<_Tp, _Up>` (simd.h:164-165, 175-177, 190-191): `u`, `al` are `sizeof(_Up)`, `alignof(_Up)`, `n` is `_Tp::size()`. -/
def Flag.alignment (u al n : Nat) : Flag → Nat
  | .element => al
  | .vector => bitCeil (u * n)
  | .over k => k

/-- `_S_apply<_Tp>(_Up* ptr)` (simd.h:167-170, 179-185, 193-196): `element_aligned` promises nothing that the type of the pointer does not imply. -/
def Flag.apply (u al n : Nat) (f : Flag) (p : Nat) : Option Nat :=
  match f with
  | .element => some p
  | f => if p % f.alignment u al n = 0 then some p else none

/-- `memory_alignment_v<_Tp, _Up>` (simd.h:2786-2791). -/
def memoryAlignment (u n : Nat) : Nat := Flag.alignment u 1 n .vector

/-! ## Object layout -/

/-- `sizeof(_SimdMember)` of a native ABI (simd_builtin.h:809-814, simd_scalar.h:96-99, vector types simd.h:1354-1370). -/
def regBytes (t : Target) (T : Elem) : Tag → Nat
  | .scalar => T.size
  | a => vecBytes t T.size (size T a)

/-- `alignof(_SimdMember)`: vector types are aligned to their size; `al` is the alignment of the element type in a structure. -/
def regAlign (t : Target) (T : Elem) (al : Nat) : Tag → Nat
  | .scalar => al
  | a => vecBytes t T.size (size T a)

/-- The next multiple of `a`. -/
def alignUp (x a : Nat) : Nat := (x + a - 1) / a * a

/-- Layout of a structure: size, alignment, offsets of the registers. -/
structure Layout where
  size : Nat
  align : Nat
  offsets : List Nat
  deriving DecidableEq

/-- `_SimdTupleData` (simd_fixed_size.h:292-322): the members `first` and `second`, laid out as in C; a tuple of one register has only `first`. -/
def layout : List (Nat × Nat) → Layout
  | [] => ⟨1, 1, []⟩
  | [(b, a)] => ⟨alignUp b a, a, [0]⟩
  | (b, a) :: rest =>
    let l := layout rest
    let o := alignUp b l.align
    let al := max a l.align
    ⟨alignUp (o + l.size) al, al, 0 :: l.offsets.map (o + ·)⟩

/-- The layout of the storage of `fixed_size<n>` (simd_fixed_size.h:324-329, 1008-1029). -/
def storageLayout (t : Target) (T : Elem) (al n : Nat) : Layout := layout ((storage t T n).map fun a => (regBytes t T a, regAlign t T al a))

/-- `_S_simd_align` of `fixed_size<n>` (simd_fixed_size.h:1216-1217), the `alignas` of the data member (simd.h:5158). -/
def fixedAlign (T : Elem) (n : Nat) : Nat := bitCeil (n * T.size)

/-! ## Loads and stores of the library itself -/

/-- `_SimdImplFixedSize::_S_load`, `_S_store` (simd_fixed_size.h:1333-1341, 1367-1374): the addresses at which the registers of a `fixed_size` object are loaded from an
array of elements of `u` bytes: `&mem[_S_offset]`, `_S_offset` the number of elements in the registers before (simd_fixed_size.h:213-278). -/
def chunkAddrs (t : Target) (T : Elem) (u n p : Nat) : List Nat :=
  go p (storage t T n)
where
  go (p : Nat) : List Tag → List Nat
    | [] => []
    | a :: l => p :: go (p + u * size T a) l

/-- `to_native`, `to_compatible` (simd.h:3027-3036, 3045-3054): `mem` is an array declared `alignas(memory_alignment_v<native_simd<_Tp>>)` at address `p`; a `fixed_size` object of
`n` elements is stored to it, a native object of `m = n` elements is loaded. -/
def toNative (u al n m : Nat) (p : Nat) : Option (Nat × Nat) := do
  let a ← Flag.apply u al n .vector p
  let b ← Flag.apply u al m .vector p
  pure (a, b)

/-- The implicit conversion constructor between `fixed_size` objects (simd.h:4931-4941): the source is converted to a temporary `std::array<_Up, n>` at address `p`, which is
loaded with `vector_aligned`. -/
def convertFixed (u al n : Nat) (p : Nat) : Option Nat := Flag.apply u al n .vector p

end StdSimd.Align
