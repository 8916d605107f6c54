import Verif.Spec.CTypes
/-!
# Specification: which casts exist and what type they return

Parallelism TS 2, [simd.casts] (with the resolutions of issues 65 and 66): `static_simd_cast<T>(x)` and `simd_cast<T>(x)` for `x` of type `simd<U, A>`.
`A` is the type of ABI tags, `size` is `simd_size_v`, `fixed` is `simd_abi::fixed_size`.
-/
namespace StdSimd.Spec.CastType

/-- What can be given as template argument `T`: an arithmetic type, a `simd` type, a `simd_mask` type. -/
inductive Target (A : Type) where
  | elem (t : CType)
  | simd (t : CType) (a : A)
  | mask (t : CType) (a : A)

/-- The integer types. -/
def integral : CType → Bool
  | .float => false | .double => false | .ldouble => false
  | _ => true

/-- The standard signed integer types by rank. -/
def signedTypes : List CType := [.schar, .short, .int, .long, .llong]

/-- `make_signed_t<t>` ([meta.trans.sign]) for an integer type other than `bool`: a signed integer type itself, the corresponding signed type of an unsigned
integer type; for the other types the signed integer type of smallest rank with the same size. -/
def signed (p : Platform) : CType → Option CType
  | .uchar => some .schar | .ushort => some .short | .uint => some .int | .ulong => some .long | .ullong => some .llong
  | .char => signedTypes.find? (fun s => p.sizeOf s == p.sizeOf .char)
  | .char8 => signedTypes.find? (fun s => p.sizeOf s == p.sizeOf .char8)
  | .wchar => signedTypes.find? (fun s => p.sizeOf s == p.sizeOf .wchar)
  | .char16 => signedTypes.find? (fun s => p.sizeOf s == p.sizeOf .char16)
  | .char32 => signedTypes.find? (fun s => p.sizeOf s == p.sizeOf .char32)
  | t => some t

/-- The types that differ at most in signedness: the same type, or integer types with the same signed type. -/
def SameButSign (p : Platform) (t u : CType) : Prop := t = u ∨ (integral t = true ∧ integral u = true ∧ signed p t = signed p u)

/-- `static_simd_cast<T>(x)` is available and returns a `simd<t, a>`. -/
inductive Returns {A : Type} (p : Platform) (size : CType → A → Nat) (fixed : Nat → A) (u : CType) (a : A) : Target A → CType → A → Prop
  /-- `T` is a simd type with as many elements: that type. -/
  | simd {t : CType} {b : A} (h : size t b = size u a) : Returns p size fixed u a (.simd t b) t b
  /-- `T` is an arithmetic type other than `bool` that differs from the element type at most in signedness: the same ABI. -/
  | same {t : CType} (hb : t ≠ .bool) (h : SameButSign p t u) : Returns p size fixed u a (.elem t) t a
  /-- any other arithmetic type but `bool`: `fixed_size`. -/
  | other {t : CType} (hb : t ≠ .bool) (h : ¬ SameButSign p t u) : Returns p size fixed u a (.elem t) t (fixed (size u a))

end StdSimd.Spec.CastType
