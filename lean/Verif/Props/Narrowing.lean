import Verif.Proofs.Narrowing
/-!
# C22, C45: which implicit conversions exist
-/
namespace StdSimd.Props
open Spec Narrowing

/-- Platforms the theorems below apply to. -/
example : Platform.lp64.Ok ∧ Platform.aarch64.Ok ∧ Platform.ilp32.Ok :=
  ⟨by constructor <;> decide, by constructor <;> decide, by constructor <;> decide⟩

/-- **C22.**  `_ValuePreserving<From, To>` (`simd_cast`, and one half of the implicit conversion constructor) accepts exactly the pairs of
arithmetic types for which every value of `From`, including infinities and NaN, is a value of `To`. -/
theorem C22_value_preserving (p : Platform) (hp : p.Ok) (from' to' : CType) (hb : from' ≠ .bool) :
    valuePreserving p from' to' = true ↔ ∀ v, p.HasValue from' v → p.HasValue to' v := by
  unfold valuePreserving
  rw [Bool.not_eq_true', narrowing_iff hp hb]; rfl

/-- **C22**, from `bool`: what is accepted is value preserving.  (The converse fails: `C22_bool_to_schar`.) -/
theorem C22_value_preserving_bool (p : Platform) (hp : p.Ok) (to' : CType) (h : valuePreserving p .bool to' = true) :
    ∀ v, p.HasValue .bool v → p.HasValue to' v := by
  unfold valuePreserving at h
  rw [Bool.not_eq_true'] at h
  exact narrowing_bool hp h

/-- **C22.**  A value that the generator constructor or an element reference accepts implicitly is a value of the element type, unless it
is one of the two documented exceptions (`int`; `unsigned int` for unsigned elements). -/
theorem C22_or_int (p : Platform) (hp : p.Ok) (from' to' : CType) (h : valuePreservingOrInt p from' to' = true)
    (hi : from' ≠ .int) (hu : ¬ (from' = .uint ∧ p.isUnsigned to' = true)) : ∀ v, p.HasValue from' v → p.HasValue to' v := by
  simp only [valuePreservingOrInt, Bool.or_eq_true, Bool.and_eq_true, decide_eq_true_eq, Bool.not_eq_true'] at h
  rcases h with ((h | h) | h) | h
  · subst h; exact fun _ h => h
  · exact absurd h hi
  · exact absurd h hu
  · by_cases hb : from' = .bool
    · subst hb; exact narrowing_bool hp h
    · exact (narrowing_iff hp hb).1 h

/-- **C22.**  Nothing that is value preserving is refused, by the broadcast constructor either: it refuses `bool` and what would lose
values, apart from the exceptions. -/
theorem C22_broadcast (p : Platform) (hp : p.Ok) (from' to' : CType) (hi : from' ≠ .int) (hu : ¬ (from' = .uint ∧ p.isUnsigned to' = true)) :
    broadcastFrom p from' to' = true ↔ from' ≠ .bool ∧ ∀ v, p.HasValue from' v → p.HasValue to' v := by
  constructor
  · intro h
    simp only [broadcastFrom, Bool.and_eq_true, decide_eq_true_eq] at h
    exact ⟨h.1, C22_or_int p hp from' to' h.2 hi hu⟩
  · rintro ⟨hb, h⟩
    have := (narrowing_iff hp hb).2 h
    simp [broadcastFrom, valuePreservingOrInt, hb, this]

/-- The two exceptions are always accepted. -/
theorem C22_int_exception (p : Platform) (to' : CType) :
    broadcastFrom p .int to' = true ∧ (p.isUnsigned to' = true → broadcastFrom p .uint to' = true) := by
  refine ⟨by simp [broadcastFrom, valuePreservingOrInt], fun h => by simp [broadcastFrom, valuePreservingOrInt, h]⟩

-- `char32_t` to `double` is accepted, `long` to `double` is not
example : broadcastFrom .lp64 .char32 .double = true ∧ broadcastFrom .lp64 .long .double = false := by
  have ok : Platform.lp64.Ok := by constructor <;> decide
  have h1 : narrowing .lp64 .char32 .double = false := (narrowing_int_float ok (by simp) rfl rfl).2 (by decide)
  have h2 : ¬ narrowing .lp64 .long .double = false := by rw [narrowing_int_float ok (by simp) rfl rfl]; decide
  simp [broadcastFrom, valuePreservingOrInt, h1, h2]

/-- A refusal that is stricter than the rule: `bool` counts as having 8 digits, so `bool` to `signed char` is refused although both values
of `bool` are values of `signed char`. -/
theorem C22_bool_to_schar : valuePreserving .lp64 .bool .schar = false ∧ ∀ v, Platform.lp64.HasValue .bool v → Platform.lp64.HasValue .schar v := by
  constructor
  · rfl
  · rintro v ⟨b, rfl⟩
    refine (hasValue_int (by simp) rfl _).2 ⟨b.toNat, ?_, ?_, by push_cast; rfl⟩ <;> cases b <;> decide

/-- **C45.**  Between `fixed_size` objects of different element types at most one of the two conversions is implicit. -/
theorem C45_not_both (p : Platform) (hp : p.Ok) (a b : CType) (ha : a ≠ .bool) (hb : b ≠ .bool) (hab : a ≠ b) :
    ¬ (implicitConvert p a b = true ∧ implicitConvert p b a = true) := fun h => hab (implicit_asymm hp ha hb h.1 h.2)

/-- **C45.**  An implicit conversion between `fixed_size` objects keeps every element's value. -/
theorem C45_value_preserving (p : Platform) (hp : p.Ok) (a b : CType) (ha : a ≠ .bool) (h : implicitConvert p a b = true) :
    ∀ v, p.HasValue a v → p.HasValue b v := by
  simp only [implicitConvert, Bool.and_eq_true, Bool.not_eq_true'] at h
  exact (narrowing_iff hp ha).1 h.1

/-- **C45.**  Between integer types other than `wchar_t` and the `charN_t`: implicit exactly when every value is kept and the integer
conversion rank of the target is greater.  Missing: `C45_wchar_wrong`. -/
theorem C45_integers_partial (p : Platform) (hp : p.Ok) (a b : CType) (hab : a ≠ b) (m n : Nat) (ha : Platform.stdRank a = some m)
    (hb : Platform.stdRank b = some n) :
    implicitConvert p a b = true ↔ (∀ v, p.HasValue a v → p.HasValue b v) ∧ m < n := by
  have hn := narrowing_iff hp (b := b) (stdRank_kind (p := p) ha).1
  simp only [implicitConvert, Bool.and_eq_true, Bool.not_eq_true', hn]
  constructor
  · rintro ⟨h1, h2⟩; exact ⟨h1, (implicit_int hp hab ha hb h1).1 h2⟩
  · rintro ⟨h1, h2⟩; exact ⟨h1, (implicit_int hp hab ha hb h1).2 h2⟩

/-- **C45.**  If a floating-point type is involved: implicit exactly when every value is kept.  (Of two floating-point types with the same
format only one direction is implicit.) -/
theorem C45_floating_point (p : Platform) (hp : p.Ok) (a b : CType) (ha : a ≠ .bool) (hf : p.isFloat a = true ∨ p.isFloat b = true)
    (hne : p.isFloat a = true → p.kind a ≠ p.kind b) :
    implicitConvert p a b = true ↔ ∀ v, p.HasValue a v → p.HasValue b v := by
  simp only [implicitConvert, Bool.and_eq_true, Bool.not_eq_true', narrowing_iff hp ha]
  refine ⟨fun h => h.1, fun h => ⟨h, ?_⟩⟩
  rcases ka : p.kind a with ⟨s, w⟩ | f <;> rcases kb : p.kind b with ⟨s', w'⟩ | g
  · simp [Platform.isFloat, ka, kb] at hf
  · exact implicit_int_float ka kb
  · exact absurd h (not_preserved_float_int hp ka kb)
  · refine implicit_float hp ?_ ka kb h
    rintro rfl
    exact hne (by simp [Platform.isFloat, ka]) (by rw [ka, kb])

-- `int` to `long`, `short` to `float`, `float` to `double` are implicit
example : implicitConvert .lp64 .int .long = true ∧ implicitConvert .lp64 .short .float = true ∧ implicitConvert .lp64 .float .double = true := by
  have ok : Platform.lp64.Ok := by constructor <;> decide
  have h1 : narrowing .lp64 .int .long = false := (narrowing_int ok (by simp) (by simp) (by simp) rfl rfl).2 (by decide)
  have h2 : narrowing .lp64 .short .float = false := (narrowing_int_float ok (by simp) rfl rfl).2 (by decide)
  have h3 : narrowing .lp64 .float .double = false := (narrowing_float ok (by simp) rfl rfl).2 (by decide)
  refine ⟨?_, ?_, ?_⟩ <;> simp [implicitConvert, h1, h2, h3] <;> decide

/-- The rank is not respected for `wchar_t`: its rank is that of its underlying type (`int` on Linux), but the conversion of
`fixed_size_simd<wchar_t, N>` to `fixed_size_simd<int, N>` is implicit; likewise `char32_t` to `unsigned int`. -/
theorem C45_wchar_wrong : implicitConvert .lp64 .wchar .int = true ∧ implicitConvert .lp64 .char32 .uint = true := by
  have ok : Platform.lp64.Ok := by constructor <;> decide
  have h1 : narrowing .lp64 .wchar .int = false := (narrowing_int ok (by simp) (by simp) (by simp) rfl rfl).2 (by decide)
  have h2 : narrowing .lp64 .char32 .uint = false := (narrowing_int ok (by simp) (by simp) (by simp) rfl rfl).2 (by decide)
  refine ⟨?_, ?_⟩ <;> simp [implicitConvert, h1, h2] <;> decide

end StdSimd.Props
