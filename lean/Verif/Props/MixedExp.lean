import Verif.Props.MixedOps
import Verif.Model.MixedExp
/-!
# C74: `ldexp`, `scalbn` and `scalbln` called with exponents of different types
-/
namespace StdSimd.Props
open Spec Spec.MixedCall Spec.MixedOps _root_.StdSimd.MixedCall _root_.StdSimd.Narrowing

/-- **C74**, functions with a floating-point parameter and an integer parameter of type `e` (`int` for `ldexp` and `scalbn`, `long` for
`scalbln`), whatever the sizes of the ABI tags: a call compiles exactly if the first argument is a `simd<t, a>` object with floating-point
elements and the exponent converts implicitly to the `fixed_size` type with as many elements; it computes in `simd<t, a>`. -/
theorem C74_exponent (p : Platform) (hp : p.Ok) (size : CType → AbiTag → Nat) (e : CType) (he : e = .int ∨ e = .long) (x y : Arg)
    (hy : Plain p y) (t : CType) (a : AbiTag) :
    callExp p size e x y = some (t, a) ↔ p.isFloat t = true ∧ x = .simd t a ∧ ConvertsTo p e (.fixed (size t a)) y := by
  have hr : Ranked p e := .inr (by rcases he with rfl | rfl <;> decide)
  have hf : p.isFloat e = false := by rcases he with rfl | rfl <;> rfl
  have second : callExpSecond p e x y = none := by
    cases y with
    | scalar u => rfl
    | simd u b =>
      simp only [callExpSecond, Bool.and_eq_true, beq_iff_eq, ite_eq_right_iff]
      rintro ⟨⟨⟨rfl, -⟩, -⟩, h⟩
      rw [hf] at h; cases h
  rw [callExp, second, Option.none_or]
  cases x with
  | scalar u => simp [callExpFirst]
  | simd u b =>
    have c : ∀ b, (convertible p e (.fixed (size u b)) y = true ↔ ConvertsTo p e (.fixed (size u b)) y) :=
      fun b => convertible_iff hp hr hy
    simp only [callExpFirst, extraArgument, Option.ite_none_right_eq_some, Bool.and_eq_true, Option.some.injEq, Prod.mk.injEq,
      Arg.simd.injEq]
    rw [c]
    constructor
    · rintro ⟨⟨h1, h2⟩, rfl, rfl⟩; exact ⟨h1, ⟨rfl, rfl⟩, h2⟩
    · rintro ⟨h1, ⟨rfl, rfl⟩, h2⟩; exact ⟨⟨h1, h2⟩, rfl, rfl⟩

/-- **C74.**  The exponent of no element is changed by the conversion: every value of the type of the exponents passed to a call that compiles
is a value of the type that the function takes. -/
theorem C74_exponent_kept (p : Platform) (hp : p.Ok) (size : CType → AbiTag → Nat) (e : CType) (he : e = .int ∨ e = .long) (x y : Arg)
    (hy : Plain p y) (h : (callExp p size e x y).isSome) (u : CType) (hu : y = .scalar u ∨ ∃ b, y = .simd u b) : Keeps p u e := by
  obtain ⟨⟨t, a⟩, h⟩ := Option.isSome_iff_exists.1 h
  obtain ⟨-, -, c⟩ := (C74_exponent p hp size e he x y hy t a).1 h
  have hs : p.isUnsigned e = false := by rcases he with rfl | rfl <;> rfl
  have ki : Keeps p .int e := by
    rcases he with rfl | rfl
    · exact fun _ h => h
    · refine (preserved_int hp (by simp) (by simp) rfl rfl).2 ?_
      exact ⟨by have := hp.long; simp only [Bool.toNat_true]; omega, fun h => h⟩
  rcases hu with rfl | ⟨b, rfl⟩
  · rcases c with ⟨-, rfl | ⟨-, c⟩ | c⟩
    · exact ki
    · rw [hs] at c; cases c
    · exact c
  · rcases c with ⟨rfl, -⟩ | ⟨n, -, -, c, -⟩
    · exact fun _ h => h
    · exact c

-- concrete cases: `ldexp(x, 3)`, `scalbln(x, n)` with a `fixed_size` object of `int`; `ldexp` takes neither a `long` nor a
-- non-`fixed_size` object of `int`, and `ldexp(1.f, n)` does not compile
example (size : CType → AbiTag → Nat) (a : AbiTag) : callExp .lp64 size .int (.simd .float a) (.scalar .int) = some (.float, a) := by
  have ok : Platform.lp64.Ok := by constructor <;> decide
  rw [C74_exponent _ ok _ _ (.inl rfl) _ (.scalar .int) trivial]
  exact ⟨rfl, rfl, by decide, .inl rfl⟩

example (size : CType → AbiTag → Nat) (a : AbiTag) :
    callExp .lp64 size .long (.simd .double a) (.simd .int (.fixed (size .double a))) = some (.double, a) := by
  have ok : Platform.lp64.Ok := by constructor <;> decide
  rw [C74_exponent _ ok _ _ (.inr rfl) _ _ (show Plain _ (.simd .int _) from .inr (by decide))]
  exact ⟨rfl, rfl, .inr ⟨_, rfl, rfl, (preserved_int ok (by simp) (by simp) rfl rfl).2 (by decide), .inr ⟨3, 4, rfl, rfl, by decide⟩⟩⟩

example (size : CType → AbiTag → Nat) (a : AbiTag) : callExp .lp64 size .int (.simd .float a) (.scalar .long) = none := by
  have ok : Platform.lp64.Ok := by constructor <;> decide
  rw [Option.eq_none_iff_forall_ne_some]
  intro v h
  have k := C74_exponent_kept _ ok size .int (.inl rfl) _ (.scalar .long) trivial (by rw [h]; rfl) .long (.inl rfl)
  exact absurd ((preserved_int ok (a := .long) (b := .int) (by simp) (by simp) rfl rfl).1 k) (by decide)

example (size : CType → AbiTag → Nat) (a : AbiTag) (k : Nat) :
    callExp .lp64 size .int (.simd .float a) (.simd .int (.other k)) = none ∧
      callExp .lp64 size .int (.scalar .float) (.simd .int (.fixed 4)) = none := by
  have ok : Platform.lp64.Ok := by constructor <;> decide
  constructor <;> rw [Option.eq_none_iff_forall_ne_some] <;> rintro ⟨t, b⟩ h <;>
    rw [C74_exponent _ ok _ _ (.inl rfl) _ _ (show Plain _ (.simd .int _) from .inr (by decide))] at h
  · simp [ConvertsTo] at h
  · simp at h

end StdSimd.Props
