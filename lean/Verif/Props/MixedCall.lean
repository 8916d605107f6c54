import Verif.Proofs.MixedCall
/-!
# C74: math functions called with arguments of different types
-/
namespace StdSimd.Props
open Spec Spec.MixedCall _root_.StdSimd.MixedCall

/-- **C74.**  There is at most one type in which a call has to be evaluated: the rule never contradicts itself. -/
theorem C74_unique (p : Platform) (hp : p.Ok) (args : List Arg) (hx : ∀ x ∈ args, x.Exists) (t u : CType) (a b : AbiTag)
    (h1 : Evaluates p args t a) (h2 : Evaluates p args u b) : u = t ∧ b = a := by
  have := evaluates_unique hp hx h1 h2
  simpa using this

/-- **C74.**  The functions of two parameters (`atan2`, `pow`, `fmod`, `remainder`, `nextafter`, `fdim`, `fmax`, `fmin`, the comparisons and
the special functions): a call compiles and computes in `simd<t, a>` exactly when the rule says so, whichever of the arguments is the
`simd` object, and for two different `fixed_size` types. -/
theorem C74_two (p : Platform) (hp : p.Ok) (x y : Arg) (hx : x.Exists) (hy : y.Exists) (t : CType) (a : AbiTag) :
    call2 p x y = some (t, a) ↔ Evaluates p [x, y] t a := by
  have first : ∀ {t a}, call2First p x y = some (t, a) ↔ x = .simd t a ∧ p.isFloat t = true ∧ convertible p t a y = true := by
    intro t a
    cases x with
    | scalar u => simp [call2First]
    | simd u b =>
      simp only [call2First, Option.ite_none_right_eq_some, Bool.and_eq_true, Option.some.injEq, Prod.mk.injEq, Arg.simd.injEq]
      constructor
      · rintro ⟨h, rfl, rfl⟩; exact ⟨⟨rfl, rfl⟩, h⟩
      · rintro ⟨⟨rfl, rfl⟩, h⟩; exact ⟨h, rfl, rfl⟩
  have second : ∀ {t a}, call2Second p x y = some (t, a) ↔
      y = .simd t a ∧ x ≠ .simd t a ∧ convertible p t a x = true ∧ p.isFloat t = true := by
    intro t a
    cases y with
    | scalar u => simp [call2Second]
    | simd u b =>
      simp only [call2Second, Option.ite_none_right_eq_some, Bool.and_eq_true, Option.some.injEq, Prod.mk.injEq, Arg.simd.injEq,
        Bool.not_eq_true', beq_eq_false_iff_ne, and_assoc]
      constructor
      · rintro ⟨h, h', h'', rfl, rfl⟩; exact ⟨rfl, rfl, h, h', h''⟩
      · rintro ⟨rfl, rfl, h, h', h''⟩; exact ⟨h, h', h'', rfl, rfl⟩
  have ev : ∀ {t a}, Evaluates p [x, y] t a ↔
      p.isFloat t = true ∧ (x = .simd t a ∨ y = .simd t a) ∧ convertible p t a x = true ∧ convertible p t a y = true := by
    intro t a
    unfold Evaluates
    simp only [List.mem_cons, List.not_mem_nil, or_false, forall_eq_or_imp, forall_eq]
    constructor
    · rintro ⟨h1, h2, h3, h4⟩
      exact ⟨h1, h2.imp Eq.symm Eq.symm, (conv_iff hp h1 hx).2 h3, (conv_iff hp h1 hy).2 h4⟩
    · rintro ⟨h1, h2, h3, h4⟩
      exact ⟨h1, h2.imp Eq.symm Eq.symm, (conv_iff hp h1 hx).1 h3, (conv_iff hp h1 hy).1 h4⟩
  rw [ev, call2]
  rcases hs : call2Second p x y with _ | ⟨u, b⟩
  · rw [Option.none_or, first]
    constructor
    · rintro ⟨h1, h2, h3⟩
      exact ⟨h2, .inl h1, by rw [h1]; exact conv_self t a, h3⟩
    · rintro ⟨h1, h2 | h2, h3, h4⟩
      · exact ⟨h2, h1, h4⟩
      · by_cases hxe : x = .simd t a
        · exact ⟨hxe, h1, h4⟩
        · have := second.2 ⟨h2, hxe, h3, h1⟩
          rw [hs] at this; cases this
  · rw [Option.some_or]
    have hs' := second.1 hs
    obtain ⟨h1, h2, h3, h4⟩ := hs'
    have e : Evaluates p [x, y] u b := ev.2 ⟨h4, .inr h1, h3, by rw [h1]; exact conv_self u b⟩
    constructor
    · intro h; cases h
      exact ev.1 e
    · intro h
      have h := ev.2 h
      have := evaluates_unique hp (by simp [hx, hy]) h e
      rw [this]

/-- **C74.**  The same for `hypot` with two parameters; the overload that does the work is reached after at most one conversion. -/
theorem C74_hypot2 (p : Platform) (hp : p.Ok) (x y : Arg) (hx : x.Exists) (hy : y.Exists) (t : CType) (ht : p.isFloat t = true)
    (a : AbiTag) : hypot p hypot2 [x, y] = some (t, a) ↔ Evaluates p [x, y] t a := by
  have hE : ∀ z ∈ [x, y], z.Exists := by simp [hx, hy]
  rw [hypot_iff hp complete2 hE]
  unfold Evaluates
  constructor
  · rintro ⟨h1, h2⟩; exact ⟨ht, h1, fun z hz => (conv_iff hp ht (hE z hz)).1 (h2 z hz)⟩
  · rintro ⟨-, h1, h2⟩; exact ⟨h1, fun z hz => (conv_iff hp ht (hE z hz)).2 (h2 z hz)⟩

/-- **C74.**  The same for `hypot` with three parameters. -/
theorem C74_hypot3 (p : Platform) (hp : p.Ok) (x y z : Arg) (hx : x.Exists) (hy : y.Exists) (hz : z.Exists) (t : CType)
    (ht : p.isFloat t = true) (a : AbiTag) : hypot p hypot3 [x, y, z] = some (t, a) ↔ Evaluates p [x, y, z] t a := by
  have hE : ∀ w ∈ [x, y, z], w.Exists := by simp [hx, hy, hz]
  rw [hypot_iff hp complete3 hE]
  unfold Evaluates
  constructor
  · rintro ⟨h1, h2⟩; exact ⟨ht, h1, fun z hz => (conv_iff hp ht (hE z hz)).1 (h2 z hz)⟩
  · rintro ⟨-, h1, h2⟩; exact ⟨h1, fun z hz => (conv_iff hp ht (hE z hz)).2 (h2 z hz)⟩

/-- **C74**, `fma` and `ellint_3`: exactly which of the required calls compile.  Full statement: the right-hand side without its last
conjunct, as in `C74_two`.  Missing: calls in which the type to compute in is that of a later argument than the one the second template
looks at (`C74_three_wrong`). -/
theorem C74_three_partial (p : Platform) (hp : p.Ok) (x y z : Arg) (hx : x.Exists) (hy : y.Exists) (hz : z.Exists) (t : CType)
    (a : AbiTag) :
    call3 p x y z = some (t, a) ↔ Evaluates p [x, y, z] t a ∧
      (x = .simd t a ∨ ((∀ u b, x = .simd u b → p.isFloat u = false) ∧ (y = .simd t a ∨ ((∃ u, y = .scalar u) ∧ z = .simd t a)))) := by
  have ev : ∀ {t a}, Evaluates p [x, y, z] t a ↔ p.isFloat t = true ∧ (x = .simd t a ∨ y = .simd t a ∨ z = .simd t a) ∧
      convertible p t a x = true ∧ convertible p t a y = true ∧ convertible p t a z = true := by
    intro t a
    unfold Evaluates
    simp only [List.mem_cons, List.not_mem_nil, or_false, forall_eq_or_imp, forall_eq]
    constructor
    · rintro ⟨h1, h2, h3, h4, h5⟩
      exact ⟨h1, h2.imp Eq.symm (Or.imp Eq.symm Eq.symm), (conv_iff hp h1 hx).2 h3, (conv_iff hp h1 hy).2 h4, (conv_iff hp h1 hz).2 h5⟩
    · rintro ⟨h1, h2, h3, h4, h5⟩
      exact ⟨h1, h2.imp Eq.symm (Or.imp Eq.symm Eq.symm), (conv_iff hp h1 hx).1 h3, (conv_iff hp h1 hy).1 h4, (conv_iff hp h1 hz).1 h5⟩
  have first : ∀ {t a}, call3First p x y z = some (t, a) ↔
      x = .simd t a ∧ p.isFloat t = true ∧ convertible p t a y = true ∧ convertible p t a z = true := by
    intro t a
    cases x with
    | scalar u => simp [call3First]
    | simd u b =>
      simp only [call3First, Option.ite_none_right_eq_some, Bool.and_eq_true, Option.some.injEq, Prod.mk.injEq, Arg.simd.injEq,
        and_assoc]
      constructor
      · rintro ⟨h, h', h'', rfl, rfl⟩; exact ⟨rfl, rfl, h, h', h''⟩
      · rintro ⟨rfl, rfl, h, h', h''⟩; exact ⟨h, h', h'', rfl, rfl⟩
  have same : ∀ {u : CType} {b : AbiTag}, call3First p (.simd u b) (.simd u b) (.simd u b) = if p.isFloat u then some (u, b) else none := by
    intro u b; simp [call3First, conv_self]
  have nf : (∀ u b, x = .simd u b → p.isFloat u = false) ↔ isFloatSimd p x = false := by
    cases x <;> simp [isFloatSimd]
  have second : ∀ {t a}, call3Second p x y z = some (t, a) ↔
      (y = .simd t a ∨ ((∃ u, y = .scalar u) ∧ z = .simd t a)) ∧ convertible p t a x = true ∧ convertible p t a y = true ∧
        convertible p t a z = true ∧ isFloatSimd p x = false ∧ p.isFloat t = true := by
    intro t a
    cases y with
    | simd u b =>
      simp only [call3Second, same, Option.ite_none_right_eq_some, Bool.and_eq_true, Option.some.injEq, Prod.mk.injEq, Arg.simd.injEq,
        and_assoc, Bool.not_eq_true', reduceCtorEq, exists_false, false_and, or_false]
      constructor
      · rintro ⟨h1, h2, h3, h4, h5, rfl, rfl⟩; exact ⟨rfl, rfl, h1, h2, h3, h4, h5⟩
      · rintro ⟨rfl, rfl, h1, h2, h3, h4, h5⟩; exact ⟨h1, h2, h3, h4, h5, rfl, rfl⟩
    | scalar w =>
      cases z with
      | scalar w' => simp [call3Second]
      | simd u b =>
        simp only [call3Second, same, Option.ite_none_right_eq_some, Bool.and_eq_true, Option.some.injEq, Prod.mk.injEq, Arg.simd.injEq,
          and_assoc, Bool.not_eq_true', reduceCtorEq, false_or, Arg.scalar.injEq, exists_eq', true_and]
        constructor
        · rintro ⟨h1, h2, h3, h4, h5, rfl, rfl⟩; exact ⟨rfl, rfl, h1, h2, h3, h4, h5⟩
        · rintro ⟨rfl, rfl, h1, h2, h3, h4, h5⟩; exact ⟨h1, h2, h3, h4, h5, rfl, rfl⟩
  rw [ev, nf, call3]
  rcases hf : call3First p x y z with _ | ⟨u, b⟩
  · rw [Option.none_or, second]
    constructor
    · rintro ⟨h1, h2, h3, h4, h5, h6⟩
      exact ⟨⟨h6, .inr (h1.imp id And.right), h2, h3, h4⟩, .inr ⟨h5, h1⟩⟩
    · rintro ⟨⟨h1, h2, h3, h4, h5⟩, h6 | h6⟩
      · have := first.2 ⟨h6, h1, h4, h5⟩
        rw [hf] at this; cases this
      · exact ⟨h6.2, h3, h4, h5, h6.1, h1⟩
  · rw [Option.some_or]
    obtain ⟨h1, h2, h3, h4⟩ := first.1 hf
    constructor
    · intro h; cases h
      exact ⟨⟨h2, .inl h1, by rw [h1]; exact conv_self t a, h3, h4⟩, .inl h1⟩
    · rintro ⟨h, h5 | h5⟩
      · rw [h1] at h5; cases h5; rfl
      · rw [h1] at h5
        simp [isFloatSimd, h2] at h5

/-- **C74.**  If all `simd` arguments have the same type, `fma` and `ellint_3` follow the rule: scalars in any place are converted. -/
theorem C74_three_one_type (p : Platform) (hp : p.Ok) (x y z : Arg) (hx : x.Exists) (hy : y.Exists) (hz : z.Exists) (u : CType) (b : AbiTag)
    (h : ∀ w ∈ [x, y, z], (∃ s, w = .scalar s) ∨ w = .simd u b) (t : CType) (a : AbiTag) :
    call3 p x y z = some (t, a) ↔ Evaluates p [x, y, z] t a := by
  rw [C74_three_partial p hp x y z hx hy hz, and_iff_left_iff_imp]
  intro he
  have hm := he.2.1
  have hf := he.1
  have e : u = t ∧ b = a := by
    rcases h _ hm with ⟨s, hs⟩ | hs
    · cases hs
    · cases hs; exact ⟨rfl, rfl⟩
  obtain ⟨rfl, rfl⟩ := e
  have h1 := h x (by simp)
  have h2 := h y (by simp)
  rcases h1 with ⟨s1, rfl⟩ | rfl
  · refine .inr ⟨by simp, ?_⟩
    rcases h2 with ⟨s2, rfl⟩ | rfl
    · refine .inr ⟨⟨s2, rfl⟩, ?_⟩
      have : Arg.simd u b = z := by simpa using hm
      exact this.symm
    · exact .inl rfl
  · exact .inl rfl

private theorem keeps_float_double : Keeps .lp64 .float .double := by
  have ok : Platform.lp64.Ok := by constructor <;> decide
  exact (Narrowing.preserved_float ok (a := .float) (b := .double) rfl rfl).2 (by decide)

/-- **C74 fails** for `fma`: `fma(1.f, x, d)` and `fma(x, d, d)` with `x` a `fixed_size` object of `float` and `d` one of `double` have to
be evaluated in `double`, but do not compile; `pow(x, d)` does. -/
theorem C74_three_wrong (n : Nat) :
    (Evaluates .lp64 [.scalar .float, .simd .float (.fixed n), .simd .double (.fixed n)] .double (.fixed n) ∧
      call3 .lp64 (.scalar .float) (.simd .float (.fixed n)) (.simd .double (.fixed n)) = none) ∧
    (Evaluates .lp64 [.simd .float (.fixed n), .simd .double (.fixed n), .simd .double (.fixed n)] .double (.fixed n) ∧
      call3 .lp64 (.simd .float (.fixed n)) (.simd .double (.fixed n)) (.simd .double (.fixed n)) = none) ∧
    call2 .lp64 (.simd .float (.fixed n)) (.simd .double (.fixed n)) = some (.double, .fixed n) := by
  have ok : Platform.lp64.Ok := by constructor <;> decide
  have k := keeps_float_double
  have c : Converts .lp64 .double (.fixed n) (.simd .float (.fixed n)) := .inr ⟨n, rfl, rfl, k, by decide⟩
  have c' : Converts .lp64 .double (.fixed n) (.simd .double (.fixed n)) := .inl ⟨rfl, rfl⟩
  have e1 : Evaluates .lp64 [.scalar .float, .simd .float (.fixed n), .simd .double (.fixed n)] .double (.fixed n) := by
    refine ⟨rfl, by simp, ?_⟩
    simp only [List.mem_cons, List.not_mem_nil, or_false, forall_eq_or_imp, forall_eq]
    exact ⟨⟨by decide, .inr k⟩, c, c'⟩
  have e2 : Evaluates .lp64 [.simd .float (.fixed n), .simd .double (.fixed n), .simd .double (.fixed n)] .double (.fixed n) := by
    refine ⟨rfl, by simp, ?_⟩
    simp only [List.mem_cons, List.not_mem_nil, or_false, forall_eq_or_imp, forall_eq]
    exact ⟨c, c', c'⟩
  have x1 : ∀ s, (Arg.scalar s).Exists := fun _ => trivial
  have x2 : ∀ a, (Arg.simd .float a).Exists := fun _ => by simp [Arg.Exists]
  have x3 : ∀ a, (Arg.simd .double a).Exists := fun _ => by simp [Arg.Exists]
  refine ⟨⟨e1, ?_⟩, ⟨e2, ?_⟩, ?_⟩
  · rw [Option.eq_none_iff_forall_ne_some]
    rintro ⟨t, a⟩ h
    rw [C74_three_partial _ ok _ _ _ (x1 _) (x2 _) (x3 _)] at h
    have u := C74_unique _ ok _ (by simp [x1, x2, x3]) _ _ _ _ e1 h.1
    obtain ⟨rfl, rfl⟩ := u
    simp at h
  · rw [Option.eq_none_iff_forall_ne_some]
    rintro ⟨t, a⟩ h
    rw [C74_three_partial _ ok _ _ _ (x2 _) (x3 _) (x3 _)] at h
    have u := C74_unique _ ok _ (by simp [x2, x3]) _ _ _ _ e2 h.1
    obtain ⟨rfl, rfl⟩ := u
    have := h.2
    simp at this
    exact absurd this (by decide)
  · rw [C74_two _ ok _ _ (x2 _) (x3 _)]
    refine ⟨rfl, by simp, ?_⟩
    simp only [List.mem_cons, List.not_mem_nil, or_false, forall_eq_or_imp, forall_eq]
    exact ⟨c, c'⟩

/-- **C74**, `remquo`: what compiles follows the rule, and is everything that has the type to compute in as its first argument.  Full
statement: as `C74_two`.  Missing: calls whose first argument has to be converted (`C74_remquo_copysign_wrong`). -/
theorem C74_remquo_partial (p : Platform) (hp : p.Ok) (x y : Arg) (hx : x.Exists) (hy : y.Exists) (t : CType) (a : AbiTag) :
    remquo p x y = some (t, a) ↔ Evaluates p [x, y] t a ∧ x = .simd t a := by
  unfold Evaluates
  simp only [List.mem_cons, List.not_mem_nil, or_false, forall_eq_or_imp, forall_eq]
  cases x with
  | scalar u => simp [remquo, call2First]
  | simd u b =>
    simp only [remquo, call2First, Option.ite_none_right_eq_some, Bool.and_eq_true, Option.some.injEq, Prod.mk.injEq, Arg.simd.injEq]
    constructor
    · rintro ⟨⟨h1, h2⟩, rfl, rfl⟩
      exact ⟨⟨h1, .inl ⟨rfl, rfl⟩, .inl ⟨rfl, rfl⟩, (conv_iff hp h1 hy).1 h2⟩, rfl, rfl⟩
    · rintro ⟨⟨h1, -, -, h2⟩, rfl, rfl⟩
      exact ⟨⟨h1, (conv_iff hp h1 hy).2 h2⟩, rfl, rfl⟩

/-- **C74**, `copysign`: what compiles follows the rule, and is everything with two arguments of the same type.  Full statement: as
`C74_two`.  Missing: all calls in which an argument has to be converted (`C74_remquo_copysign_wrong`). -/
theorem C74_copysign_partial (p : Platform) (x y : Arg) (t : CType) (a : AbiTag) :
    copysign p x y = some (t, a) ↔ Evaluates p [x, y] t a ∧ x = .simd t a ∧ y = .simd t a := by
  cases x with
  | scalar u => simp [copysign]
  | simd u b =>
    cases y with
    | scalar w => simp [copysign]
    | simd w c =>
      simp only [copysign, Option.ite_none_right_eq_some, Bool.and_eq_true, beq_iff_eq, Option.some.injEq, Prod.mk.injEq, Arg.simd.injEq]
      constructor
      · rintro ⟨⟨⟨rfl, rfl⟩, h⟩, rfl, rfl⟩
        refine ⟨⟨h, by simp, ?_⟩, ⟨rfl, rfl⟩, rfl, rfl⟩
        intro x hx
        have : x = .simd w c := by simpa using hx
        subst this; exact .inl ⟨rfl, rfl⟩
      · rintro ⟨⟨h, -, -⟩, ⟨rfl, rfl⟩, rfl, rfl⟩
        exact ⟨⟨⟨rfl, rfl⟩, h⟩, rfl, rfl⟩

/-- **C74 fails** for `remquo` and `copysign`: `remquo(1.f, x, &q)` and `copysign(x, 1.f)` have to be evaluated in the type of `x`, for every
ABI tag, but do not compile. -/
theorem C74_remquo_copysign_wrong (a : AbiTag) :
    (Evaluates .lp64 [.scalar .float, .simd .float a] .float a ∧ remquo .lp64 (.scalar .float) (.simd .float a) = none) ∧
    (Evaluates .lp64 [.simd .float a, .scalar .float] .float a ∧ copysign .lp64 (.simd .float a) (.scalar .float) = none) := by
  have c : Converts .lp64 .float a (.scalar .float) := ⟨by decide, .inr fun _ h => h⟩
  have c' : Converts .lp64 .float a (.simd .float a) := .inl ⟨rfl, rfl⟩
  refine ⟨⟨⟨rfl, by simp, ?_⟩, rfl⟩, ⟨⟨rfl, by simp, ?_⟩, rfl⟩⟩ <;>
    simp only [List.mem_cons, List.not_mem_nil, or_false, forall_eq_or_imp, forall_eq]
  · exact ⟨c, c'⟩
  · exact ⟨c', c⟩

/-- `hypot` is not restricted to floating-point types: with integer objects the overloads are chosen as well (the rule offers none). -/
theorem C74_hypot_integers (p : Platform) (hp : p.Ok) (a : AbiTag) : hypot p hypot2 [.simd .int a, .scalar .int] = some (.int, a) := by
  rw [hypot_iff hp complete2 (by simp [Arg.Exists])]
  refine ⟨by simp, ?_⟩
  simp [conv_self, convertible, Narrowing.broadcastFrom, Narrowing.valuePreservingOrInt]

-- concrete cases: `pow(2, x)` is evaluated in `float`, `hypot(x, 1, d)` in `double`, `pow(1., x)` does not compile
example (a : AbiTag) : call2 .lp64 (.scalar .int) (.simd .float a) = some (.float, a) := by
  have ok : Platform.lp64.Ok := by constructor <;> decide
  rw [C74_two _ ok _ _ (by simp [Arg.Exists]) (by simp [Arg.Exists])]
  refine ⟨rfl, by simp, ?_⟩
  simp only [List.mem_cons, List.not_mem_nil, or_false, forall_eq_or_imp, forall_eq]
  exact ⟨⟨by decide, .inl rfl⟩, .inl ⟨rfl, rfl⟩⟩

example : hypot .lp64 hypot3 [.simd .float (.fixed 5), .scalar .int, .simd .double (.fixed 5)] = some (.double, .fixed 5) := by
  have ok : Platform.lp64.Ok := by constructor <;> decide
  rw [C74_hypot3 _ ok _ _ _ (by simp [Arg.Exists]) (by simp [Arg.Exists]) (by simp [Arg.Exists]) _ rfl]
  refine ⟨rfl, by simp, ?_⟩
  simp only [List.mem_cons, List.not_mem_nil, or_false, forall_eq_or_imp, forall_eq]
  exact ⟨.inr ⟨5, rfl, rfl, keeps_float_double, by decide⟩, ⟨by decide, .inl rfl⟩, .inl ⟨rfl, rfl⟩⟩

example : hypot .lp64 hypot2 [.simd .double (.fixed 2), .simd .float (.fixed 2)] = some (.double, .fixed 2) := by
  have ok : Platform.lp64.Ok := by constructor <;> decide
  rw [C74_hypot2 _ ok _ _ (by simp [Arg.Exists]) (by simp [Arg.Exists]) _ rfl]
  refine ⟨rfl, by simp, ?_⟩
  simp only [List.mem_cons, List.not_mem_nil, or_false, forall_eq_or_imp, forall_eq]
  exact ⟨.inl ⟨rfl, rfl⟩, .inr ⟨2, rfl, rfl, keeps_float_double, by decide⟩⟩

example (a : AbiTag) : call3 .lp64 (.scalar .int) (.scalar .float) (.simd .float a) = some (.float, a) := by
  have ok : Platform.lp64.Ok := by constructor <;> decide
  rw [C74_three_one_type _ ok _ _ _ (by simp [Arg.Exists]) (by simp [Arg.Exists]) (by simp [Arg.Exists]) .float a (by simp)]
  refine ⟨rfl, by simp, ?_⟩
  simp only [List.mem_cons, List.not_mem_nil, or_false, forall_eq_or_imp, forall_eq]
  exact ⟨⟨by decide, .inl rfl⟩, ⟨by decide, .inr fun _ h => h⟩, .inl ⟨rfl, rfl⟩⟩

example (k : Nat) : ¬ Evaluates .lp64 [.simd .float (.other k), .simd .double (.other k)] .double (.other k) := by
  rintro ⟨-, -, h⟩
  have := h (.simd .float (.other k)) (by simp)
  simp [Converts] at this

end StdSimd.Props
