import Verif.Proofs.MixedCall
import Verif.Model.MixedOps
import Verif.Props.Narrowing
/-!
# C75: operators on operands of different types
-/
namespace StdSimd.Props
open Spec Spec.MixedCall Spec.MixedOps _root_.StdSimd.MixedCall _root_.StdSimd.MixedOps _root_.StdSimd.Narrowing

private theorem stdRank_not_float {p : Platform} {t : CType} {n : Nat} (h : Platform.stdRank t = some n) : p.isFloat t = false := by
  obtain ⟨-, s, w, k⟩ := stdRank_kind (p := p) h
  simp [Platform.isFloat, k]

private theorem ranked_ne_bool {p : Platform} {t : CType} (h : Ranked p t) : t ≠ .bool := by
  rintro rfl
  rcases h with h | h
  · cases h
  · simp [Platform.stdRank] at h

private theorem fp_no_std {p : Platform} {t : CType} (h : p.isFloat t = true) : Platform.stdRank t = none := by
  rcases isFloat_cases h with rfl | rfl | rfl <;> rfl

/-- The model's conversions are those of the specification. -/
theorem convertible_iff {p : Platform} (hp : p.Ok) {t : CType} {a : AbiTag} (ht : Ranked p t) {x : Arg} (hx : Plain p x) :
    convertible p t a x = true ↔ ConvertsTo p t a x := by
  cases x with
  | scalar u =>
    simp only [convertible, ConvertsTo, broadcastFrom, valuePreservingOrInt, Bool.and_eq_true, Bool.or_eq_true, decide_eq_true_eq,
      Bool.not_eq_true']
    constructor
    · rintro ⟨h1, ((rfl | h) | h) | h⟩
      · exact ⟨h1, .inr (.inr fun _ h => h)⟩
      · exact ⟨h1, .inl h⟩
      · exact ⟨h1, .inr (.inl h)⟩
      · exact ⟨h1, .inr (.inr ((narrowing_iff hp h1).1 h))⟩
    · rintro ⟨h1, h | h | h⟩
      · exact ⟨h1, .inl (.inl (.inr h))⟩
      · exact ⟨h1, .inl (.inr h)⟩
      · exact ⟨h1, .inr ((narrowing_iff hp h1).2 h)⟩
  | simd u b =>
    have hu : Ranked p u := hx
    have key : u ≠ t → (implicitConvert p u t = true ↔ Keeps p u t ∧ GreaterRank p u t) := by
      intro hut
      rcases ht with hf | hf
      · rw [implicit_fp hp (ranked_ne_bool hu) hf hut]
        have e : GreaterRank p u t ↔ fpRank u < fpRank t := by
          simp [GreaterRank, hf, fp_no_std hf]
        rw [e]
      · obtain ⟨n, hn⟩ := Option.isSome_iff_exists.1 hf
        rcases hu with hu | hu
        · obtain ⟨-, s, w, kt⟩ := stdRank_kind (p := p) hn
          have no : ¬ Keeps p u t := by
            rcases isFloat_cases hu with rfl | rfl | rfl <;> exact not_preserved_float_int hp rfl kt
          constructor
          · intro h
            exact absurd (C45_value_preserving p hp u t (ranked_ne_bool (.inl hu)) h) no
          · rintro ⟨h, -⟩; exact absurd h no
        · obtain ⟨m, hm⟩ := Option.isSome_iff_exists.1 hu
          rw [C45_integers_partial p hp u t hut m n hm hn]
          simp [GreaterRank, stdRank_not_float (p := p) hn, hm, hn, Keeps]
    simp only [convertible, ConvertsTo, Bool.or_eq_true, Bool.and_eq_true, beq_iff_eq]
    by_cases hut : u = t
    · subst hut
      have irr : ¬ GreaterRank p u u := by
        rintro (h | ⟨m, n, h1, h2, h3⟩)
        · exact absurd h.2 (lt_irrefl _)
        · rw [h1] at h2; cases h2; exact absurd h3 (lt_irrefl _)
      cases a with
      | other k => cases b <;> simp
      | fixed n =>
        cases b with
        | other k => simp
        | fixed m =>
          simp only [true_and, Bool.and_eq_true, beq_iff_eq]
          constructor
          · rintro (h | h)
            · exact .inl h
            · exact .inl (by rw [h.1])
          · rintro (h | ⟨_, _, _, _, h⟩)
            · exact .inl h
            · exact absurd h irr
    · simp only [hut, false_and, false_or]
      cases a with
      | other k => cases b <;> simp
      | fixed n =>
        cases b with
        | other k => simp
        | fixed m =>
          simp only [Bool.and_eq_true, beq_iff_eq, key hut]
          constructor
          · rintro ⟨rfl, h⟩; exact ⟨n, rfl, rfl, h⟩
          · rintro ⟨k, h1, h2, h⟩
            cases h1; cases h2
            exact ⟨rfl, h⟩

private theorem friendOf_iff {p : Platform} {o : Family} {z x y : Arg} {t : CType} {a : AbiTag} :
    friendOf p o z x y = some (t, a) ↔ z = .simd t a ∧ has p o t = true ∧ convertible p t a x = true ∧ convertible p t a y = true := by
  cases z with
  | scalar u => simp [friendOf]
  | simd u b =>
    simp only [friendOf, Option.ite_none_right_eq_some, Bool.and_eq_true, Option.some.injEq, Prod.mk.injEq, Arg.simd.injEq, and_assoc]
    constructor
    · rintro ⟨h, h', h'', rfl, rfl⟩; exact ⟨rfl, rfl, h, h', h''⟩
    · rintro ⟨rfl, rfl, h, h', h''⟩; exact ⟨h, h', h'', rfl, rfl⟩

/-- Overload resolution finds the only candidate, whatever the element types. -/
theorem binary_iff {p : Platform} (hp : p.Ok) {o : Family} {x y : Arg} (hx : x.Exists) (hy : y.Exists) {t : CType} {a : AbiTag} :
    binary p o x y = some (t, a) ↔
      has p o t = true ∧ (x = .simd t a ∨ y = .simd t a) ∧ convertible p t a x = true ∧ convertible p t a y = true := by
  have uniq : ∀ {t u a b}, friendOf p o x x y = some (t, a) → friendOf p o y x y = some (u, b) → (u, b) = (t, a) := by
    intro t u a b h1 h2
    rw [friendOf_iff] at h1 h2
    refine conv_asymm hp ?_ ?_ ?_ ?_
    · have := hx; rw [h1.1] at this; exact this
    · have := hy; rw [h2.1] at this; exact this
    · have := h1.2.2.2; rwa [h2.1] at this
    · have := h2.2.2.1; rwa [h1.1] at this
  unfold binary
  rcases h1 : friendOf p o x x y with _ | ⟨u, b⟩ <;> rcases h2 : friendOf p o y x y with _ | ⟨v, c⟩ <;> dsimp only
  · constructor
    · intro h; cases h
    · rintro ⟨h, h3 | h3, h4⟩
      · have := friendOf_iff.2 ⟨h3, h, h4⟩; rw [h1] at this; cases this
      · have := friendOf_iff.2 ⟨h3, h, h4⟩; rw [h2] at this; cases this
  · constructor
    · intro h; rw [h] at h2
      have := friendOf_iff.1 h2
      exact ⟨this.2.1, .inr this.1, this.2.2⟩
    · rintro ⟨h, h3 | h3, h4⟩
      · have := friendOf_iff.2 ⟨h3, h, h4⟩; rw [h1] at this; cases this
      · have := friendOf_iff.2 ⟨h3, h, h4⟩; rw [h2] at this; exact this
  · constructor
    · intro h; rw [h] at h1
      have := friendOf_iff.1 h1
      exact ⟨this.2.1, .inl this.1, this.2.2⟩
    · rintro ⟨h, h3 | h3, h4⟩
      · have := friendOf_iff.2 ⟨h3, h, h4⟩; rw [h1] at this; exact this
      · have := friendOf_iff.2 ⟨h3, h, h4⟩; rw [h2] at this; cases this
  · have e := uniq h1 h2
    rw [if_pos e.symm]
    constructor
    · intro h; rw [h] at h1
      have := friendOf_iff.1 h1
      exact ⟨this.2.1, .inl this.1, this.2.2⟩
    · rintro ⟨h, h3 | h3, h4⟩
      · have := friendOf_iff.2 ⟨h3, h, h4⟩; rw [h1] at this; exact this
      · have := friendOf_iff.2 ⟨h3, h, h4⟩; rw [h2, e] at this; exact this

/-- **C75**, types: at most one type is possible. -/
theorem C75_unique (p : Platform) (hp : p.Ok) (x y : Arg) (hx : Plain p x) (hy : Plain p y) (t u : CType) (a b : AbiTag)
    (h1 : Typed p x y t a) (h2 : Typed p x y u b) : u = t ∧ b = a := by
  have ex : ∀ {z : Arg}, Plain p z → z.Exists := by
    intro z hz; cases z with
    | scalar _ => trivial
    | simd t a => exact ranked_ne_bool hz
  have rk : ∀ {t a}, Typed p x y t a → Ranked p t := by
    intro t a h
    rcases h.1 with h | h
    · rw [h] at hx; exact hx
    · rw [h] at hy; exact hy
  have c : ∀ {t a}, Typed p x y t a → binary p .any x y = some (t, a) := by
    intro t a h
    rw [binary_iff hp (ex hx) (ex hy)]
    exact ⟨rfl, h.1, (convertible_iff hp (rk h) hx).2 h.2.1, (convertible_iff hp (rk h) hy).2 h.2.2⟩
  have := (c h1).symm.trans (c h2)
  cases this; exact ⟨rfl, rfl⟩

/-- **C75.**  `+ - * / == != < <= > >=`: the expression compiles and computes in `simd<t, a>` exactly if one operand has this type and the
other one converts to it. -/
theorem C75_operators (p : Platform) (hp : p.Ok) (x y : Arg) (hx : Plain p x) (hy : Plain p y) (t : CType) (a : AbiTag) :
    binary p .any x y = some (t, a) ↔ Typed p x y t a := by
  have ex : ∀ {z : Arg}, Plain p z → z.Exists := by
    intro z hz; cases z with
    | scalar _ => trivial
    | simd t a => exact ranked_ne_bool hz
  rw [binary_iff hp (ex hx) (ex hy)]
  have rk : (x = .simd t a ∨ y = .simd t a) → Ranked p t := by
    rintro (h | h)
    · rw [h] at hx; exact hx
    · rw [h] at hy; exact hy
  unfold Typed
  constructor
  · rintro ⟨-, h, h1, h2⟩
    exact ⟨h, (convertible_iff hp (rk h) hx).1 h1, (convertible_iff hp (rk h) hy).1 h2⟩
  · rintro ⟨h, h1, h2⟩
    exact ⟨rfl, h, (convertible_iff hp (rk h) hx).2 h1, (convertible_iff hp (rk h) hy).2 h2⟩

/-- **C75.**  `% & | ^`: the same, for integral types. -/
theorem C75_integral_operators (p : Platform) (hp : p.Ok) (x y : Arg) (hx : Plain p x) (hy : Plain p y) (t : CType) (a : AbiTag) :
    binary p .integral x y = some (t, a) ↔ Typed p x y t a ∧ p.isFloat t = false := by
  have ex : ∀ {z : Arg}, Plain p z → z.Exists := by
    intro z hz; cases z with
    | scalar _ => trivial
    | simd t a => exact ranked_ne_bool hz
  rw [← C75_operators p hp x y hx hy, binary_iff hp (ex hx) (ex hy), binary_iff hp (ex hx) (ex hy)]
  simp only [has, beq_self_eq_true, Bool.true_or, true_and, Bool.or_eq_true, beq_iff_eq, reduceCtorEq, false_or, Bool.not_eq_true']
  exact and_comm

/-- **C75.**  The order of the operands does not matter for the type, with any element types. -/
theorem C75_symmetric (p : Platform) (hp : p.Ok) (o : Family) (x y : Arg) (hx : x.Exists) (hy : y.Exists) :
    binary p o y x = binary p o x y := by
  apply Option.ext
  rintro ⟨t, a⟩
  rw [binary_iff hp hy hx, binary_iff hp hx hy, or_comm, and_comm (a := convertible p t a y = true)]

/-- **C75.**  The values of the operands are kept by the conversion, with any element types, except those of scalars of type `int`, and of
type `unsigned int` if the elements are unsigned. -/
theorem C75_keeps_values (p : Platform) (hp : p.Ok) (o : Family) (x y : Arg) (hx : x.Exists) (hy : y.Exists) (t : CType) (a : AbiTag)
    (h : binary p o x y = some (t, a)) (z : Arg) (hz : z = x ∨ z = y) :
    match z with
    | .scalar u => u ≠ .bool ∧ (u ≠ .int → ¬ (u = .uint ∧ p.isUnsigned t = true) → Keeps p u t)
    | .simd u b => Keeps p u t ∧ (b = a) := by
  rw [binary_iff hp hx hy] at h
  have hc : convertible p t a z = true := by rcases hz with rfl | rfl <;> simp [h]
  have hE : z.Exists := by rcases hz with rfl | rfl <;> assumption
  cases z with
  | scalar u =>
    have hb : u ≠ .bool := by
      simp only [convertible, broadcastFrom, Bool.and_eq_true, decide_eq_true_eq] at hc; exact hc.1
    exact ⟨hb, fun hi hu => ((C22_broadcast p hp u t hi hu).1 hc).2⟩
  | simd u b =>
    simp only [convertible, Bool.or_eq_true, Bool.and_eq_true, beq_iff_eq] at hc
    rcases hc with ⟨rfl, rfl⟩ | hc
    · exact ⟨fun _ h => h, rfl⟩
    · cases a with
      | other k => cases b <;> simp at hc
      | fixed n =>
        cases b with
        | other k => simp at hc
        | fixed m =>
          simp only [Bool.and_eq_true, beq_iff_eq] at hc
          exact ⟨C45_value_preserving p hp u t hE hc.2, by rw [hc.1]⟩

/-- **C75.**  Compound assignments convert the right operand only: they compile exactly if it converts to the type of the left one; and
if `x @= y` compiles then so does `x @ y`, with the same type. -/
theorem C75_compound (p : Platform) (hp : p.Ok) (o : Family) (t : CType) (a : AbiTag) (ht : Ranked p t) (y : Arg) (hy : Plain p y) :
    (compound p o (.simd t a) y = some (t, a) ↔ ConvertsTo p t a y ∧ (o = .integral → p.isFloat t = false)) ∧
    (∀ v, compound p o (.simd t a) y = some v → v = (t, a) ∧ binary p o (.simd t a) y = some v) ∧
    ∀ u, compound p o (.scalar u) y = none := by
  have ex : y.Exists := by
    cases y with
    | scalar _ => trivial
    | simd t a => exact ranked_ne_bool hy
  have hh : has p o t = true ↔ (o = .integral → p.isFloat t = false) := by cases o <;> simp [has]
  refine ⟨?_, ?_, fun _ => rfl⟩
  · simp only [compound, Option.ite_none_right_eq_some, Bool.and_eq_true, and_true, convertible_iff hp ht hy, hh]
    exact and_comm
  · intro v h
    simp only [compound, Option.ite_none_right_eq_some, Bool.and_eq_true, Option.some.injEq] at h
    obtain ⟨h1, rfl⟩ := h
    refine ⟨rfl, ?_⟩
    rw [binary_iff hp (show Arg.Exists (.simd t a) from ranked_ne_bool ht) ex]
    exact ⟨h1.1, .inl rfl, conv_self t a, h1.2⟩

/-- **C75.**  Shifts of an integral `simd` object by a scalar of any arithmetic type shift all elements by one `int`; shifts by another
`simd` object, and shifts of a scalar, are typed as the other operators. -/
theorem C75_shift (p : Platform) :
    (∀ t a u, shift p (.simd t a) (.scalar u) = if p.isFloat t = true then none else some (.byInt t a)) ∧
    (∀ x u b, shift p x (.simd u b) = (binary p .integral x (.simd u b)).map fun v => .elementwise v.1 v.2) := by
  refine ⟨fun t a u => by cases h : p.isFloat t <;> simp [shift, has, h], fun x u b => ?_⟩
  cases x <;> rfl

/-- **C75.**  The `int` is the value of the operand if it is one of `int`.  (A count of a wider type is reduced modulo `2 ^ intW` before
the check for too large counts: `C75_shift_count_wraps`.) -/
theorem C75_shift_count (p : Platform) (hp : p.Ok) (n : ℤ) (h : p.HasValue .int (some (((n : ℚ) : WithTop ℚ) : WithBot (WithTop ℚ)))) :
    count p n = n := by
  obtain ⟨m, h1, h2, h3⟩ := (hasValue_int (p := p) (t := .int) (by simp) rfl _).1 h
  have e : m = n := by
    have := Option.some.inj h3
    have := WithBot.coe_injective this
    have := WithTop.coe_injective this
    exact_mod_cast this.symm
  subst e
  have h16 := hp.short
  have hi := hp.int
  exact wrap_of_range (by omega) h1 h2

/-- `v << 0x100000001L` is `v << 1`. -/
theorem C75_shift_count_wraps : shift .lp64 (.simd .int (.fixed 4)) (.scalar .long) = some (.byInt .int (.fixed 4)) ∧
    count .lp64 0x100000001 = 1 := by decide +kernel

/-- **C75.**  Masks of different types do not mix: between `fixed_size` masks of the same size both conversions are implicit and every
operator is ambiguous, otherwise there is no conversion. -/
theorem C75_masks (k l : CType × AbiTag) : maskBinary k l = if k = l then some k else none := by
  unfold maskBinary
  split_ifs with h
  · rfl
  obtain ⟨t, a⟩ := k
  obtain ⟨u, b⟩ := l
  have h1 : ¬ (t = u ∧ a = b) := by simpa using h
  have h2 : ¬ (u = t ∧ b = a) := fun h => h1 ⟨h.1.symm, h.2.symm⟩
  have e1 : (u == t && b == a) = false := by
    rw [Bool.eq_false_iff]; simpa using h2
  have e2 : (t == u && a == b) = false := by
    rw [Bool.eq_false_iff]; simpa using h1
  simp only [maskConvertible, e1, e2, Bool.false_or]
  cases a with
  | other i => cases b <;> simp
  | fixed n =>
    cases b with
    | other j => simp
    | fixed m =>
      by_cases hm : n = m
      · simp [hm]
      · have hm' : ¬ m = n := fun h => hm h.symm
        simp [hm, hm']

/-- **C75.**  Compound assignments of masks compile for the same type, and for `fixed_size` masks of the same size. -/
theorem C75_mask_compound (t u : CType) (a b : AbiTag) :
    maskCompound (t, a) (u, b) = some (t, a) ↔ (u = t ∧ b = a) ∨ ∃ n, a = .fixed n ∧ b = .fixed n := by
  simp only [maskCompound, maskConvertible, Option.ite_none_right_eq_some, and_true, Bool.or_eq_true, Bool.and_eq_true, beq_iff_eq]
  refine or_congr Iff.rfl ?_
  cases a <;> cases b <;> simp
  exact eq_comm

/-- **C75 fails** with `wchar_t` and the `charN_t`, for which the ranks of the TS are not followed (C45): `fixed_size` objects of `wchar_t` and
`int` can be added although neither type has the greater rank. -/
theorem C75_wchar_wrong (n : Nat) : binary .lp64 .any (.simd .wchar (.fixed n)) (.simd .int (.fixed n)) = some (.int, .fixed n) := by
  have ok : Platform.lp64.Ok := by constructor <;> decide
  rw [binary_iff ok (by simp [Arg.Exists]) (by simp [Arg.Exists])]
  refine ⟨rfl, .inr rfl, ?_, conv_self _ _⟩
  simp [convertible, C45_wchar_wrong.1]

-- concrete cases: `short` objects plus an `int`; `float` and `double` objects; `int` and `unsigned` objects do not mix
example (a : AbiTag) : binary .lp64 .any (.scalar .int) (.simd .short a) = some (.short, a) := by
  have ok : Platform.lp64.Ok := by constructor <;> decide
  rw [C75_operators _ ok (.scalar .int) (.simd .short a) trivial (show Ranked _ _ from .inr (by decide))]
  exact ⟨.inr rfl, ⟨by decide, .inl rfl⟩, .inl ⟨rfl, rfl⟩⟩

private theorem keeps_short_int : Keeps .lp64 .short .int := by
  have ok : Platform.lp64.Ok := by constructor <;> decide
  exact (preserved_int ok (by simp) (by simp) rfl rfl).2 (by decide)

example : binary .lp64 .integral (.simd .short (.fixed 7)) (.simd .int (.fixed 7)) = some (.int, .fixed 7) ∧
    compound .lp64 .integral (.simd .int (.fixed 7)) (.simd .short (.fixed 7)) = some (.int, .fixed 7) := by
  have ok : Platform.lp64.Ok := by constructor <;> decide
  have c : ConvertsTo .lp64 .int (.fixed 7) (.simd .short (.fixed 7)) := .inr ⟨7, rfl, rfl, keeps_short_int, .inr ⟨2, 3, rfl, rfl, by decide⟩⟩
  have p1 : Plain .lp64 (.simd .short (.fixed 7)) := show Ranked _ _ from .inr (by decide)
  have p2 : Plain .lp64 (.simd .int (.fixed 7)) := show Ranked _ _ from .inr (by decide)
  rw [C75_integral_operators _ ok _ _ p1 p2, (C75_compound _ ok _ _ _ (.inr (by decide)) _ p1).1]
  exact ⟨⟨⟨.inr rfl, c, .inl ⟨rfl, rfl⟩⟩, rfl⟩, c, fun _ => rfl⟩

example (n : Nat) (o : Family) : binary .lp64 o (.simd .int (.fixed n)) (.simd .uint (.fixed n)) = none := by
  have ok : Platform.lp64.Ok := by constructor <;> decide
  rw [Option.eq_none_iff_forall_ne_some]
  rintro ⟨t, a⟩ h
  have h0 := h
  rw [binary_iff ok (by simp [Arg.Exists]) (by simp [Arg.Exists])] at h0
  have k1 := C75_keeps_values _ ok _ _ _ (by simp [Arg.Exists]) (by simp [Arg.Exists]) _ _ h _ (.inl rfl)
  have k2 := C75_keeps_values _ ok _ _ _ (by simp [Arg.Exists]) (by simp [Arg.Exists]) _ _ h _ (.inr rfl)
  rcases h0.2.1 with e | e <;> cases e
  · exact absurd ((preserved_int ok (a := .uint) (b := .int) (by simp) (by simp) rfl rfl).1 k2.1) (by decide)
  · exact absurd ((preserved_int ok (a := .int) (b := .uint) (by simp) (by simp) rfl rfl).1 k1.1) (by decide)

example : maskBinary (.float, .fixed 4) (.int, .fixed 4) = none ∧ maskCompound (.float, .fixed 4) (.int, .fixed 4) = some (.float, .fixed 4) := by
  decide

example : Platform.lp64.isFloat .uchar = false ∧ count .lp64 (-1) = -1 := by decide

end StdSimd.Props
