import Verif.Model.RefTypes
import Verif.Proofs.Narrowing
/-!
# Property theorems: operands of assignments to elements (C76)

For every platform and all arithmetic types.
-/
namespace StdSimd.Props
open Spec Spec.RefTypes RefTypes Narrowing

variable {p : Platform}

private theorem vpoi_iff (hp : p.Ok) {a b : CType} (ha : a ≠ .bool) : Narrowing.valuePreservingOrInt p a b = true ↔ Offered p a b := by
  have hn := narrowing_iff hp (b := b) ha
  simp only [Narrowing.valuePreservingOrInt, Bool.or_eq_true, decide_eq_true_eq, Bool.and_eq_true, Bool.not_eq_true', Offered]
  constructor
  · rintro (((h | h) | h) | h)
    · subst h; exact .inr (.inr fun _ hv => hv)
    · exact .inl h
    · exact .inr (.inl h)
    · exact .inr (.inr (hn.1 h))
  · rintro (h | h | h)
    · exact .inl (.inl (.inr h))
    · exact .inl (.inr h)
    · exact .inr (hn.2 h)

private theorem vpoi_self (a : CType) : Narrowing.valuePreservingOrInt p a a = true := by simp [Narrowing.valuePreservingOrInt]
private theorem vpoi_int (a : CType) : Narrowing.valuePreservingOrInt p .int a = true := by simp [Narrowing.valuePreservingOrInt]
private theorem vpoi_uint {a : CType} (h : p.isUnsigned a = true) : Narrowing.valuePreservingOrInt p .uint a = true := by
  simp [Narrowing.valuePreservingOrInt, h]

/-- The result of promotion, where no type that is promoted is wider than `int`. -/
private theorem promote_small (hp : p.Ok) (hi : 32 ≤ p.intW) (hw : p.wcharW ≤ p.intW) (t : CType) :
    p.promote t = t ∨ p.promote t = .int ∨ (p.promote t = .uint ∧ p.isUnsigned t = true) := by
  have key : ∀ {s : Bool} {w : Nat} (us : List CType), p.kind t = .int s w → w ≤ p.intW →
      p.firstFit t (.int :: .uint :: us) = .int ∨ (p.firstFit t (.int :: .uint :: us) = .uint ∧ p.isUnsigned t = true) := by
    intro s w us hk hwi
    simp only [Platform.firstFit, canRepresent_eq hp hk (u := .int) rfl, canRepresent_eq hp hk (u := .uint) rfl, decide_eq_true_eq]
    split_ifs with h1 h2
    · exact .inl rfl
    · refine .inr ⟨rfl, ?_⟩
      have := isSigned_int hk
      cases s
      · simp [Platform.isUnsigned, this]
      · exact absurd (h2.2 rfl) (by decide)
    · exfalso
      unfold Fit at h1 h2
      cases s <;> simp at h1 h2 <;> omega
  have hs := hp.int
  have h16 := hp.short
  cases t
  case bool => exact .inr (.inl rfl)
  case char => exact .inr (key [] rfl (by omega))
  case schar => exact .inr (key [] rfl (by omega))
  case uchar => exact .inr (key [] rfl (by omega))
  case short => exact .inr (key [] rfl (by omega))
  case ushort => exact .inr (key [] rfl (by omega))
  case char8 => exact .inr (key _ rfl (by omega))
  case wchar => exact .inr (key _ rfl hw)
  case char16 => exact .inr (key _ rfl (by omega))
  case char32 => exact .inr (key _ rfl (by omega))
  all_goals exact .inl rfl

private theorem promote_back (hp : p.Ok) (hi : 32 ≤ p.intW) (hw : p.wcharW ≤ p.intW) (t : CType) :
    Narrowing.valuePreservingOrInt p (p.promote t) t = true := by
  rcases promote_small hp hi hw t with h | h | ⟨h, hu⟩ <;> rw [h]
  · exact vpoi_self t
  · exact vpoi_int t
  · exact vpoi_uint hu

/-- A value promoted keeps its value. -/
private theorem promote_keeps (hp : p.Ok) (t : CType) : Narrowing.valuePreservingOrInt p t (p.promote t) = true := by
  by_cases ht : t = .bool
  · subst ht
    have h16 := hp.short; have hs := hp.int
    have h : narrowing p .bool .int = false := by
      rw [narrowing_of (by decide) (by decide)]
      have k : p.kind .int = .int true p.intW := rfl
      have c : p.common .bool .int = .int := by simp [Platform.common, Platform.promote, Platform.commonInt]
      have h7 : (2 : ℤ) ^ 15 ≤ 2 ^ (p.intW - 1) := pow_le_pow_right₀ (by norm_num) (by omega)
      have m1 : finiteMax p .int = ((2 ^ (p.intW - 1) - 1 : ℤ) : ℚ) := by
        rw [finiteMax_eq (by decide) k (by omega)]; rfl
      have m2 : finiteMin p .int = ((-2 ^ (p.intW - 1) : ℤ) : ℚ) := by
        rw [finiteMin_eq (by decide) k (by omega)]; rfl
      have m3 : finiteMax p .bool = ((1 : ℤ) : ℚ) := by
        simp [finiteMax, Platform.kind, intMin, Platform.isUnsigned, Platform.isSigned, toInt]
      have m4 : finiteMin p .bool = ((0 : ℤ) : ℚ) := by
        simp [finiteMin, Platform.kind, intMin, Platform.isUnsigned, Platform.isSigned]
      have wr : ∀ n : ℤ, -2 ^ (p.intW - 1) ≤ n → n ≤ 2 ^ (p.intW - 1) - 1 → Platform.wrap true p.intW n = n := fun n h1 h2 =>
        wrap_of_range (by omega) h1 h2
      rw [c, m1, m2, m3, m4]
      simp only [Platform.lessIn, k, Int.floor_intCast]
      rw [wr _ (by omega) (by omega), wr _ (by omega) (by omega), wr _ (by omega) (by omega), wr _ (by omega) (by omega)]
      refine ⟨?_, by simp; omega, by simp, by simp [Platform.isSigned, Platform.kind]⟩
      show 8 ≤ p.intW - 1
      omega
    simp [Narrowing.valuePreservingOrInt, Platform.promote, h]
  · rcases hk : p.kind t with ⟨s, w⟩ | f
    · obtain ⟨s', w', hpr, hk', hf, -⟩ := promote_spec hp ht hk
      have hb : p.promote t ≠ .bool := by rcases hpr with h | h | h | h | h | h <;> rw [h] <;> decide
      rw [vpoi_iff hp ht]
      exact .inr (.inr ((preserved_int hp ht hb hk hk').2 hf))
    · have : p.promote t = t := by cases t <;> first | rfl | (exfalso; cases hk)
      rw [this]; exact vpoi_self t

private theorem expr_not_bool (hp : p.Ok) {o : Op} {t u r : CType} (h : exprType p o t u = some r) : r ≠ .bool := by
  have pr : ∀ t, (∃ s w, p.kind t = .int s w) → Promoted (p.promote t) := by
    rintro t ⟨s, w, hk⟩
    by_cases ht : t = .bool
    · subst ht; exact .inl rfl
    · exact (promote_spec hp ht hk).choose_spec.choose_spec.1
  have nb : ∀ {t}, Promoted t → t ≠ .bool := by rintro t (h | h | h | h | h | h) <;> rw [h] <;> decide
  have pk : ∀ {t}, Promoted t → ∃ s w, p.kind t = .int s w := by
    rintro t (h | h | h | h | h | h) <;> subst h <;> exact ⟨_, _, rfl⟩
  have cm : p.common t u ≠ .bool := by
    rcases kt : p.kind t with ⟨s, w⟩ | f
    · rcases ku : p.kind u with ⟨s', w'⟩ | g
      · rw [common_ints kt ku]
        obtain ⟨s1, w1, k1⟩ := pk (pr t ⟨_, _, kt⟩)
        obtain ⟨s2, w2, k2⟩ := pk (pr u ⟨_, _, ku⟩)
        obtain ⟨_, _, h, -⟩ := commonInt_spec hp (pr t ⟨_, _, kt⟩) (pr u ⟨_, _, ku⟩) k1 k2
        exact nb h
      · rw [(common_float kt ku).1]; exact kind_ne_bool ku
    · unfold Platform.common
      cases t <;> first | (exfalso; cases kt; done) | skip
      all_goals split_ifs <;> simp_all
  have pm : p.isFloat t = false → p.promote t ≠ .bool := by
    intro hf
    rcases kt : p.kind t with ⟨s, w⟩ | f
    · exact nb (pr t ⟨_, _, kt⟩)
    · simp [Platform.isFloat, kt] at hf
  unfold exprType at h
  cases o
  · cases h; exact cm
  · simp only [] at h; split at h
    · cases h
    · cases h; exact cm
  · simp only [] at h; split at h
    · cases h
    · rename_i hh
      cases h; exact pm (by simp at hh; exact hh.1)

/-- C76. What compiles for the reference compiles for the element. -/
theorem C76_sound (p : Platform) (o : Op) (t : CType) (x : Operand) (h : compound p o t x = true) : CompoundOk p o t x := by
  unfold compound at h
  unfold CompoundOk
  cases e : exprType p o t x.type with
  | none => simp [e] at h
  | some r => rfl

/-- C76. Assignments: exactly the operands of the rule for implicit conversions; class types that convert to an arithmetic type: all of them. -/
theorem C76_assign_partial (hp : p.Ok) (t u : CType) (hu : u ≠ .bool) :
    (assign p t (.arith u) = true ↔ Offered p u t) ∧ assign p t (.convertible u) = true :=
  ⟨vpoi_iff hp hu, rfl⟩

/-- C76. Compound assignments: exactly if the operand converts to the type of `e op x` and this converts back by the rule for implicit conversions. -/
theorem C76_compound_partial (hp : p.Ok) (o : Op) (t u : CType) (hu : u ≠ .bool) :
    (compound p o t (.arith u) = true ↔ ∃ r, exprType p o t u = some r ∧ Offered p u r ∧ Offered p r t) ∧
      (compound p o t (.convertible u) = true ↔ ∃ r, exprType p o t u = some r ∧ Offered p r t) := by
  unfold compound
  simp only [Operand.type]
  cases e : exprType p o t u with
  | none => simp
  | some r =>
    have hr := expr_not_bool hp e
    simp only [Bool.and_eq_true, RefTypes.valuePreservingOrInt, vpoi_iff hp hu, vpoi_iff hp hr, Option.some.injEq, exists_eq_left', true_and, and_self]

/-- C76. An operand of the element's type is accepted wherever the element accepts it (including `bool`, the elements of masks; widths as on all systems
with `simd` registers). -/
theorem C76_own_type (hp : p.Ok) (hi : 32 ≤ p.intW) (hw : p.wcharW ≤ p.intW) (o : Op) (t : CType) :
    assign p t (.arith t) = true ∧ assign p t (.convertible t) = true ∧
      (compound p o t (.arith t) = true ↔ CompoundOk p o t (.arith t)) ∧ (compound p o t (.convertible t) = true ↔ CompoundOk p o t (.convertible t)) := by
  have e : ∀ r, exprType p o t t = some r → r = p.promote t := by
    intro r h
    have c : p.common t t = p.promote t := by
      rcases kt : p.kind t with ⟨s, w⟩ | f
      · rw [common_ints kt kt]; simp [Platform.commonInt]
      · cases t <;> first | (exfalso; cases kt; done) | simp [Platform.common, Platform.promote]
    unfold exprType at h
    cases o
    · cases h; exact c
    · simp only [] at h; split at h
      · cases h
      · cases h; exact c
    · simp only [] at h; split at h
      · cases h
      · cases h; rfl
  refine ⟨vpoi_self t, rfl, ?_, ?_⟩ <;> unfold compound CompoundOk <;> simp only [Operand.type]
  · cases h : exprType p o t t with
    | none => simp
    | some r => rw [e r h]; simp [RefTypes.valuePreservingOrInt, promote_back hp hi hw, promote_keeps hp]
  · cases h : exprType p o t t with
    | none => simp
    | some r => rw [e r h]; simp [RefTypes.valuePreservingOrInt, promote_back hp hi hw]

/-- C76. An operand of type `int` (a literal, for example) is accepted wherever the element accepts it. -/
theorem C76_int (hp : p.Ok) (hi : 32 ≤ p.intW) (hw : p.wcharW ≤ p.intW) (o : Op) (t : CType) :
    assign p t (.arith .int) = true ∧ (compound p o t (.arith .int) = true ↔ CompoundOk p o t (.arith .int)) := by
  have cm : Narrowing.valuePreservingOrInt p (p.common t .int) t = true := by
    rcases kt : p.kind t with ⟨s, w⟩ | f
    · rw [common_ints kt (rfl : p.kind .int = .int true p.intW)]
      have hpi : p.promote .int = .int := rfl
      rw [hpi]
      rcases promote_small hp hi hw t with h | h | ⟨h, hu⟩
      · rw [h]
        have : Promoted t := by
          by_cases ht : t = .bool
          · subst ht; cases h
          · rw [← h]; exact (promote_spec hp ht kt).choose_spec.choose_spec.1
        have c : p.commonInt t .int = t := by
          rcases this with h | h | h | h | h | h <;> subst h <;>
            simp [Platform.commonInt, Platform.isSigned, Platform.kind, Platform.rank]
        rw [c]; exact vpoi_self t
      · rw [h, show p.commonInt .int .int = .int by simp [Platform.commonInt]]; exact vpoi_int t
      · rw [h, show p.commonInt .uint .int = .uint by simp [Platform.commonInt, Platform.isSigned, Platform.kind, Platform.rank]]
        exact vpoi_uint hu
    · have : p.common t .int = t := by cases t <;> first | (exfalso; cases kt; done) | simp [Platform.common]
      rw [this]; exact vpoi_self t
  refine ⟨vpoi_int t, ?_⟩
  unfold compound CompoundOk exprType
  simp only [Operand.type]
  cases o
  · simp [RefTypes.valuePreservingOrInt, vpoi_int, cm]
  · by_cases h : (p.isFloat t || p.isFloat .int) = true
    · simp [h]
    · simp [h, RefTypes.valuePreservingOrInt, vpoi_int, cm]
  · by_cases h : (p.isFloat t || p.isFloat .int) = true
    · simp [h]
    · simp [h, RefTypes.valuePreservingOrInt, vpoi_int, promote_back hp hi hw]

/-- C76, negation: every assignment of a type whose values are not all kept is rejected, although the element accepts it. -/
theorem C76_assign_rejected (hp : p.Ok) (t u : CType) (hu : u ≠ .bool) (h : ¬ Offered p u t) :
    assign p t (.arith u) = false ∧ AssignOk p t (.arith u) :=
  ⟨Bool.eq_false_iff.2 fun h' => h ((vpoi_iff hp hu).1 h'), trivial⟩

/-- C76 fails (x86-64 Linux): with `simd<float> f`, `simd<double> d`, `simd<int> i`, `simd<unsigned> u`, `simd<signed char> c` and `short s`, the
statements `f[0] = 1.5`, `f[0] += 1.5`, `i[0] <<= 1L`, `u[0] += s`, `c[0] = true` are rejected, although the elements accept them; `f[0] = d[0]` is
accepted, `f[0] += d[0]` is not. -/
theorem C76_rejected :
    (assign .lp64 .float (.arith .double) = false ∧ compound .lp64 .any .float (.arith .double) = false ∧
      compound .lp64 .shift .int (.arith .long) = false ∧ compound .lp64 .any .uint (.arith .short) = false ∧
      assign .lp64 .schar (.arith .bool) = false) ∧
    (CompoundOk .lp64 .any .float (.arith .double) ∧ CompoundOk .lp64 .shift .int (.arith .long) ∧ CompoundOk .lp64 .any .uint (.arith .short)) ∧
    assign .lp64 .float (.convertible .double) = true ∧ compound .lp64 .any .float (.convertible .double) = false := by
  refine ⟨⟨by decide +kernel, by decide +kernel, by decide +kernel, by decide +kernel, by decide +kernel⟩, ⟨rfl, rfl, rfl⟩, rfl, by decide +kernel⟩

-- non-vacuity: x86-64 and AArch64 Linux meet the conditions on the widths; `short` elements take `x += short`, `x += 1u` is rejected; masks take `|= true`
example : 32 ≤ Platform.lp64.intW ∧ Platform.lp64.wcharW ≤ Platform.lp64.intW ∧ 32 ≤ Platform.aarch64.intW := by decide
example : compound .lp64 .any .short (.arith .short) = true ∧ compound .lp64 .any .short (.arith .uint) = false ∧
    compound .lp64 .any .uchar (.arith .uint) = true ∧ compound .lp64 .integral .bool (.arith .bool) = true ∧
    compound .lp64 .integral .float (.arith .int) = false := by decide +kernel
example : Offered .lp64 .short .int ∧ ¬ Offered .lp64 .long .int := by
  have hp : Platform.lp64.Ok := by constructor <;> decide
  exact ⟨(vpoi_iff hp (by decide)).1 (by decide +kernel), fun h => absurd ((vpoi_iff hp (by decide)).2 h) (by decide +kernel)⟩

/-! ## the generator constructor (C77) -/

private theorem broadcast_iff (hp : p.Ok) (t : CType) (x : Operand) : broadcast p t x = true ↔ BroadcastOk p t x := by
  cases x with
  | arith u =>
    by_cases hu : u = .bool
    · subst hu; simp [broadcast, BroadcastOk]
    · simp [broadcast, BroadcastOk, RefTypes.valuePreservingOrInt, hu, vpoi_iff hp hu]
  | convertible u => simp [broadcast, BroadcastOk, RefTypes.valuePreservingOrInt]

/-- C77. The broadcast constructor follows the rule of the TS, for class types too. -/
theorem C77_broadcast (hp : p.Ok) (t : CType) (x : Operand) : broadcast p t x = true ↔ BroadcastOk p t x := broadcast_iff hp t x

/-- C77. A generator with one result type, other than `bool`: the generator constructor accepts it exactly if the broadcast constructor accepts the result. -/
theorem C77_generator_partial (hp : p.Ok) (t : CType) (n : Nat) (hn : 0 < n) (ret : Nat → Operand) (h : ∀ i < n, ret i = ret 0)
    (hb : ret 0 ≠ .arith .bool) : generator p t ret = true ↔ GeneratorOk p t n ret := by
  have e : generator p t ret = broadcast p t (ret 0) := by simp [generator, broadcast, hb]
  rw [e, broadcast_iff hp]
  exact ⟨fun h0 i hi => by rw [h i hi]; exact h0, fun h0 => h0 0 hn⟩

/-- C77. No generator that the TS accepts is refused. -/
theorem C77_generator_complete (hp : p.Ok) (t : CType) (n : Nat) (hn : 0 < n) (ret : Nat → Operand) (h : GeneratorOk p t n ret) :
    generator p t ret = true := by
  have := (broadcast_iff hp t (ret 0)).2 (h 0 hn)
  unfold broadcast at this
  exact (Bool.and_eq_true _ _ ▸ this).2

/-- C77 fails: the types of all results but the first are not looked at.  Whatever the elements are and whatever the other results are, a generator whose
first result is an `int` is accepted. -/
theorem C77_first_only (t : CType) (ret : Nat → Operand) : generator p t (fun i => if i = 0 then .arith .int else ret i) = true := vpoi_int t

/-- C77 fails (x86-64 Linux): `simd<float, fixed_size<2>>(gen)` with `gen(0)` a `float` and `gen(1)` a `double` is accepted; and so is
`simd<int>([](auto i) { return i > 2; })`, with results of type `bool`. -/
theorem C77_accepted :
    (generator .lp64 .float (fun i => if i = 0 then .arith .float else .arith .double) = true ∧
      ¬ GeneratorOk .lp64 .float 2 (fun i => if i = 0 then .arith .float else .arith .double)) ∧
    (generator .lp64 .int (fun _ => .arith .bool) = true ∧ ∀ n, 0 < n → ¬ GeneratorOk .lp64 .int n (fun _ => .arith .bool)) := by
  have hp : Platform.lp64.Ok := by constructor <;> decide
  refine ⟨⟨by decide +kernel, fun h => ?_⟩, by decide +kernel, fun n hn h => (h 0 hn).1 rfl⟩
  exact absurd ((broadcast_iff hp .float (.arith .double)).2 (h 1 (by decide))) (by decide +kernel)

-- non-vacuity: `long` elements from `unsigned` results, on x86-64 Linux
example : GeneratorOk .lp64 .long 4 (fun _ => .arith .uint) ∧ generator .lp64 .long (fun _ => .arith .uint) = true := by
  have hp : Platform.lp64.Ok := by constructor <;> decide
  have h : broadcast .lp64 .long (.arith .uint) = true := by decide +kernel
  exact ⟨fun _ _ => (broadcast_iff hp _ _).1 h, by decide +kernel⟩

end StdSimd.Props
