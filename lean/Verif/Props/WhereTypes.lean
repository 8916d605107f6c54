import Verif.Model.WhereTypes
import Verif.Props.MixedOps
/-!
# Property theorems: operands of where expressions (C78)

For every platform, all element types whose ranks the TS orders (see C45 for `wchar_t` and the `charN_t`), all ABI tags.
-/
namespace StdSimd.Props
open Spec Spec.MixedCall Spec.MixedOps Spec.WhereTypes MixedCall MixedOps WhereTypes

variable {p : Platform}

/-- C78. `where(k, v) = x` for `simd` and mask operands: exactly what the TS accepts. -/
theorem C78_assign_objects_partial (hp : p.Ok) (t : CType) (a : AbiTag) (ht : Ranked p t) (u : CType) (hu : Ranked p u) (b : AbiTag) :
    (WhereTypes.assign p (.simd t a) (.simd u b) = true ↔ AssignOk p t a (.simd u b)) ∧
      (WhereTypes.assign p (.simd t a) (.mask u b) = true ↔ AssignOk p t a (.mask u b)) ∧
      (WhereTypes.assign p (.mask t a) (.simd u b) = true ↔ MaskAssignOk t a (.simd u b)) ∧
      (WhereTypes.assign p (.mask t a) (.mask u b) = true ↔ MaskAssignOk t a (.mask u b)) := by
  refine ⟨?_, by simp [WhereTypes.assign, resolve, AssignOk, ToSimd], by simp [WhereTypes.assign, resolve, MaskAssignOk, ToMask], ?_⟩
  · have h := convertible_iff hp (a := a) ht (x := .simd u b) hu
    simp only [WhereTypes.assign, resolve, AssignOk, ToSimd, ← h]
    split <;> simp_all
  · have h := C75_mask_compound t u a b
    simp only [maskCompound] at h
    simp only [WhereTypes.assign, resolve, MaskAssignOk, ToMask, ← h]
    split <;> simp_all

/-- C78. `where(k, v) op= x` with an operand of `simd` type: exactly what the TS accepts. -/
theorem C78_compound_objects_partial (hp : p.Ok) (o : Family) (t : CType) (a : AbiTag) (ht : Ranked p t) (u : CType) (hu : Ranked p u) (b : AbiTag) :
    WhereTypes.compound p o (.simd t a) (.simd u b) = true ↔ CompoundOk p (o == .integral) t a (.simd u b) := by
  have h := convertible_iff hp (a := a) ht (x := .simd u b) hu
  have hs := convertible_iff hp (a := a) ht (x := .simd t a) ht
  have hh : has p o t = true ↔ ((o == .integral) = true → p.isFloat t = false) := by cases o <;> simp [has]
  constructor
  · intro hc
    simp only [WhereTypes.compound, resolve, Bool.and_eq_true] at hc
    have h2 : convertible p t a (.simd u b) = true := by
      by_contra hn; simp [hn] at hc
    exact ⟨t, a, ⟨.inl rfl, hs.1 (by simp [convertible]), h.1 h2⟩, hh.1 hc.1, hs.1 (by simp [convertible])⟩
  · rintro ⟨u', b', ⟨hw, h1, h2⟩, hi, hc⟩
    have key : ConvertsTo p t a (.simd u b) ∧ has p o t = true := by
      rcases hw with e | e
      · cases e; exact ⟨h2, hh.2 hi⟩
      · cases e
        refine ⟨hc, hh.2 fun ho => ?_⟩
        have hu' := hi ho
        rcases h1 with ⟨rfl, -⟩ | ⟨n, -, -, -, hr⟩
        · exact hu'
        · rcases hr with ⟨hf, -⟩ | ⟨m, k, e1, e2, -⟩
          · simp [hf] at hu'
          · revert e1; cases t <;> simp [Platform.stdRank, Platform.isFloat, Platform.kind]
    have h3 := h.2 key.1
    simp [WhereTypes.compound, resolve, key.2, h3]

/-- C78. Nothing that the TS accepts is refused. -/
theorem C78_complete (hp : p.Ok) (t : CType) (a : AbiTag) (ht : Ranked p t) :
    (∀ x : Ty, (∀ u b, x = .simd u b → Ranked p u) → AssignOk p t a x → WhereTypes.assign p (.simd t a) x = true) ∧
      (∀ x : Ty, (∀ u b, x = .simd u b → Ranked p u) → (∀ u b, x = .mask u b → Ranked p u) → MaskAssignOk t a x →
        WhereTypes.assign p (.mask t a) x = true) ∧
      ∀ o u, CompoundOk p (o == .integral) t a (.scalar u) → WhereTypes.compound p o (.simd t a) (.scalar u) = true := by
  refine ⟨fun x hx h => ?_, fun x hx hm h => ?_, fun o u h => ?_⟩
  · cases x with
    | scalar u => rfl
    | simd u b => exact (C78_assign_objects_partial hp t a ht u (hx u b rfl) b).1.2 h
    | mask u b => exact h.elim
  · cases x with
    | scalar u => rfl
    | simd u b => exact h.elim
    | mask u b => exact (C78_assign_objects_partial hp t a ht u (hm u b rfl) b).2.2.2.2 h
  · obtain ⟨u', b', ⟨hw, h1, h2⟩, hi, -⟩ := h
    rcases hw with e | e
    · cases e
      have : has p o t = true := by cases o <;> simp_all [has]
      simp [WhereTypes.compound, resolve, this]
    · cases e

/-- C78 fails for arithmetic operands: all of them are accepted and converted to the element type, also where the conversion narrows.  For masks every
arithmetic type is accepted, though none converts to a mask. -/
theorem C78_scalars (t : CType) (a : AbiTag) (u : CType) :
    WhereTypes.assign p (.simd t a) (.scalar u) = true ∧ resolve p (.simd t a) (.scalar u) = some .element ∧
      (WhereTypes.compound p .any (.simd t a) (.scalar u) = true) ∧
      (WhereTypes.assign p (.mask t a) (.scalar u) = true ∧ ¬ MaskAssignOk t a (.scalar u)) :=
  ⟨rfl, rfl, rfl, rfl, id⟩

/-- C78 fails (x86-64 Linux): for `simd<float> f` the TS rejects `where(k, f) = 1.5` and `where(k, f) += 1.5`, as it does `f = 1.5` and `f += 1.5`;
the code accepts them, although it rejects `f += 1.5`. -/
theorem C78_accepted (a : AbiTag) :
    (WhereTypes.assign .lp64 (.simd .float a) (.scalar .double) = true ∧ ¬ AssignOk .lp64 .float a (.scalar .double)) ∧
    (WhereTypes.compound .lp64 .any (.simd .float a) (.scalar .double) = true ∧ ¬ CompoundOk .lp64 false .float a (.scalar .double)) ∧
    MixedOps.compound .lp64 .any (.simd .float a) (.scalar .double) = none := by
  have hp : Platform.lp64.Ok := by constructor <;> decide
  have hr : Ranked .lp64 .float := .inl rfl
  have hn : convertible .lp64 .float a (.scalar .double) = false := by
    show Narrowing.broadcastFrom .lp64 .double .float = false
    decide +kernel
  have hc : ¬ ConvertsTo .lp64 .float a (.scalar .double) := fun h => by
    rw [← convertible_iff hp (a := a) hr (x := .scalar .double) trivial, hn] at h; cases h
  refine ⟨⟨rfl, hc⟩, ⟨rfl, ?_⟩, ?_⟩
  · rintro ⟨u, b, ⟨hw, -, h2⟩, -, -⟩
    rcases hw with e | e
    · cases e; exact hc h2
    · cases e
  · simp [MixedOps.compound, hn]

-- non-vacuity: `fixed_size` objects of `float` take those of `short` (every value is kept, the rank rule is met), not those of `int`
example : Platform.lp64.Ok ∧ Ranked .lp64 .float ∧ Ranked .lp64 .short ∧
    WhereTypes.assign .lp64 (.simd .float (.fixed 4)) (.simd .short (.fixed 4)) = true ∧
    WhereTypes.assign .lp64 (.simd .float (.fixed 4)) (.simd .int (.fixed 4)) = false ∧
    WhereTypes.compound .lp64 .integral (.simd .int (.fixed 4)) (.simd .short (.fixed 4)) = true ∧
    WhereTypes.assign .lp64 (.mask .float (.fixed 4)) (.mask .int (.fixed 4)) = true := by
  refine ⟨by constructor <;> decide, .inl rfl, .inr rfl, ?_, ?_, ?_, ?_⟩ <;> decide +kernel

end StdSimd.Props
