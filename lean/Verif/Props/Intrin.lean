import Verif.Proofs.Intrin
import Verif.Spec.MixedCall
/-!
# C79: conversions between simd objects and intrinsic or vector types

`n` elements of a type `t` with `s` bytes in one x86 register; registers and objects are rows of bytes.
-/
namespace StdSimd.Props
open StdSimd Spec Spec.Intrin Intrin

/-- The sizes for which the ABI tags with one register exist: at least two elements in at most 64 bytes. -/
structure Fits (p : Platform) (t : CType) (s n : Nat) : Prop where
  size : p.sizeOf t = 8 * s
  pow : s ∈ [1, 2, 4, 8]
  two : 2 ≤ n
  max : n * s ≤ 64

theorem register_iff {p : Platform} {t : CType} {s n : Nat} (h : n * s ≤ 64) (R : VecTy) :
    IsRegister p t s n R ↔ R = intrinsicType p t s n := by
  obtain ⟨e, b⟩ := R
  rw [intrinsicType_eq]
  unfold IsRegister ib
  simp only [List.mem_cons, List.not_mem_nil, or_false, VecTy.mk.injEq, forall_eq_or_imp, forall_eq]
  constructor
  · rintro ⟨he, hb, hl, h1, h2, h3⟩
    refine ⟨he, ?_⟩
    split
    · rename_i hh; have := h1 hh; omega
    · split
      · rename_i hh; have := h2 hh; omega
      · omega
  · rintro ⟨he, hb⟩
    refine ⟨he, ?_⟩
    split at hb
    · refine ⟨?_, ?_, ?_, ?_, ?_⟩ <;> omega
    · split at hb
      · refine ⟨?_, ?_, ?_, ?_, ?_⟩ <;> omega
      · refine ⟨?_, ?_, ?_, ?_, ?_⟩ <;> omega

/-- A simd object converts to the register type of the intrinsics; element `i` of the register is `v[i]`. -/
theorem C79_to_register {p : Platform} {t : CType} {s n : Nat} (hf : Fits p t s n) (i386 : Bool) {R : VecTy} (hR : IsRegister p t s n R)
    (v : List (BitVec 8)) (hv : v.length = (vectorType i386 t s n).bytes) :
    ∃ x, convert p i386 t s n R v = some x ∧ x.length = R.bytes ∧ ∀ i < n, element s x i = element s v i := by
  rw [register_iff hf.max] at hR
  subst hR
  obtain ⟨h1, h2, h3, h4⟩ := sizes i386 hf.pow hf.two hf.max
  rw [vectorType_eq] at hv
  unfold convert
  dsimp only
  split
  · rename_i he
    rw [if_pos rfl]
    refine ⟨v, rfl, ?_, fun i hi => rfl⟩
    rw [he]; exact hv
  · rw [if_pos rfl]
    refine ⟨_, rfl, length_toIntrin v ?_, fun i hi => element_toIntrin v hi ?_⟩
    · rw [hv]; exact h2
    · rw [hv]; exact h1

/-- `simd(x)` for a register `x` compiles for floating-point types, for `long long`, and if the elements need more than 8 bytes (32-bit x86: more than 4);
then `v[i]` is element `i` of `x`.  Missing: objects of the other integer types with at most 8 bytes (see `C79_small_rejected`). -/
theorem C79_from_register_partial {p : Platform} {t : CType} {s n : Nat} (hf : Fits p t s n) (i386 : Bool) {R : VecTy} (hR : IsRegister p t s n R)
    (x : List (BitVec 8)) (hx : x.length = R.bytes) (hc : p.isFloat t = true ∨ t = .llong ∨ 8 < n * s ∨ (i386 = true ∧ 4 < n * s)) :
    ∃ v, construct p i386 t s n R x = some v ∧ v.length = (vectorType i386 t s n).bytes ∧ ∀ i < n, element s v i = element s x i := by
  rw [register_iff hf.max] at hR
  subst hR
  obtain ⟨h1, h2, h3, h4⟩ := sizes i386 hf.pow hf.two hf.max
  rw [intrinsicType_eq] at hx
  dsimp only at hx
  unfold construct wrap bitcast
  dsimp only
  rw [if_pos rfl, if_pos]
  · refine ⟨_, rfl, ?_, fun i hi => ?_⟩
    · simp only [vectorType_eq, intrinsicType_eq, h3, List.length_take, hx]; omega
    · simp only [vectorType_eq, intrinsicType_eq, h3]
      rw [element_take _ hi h1, element_take _ hi (by omega)]
  · simp only [vectorType_eq, intrinsicType_eq, h3, VecTy.mk.injEq, true_and, and_true]
    rcases hc with hc | hc | hc
    · right; rw [if_pos hc]
    · right; subst hc; simp
    · left; exact (h4.2 hc).symm

/-- The rest does not compile, although the object converts to this register type. -/
theorem C79_small_rejected {p : Platform} {t : CType} {s n : Nat} (hf : Fits p t s n) (i386 : Bool) {R : VecTy} (hR : IsRegister p t s n R)
    (x : List (BitVec 8)) (hi : p.isFloat t = false) (hl : t ≠ .llong) (hs : n * s ≤ 8) (h32 : i386 = true → n * s ≤ 4) :
    construct p i386 t s n R x = none := by
  rw [register_iff hf.max] at hR
  subst hR
  obtain ⟨h1, h2, h3, h4⟩ := sizes i386 hf.pow hf.two hf.max
  have hne : vb i386 s n ≠ ib s n := fun h => by
    rcases h4.1 h with h | ⟨ha, hb⟩
    · omega
    · have := h32 ha; omega
  unfold construct wrap
  dsimp only
  rw [if_pos rfl, if_neg]
  simp only [vectorType_eq, intrinsicType_eq, h3, VecTy.mk.injEq, true_and, and_true, hi]
  rintro (h | h)
  · exact hne h.symm
  · exact hl (by simpa using h)

/-- Converting to a register and back gives the same object. -/
theorem C79_round_trip {p : Platform} {t : CType} {s n : Nat} (hf : Fits p t s n) (i386 : Bool) {R : VecTy} (hR : IsRegister p t s n R)
    (v x w : List (BitVec 8)) (hv : v.length = (vectorType i386 t s n).bytes) (hx : convert p i386 t s n R v = some x)
    (hw : construct p i386 t s n R x = some w) : w = v := by
  rw [register_iff hf.max] at hR
  subst hR
  obtain ⟨h1, h2, h3, h4⟩ := sizes i386 hf.pow hf.two hf.max
  rw [vectorType_eq] at hv
  dsimp only at hv
  have hxv : x = toIntrin (ib s n) v := by
    unfold convert at hx
    dsimp only at hx
    split at hx
    · rename_i he
      rw [if_pos rfl] at hx
      have hb : ib s n = vb i386 s n := congrArg VecTy.bytes he
      unfold toIntrin
      rw [if_pos (by omega)]
      exact (Option.some.inj hx).symm
    · rw [if_pos rfl] at hx
      exact (Option.some.inj hx).symm
  have hlen : x.length = ib s n := by rw [hxv]; exact length_toIntrin v (by omega)
  unfold construct wrap bitcast at hw
  dsimp only at hw
  rw [if_pos rfl] at hw
  split at hw
  · rw [← Option.some.inj hw]
    simp only [vectorType_eq, intrinsicType_eq, h3]
    rw [List.take_take, Nat.min_eq_left (by omega), hxv]
    unfold toIntrin
    split
    · rw [List.take_of_length_le (by omega)]
    · rw [List.take_append_of_le_length (by omega), List.take_of_length_le (by omega)]
  · cases hw

/-- `simd(x)` takes the GNU vector type with the elements of the object, too. -/
theorem C79_from_vector {p : Platform} {t : CType} {s n : Nat} (hf : Fits p t s n) (i386 : Bool)
    (x : List (BitVec 8)) (hx : x.length = (vectorType i386 t s n).bytes) :
    construct p i386 t s n (vectorType i386 t s n) x = some x := by
  obtain ⟨h1, h2, h3, h4⟩ := sizes i386 hf.pow hf.two hf.max
  rw [vectorType_eq] at hx
  dsimp only at hx
  unfold construct wrap bitcast
  dsimp only
  split
  · rename_i he
    have hb : vb i386 s n = ib s n := congrArg VecTy.bytes he
    rw [if_pos]
    · simp only [vectorType_eq, intrinsicType_eq, h3]
      rw [List.take_take, Nat.min_eq_left (by omega), List.take_of_length_le (by omega)]
    · left
      simp only [vectorType_eq, intrinsicType_eq, h3, hb]
  · rw [if_pos rfl, if_pos (.inl rfl), vectorType_eq, List.take_of_length_le (by dsimp only; omega)]

/-- The conversion back does not compile, unless the vector type is the register type: never for integers other than `long long`. -/
theorem C79_to_vector_rejected {p : Platform} {t : CType} {s n : Nat} (i386 : Bool) (v : List (BitVec 8))
    (hi : p.isFloat t = false) (hl : t ≠ .llong) : convert p i386 t s n (vectorType i386 t s n) v = none := by
  have hne : intrinsicType p t s n ≠ vectorType i386 t s n := by
    rw [vectorType_eq, intrinsicType_eq, hi]
    intro h
    exact hl (congrArg VecTy.elem h).symm
  unfold convert
  dsimp only
  rw [if_neg hne, if_neg (fun h => hne h.symm)]

/-- It compiles for the floating-point types and `long long` if the elements need more than 8 bytes. -/
theorem C79_to_vector_partial {p : Platform} {t : CType} {s n : Nat} (hf : Fits p t s n) (i386 : Bool) (v : List (BitVec 8))
    (hc : p.isFloat t = true ∨ t = .llong) (hs : 8 < n * s) : convert p i386 t s n (vectorType i386 t s n) v = some v := by
  obtain ⟨h1, h2, h3, h4⟩ := sizes i386 hf.pow hf.two hf.max
  have he : intrinsicType p t s n = vectorType i386 t s n := by
    rw [vectorType_eq, intrinsicType_eq, h4.2 (.inl hs)]
    rcases hc with hc | hc
    · rw [if_pos hc]
    · subst hc; simp
  unfold convert
  dsimp only
  rw [if_pos he, if_pos he.symm]

/-- A register converts to a mask of an integer type if the mask is a vector; lane `i` of the mask is element `i` of the register. -/
theorem C79_mask_from_register_partial {p : Platform} {t : CType} {s n : Nat} (hf : Fits p t s n) (i386 : Bool) {R : VecTy}
    (hR : IsRegister p t s n R) (x : List (BitVec 8)) (hx : x.length = R.bytes) (hi : p.isFloat t = false) :
    ∃ k, constructMask p i386 t s n false R x = some k ∧ k.length = (vectorType i386 t s n).bytes ∧ ∀ i < n, element s k i = element s x i := by
  rw [register_iff hf.max] at hR
  subst hR
  obtain ⟨h1, h2, h3, h4⟩ := sizes i386 hf.pow hf.two hf.max
  rw [intrinsicType_eq] at hx
  dsimp only at hx
  have hint : p.isFloat (intFor p s) = false := by
    unfold intFor
    repeat' split
    all_goals rfl
  unfold constructMask wrap bitcast
  rw [if_pos ⟨rfl, rfl⟩, if_pos]
  · refine ⟨_, rfl, ?_, fun i hh => ?_⟩
    · simp only [vectorType_eq, List.length_take, hx]; omega
    · simp only [vectorType_eq]; exact element_take _ hh h1
  · right
    rw [intrinsicType_eq, intrinsicType_eq, hint, hi, if_neg (by simp), if_neg (by simp)]

/-- It does not compile for floating-point types and for the masks of AVX-512. -/
theorem C79_mask_from_register_rejected {p : Platform} {t : CType} {s n : Nat} (i386 bits : Bool) {R : VecTy} (h : n * s ≤ 64)
    (hR : IsRegister p t s n R) (x : List (BitVec 8)) (hc : p.isFloat t = true ∨ bits = true) : constructMask p i386 t s n bits R x = none := by
  rw [register_iff h] at hR
  subst hR
  unfold constructMask
  cases bits
  · have hf : p.isFloat t = true := by simpa using hc
    have hint : p.isFloat (intFor p s) = false := by
      unfold intFor
      repeat' split
      all_goals rfl
    rw [if_pos ⟨rfl, rfl⟩]
    unfold wrap
    rw [if_neg]
    rw [intrinsicType_eq, intrinsicType_eq, vectorType_eq, hint, if_pos hf]
    rintro (h | h)
    · have := congrArg VecTy.elem h
      dsimp only at this
      rw [this, hint] at hf
      cases hf
    · have := congrArg VecTy.elem h
      rw [if_neg (by simp)] at this
      dsimp only at this
      subst this
      cases hf
  · rw [if_neg (by simp)]

/-- No mask of a type other than `long long` converts to the register type. -/
theorem C79_mask_to_register_rejected {p : Platform} {t : CType} {s n : Nat} (i386 bits : Bool) {R : VecTy} (h : n * s ≤ 64)
    (hR : IsRegister p t s n R) (k : List (BitVec 8)) (ht : t ≠ .llong) : convertMask p i386 t s n bits R k = none := by
  rw [register_iff h] at hR
  subst hR
  have key : ¬ (intrinsicType p t s n = vectorType i386 t s n ∧ vectorType i386 (intFor p s) s n = vectorType i386 t s n) := by
    rintro ⟨h1, h2⟩
    rw [vectorType_eq, intrinsicType_eq] at h1
    rw [vectorType_eq, vectorType_eq] at h2
    have h3 := congrArg VecTy.elem h1
    have h4 := congrArg VecTy.elem h2
    dsimp only at h3 h4
    by_cases hf : p.isFloat t = true
    · have hint : p.isFloat (intFor p s) = false := by
        unfold intFor
        repeat' split
        all_goals rfl
      rw [h4, hf] at hint
      cases hint
    · rw [if_neg hf] at h3
      exact ht h3.symm
  unfold convertMask
  dsimp only
  rw [if_neg key]
  repeat' split
  all_goals rfl

/-- Masks of `int` held in vectors convert to vectors of `int` with all bits of element `i` set if `k[i]`; those of unsigned and floating-point types and
the masks of AVX-512 convert to no vector type. -/
theorem C79_mask_to_vector_partial {p : Platform} {s n : Nat} (hs : p.intW = 8 * s) (i386 : Bool) (k : List (BitVec 8)) :
    convertMask p i386 .int s n false (vectorType i386 .int s n) k = some k := by
  have hi : intFor p s = .int := by unfold intFor; rw [if_pos hs.symm]
  have hne : intrinsicType p .int s n ≠ vectorType i386 .int s n := by
    intro h; have h' : CType.llong = CType.int := congrArg VecTy.elem h; cases h'
  unfold convertMask
  dsimp only
  rw [if_neg (by simp), if_neg hne, hi, if_pos ⟨rfl, rfl⟩]

theorem C79_mask_to_vector_rejected {p : Platform} {t : CType} {s n : Nat} (i386 bits : Bool) (X : VecTy) (k : List (BitVec 8))
    (hc : p.isFloat t = true ∨ p.isUnsigned t = true ∨ bits = true) : convertMask p i386 t s n bits X k = none := by
  unfold convertMask
  dsimp only
  cases bits
  · have hne : vectorType i386 (intFor p s) s n ≠ vectorType i386 t s n := by
      intro h
      have h4 := congrArg VecTy.elem h
      have h5 : intFor p s = t := h4
      have hint : p.isFloat (intFor p s) = false ∧ p.isUnsigned (intFor p s) = false := by
        unfold intFor
        repeat' split
        all_goals exact ⟨rfl, rfl⟩
      rw [h5] at hint
      rcases hc with hc | hc | hc
      · rw [hint.1] at hc; cases hc
      · rw [hint.2] at hc; cases hc
      · cases hc
    simp [hne]
  · rw [if_pos rfl]

section Examples

-- simd<float> and simd<int> of 4 elements and of 2 elements meet the hypotheses
example : Fits Platform.lp64 .float 4 4 ∧ Fits Platform.lp64 .int 4 2 := ⟨⟨by decide, by decide, by decide, by decide⟩, ⟨by decide, by decide, by decide, by decide⟩⟩
example : IsRegister Platform.lp64 .float 4 4 ⟨.float, 16⟩ ∧ IsRegister Platform.lp64 .int 4 3 ⟨.llong, 16⟩ ∧
    IsRegister Platform.lp64 .ushort 2 17 ⟨.llong, 64⟩ := by
  refine ⟨?_, ?_, ?_⟩ <;> rw [register_iff (by decide)] <;> decide
-- an object of two floats fills half of an `__m128`; the rest is zero
example : convert Platform.lp64 false .float 4 2 ⟨.float, 16⟩ [1#8, 2#8, 3#8, 4#8, 5#8, 6#8, 7#8, 8#8] =
    some ([1#8, 2#8, 3#8, 4#8, 5#8, 6#8, 7#8, 8#8] ++ List.replicate 8 0#8) := by decide
-- and back
example : construct Platform.lp64 false .float 4 2 ⟨.float, 16⟩ ([1#8, 2#8, 3#8, 4#8, 5#8, 6#8, 7#8, 8#8] ++ List.replicate 8 9#8) =
    some [1#8, 2#8, 3#8, 4#8, 5#8, 6#8, 7#8, 8#8] := by decide
-- `simd<int>(__m128i)` compiles for four elements, not for two
example : (construct Platform.lp64 false .int 4 4 ⟨.llong, 16⟩ (List.replicate 16 1#8)).isSome = true ∧
    construct Platform.lp64 false .int 4 2 ⟨.llong, 16⟩ (List.replicate 16 1#8) = none := by decide
-- a type that is neither does not convert
example : construct Platform.lp64 false .int 4 4 ⟨.float, 16⟩ (List.replicate 16 1#8) = none := by decide

end Examples

end StdSimd.Props
