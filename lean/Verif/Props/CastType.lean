import Verif.Model.CastType
import Verif.Model.Convert
import Verif.Props.Narrowing
import Verif.Props.FixedSize
import Verif.Props.NativeValues
/-!
# Property theorems about the types casts return  (C70)
-/
namespace StdSimd.Props
open StdSimd Spec Spec.CastType
open _root_.StdSimd.CastType hiding makeSigned
open _root_.StdSimd.Abi (Tag)

variable {p : Platform}

/-- The sizes of `wchar_t`, `char16_t` and `char32_t` are sizes of standard integer types, as on every platform of GCC. -/
def CharSizes (p : Platform) : Prop :=
  ∀ t ∈ [CType.wchar, .char16, .char32], p.sizeOf t ∈ signedTypes.map p.sizeOf
instance (p : Platform) : Decidable (CharSizes p) := inferInstanceAs (Decidable (∀ _ ∈ _, _))
example : CharSizes .lp64 ∧ CharSizes .aarch64 ∧ CharSizes .ilp32 := by decide

private theorem find_signed (hp : p.Ok) {w : Nat} (h : w ∈ signedTypes.map p.sizeOf) :
    signedTypes.find? (fun s => p.sizeOf s == w) =
      some (CastType.makeSigned ((([CType.uchar, .ushort, .uint, .ulong, .ullong] : List CType).find? (fun u => decide (w ≤ p.sizeOf u))).getD .ullong)) := by
  have h1 := hp.short; have h2 := hp.int; have h3 := hp.long; have h4 := hp.llong
  have e1 : p.sizeOf .schar = 8 := rfl
  have e1' : p.sizeOf .uchar = 8 := rfl
  have e2 : p.sizeOf .short = p.shortW := rfl
  have e2' : p.sizeOf .ushort = p.shortW := rfl
  have e3 : p.sizeOf .int = p.intW := rfl
  have e3' : p.sizeOf .uint = p.intW := rfl
  have e4 : p.sizeOf .long = p.longW := rfl
  have e4' : p.sizeOf .ulong = p.longW := rfl
  have e5 : p.sizeOf .llong = p.llongW := rfl
  have e5' : p.sizeOf .ullong = p.llongW := rfl
  simp only [signedTypes, List.map_cons, List.map_nil, List.mem_cons, List.not_mem_nil, or_false, e1, e2, e3, e4, e5] at h
  simp only [signedTypes, List.find?_cons, e1, e2, e3, e4, e5, e1', e2', e3', e4', e5']
  have hw : ∀ a, a < w → decide (w ≤ a) = false := fun a ha => by simp; omega
  have hw' : ∀ a, w ≤ a → decide (w ≤ a) = true := fun a ha => by simp; omega
  have he : ∀ a, a < w → (a == w) = false := fun a ha => by simp; omega
  have he' : ∀ a, a = w → (a == w) = true := fun a ha => by simp; omega
  rcases Nat.lt_or_ge 8 w with g1 | g1
  · rw [hw 8 g1, he 8 g1]
    rcases Nat.lt_or_ge p.shortW w with g2 | g2
    · rw [hw _ g2, he _ g2]
      rcases Nat.lt_or_ge p.intW w with g3 | g3
      · rw [hw _ g3, he _ g3]
        rcases Nat.lt_or_ge p.longW w with g4 | g4
        · rw [hw _ g4, he _ g4, hw' p.llongW (by omega), he' p.llongW (by omega)]; rfl
        · rw [hw' _ g4, he' p.longW (by omega)]; rfl
      · rw [hw' _ g3, he' p.intW (by omega)]; rfl
    · rw [hw' _ g2, he' p.shortW (by omega)]; rfl
  · rw [hw' _ g1, he' 8 (by omega)]; rfl

private theorem signed_eq (hp : p.Ok) (hc : CharSizes p) {t : CType} (hb : t ≠ .bool) (hi : integral t = true) :
    signed p t = some (safeMakeSigned p t) := by
  have hm : ∀ t ∈ [CType.wchar, .char16, .char32], p.sizeOf t ∈ signedTypes.map p.sizeOf := hc
  have h8 : (8 : Nat) ∈ signedTypes.map p.sizeOf := by
    have : p.sizeOf .schar = 8 := rfl
    simp [signedTypes, this]
  cases t
  case bool => exact absurd rfl hb
  case char => exact find_signed (w := 8) hp h8 |>.trans rfl
  case char8 => exact find_signed (w := 8) hp h8
  case wchar => exact find_signed hp (hm .wchar (by simp))
  case char16 => exact find_signed hp (hm .char16 (by simp))
  case char32 => exact find_signed hp (hm .char32 (by simp))
  all_goals first | rfl | exact absurd hi (by decide)

private theorem integral_eq (t : CType) : isIntegral p t = integral t := by
  cases t <;> rfl

/-- C70.  `static_simd_cast<T>(x)` for an arithmetic or simd type `T` is available exactly when the specification says so, and returns the type it says. -/
theorem C70_static_cast (hp : p.Ok) (hc : CharSizes p) (u : CType) (hu : u ≠ .bool) (a : Tag) (T : Target Tag)
    (hT : ∀ t b, T ≠ .mask t b) (t : CType) (b : Tag) :
    staticCast p T u a = some (t, b) ↔ Returns p (sizeV p) Tag.fixed u a T t b := by
  have hsame : ∀ t, t ≠ .bool → (SameButSign p t u ↔ t = u ∨ (isIntegral p u && isIntegral p t && decide (safeMakeSigned p u = safeMakeSigned p t)) = true) := by
    intro t ht
    unfold SameButSign
    simp only [integral_eq, Bool.and_eq_true, decide_eq_true_eq]
    constructor
    · rintro (h | ⟨h1, h2, h3⟩)
      · exact .inl h
      · rw [signed_eq hp hc ht h1, signed_eq hp hc hu h2] at h3
        exact .inr ⟨⟨h2, h1⟩, (Option.some.inj h3).symm⟩
    · rintro (h | ⟨⟨h1, h2⟩, h3⟩)
      · exact .inl h
      · exact .inr ⟨h2, h1, by rw [signed_eq hp hc ht h2, signed_eq hp hc hu h1, h3]⟩
  unfold staticCast returnType
  cases T with
  | mask t' b' => exact absurd rfl (hT t' b')
  | simd t' b' =>
    simp only []
    constructor
    · intro h
      split at h
      · rename_i hs
        obtain ⟨rfl, rfl⟩ := Prod.mk.inj (Option.some.inj h)
        exact .simd hs
      · exact absurd h (by simp)
    · rintro ⟨h⟩
      rw [if_pos h]
  | elem t' =>
    by_cases ht : t' = .bool
    · subst ht
      constructor
      · intro h; exact absurd h (by simp [vectorizable])
      · intro h; cases h <;> contradiction
    · have hv : vectorizable t' = true := by cases t' <;> first | rfl | exact absurd rfl ht
      have hs := hsame t' ht
      simp only [hv, Bool.not_true, Bool.false_eq_true, if_false]
      constructor
      · intro h
        split at h
        · obtain ⟨rfl, rfl⟩ := Prod.mk.inj (Option.some.inj h)
          exact .same ht (hs.2 (.inl ‹_›))
        · split at h
          · obtain ⟨rfl, rfl⟩ := Prod.mk.inj (Option.some.inj h)
            exact .same ht (hs.2 (.inr ‹_›))
          · obtain ⟨rfl, rfl⟩ := Prod.mk.inj (Option.some.inj h)
            exact .other ht (fun h => by rcases hs.1 h with h | h <;> contradiction)
      · intro h
        cases h with
        | same _ h =>
          rcases hs.1 h with h | h
          · rw [if_pos h]
          · split
            · rfl
            · rfl
        | other _ h =>
          rw [if_neg (fun e => h (hs.2 (.inl e))), if_neg (fun e => h (hs.2 (.inr e)))]

private theorem size_of_same (hp : p.Ok) (hc : CharSizes p) {t u : CType} (ht : t ≠ .bool) (hu : u ≠ .bool) (h : SameButSign p t u) :
    elemOf p t = elemOf p u := by
  rcases h with rfl | ⟨h1, h2, h3⟩
  · rfl
  have key : ∀ t, t ≠ .bool → integral t = true → ∃ s, signed p t = some s ∧ p.sizeOf s = p.sizeOf t ∧ p.isFloat t = false := by
    intro t ht hi
    have hf : p.isFloat t = false := by cases t <;> first | rfl | exact absurd hi (by decide)
    have hfind : ∀ w, w ∈ signedTypes.map p.sizeOf → ∃ s, signedTypes.find? (fun s => p.sizeOf s == w) = some s ∧ p.sizeOf s = w := by
      intro w hw
      obtain ⟨s, hs, rfl⟩ := List.mem_map.1 hw
      rcases hfd : signedTypes.find? (fun s' => p.sizeOf s' == p.sizeOf s) with _ | s'
      · rw [List.find?_eq_none] at hfd
        exact absurd (hfd s hs) (by simp)
      · exact ⟨s', rfl, by simpa using List.find?_some hfd⟩
    have hm : ∀ t ∈ [CType.wchar, .char16, .char32], p.sizeOf t ∈ signedTypes.map p.sizeOf := hc
    have h8 : (8 : Nat) ∈ signedTypes.map p.sizeOf := by
      have : p.sizeOf .schar = 8 := rfl
      simp [signedTypes, this]
    refine (?_ : ∃ s, signed p t = some s ∧ p.sizeOf s = p.sizeOf t).imp fun s h => ⟨h.1, h.2, hf⟩
    cases t
    case char => exact hfind 8 h8
    case char8 => exact hfind 8 h8
    case wchar => exact hfind _ (hm .wchar (by simp))
    case char16 => exact hfind _ (hm .char16 (by simp))
    case char32 => exact hfind _ (hm .char32 (by simp))
    all_goals first | exact absurd rfl ht | exact absurd hi (by decide) | exact ⟨_, rfl, rfl⟩
  obtain ⟨s, a1, a2, a3⟩ := key t ht h1
  obtain ⟨s', b1, b2, b3⟩ := key u hu h2
  have : s = s' := Option.some.inj (a1.symm.trans (h3.trans b1))
  subst this
  unfold elemOf
  rw [a3, b3, ← a2, ← b2]

/-- C70.  Whatever the template argument, the result of a cast of values or masks has as many elements as the argument. -/
theorem C70_same_size (hp : p.Ok) (hc : CharSizes p) (u : CType) (hu : u ≠ .bool) (a : Tag) (T : Target Tag) (t : CType) (b : Tag) :
    (staticCast p T u a = some (t, b) → sizeV p t b = sizeV p u a) ∧ (staticCastMask p T u a = some (t, b) → sizeV p t b = sizeV p u a) ∧
    (simdCast p T u a = some (t, b) → sizeV p t b = sizeV p u a) ∧ (simdCastMask p T u a = some (t, b) → sizeV p t b = sizeV p u a) := by
  have key : returnType p T u a = some (t, b) → sizeV p t b = sizeV p u a := by
    cases T with
    | mask t' b' =>
      intro h
      simp only [returnType] at h
      split at h
      · obtain ⟨rfl, rfl⟩ := Prod.mk.inj (Option.some.inj h); assumption
      · exact absurd h (by simp)
    | simd t' b' =>
      intro h
      cases (C70_static_cast hp hc u hu a (.simd t' b') (by simp) t b).1 h
      assumption
    | elem t' =>
      intro h
      cases (C70_static_cast hp hc u hu a (.elem t') (by simp) t b).1 h with
      | same hb hs => unfold sizeV; rw [size_of_same hp hc hb hu hs]
      | other _ _ => rfl
  refine ⟨key, key, fun h => ?_, fun h => ?_⟩
  · unfold simdCast at h
    split at h
    · exact key h
    · exact absurd h (by simp)
  · unfold simdCastMask at h
    split at h
    · exact key h
    · exact absurd h (by simp)

/-- C70.  `simd_cast<T>(x)` for an arithmetic or simd type `T` is available exactly when `static_simd_cast<T>(x)` is and every value of the element type of `x` is a value of
the element type of the result; it returns the same type. -/
theorem C70_simd_cast (hp : p.Ok) (u : CType) (hu : u ≠ .bool) (a : Tag) (T : Target Tag)
    (hT : ∀ t b, T ≠ .mask t b) (t : CType) (b : Tag) :
    simdCast p T u a = some (t, b) ↔ staticCast p T u a = some (t, b) ∧ ∀ v, p.HasValue u v → p.HasValue t v := by
  have hval : staticCast p T u a = some (t, b) → valueTypeOrIdentity T = t := by
    intro h
    unfold staticCast returnType at h
    cases T with
    | mask t' b' => exact absurd rfl (hT t' b')
    | simd t' b' =>
      simp only [] at h
      split at h
      · exact (Prod.mk.inj (Option.some.inj h)).1
      · exact absurd h (by simp)
    | elem t' =>
      simp only [] at h
      split at h
      · exact absurd h (by simp)
      · split at h
        · exact (Prod.mk.inj (Option.some.inj h)).1
        · split at h <;> exact (Prod.mk.inj (Option.some.inj h)).1
  unfold simdCast
  constructor
  · intro h
    split at h
    · rename_i hv
      rw [hval h] at hv
      exact ⟨h, (C22_value_preserving p hp u t hu).1 hv⟩
    · exact absurd h (by simp)
  · rintro ⟨h, hv⟩
    rw [hval h, if_pos ((C22_value_preserving p hp u t hu).2 hv), h]

/-- C70.  The result of a cast to an element type is a valid type whenever the argument is, if it has at most 32 elements. -/
theorem C70_valid_partial (hp : p.Ok) (hc : CharSizes p) (τ : Abi.Target) (u : CType) (hu : u ≠ .bool) (a : Tag) (ha : Abi.valid τ (elemOf p u) a = true)
    (h1 : 1 ≤ sizeV p u a) (h32 : sizeV p u a ≤ 32) (t t' : CType) (b : Tag) (h : staticCast p (.elem t) u a = some (t', b)) :
    t' = t ∧ Abi.valid τ (elemOf p t') b = true := by
  cases (C70_static_cast hp hc u hu a (.elem t) (by simp) t' b).1 h with
  | same hb hs => exact ⟨rfl, by rw [size_of_same hp hc hb hu hs]; exact ha⟩
  | other hb hs =>
    refine ⟨rfl, ?_⟩
    unfold Abi.valid Abi.maxFixedSize
    simp only [Bool.and_eq_true, decide_eq_true_eq]
    refine ⟨h1, ?_⟩
    split <;> omega

/-- C70.  More than 32 elements has only the 64-byte register of 1-byte elements with AVX-512BW, and `fixed_size` of such elements with more than 32. -/
theorem C70_more_than_32 (τ : Abi.Target) (u : CType) (a : Tag) (ha : Abi.valid τ (elemOf p u) a = true) (h : 32 < sizeV p u a) :
    τ.avx512bw = true ∧ (elemOf p u).size = 1 := by
  have hdiv : ∀ b s : Nat, b ≤ 64 → 32 < b / s → s = 1 := by
    intro b s hb hs
    rcases Nat.eq_zero_or_pos s with h0 | h0
    · subst h0; simp at hs
    · by_contra hne
      have : b / s ≤ b / 2 := Nat.div_le_div_left (by omega) (by omega)
      omega
  unfold sizeV Abi.size at h
  cases a with
  | scalar => simp at h
  | fixed n =>
    simp only [Abi.valid, Abi.maxFixedSize, Bool.and_eq_true, decide_eq_true_eq] at ha h
    have := ha.2
    split at this
    · rename_i hh; simpa using hh
    · omega
  | btmsk b =>
    simp only [Abi.valid, Bool.and_eq_true, Bool.or_eq_true, decide_eq_true_eq] at ha h
    have h1 := hdiv b _ ha.2.1.2 h
    exact ⟨by rcases ha.1.1.2 with h | h
              · exact h
              · omega, h1⟩
  | builtin b =>
    simp only [Abi.valid, Bool.and_eq_true, Bool.or_eq_true, decide_eq_true_eq] at ha h
    have hv : Abi.vecSizeof τ (elemOf p u) ≤ 64 ∨ Abi.vecSizeof τ (elemOf p u) = (elemOf p u).size := by
      unfold Abi.vecSizeof
      repeat' split
      all_goals first | (left; omega) | (right; rfl)
    have hb : b ≤ 64 := by
      rcases hv with hv | hv
      · omega
      · exfalso
        have h1 := ha.2.1.2
        have h2 := ha.2.1.1.1
        rw [hv] at h1
        have : b / (elemOf p u).size ≤ 1 := by
          rcases Nat.eq_zero_or_pos (elemOf p u).size with h0 | h0
          · rw [h0]; simp
          · exact Nat.le_of_lt_succ ((Nat.div_lt_iff_lt_mul h0).2 (by omega))
        omega
    have hs := hdiv b _ hb h
    refine ⟨?_, hs⟩
    have h1 := ha.2.1.2
    have h3 : 32 < b := by rw [hs] at h; simpa using h
    unfold Abi.vecSizeof at h1
    rw [hs] at h1
    by_contra hbw
    simp only [hbw, if_false] at h1
    simp at h1
    repeat' split at h1
    all_goals omega

/-- C70, negation.  With AVX-512BW `static_simd_cast<int>(x)` of a `native_simd<signed char>` is available, but the type it returns is not valid. -/
theorem C70_invalid_result :
    let τ : Abi.Target := { sse := true, sse2 := true, avx := true, avx2 := true, avx512f := true, avx512bw := true, avx512vl := true, x86_64 := true }
    Abi.valid τ (elemOf .lp64 .schar) (Abi.native τ (elemOf .lp64 .schar)) = true ∧
    staticCast .lp64 (.elem .int) .schar (Abi.native τ (elemOf .lp64 .schar)) = some (.int, .fixed 64) ∧
    Abi.valid τ (elemOf .lp64 .int) (.fixed 64) = false := by
  decide

/-- C70, negation.  `static_simd_cast<simd_mask<float>>` of a `simd<int>` is accepted (a mask is not a simd type) and returns a `simd<float>`. -/
theorem C70_static_cast_mask_target :
    staticCast .lp64 (.mask .float (.builtin 16)) .int (.builtin 16) = some (.float, .builtin 16) := by decide

/-- C70.  `static_simd_cast` of masks follows the same rule, with the mask type in place of the simd type as template argument, or with an element type. -/
theorem C70_static_cast_mask (hp : p.Ok) (hc : CharSizes p) (u : CType) (hu : u ≠ .bool) (a : Tag) (t : CType) (b : Tag) (t' : CType) (b' : Tag) :
    (staticCastMask p (.mask t b) u a = some (t', b') ↔ Returns p (sizeV p) Tag.fixed u a (.simd t b) t' b') ∧
    (staticCastMask p (.elem t) u a = some (t', b') ↔ Returns p (sizeV p) Tag.fixed u a (.elem t) t' b') :=
  ⟨C70_static_cast hp hc u hu a (.simd t b) (by simp) t' b', C70_static_cast hp hc u hu a (.elem t) (by simp) t' b'⟩

/-- C70, negation.  `simd_cast` of masks is never available for a mask type as template argument, not even for the type of the argument itself: the constraint
asks whether the element type converts to `bool` without narrowing. -/
theorem C70_simd_cast_mask_never (u : CType) (hu : u ≠ .bool) (a : Tag) (t : CType) (b : Tag) : simdCastMask p (.mask t b) u a = none := by
  unfold simdCastMask valueTypeOrIdentity Narrowing.valuePreserving Narrowing.narrowing
  simp [hu]

/-- C70.  `to_native(x)` of a `fixed_size` object: available exactly for the number of elements of the native type. -/
theorem C70_to_native (τ : Abi.Target) (t : CType) (n : Nat) :
    toNative p τ t n = if n = sizeV p t (Abi.native τ (elemOf p t)) then some (t, Abi.native τ (elemOf p t)) else none := by
  unfold toNative deduce
  simp

/-- C70, negation.  `to_native` of masks and `to_compatible` cannot be called (without naming the template arguments): their parameter has type `size_t`, that of
`fixed_size` has type `int`, so deduction fails. -/
theorem C70_never_deduced (τ : Abi.Target) (t : CType) (n : Nat) : toNativeMask p τ t n = none ∧ toCompatible p τ t n = none := by
  constructor <;> simp [toNativeMask, toCompatible, deduce]

/-! ### The values of `to_fixed_size` and `to_native` -/

open Native Tuple in
/-- C70.  `to_fixed_size(x)` of a native or scalar object with `n` elements: the elements of `x`. -/
theorem C70_to_fixed_size_values {α : Type} {τ : Abi.Target} (hτ : τ.Consistent) {T : Abi.Elem} (hT : T.Ok) {g : Geo} (hg : g.Ok) (h1 : 1 ≤ g.size) (zero : α) (x : List α)
    (hx : x.length = g.full) :
    ∃ r, toFixedSizeV τ T g.size zero x = some r ∧ Wf (regs τ T g.size) r ∧ lanes (regs τ T g.size) r = x.take g.size := by
  obtain ⟨F, hF, hgen⟩ := C10_generator (n := g.size) hτ hT h1 zero
  have hl : (x.take g.size).length = g.size := by have := hg.size_le; simp; omega
  obtain ⟨a, b⟩ := hF _ hl
  refine ⟨F (x.take g.size), ?_, a, b⟩
  unfold toFixedSizeV
  rw [hgen Option]
  have : (List.range g.size).mapM (fun i => Native.get x i) = some (x.take g.size) := by
    have key : ∀ m ≤ g.size, (List.range m).mapM (fun i => Native.get x i) = some (x.take m) := by
      intro m hm
      induction m with
      | zero => simp
      | succ m ih =>
        have hmx : m < x.length := by have := hg.size_le; omega
        rw [List.range_succ, List.mapM_append, ih (by omega), List.take_succ_eq_append_getElem hmx]
        simp [Native.get, List.getElem?_eq_getElem hmx]
    exact key g.size (Nat.le_refl _)
  rw [this]
  rfl

open Native Tuple in
/-- C70.  `to_native(x)` of a `fixed_size` object: the elements of `x`; only the local array is accessed, and only elements that were stored are loaded. -/
theorem C70_to_native_values {α : Type} {τ : Abi.Target} (hτ : τ.Consistent) {T : Abi.Elem} (hT : T.Ok) {g : Geo} (hg : g.Ok) (h1 : 1 ≤ g.size) (zero : α) (junk : Nat → α)
    {x : Tup α} (hx : Wf (regs τ T g.size) x) :
    ∃ r, toNativeV τ T g zero junk x = some r ∧ r.length = g.full ∧ r.take g.size = lanes (regs τ T g.size) x := by
  obtain ⟨_, hok, htot, _⟩ := regs_facts hτ hT h1
  have hlen : (lanes (regs τ T g.size) x).length = g.size := by rw [length_lanes hok hx, htot]
  obtain ⟨mem', e, h2, h3⟩ := C12_store hτ hT h1 hT true (id : α → α) hx (fun i => if i < g.size then some (junk i) else none) 0
    (by intro i hi; simp [hi])
  obtain ⟨r, e', h4, h5⟩ := C11_native_load hg τ hT true (id : α → α) zero mem' 0 (fun i => ((lanes (regs τ T g.size) x)[i]?).getD zero) (by
    intro i hi
    rw [h2 i hi, List.getElem?_eq_getElem (by omega)]
    rfl)
  refine ⟨r, ?_, h4, ?_⟩
  · unfold toNativeV
    rw [e]
    exact e'
  · rw [h5]
    refine List.ext_getElem? fun i => ?_
    by_cases hi : i < g.size
    · rw [List.getElem?_map, List.getElem?_range hi, List.getElem?_eq_getElem (by omega)]
      simp [List.getElem?_eq_getElem (show i < (lanes (regs τ T g.size) x).length by omega)]
    · rw [List.getElem?_eq_none (by simp; omega), List.getElem?_eq_none (by omega)]

-- `char`, `signed char` and `unsigned char`, `wchar_t`, `char32_t` and `int` differ only in signedness; `long` and `long long` do not, although they have the same size
example : staticCast .lp64 (.elem .uchar) .char (.builtin 16) = some (.uchar, .builtin 16) ∧
    staticCast .lp64 (.elem .int) .char32 (.builtin 16) = some (.int, .builtin 16) ∧
    staticCast .lp64 (.elem .llong) .long (.builtin 16) = some (.llong, .fixed 2) ∧
    staticCast .lp64 (.elem .float) .int (.builtin 16) = some (.float, .fixed 4) ∧
    staticCast .lp64 (.elem .bool) .int (.builtin 16) = none ∧
    staticCast .lp64 (.simd .double (.builtin 16)) .int (.builtin 16) = none := by decide
example : Platform.lp64.Ok ∧ CharSizes .lp64 := ⟨by constructor <;> decide, by decide⟩

end StdSimd.Props
