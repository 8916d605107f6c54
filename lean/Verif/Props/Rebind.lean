import Verif.Model.Rebind
import Verif.Props.Abi
/-!
# C73: `deduce`, `rebind_simd` and `resize_simd`
-/
namespace StdSimd.Props
open StdSimd Abi

variable {t : Target} {T U W : Elem}

private theorem pos (hT : T.Ok) : 1 ≤ T.size := elem_pos hT

/-- A valid ABI tag has between one and `max_fixed_size` elements. -/
private theorem valid_size (hT : T.Ok) {a : Tag} (h : valid t T a = true) : 1 ≤ Abi.size T a ∧ Abi.size T a ≤ maxFixedSize t T := by
  have hs := pos hT
  have hm := C08_max_fixed_size t T hT
  cases a with
  | scalar => exact ⟨Nat.le_refl _, by show 1 ≤ _; omega⟩
  | fixed n => simp [valid] at h; exact ⟨h.1, h.2⟩
  | builtin b =>
    rw [valid_builtin hs] at h
    exact ⟨Nat.le_of_lt h.1, Nat.le_trans (Nat.div_le_div_right h.2.2.1) hm.2.2.1⟩
  | btmsk b =>
    have h' := h
    rw [valid_btmsk hs] at h
    obtain ⟨hu, hvs, h1, h2, h64, _⟩ := h
    refine ⟨Nat.le_of_lt h1, ?_⟩
    have h8 : T.size ≤ 8 := by
      apply Nat.le_of_not_lt
      intro h8
      unfold vecSizeof at hvs
      rw [if_neg (by omega)] at hvs
      omega
    have : vecSizeof t T = 64 := usable_vs h8 hu
    exact Nat.le_trans (Nat.div_le_div_right (by omega)) hm.2.2.1

/-- **C73.**  `deduce_t<T, n>` exists exactly if there is an ABI tag for which `simd<T, Abi>` is a usable type with `n` elements, and then it is such
a tag. -/
theorem C73_deduce (hT : T.Ok) (n : Nat) :
    ((deduce t T n).isSome = true ↔ ∃ a, valid t T a = true ∧ Abi.size T a = n) ∧
    ∀ a, deduce t T n = some a → valid t T a = true ∧ Abi.size T a = n := by
  refine ⟨⟨fun h => ?_, ?_⟩, fun a => C08_deduce_exact t T hT n a⟩
  · obtain ⟨a, ha⟩ := Option.isSome_iff_exists.1 h
    exact ⟨a, C08_deduce_exact t T hT n a ha⟩
  · rintro ⟨a, h, rfl⟩
    obtain ⟨h1, h2⟩ := valid_size hT h
    obtain ⟨b, hb, _⟩ := C08_deduce t T hT _ h1 h2
    rw [hb]; rfl

/-- **C73.**  It exists exactly for the sizes `fixed_size` allows. -/
theorem C73_exists (hT : T.Ok) (n : Nat) : (deduce t T n).isSome = true ↔ 1 ≤ n ∧ n ≤ maxFixedSize t T := by
  rw [(C73_deduce hT n).1]
  constructor
  · rintro ⟨a, h, rfl⟩; exact valid_size hT h
  · rintro ⟨h1, h2⟩
    obtain ⟨b, _, hb⟩ := C08_deduce t T hT n h1 h2
    exact ⟨b, hb⟩

/-- **C73.**  For one element it is `scalar`. -/
theorem C73_one (hT : T.Ok) : deduce t T 1 = some .scalar := by
  have hs := pos hT
  have h1 : valid t T (.btmsk (T.size * 1)) = false := by
    rw [← Bool.not_eq_true, valid_btmsk hs]; rintro ⟨_, _, h, _⟩; rw [Nat.mul_div_cancel_left _ hs] at h; omega
  have h2 : valid t T (.builtin (T.size * 1)) = false := by
    rw [← Bool.not_eq_true, valid_builtin hs]; rintro ⟨h, _⟩; rw [Nat.mul_div_cancel_left _ hs] at h; omega
  rw [Nat.mul_one] at h1 h2
  simp [deduce, firstValidAbi, h1, h2]

/-- **C73.**  It is `fixed_size<n>` only if no other ABI tag has `n` elements. -/
theorem C73_prefers_registers (hT : T.Ok) (n : Nat) (h : deduce t T n = some (.fixed n)) (a : Tag) (ha : valid t T a = true) (hn : Abi.size T a = n) :
    a = .fixed n := by
  have hs := pos hT
  have hd : ∀ b, b % T.size = 0 → b / T.size = n → T.size * n = b := fun b h1 h2 => by rw [← h2]; exact Nat.mul_div_cancel' (Nat.dvd_of_mod_eq_zero h1)
  unfold deduce firstValidAbi at h
  cases a with
  | fixed m => simp only [Abi.size] at hn; rw [hn]
  | scalar =>
    have : n = 1 := hn.symm
    subst this
    have := C73_one (t := t) hT
    unfold deduce firstValidAbi at this
    rw [this] at h
    exact absurd h (by simp)
  | builtin b =>
    have hb := (valid_builtin hs b).1 ha
    rw [hd b hb.2.1 hn] at h
    by_cases h0 : valid t T (.btmsk b) = true
    · simp [h0] at h
    · simp [h0, ha] at h
  | btmsk b =>
    have hb := (valid_btmsk hs b).1 ha
    rw [hd b hb.2.2.2.1 hn] at h
    simp [ha] at h

/-- **C73.**  `rebind_simd_t<T, simd<U, a>>` is a usable type with elements `T` and the size of `simd<U, a>`; it exists exactly if there is such a type. -/
theorem C73_rebind (hT : T.Ok) (a : Tag) :
    ((rebind t T U a).isSome = true ↔ ∃ b, valid t T b = true ∧ Abi.size T b = Abi.size U a) ∧
    ∀ b, rebind t T U a = some b → valid t T b = true ∧ Abi.size T b = Abi.size U a := C73_deduce hT _

/-- **C73.**  A type with at most 32 elements can be rebound to every element type. -/
theorem C73_rebind_exists (hT : T.Ok) (hU : U.Ok) (a : Tag) (ha : valid t U a = true) (h : Abi.size U a ≤ 32) : (rebind t T U a).isSome = true :=
  (C73_exists hT _).2 ⟨(valid_size hU ha).1, Nat.le_trans h (C08_max_fixed_size t T hT).1⟩

/-- **C73.**  Types with more elements exist for one-byte elements with AVX512BW only, and cannot be rebound to larger elements. -/
theorem C73_rebind_large (hT : T.Ok) (hU : U.Ok) (a : Tag) (ha : valid t U a = true) (h : 32 < Abi.size U a) :
    (t.avx512bw = true ∧ U.size = 1) ∧ ((rebind t T U a).isSome = true ↔ T.size = 1) := by
  have h1 := valid_size hU ha
  have hU' : t.avx512bw = true ∧ U.size = 1 := by
    have := Nat.lt_of_lt_of_le h h1.2
    unfold maxFixedSize at this
    split at this
    · rename_i h'; simpa using h'
    · omega
  refine ⟨hU', ?_⟩
  rw [rebind, C73_exists hT]
  have e : maxFixedSize t U = 64 := by simp [maxFixedSize, hU']
  have hT' : maxFixedSize t T = if T.size = 1 then 64 else 32 := by simp [maxFixedSize, hU'.1]
  rw [hT']
  split
  · rename_i h'; simp [h']; omega
  · rename_i h'; simp [h']; omega

/-- **C73.**  `rebind_simd` and `resize_simd` in any order and number: the result depends on the last element type and the last size only.  In
particular rebinding there and back gives the type `deduce` gives. -/
theorem C73_compose (hT : T.Ok) (hU : U.Ok) (a b : Tag) (n : Int) :
    (∀ V : Elem, rebind t T U a = some b → rebind t V T b = rebind t V U a) ∧
    (resizeTag t U n a = some b → rebind t T U b = if n < 0 then none else deduce t T n.toNat) ∧
    (rebind t T U a = some b → resizeTag t T n b = if n < 0 then none else deduce t T n.toNat) ∧
    (∀ m, resizeTag t U m a = some b → resizeTag t U n b = resizeTag t U n a) := by
  refine ⟨fun V h => ?_, fun h => ?_, fun _ => rfl, fun _ _ => rfl⟩
  · unfold rebind; rw [((C73_rebind hT a).2 b h).2]
  · unfold resizeTag at h
    split at h
    · exact absurd h (by simp)
    · rename_i hn
      rw [if_neg hn, rebind, (C08_deduce_exact t U hU _ b h).2]

/-- **C73.**  A deduced type is left as it is by rebinding to its own element type and by rebinding to another one and back. -/
theorem C73_stable (hT : T.Ok) (hU : U.Ok) (n : Nat) (a : Tag) (h : deduce t U n = some a) :
    rebind t U U a = some a ∧ ∀ b, rebind t T U a = some b → rebind t U T b = some a := by
  have h1 : rebind t U U a = some a := by unfold rebind; rw [(C08_deduce_exact t U hU n a h).2, h]
  exact ⟨h1, fun b hb => by rw [(C73_compose hT hU a b 0).1 U hb, h1]⟩

/-- **C73.**  The native type is a deduced type: rebinding it to its own element type gives itself. -/
theorem C73_native (hT : T.Ok) (hv : valid t T (native t T) = true) : rebind t T T (native t T) = some (native t T) := by
  have hs := pos hT
  unfold native at hv ⊢
  simp only [] at hv ⊢
  by_cases h0 : vecSizeof t T = T.size
  · rw [if_pos h0]; exact C73_one hT
  · rw [if_neg h0] at hv ⊢
    by_cases h1 : (t.avx512vl || (t.avx512f && vecSizeof t T == 64)) = true
    · rw [if_pos h1] at hv ⊢
      have hb := (valid_btmsk hs _).1 hv
      have e : T.size * (vecSizeof t T / T.size) = vecSizeof t T := Nat.mul_div_cancel' (Nat.dvd_of_mod_eq_zero hb.2.2.2.1)
      simp only [rebind, Abi.size, deduce, firstValidAbi, e, hv, if_true]
    · rw [if_neg h1] at hv ⊢
      have hb := (valid_builtin hs _).1 hv
      have e : T.size * (vecSizeof t T / T.size) = vecSizeof t T := Nat.mul_div_cancel' (Nat.dvd_of_mod_eq_zero hb.2.1)
      have hnb : ¬ valid t T (.btmsk (vecSizeof t T)) = true := by
        rw [valid_btmsk hs]
        simp only [Bool.or_eq_true, Bool.and_eq_true, beq_iff_eq, not_or, not_and] at h1
        rintro ⟨hu, _, _, _, h64, h | h⟩
        · have := vec_cases hT h0
          have hm := three_values this.2
          have h64' : vecSizeof t T = 64 := by omega
          exact h1.2 hu.1 h64'
        · exact h1.1 h
      simp only [rebind, Abi.size, deduce, firstValidAbi, e, hv, hnb, if_true]
      rfl

/-- **C73.**  `resize_simd_t<n, V>` has `n` elements, and exists exactly for the sizes `fixed_size` allows. -/
theorem C73_resize (hT : T.Ok) (n : Int) (a : Tag) :
    ((resizeTag t T n a).isSome = true ↔ 1 ≤ n ∧ n ≤ maxFixedSize t T) ∧
    ∀ b, resizeTag t T n a = some b → valid t T b = true ∧ (Abi.size T b : Int) = n := by
  unfold resizeTag
  split
  · refine ⟨⟨fun h => absurd h (by simp), fun h => by omega⟩, fun b h => absurd h (by simp)⟩
  · rw [C73_exists hT]
    refine ⟨by omega, fun b h => ?_⟩
    obtain ⟨h1, h2⟩ := C08_deduce_exact t T hT _ b h
    exact ⟨h1, by omega⟩

/-- Types that are not stable: `rebind_simd_t<int, fixed_size_simd<int, 4>>` is a register type, and with AVX512VL
`rebind_simd_t<int, simd<int, _VecBuiltin<16>>>` is another type. -/
theorem C73_not_stable :
    let sse : Target := { sse := true, sse2 := true, x86_64 := true }
    let avx512 : Target := { sse := true, sse2 := true, avx := true, avx2 := true, avx512f := true, avx512bw := true, avx512vl := true, x86_64 := true }
    sse.Consistent ∧ avx512.Consistent ∧ valid sse ⟨4, false⟩ (.fixed 4) = true ∧ rebind sse ⟨4, false⟩ ⟨4, false⟩ (.fixed 4) = some (.builtin 16) ∧
    valid avx512 ⟨4, false⟩ (.builtin 16) = true ∧ rebind avx512 ⟨4, false⟩ ⟨4, false⟩ (.builtin 16) = some (.btmsk 16) := by
  refine ⟨by constructor <;> decide, by constructor <;> decide, by decide, by decide, by decide, by decide⟩

/-! ## concrete cases -/

private def sse2 : Target := { sse := true, sse2 := true, x86_64 := true }
private def avx512bw : Target := { sse := true, sse2 := true, avx := true, avx2 := true, avx512f := true, avx512bw := true, x86_64 := true }

-- four floats to doubles, to chars and to four-byte integers; ten floats
example : rebind sse2 ⟨8, true⟩ ⟨4, true⟩ (.builtin 16) = some (.fixed 4) ∧ rebind sse2 ⟨1, false⟩ ⟨4, true⟩ (.builtin 16) = some (.builtin 4) ∧
    rebind sse2 ⟨4, false⟩ ⟨4, true⟩ (.builtin 16) = some (.builtin 16) ∧ resizeTag sse2 ⟨4, true⟩ 10 (.builtin 16) = some (.fixed 10) ∧
    resizeTag sse2 ⟨4, true⟩ (-1) (.builtin 16) = none ∧ resizeTag sse2 ⟨4, true⟩ 33 (.builtin 16) = none := by decide
-- 64 chars cannot be rebound to shorts
example : (rebind avx512bw ⟨2, false⟩ ⟨1, false⟩ (.btmsk 64)) = none ∧ valid avx512bw ⟨1, false⟩ (.btmsk 64) = true := by decide
example : ¬ (rebind avx512bw ⟨2, false⟩ ⟨1, false⟩ (.btmsk 64)).isSome = true := by
  rw [(C73_rebind_large (T := ⟨2, false⟩) (by decide) (U := ⟨1, false⟩) (by decide) (.btmsk 64) (by decide) (by decide)).2]; decide
example : (rebind sse2 ⟨8, true⟩ ⟨4, true⟩ (.builtin 16)).isSome = true := C73_rebind_exists (by decide) (by decide) _ (by decide) (by decide)
example : rebind sse2 ⟨4, true⟩ ⟨8, true⟩ (.fixed 4) = some (.builtin 16) :=
  (C73_stable (T := ⟨8, true⟩) (U := ⟨4, true⟩) (by decide) (by decide) 4 (.builtin 16) (by decide)).2 _ (by decide)
example : rebind avx512bw ⟨4, true⟩ ⟨4, true⟩ (.btmsk 64) = some (.btmsk 64) := C73_native (T := ⟨4, true⟩) (by decide) (by decide)
example : deduce sse2 ⟨8, true⟩ 4 = some (.fixed 4) ∧ ∀ a, valid sse2 ⟨8, true⟩ a = true → Abi.size ⟨8, true⟩ a = 4 → a = .fixed 4 :=
  ⟨by decide, C73_prefers_registers (by decide) 4 (by decide)⟩

end StdSimd.Props
