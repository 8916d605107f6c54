import Verif.Proofs.AbiStorage
/-!
# C07, C08: ABI selection
-/
namespace StdSimd.Props
open StdSimd Abi

/-- C07. For every number of elements, element type and consistent feature set: the storage of
`fixed_size<n>` (whose construction terminates, being a total function) uses only ABIs valid for the element
type, the sizes sum to `n`, are positive and non-increasing, and every register except possibly the last one is
completely used (no padding lanes). -/
theorem C07_storage (t : Target) (hc : t.Consistent) (T : Elem) (hT : T.Ok) (n : Nat) :
    (∀ a ∈ storage t T n, valid t T a = true ∧ 1 ≤ Abi.size T a ∧ Abi.size T a ≤ n) ∧
    ((storage t T n).map (Abi.size T)).sum = n ∧
    ((storage t T n).map (Abi.size T)).Pairwise (· ≥ ·) ∧
    (∀ a ∈ (storage t T n).dropLast, isPartial t T a = false) := by
  refine ⟨fun a ha => ⟨storage_valid hc hT n a ha, ?_, ?_⟩, storage_sum t T n, storage_sorted hc hT n, storage_dropLast hc hT n⟩
  · exact (storage_size_le hc hT n a ha).1
  · have := (storage_size_le hc hT n a ha).2; omega

/-- C07. On all targets but i386 the sizes are exactly: full native registers, then one register holding the
remainder. -/
theorem C07_layout_partial (t : Target) (hc : t.Consistent) (T : Elem) (hT : T.Ok) (h386 : t.i386 = false) (n : Nat) :
    (storage t T n).map (Abi.size T) = Spec.layout (vecSizeof t T / T.size) n :=
  storage_layout hc hT h386 n

/-- C07, negation for i386: because 8-byte vectors are not used there, eight 1-byte elements are stored in two
4-byte registers although the native register holds 16. -/
theorem C07_layout_i386_deviates :
    let t : Target := { sse := true, sse2 := true, i386 := true }
    t.Consistent ∧ (storage t ⟨1, false⟩ 8).map (Abi.size ⟨1, false⟩) ≠
      Spec.layout (vecSizeof t ⟨1, false⟩ / 1) 8 := by
  intro t
  have hc : t.Consistent := by constructor <;> decide
  refine ⟨hc, ?_⟩
  intro h
  have hT : Elem.Ok ⟨1, false⟩ := by decide
  have hv : vecSizeof t ⟨1, false⟩ ≠ 1 := by decide
  have hx : Exc t ⟨1, false⟩ 8 := ⟨rfl, by decide⟩
  rw [storage_pos (by omega), List.map_cons] at h
  have h1 := congrArg List.head? h
  rw [List.head?_cons] at h1
  have h2 : (Spec.layout (vecSizeof t ⟨1, false⟩ / 1) 8).head? = some 8 := by decide
  rw [h2] at h1
  rcases bestAbi_exc hT hv (by omega) hx with ⟨_, e, _, _⟩ | ⟨h, _⟩
  · rcases e with e | e <;> rw [e] at h1 <;> exact absurd h1 (by decide)
  · exact absurd h (by decide)

-- non-vacuity: AVX-512F without VL; 27 floats: 16 + 11 lanes (both `_VecBltnBtmsk`)
example : ({ sse := true, sse2 := true, avx := true, avx2 := true, avx512f := true, x86_64 := true } : Target).Consistent ∧
    Elem.Ok ⟨4, true⟩ ∧
    Spec.layout (vecSizeof { sse := true, sse2 := true, avx := true, avx2 := true, avx512f := true, x86_64 := true }
      ⟨4, true⟩ / 4) 27 = [16, 11] := by
  refine ⟨?_, by decide, by decide⟩
  constructor <;> decide

/-- C08. `deduce_t<T, n>` exists for every `1 ≤ n ≤ max_fixed_size<T>`, is valid for `T`, and has exactly `n`
elements. `rebind_simd` and `resize_simd` are `deduce_t` (simd.h:2744-2782). -/
theorem C08_deduce (t : Target) (T : Elem) (hT : T.Ok) (n : Nat) (h1 : 1 ≤ n) (hn : n ≤ maxFixedSize t T) :
    ∃ a, deduce t T n = some a ∧ valid t T a = true ∧ Abi.size T a = n := by
  have hs1 := elem_pos hT
  have hdn : T.size * n / T.size = n := Nat.mul_div_cancel_left _ hs1
  unfold deduce firstValidAbi
  by_cases hb : valid t T (.btmsk (T.size * n)) = true
  · exact ⟨_, by rw [if_pos hb], hb, hdn⟩
  · rw [if_neg hb]
    by_cases hu : valid t T (.builtin (T.size * n)) = true
    · exact ⟨_, by rw [if_pos hu], hu, hdn⟩
    · rw [if_neg hu]
      by_cases hsc : T.size = T.size * n
      · refine ⟨.scalar, by rw [if_pos hsc], rfl, ?_⟩
        have : T.size * 1 = T.size * n := by omega
        exact Nat.eq_of_mul_eq_mul_left hs1 this
      · have hvf : valid t T (.fixed n) = true := by simp [valid]; omega
        exact ⟨.fixed n, by rw [if_neg hsc]; simp [hvf], hvf, rfl⟩

/-- C08. Whatever `deduce_t` denotes has exactly `n` elements and is valid - also beyond `max_fixed_size`. -/
theorem C08_deduce_exact (t : Target) (T : Elem) (hT : T.Ok) (n : Nat) (a : Tag) (h : deduce t T n = some a) :
    valid t T a = true ∧ Abi.size T a = n := by
  have hs1 := elem_pos hT
  have hdn : T.size * n / T.size = n := Nat.mul_div_cancel_left _ hs1
  unfold deduce firstValidAbi at h
  by_cases hb : valid t T (.btmsk (T.size * n)) = true
  · rw [if_pos hb] at h; cases h; exact ⟨hb, hdn⟩
  · rw [if_neg hb] at h
    by_cases hu : valid t T (.builtin (T.size * n)) = true
    · rw [if_pos hu] at h; cases h; exact ⟨hu, hdn⟩
    · rw [if_neg hu] at h
      by_cases hsc : T.size = T.size * n
      · rw [if_pos hsc] at h; cases h
        refine ⟨rfl, ?_⟩
        have : T.size * 1 = T.size * n := by omega
        exact Nat.eq_of_mul_eq_mul_left hs1 this
      · rw [if_neg hsc] at h
        by_cases hvf : valid t T (.fixed n) = true
        · simp only [hvf, if_true] at h; cases h; exact ⟨hvf, rfl⟩
        · simp only [hvf, if_false] at h; cases h

/-- C08. `max_fixed_size<T>` is at least 32, at most 64, and at least the number of elements of the largest register:
`fixed_size` of the native size is always valid. -/
theorem C08_max_fixed_size (t : Target) (T : Elem) (hT : T.Ok) :
    32 ≤ maxFixedSize t T ∧ maxFixedSize t T ≤ 64 ∧ vecSizeof t T / T.size ≤ maxFixedSize t T ∧
      valid t T (.fixed (vecSizeof t T / T.size)) = true := by
  have h1 : 32 ≤ maxFixedSize t T ∧ maxFixedSize t T ≤ 64 := by unfold maxFixedSize; split <;> omega
  have hs := elem_pos hT
  have h2 : vecSizeof t T / T.size ≤ maxFixedSize t T := by
    by_cases h : T.size = 1
    · rw [h, Nat.div_one]
      unfold vecSizeof maxFixedSize
      cases t.avx512bw <;> simp [h] <;> repeat' split
      all_goals omega
    · have h64 : vecSizeof t T ≤ 64 := by
        have : T.size ≤ 16 := by
          have := hT
          unfold Elem.Ok at this
          simp only [List.mem_cons, List.not_mem_nil, or_false] at this; omega
        unfold vecSizeof; repeat' split
        all_goals omega
      have : vecSizeof t T / T.size ≤ 64 / 2 := Nat.div_le_div h64 (by omega) (by omega)
      omega
  refine ⟨h1.1, h1.2, h2, ?_⟩
  have h3 : 1 ≤ vecSizeof t T / T.size := by
    rw [Nat.one_le_div_iff hs]
    by_cases hv : vecSizeof t T = T.size
    · omega
    · have := vec_cases hT hv
      simp at this
      omega
  simp only [valid, Bool.and_eq_true, decide_eq_true_eq]; omega

-- non-vacuity: AVX-512BW has 64 `char` per register and `max_fixed_size<char>` is 64
example : vecSizeof { sse := true, sse2 := true, avx := true, avx2 := true, avx512f := true, avx512bw := true, x86_64 := true } ⟨1, false⟩ = 64 := by decide

/-- C08 (partial). The native ABI is valid for every vectorizable type, if AVX-512VL comes with AVX-512BW
(or the elements have at least 4 bytes). Missing: AVX-512VL without AVX-512BW, where the code is wrong, see
`C08_native_invalid`. -/
theorem C08_native_partial (t : Target) (hc : t.Consistent) (T : Elem) (hT : T.Ok)
    (hvl : t.avx512vl = true → t.avx512bw = true ∨ 4 ≤ T.size) :
    valid t T (native t T) = true := by
  have hs1 := elem_pos hT
  unfold native
  simp only []
  split
  · rfl
  · rename_i hv
    obtain ⟨hs, hvs⟩ := vec_cases hT hv
    obtain ⟨_, hs8, hdiv, hmod, hlt, hs2, hle, hpow, hmul⟩ := div_facts hs hvs
    split
    · rename_i h
      simp only [Bool.or_eq_true, Bool.and_eq_true, beq_iff_eq] at h
      rw [valid_btmsk hs1]
      rcases h with h | h
      · exact ⟨⟨hc.vl h, hvl h⟩, hlt, hdiv, hmod, hle, .inr h⟩
      · exact ⟨vs64_usable hc hv h.2, hlt, hdiv, hmod, hle, .inl (by omega)⟩
    · rename_i h
      simp only [Bool.or_eq_true, Bool.and_eq_true, beq_iff_eq] at h
      rw [valid_builtin hs1]
      refine ⟨hdiv, hmod, Nat.le_refl _, fun hf => ?_⟩
      have : vecSizeof t T ≠ 64 := fun h' => h (.inr ⟨hf, h'⟩)
      simp only [List.mem_cons, List.not_mem_nil, or_false] at hvs
      omega

/-- C08, negation: with AVX-512F and AVX-512VL but without AVX-512BW (a consistent feature set), the native ABI
chosen for 2-byte elements is `_VecBltnBtmsk<32>`, which is not valid for them. -/
theorem C08_native_invalid :
    let t : Target := { sse := true, sse2 := true, avx := true, avx2 := true, avx512f := true, avx512vl := true,
                        x86_64 := true }
    t.Consistent ∧ native t ⟨2, false⟩ = .btmsk 32 ∧ valid t ⟨2, false⟩ (native t ⟨2, false⟩) = false := by
  intro t
  refine ⟨?_, by decide, by decide⟩
  constructor <;> decide

/-- C08. The `compatible` ABI is valid for every vectorizable type. -/
theorem C08_compatible (t : Target) (hc : t.Consistent) (T : Elem) (hT : T.Ok) :
    valid t T (compatible t T) = true := by
  have hs1 := elem_pos hT
  unfold compatible
  have key : T.size ≤ 8 → 16 ≤ vecSizeof t T → valid t T (.builtin 16) = true := by
    intro h8 hv
    rw [valid_builtin hs1]
    unfold Elem.Ok at hT
    simp only [List.mem_cons, List.not_mem_nil, or_false] at hT
    refine ⟨?_, ?_, hv, fun _ => by omega⟩
    · have : T.size = 1 ∨ T.size = 2 ∨ T.size = 4 ∨ T.size = 8 := by omega
      rcases this with h | h | h | h <;> rw [h] <;> omega
    · have : T.size = 1 ∨ T.size = 2 ∨ T.size = 4 ∨ T.size = 8 := by omega
      rcases this with h | h | h | h <;> rw [h]
  split
  · rename_i h
    split
    · rename_i h8
      apply key h8
      unfold vecSizeof
      rw [if_pos h8]
      rw [Bool.or_eq_true] at h
      rcases h with h | h
      · have := hc.x64 h
        repeat' split
        all_goals first | omega | simp_all
      · have := hc.a64 h
        repeat' split
        all_goals first | omega | simp_all
    · rfl
  · split
    · rename_i hn
      split
      · rename_i h
        simp only [Bool.and_eq_true, decide_eq_true_eq, Bool.or_eq_true] at h
        apply key (by omega)
        unfold vecSizeof
        rw [if_pos (by omega)]
        repeat' split
        all_goals first | omega | skip
        all_goals simp_all
      · rfl
    · rfl

-- non-vacuity
example : deduce { sse := true, sse2 := true, x86_64 := true } ⟨4, true⟩ 3 = some (.builtin 12) ∧
    deduce { sse := true, sse2 := true, x86_64 := true } ⟨4, true⟩ 7 = some (.fixed 7) ∧
    deduce { sse := true, sse2 := true, x86_64 := true } ⟨4, true⟩ 1 = some .scalar ∧
    deduce { sse := true, sse2 := true, x86_64 := true } ⟨4, true⟩ 33 = none := by decide
example : native { sse := true, sse2 := true, avx := true, x86_64 := true } ⟨8, true⟩ = .builtin 32 ∧
    native { sse := true, sse2 := true, avx := true, x86_64 := true } ⟨8, false⟩ = .builtin 16 := by decide

end StdSimd.Props
