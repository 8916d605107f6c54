import Verif.Proofs.Align
/-!
# C40: alignment

`al` is `alignof` of an element type: a power of two that divides its size.
-/
namespace StdSimd.Props
open Abi Align

/-- **C40** `memory_alignment_v<V, U>` is the smallest power of two not below the size of the array. -/
theorem C40_memory_alignment (u n : Nat) :
    (∃ k, memoryAlignment u n = 2 ^ k) ∧ u * n ≤ memoryAlignment u n ∧ ∀ k, u * n ≤ 2 ^ k → memoryAlignment u n ≤ 2 ^ k :=
  ⟨Reduce.bitCeil_pow _, bitCeil_ge _, fun _ h => bitCeil_least h⟩

/-- **C40** What a load or store with each flag requires of the address: nothing, `memory_alignment_v`, `N`; the pointer is not changed. -/
theorem C40_flags (u al n p : Nat) :
    Flag.apply u al n .element p = some p ∧
    (Flag.apply u al n .vector p = if memoryAlignment u n ∣ p then some p else none) ∧
    ∀ N, Flag.apply u al n (.over N) p = if N ∣ p then some p else none := by
  refine ⟨rfl, ?_, fun N => ?_⟩
  · simp only [Flag.apply, memoryAlignment, Flag.alignment, Nat.dvd_iff_mod_eq_zero]; congr
  · simp only [Flag.apply, Flag.alignment, Nat.dvd_iff_mod_eq_zero]; congr

/-- **C40** The registers of a `fixed_size` object are contiguous: register `k` starts at the byte where the element that follows the elements of the registers before it would be in an array.
The object is as long as the array at least. -/
theorem C40_layout (t : Target) (hc : t.Consistent) (T : Elem) (hT : T.Ok) (n : Nat) (h1 : 1 ≤ n) (al : Nat) (hp : ∃ k, al = 2 ^ k) (hal : al ∣ T.size) :
    (∀ k < (storage t T n).length, (storageLayout t T al n).offsets[k]? = some (T.size * (((storage t T n).take k).map (size T)).sum)) ∧
      T.size * n ≤ (storageLayout t T al n).size := by
  obtain ⟨_, h2, h3, _⟩ := storageLayout_spec hc hT h1 hp hal
  refine ⟨fun k hk => ?_, h3⟩
  rw [h2, List.getElem?_map, List.getElem?_range hk]; rfl

/-- **C40** An array aligned for the `fixed_size` object (`vector_aligned`, elements of a power-of-two number of bytes) is aligned for the loads and stores of each register. -/
theorem C40_chunks (t : Target) (hc : t.Consistent) (T : Elem) (hT : T.Ok) (n : Nat) (h1 : 1 ≤ n) (u m p : Nat) (hu : u = 2 ^ m) (hp : memoryAlignment u n ∣ p) (k : Nat) (a : Tag)
    (ha : (storage t T n)[k]? = some a) :
    ∃ q, (chunkAddrs t T u n p)[k]? = some q ∧ q = p + u * (((storage t T n).take k).map (size T)).sum ∧ memoryAlignment u (size T a) ∣ q := by
  have h := go_spec T hu (storage t T n) (fun a ha => (full_bytes hc hT n ha).2) (storage_sorted hc hT n) p (by
    intro a ha
    refine Nat.dvd_trans (bitCeil_dvd (Nat.mul_le_mul_left _ ?_)) hp
    rw [storage_pos (by omega)] at ha
    simp only [List.head?_cons, Option.some.injEq] at ha
    subst ha
    exact (size_bestAbi t T n h1).2) k a ha
  exact ⟨_, h.1, rfl, h.2⟩

/-- **C40** The alignment of a `fixed_size` object suffices for its registers, and for `vector_aligned` accesses to its elements, except on i386. -/
theorem C40_object (t : Target) (hc : t.Consistent) (T : Elem) (hT : T.Ok) (n : Nat) (h1 : 1 ≤ n) (h386 : t.i386 = false) (al : Nat) (hp : ∃ k, al = 2 ^ k) (hal : al ∣ T.size) :
    (storageLayout t T al n).align ∣ fixedAlign T n ∧ memoryAlignment T.size n ∣ fixedAlign T n := by
  obtain ⟨h2, _, _, _⟩ := storageLayout_spec hc hT h1 hp hal
  have hs1 := elem_pos hT
  refine ⟨?_, by unfold memoryAlignment fixedAlign Flag.alignment; rw [Nat.mul_comm]⟩
  rw [h2]
  have hm : bestAbi t T n ∈ storage t T n := by rw [storage_pos (by omega)]; simp
  have hle := (size_bestAbi t T n h1).2
  rcases storage_cases hc hT n hm with e | ⟨k1, k2, k3, _⟩
  · rw [e]
    refine pow_dvd_of_le hp (Reduce.bitCeil_pow _) ?_
    have := Nat.le_of_dvd hs1 hal
    have h3 : 1 * T.size ≤ n * T.size := Nat.mul_le_mul_right _ h1
    have := bitCeil_ge (n * T.size)
    simp only [regAlign, fixedAlign] at *
    omega
  · rw [k3]
    have : vecBytes t T.size (size T (bestAbi t T n)) = bitCeil (size T (bestAbi t T n) * T.size) := by
      unfold vecBytes
      have h3 : 2 * T.size ≤ size T (bestAbi t T n) * T.size := Nat.mul_le_mul_right _ k2
      have := bitCeil_ge (size T (bestAbi t T n) * T.size)
      simp only [h386, Bool.false_and, Bool.false_eq_true, if_false]
      exact if_neg (by omega)
    rw [this]
    exact bitCeil_dvd (Nat.mul_le_mul_right _ hle)

/-- **C40** `to_native`, `to_compatible`: the promises made for the temporary array hold. -/
theorem C40_to_native (u al n p : Nat) (hp : memoryAlignment u n ∣ p) : toNative u al n n p = some (p, p) := by
  unfold toNative
  rw [(C40_flags u al n p).2.1, if_pos hp]; rfl

/-- **C40** (finding) The implicit conversion between `fixed_size` objects promises `vector_aligned` for a temporary `std::array`, of which only the alignment of the elements is known: for
all element types and every size of at least two there is an admissible address at which this is false. -/
theorem C40_conversion_false_promise (u al n : Nat) (hu : 1 ≤ u) (hp : ∃ k, al = 2 ^ k) (hal : al ∣ u) (hn : 2 ≤ n) : ∃ p, al ∣ p ∧ convertFixed u al n p = none := by
  refine ⟨al, Nat.dvd_refl _, ?_⟩
  unfold convertFixed
  rw [(C40_flags u al n al).2.1, if_neg]
  intro h
  obtain ⟨k, e⟩ := hp
  have h1 : 1 ≤ al := by rw [e]; exact Nat.one_le_two_pow
  have h2 := Nat.le_of_dvd h1 h
  have h3 := (C40_memory_alignment u n).2.1
  have h4 := Nat.le_of_dvd hu hal
  have h5 : u * 2 ≤ u * n := Nat.mul_le_mul_left _ hn
  omega

/-- **C40** (finding) i386: two `float`s are stored in a register of 16 bytes, whose alignment is stricter than the `alignas` of the data member. -/
theorem C40_object_i386 : ∃ t : Target, t.Consistent ∧ (storageLayout t ⟨4, true⟩ 4 2).align = 16 ∧ fixedAlign ⟨4, true⟩ 2 = 8 := by
  let t : Target := { sse := true, sse2 := true, i386 := true }
  have hc : t.Consistent := by constructor <;> decide
  have hT : Elem.Ok ⟨4, true⟩ := by decide
  have hx : Exc t ⟨4, true⟩ 2 := ⟨rfl, by decide⟩
  refine ⟨t, hc, ?_, by decide⟩
  have hl := (storageLayout_spec hc hT (n := 2) (by omega) (al := 4) ⟨2, rfl⟩ (by decide)).1
  rw [hl]
  rcases bestAbi_exc hT (by decide) (by omega) hx with ⟨h, _⟩ | ⟨_, _, e, _⟩
  · exact absurd h (by decide)
  · rcases e with e | e <;> rw [e] <;> decide

/-! ## Cases -/

/-- AVX without AVX2: 13 floats are stored in registers of 8 and 5 floats; an array of `double`s aligned for 13 (128 bytes) is aligned for both loads. -/
private abbrev avx : Target := { sse := true, sse2 := true, avx := true, x86_64 := true }
example : avx.Consistent ∧ Elem.Ok ⟨4, true⟩ ∧ ∃ k, 4 = 2 ^ k := ⟨by constructor <;> decide, by decide, 2, rfl⟩
example : layout [(32, 32), (16, 16), (4, 4)] = ⟨64, 32, [0, 32, 48]⟩ := by decide
/-- registers in another order would not be contiguous -/
example : layout [(4, 4), (16, 16)] = ⟨32, 16, [0, 16]⟩ := by decide
example : memoryAlignment 8 13 = 128 ∧ memoryAlignment 8 8 = 64 ∧ memoryAlignment 8 5 = 64 := by decide
example : convertFixed 4 4 8 48 = none ∧ convertFixed 4 4 8 64 = some 64 := by decide

end StdSimd.Props
