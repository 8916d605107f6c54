import Verif.Model.Intrin
import Mathlib.Tactic.Linarith
/-!
# Lemmas about sizes of vector types
-/
namespace StdSimd.Intrin
open StdSimd Spec Spec.Intrin

/-- `sizeof(__vector_type_t)`. -/
def vb (i386 : Bool) (s n : Nat) : Nat :=
  let np2 := bitCeil (n * s)
  if i386 && np2 == 8 then 16 else if np2 < 2 * s then 2 * s else np2

/-- `sizeof(__intrinsic_type_t)`. -/
def ib (s n : Nat) : Nat := if n * s ≤ 16 then 16 else if n * s ≤ 32 then 32 else 64

theorem vectorType_eq (i386 : Bool) (t : CType) (s n : Nat) : vectorType i386 t s n = ⟨t, vb i386 s n⟩ := rfl
theorem intrinsicType_eq (p : Platform) (t : CType) (s n : Nat) :
    intrinsicType p t s n = ⟨if p.isFloat t then t else .llong, ib s n⟩ := rfl

theorem sizes_table : ([1, 2, 4, 8].all fun s => (List.range 65).all fun n => [false, true].all fun i386 =>
    !decide (2 ≤ n ∧ n * s ≤ 64) || decide (n * s ≤ vb i386 s n ∧ vb i386 s n ≤ ib s n ∧ vb i386 s (ib s n / s) = ib s n ∧
    (vb i386 s n = ib s n ↔ 8 < n * s ∨ (i386 = true ∧ 4 < n * s)))) = true := by
  decide +kernel

theorem sizes {s n : Nat} (i386 : Bool) (hs : s ∈ [1, 2, 4, 8]) (hn : 2 ≤ n) (h : n * s ≤ 64) :
    n * s ≤ vb i386 s n ∧ vb i386 s n ≤ ib s n ∧ vb i386 s (ib s n / s) = ib s n ∧
    (vb i386 s n = ib s n ↔ 8 < n * s ∨ (i386 = true ∧ 4 < n * s)) := by
  have h1 : 1 ≤ s := by simp at hs; omega
  have h2 : n < 65 := by nlinarith
  have := List.all_eq_true.1 (List.all_eq_true.1 (List.all_eq_true.1 sizes_table s hs) n (List.mem_range.2 h2)) i386 (by cases i386 <;> simp)
  rw [Bool.or_eq_true, Bool.not_eq_true', decide_eq_false_iff_not, decide_eq_true_eq] at this
  exact this.resolve_left (fun hh => hh ⟨hn, h⟩)

theorem element_take {s n b i : Nat} (x : Bytes) (hi : i < n) (hb : n * s ≤ b) : element s (x.take b) i = element s x i := by
  have h : i * s + s ≤ b := by nlinarith
  unfold element
  rw [List.drop_take, List.take_take]
  congr 1
  omega

theorem element_append {s n i : Nat} (x y : Bytes) (hi : i < n) (hb : n * s ≤ x.length) : element s (x ++ y) i = element s x i := by
  have h : i * s + s ≤ x.length := by nlinarith
  unfold element
  rw [List.drop_append_of_le_length (by omega), List.take_append_of_le_length (by rw [List.length_drop]; omega)]

theorem element_toIntrin {s n b i : Nat} (x : Bytes) (hi : i < n) (hb : n * s ≤ x.length) : element s (toIntrin b x) i = element s x i := by
  unfold toIntrin
  split
  · rfl
  · exact element_append x _ hi hb

theorem length_toIntrin {b : Nat} (x : Bytes) (hb : x.length ≤ b) : (toIntrin b x).length = b := by
  unfold toIntrin
  split
  · assumption
  · rw [List.length_append, List.length_replicate]; omega

end StdSimd.Intrin
