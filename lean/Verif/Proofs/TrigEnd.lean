import Verif.Proofs.TrigFoldL
import Mathlib.Analysis.SpecialFunctions.Trigonometric.Bounds
/-! # `sin` and `cos`: the signs, the elements of the results -/
namespace StdSimd.Trig
open Spec FloatBits Math
open StdSimd.Rounding

variable {f : Fmt}

theorem sign_round (m : RMode) (zs : Bool) (q : ℚ) : f.sign (f.round m zs q) = if q = 0 then zs else decide (q < 0) := by
  unfold Fmt.round
  refine sign_ofMag _ ?_
  have : f.infMag < 2 ^ (f.ebits + f.mbits) := by
    unfold Fmt.infMag
    rw [pow_add]
    have h1 : 0 < 2 ^ f.ebits := by positivity
    have h2 : 0 < 2 ^ f.mbits := by positivity
    exact Nat.mul_lt_mul_of_pos_right (by omega) h2
  split_ifs <;> omega

theorem and_signMask (t : f.Bits) : t &&& signMask f = if f.sign t then signMask f else 0#_ := by
  apply BitVec.eq_of_getLsbD_eq
  intro i hi
  rw [BitVec.getLsbD_and, signMask_getLsbD hi]
  by_cases h : i = f.ebits + f.mbits
  · subst h
    unfold Fmt.sign
    cases hb : t.getLsbD (f.ebits + f.mbits) <;> simp [signMask_getLsbD hi]
  · split
    · rw [signMask_getLsbD hi]; simp [h]
    · simp [h]

theorem flip_eq (b : Bool) (y : f.Bits) : (if b then signMask f else 0#_) ^^^ y = if b then Fmt.neg y else y := by
  cases b
  · simp
  · unfold Fmt.neg
    rw [ofMag_true_zero, if_pos rfl, if_pos rfl, BitVec.xor_comm]

/-- An element of the result of `cos`, of `sin`. -/
def cosElem (env : f.Env) (cosS sinS : f.Bits → f.Bits) (p : f.Bits × BitVec 32) : f.Bits :=
  cosFlip env p.2 ^^^ (if p.2 &&& 1 == 0 then cosS p.1 else sinS p.1)
def sinElem (env : f.Env) (cosS sinS : f.Bits → f.Bits) (x : f.Bits) (p : f.Bits × BitVec 32) : f.Bits :=
  sinFlip env x p.2 ^^^ (if p.2 &&& 1 == 0 then sinS p.1 else cosS p.1)

theorem cosEnd_eq (env : f.Env) (cosS sinS : f.Bits → f.Bits) (fs : List (f.Bits × BitVec 32)) : cosEnd env cosS sinS fs = fs.map (cosElem env cosS sinS) := by
  unfold cosEnd
  split
  · next h =>
    refine List.map_congr_left fun p hp => ?_
    unfold cosElem
    rw [if_pos (List.all_eq_true.1 h p hp)]
  · split
    · next h =>
      refine List.map_congr_left fun p hp => ?_
      unfold cosElem
      rw [if_neg (by have := List.all_eq_true.1 h p hp; simpa using this)]
    · refine List.map_congr_left fun p hp => ?_
      unfold cosElem
      exact BitVec.xor_comm _ _

theorem zipWith_congr {α β γ : Type} {g h : α → β → γ} {xs : List α} {ys : List β} (H : ∀ a, ∀ b ∈ ys, g a b = h a b) : List.zipWith g xs ys = List.zipWith h xs ys := by
  induction xs generalizing ys with
  | nil => simp
  | cons a xs ih =>
    cases ys with
    | nil => simp
    | cons b ys =>
      rw [List.zipWith_cons_cons, List.zipWith_cons_cons, H a b (by simp), ih fun a b hb => H a b (by simp [hb])]

theorem sinEnd_eq (env : f.Env) (cosS sinS : f.Bits → f.Bits) (xs : List f.Bits) (fs : List (f.Bits × BitVec 32)) :
    sinEnd env cosS sinS xs fs = List.zipWith (sinElem env cosS sinS) xs fs := by
  unfold sinEnd
  split
  · next h =>
    refine zipWith_congr fun x p hp => ?_
    unfold sinElem
    rw [if_pos (List.all_eq_true.1 h p hp)]
  · split
    · next h =>
      refine zipWith_congr fun x p hp => ?_
      unfold sinElem
      rw [if_neg (by have := List.all_eq_true.1 h p hp; simpa using this)]
    · rfl

/-! ## The signs -/

theorem cosFlip_eq (env : f.Env) {j : ℕ} (hj : j < 4) : cosFlip env (BitVec.ofNat 32 j) = if decide (j = 1 ∨ j = 2) then signMask f else 0#_ := by
  unfold cosFlip Fmt.ofInt
  rw [BitVec.and_comm, and_signMask, sign_round]
  have : j = 0 ∨ j = 1 ∨ j = 2 ∨ j = 3 := by omega
  rcases this with rfl | rfl | rfl | rfl
  · rw [show ((1 + BitVec.ofNat 32 0) <<< 30).toInt = 2 ^ 30 by decide]; norm_num
  · rw [show ((1 + BitVec.ofNat 32 1) <<< 30).toInt = -2 ^ 31 by decide]; norm_num
  · rw [show ((1 + BitVec.ofNat 32 2) <<< 30).toInt = -2 ^ 30 by decide]; norm_num
  · rw [show ((1 + BitVec.ofNat 32 3) <<< 30).toInt = 0 by decide]; norm_num

theorem sinFlip_eq (env : f.Env) (x : f.Bits) {j : ℕ} (hj : j < 4) :
    sinFlip env x (BitVec.ofNat 32 j) = if f.sign x ^^ decide (2 ≤ j) then signMask f else 0#_ := by
  unfold sinFlip Fmt.ofInt
  rw [and_signMask]
  have : ∀ t : f.Bits, f.sign (x ^^^ t) = (f.sign x ^^ f.sign t) := by
    intro t; unfold Fmt.sign; rw [BitVec.getLsbD_xor]
  rw [this, sign_round]
  have : j = 0 ∨ j = 1 ∨ j = 2 ∨ j = 3 := by omega
  rcases this with rfl | rfl | rfl | rfl
  · rw [show (1 - BitVec.ofNat 32 0).toInt = 1 by decide]; norm_num
  · rw [show (1 - BitVec.ofNat 32 1).toInt = 0 by decide]; norm_num
  · rw [show (1 - BitVec.ofNat 32 2).toInt = -1 by decide]; norm_num
  · rw [show (1 - BitVec.ofNat 32 3).toInt = -2 by decide]; norm_num

theorem ratValue_cond_neg (b : Bool) (y : f.Bits) : f.ratValue (if b then Fmt.neg y else y) = if b then -f.ratValue y else f.ratValue y := by
  cases b <;> simp [ratValue_neg]

theorem finite_cond_neg (b : Bool) (y : f.Bits) : f.isFinite (if b then Fmt.neg y else y) ↔ f.isFinite y := by
  cases b <;> simp [finite_neg]

theorem odd_iff {j : ℕ} (hj : j < 4) : (BitVec.ofNat 32 j &&& 1 == 0) = decide (j % 2 = 0) := by
  have : j = 0 ∨ j = 1 ∨ j = 2 ∨ j = 3 := by omega
  rcases this with rfl | rfl | rfl | rfl <;> decide

/-! ## `sin` and `cos` of real numbers -/

theorem cos_quadrant (t : ℝ) (k : ℕ) : Real.cos (t + k * (Real.pi / 2))
    = if k % 4 = 1 ∨ k % 4 = 2 then -(if k % 2 = 0 then Real.cos t else Real.sin t) else (if k % 2 = 0 then Real.cos t else Real.sin t) := by
  obtain ⟨m, j, hj, rfl⟩ : ∃ m j, j < 4 ∧ k = 4 * m + j := ⟨k / 4, k % 4, by omega, by omega⟩
  have e : t + ((4 * m + j : ℕ) : ℝ) * (Real.pi / 2) = (t + j * (Real.pi / 2)) + m * (2 * Real.pi) := by push_cast; ring
  rw [e, Real.cos_add_nat_mul_two_pi]
  have : j = 0 ∨ j = 1 ∨ j = 2 ∨ j = 3 := by omega
  rcases this with rfl | rfl | rfl | rfl
  · rw [if_neg (by omega), if_pos (by omega)]; simp
  · rw [if_pos (by omega), if_neg (by omega)]; simp [Real.cos_add_pi_div_two]
  · rw [if_pos (by omega), if_pos (by omega), show t + ((2 : ℕ) : ℝ) * (Real.pi / 2) = t + Real.pi by push_cast; ring, Real.cos_add_pi]
  · rw [if_neg (by omega), if_neg (by omega), show t + ((3 : ℕ) : ℝ) * (Real.pi / 2) = (t + Real.pi / 2) + Real.pi by push_cast; ring, Real.cos_add_pi,
      Real.cos_add_pi_div_two, neg_neg]

theorem sin_quadrant (t : ℝ) (k : ℕ) : Real.sin (t + k * (Real.pi / 2))
    = if 2 ≤ k % 4 then -(if k % 2 = 0 then Real.sin t else Real.cos t) else (if k % 2 = 0 then Real.sin t else Real.cos t) := by
  obtain ⟨m, j, hj, rfl⟩ : ∃ m j, j < 4 ∧ k = 4 * m + j := ⟨k / 4, k % 4, by omega, by omega⟩
  have e : t + ((4 * m + j : ℕ) : ℝ) * (Real.pi / 2) = (t + j * (Real.pi / 2)) + m * (2 * Real.pi) := by push_cast; ring
  rw [e, Real.sin_add_nat_mul_two_pi]
  have : j = 0 ∨ j = 1 ∨ j = 2 ∨ j = 3 := by omega
  rcases this with rfl | rfl | rfl | rfl
  · rw [if_neg (by omega), if_pos (by omega)]; simp
  · rw [if_neg (by omega), if_neg (by omega)]; simp [Real.sin_add_pi_div_two]
  · rw [if_pos (by omega), if_pos (by omega), show t + ((2 : ℕ) : ℝ) * (Real.pi / 2) = t + Real.pi by push_cast; ring, Real.sin_add_pi]
  · rw [if_pos (by omega), if_neg (by omega), show t + ((3 : ℕ) : ℝ) * (Real.pi / 2) = (t + Real.pi / 2) + Real.pi by push_cast; ring, Real.sin_add_pi,
      Real.sin_add_pi_div_two]

theorem abs_sin_sub (a b : ℝ) : |Real.sin a - Real.sin b| ≤ |a - b| := by
  rw [Real.sin_sub_sin, abs_mul, abs_mul]
  have h1 := Real.abs_sin_le_abs (x := (a - b) / 2)
  have h2 := Real.abs_cos_le_one ((a + b) / 2)
  rw [abs_div, abs_two] at h1
  have h3 := mul_le_mul h1 h2 (abs_nonneg _) (by positivity)
  rw [abs_two]
  linarith

theorem abs_cos_sub (a b : ℝ) : |Real.cos a - Real.cos b| ≤ |a - b| := by
  rw [← Real.sin_pi_div_two_sub, ← Real.sin_pi_div_two_sub]
  refine (abs_sin_sub _ _).trans (le_of_eq ?_)
  rw [show Real.pi / 2 - a - (Real.pi / 2 - b) = -(a - b) by ring, abs_neg]

/-! ## The elements -/

/-- `g` is within `e` of `s` for reduced arguments. -/
def Series (f : Fmt) (g : f.Bits → f.Bits) (s : ℝ → ℝ) (e : ℝ) : Prop :=
  ∀ r, f.isFinite r → |f.ratValue r| ≤ 79 / 10 ^ 2 → f.isFinite (g r) ∧ |(f.ratValue (g r) : ℝ) - s (f.ratValue r)| ≤ e

section
variable (env : f.Env) {cosS sinS : f.Bits → f.Bits} {e : ℝ} (hc : Series f cosS Real.cos e) (hs : Series f sinS Real.sin e)
include hc hs

theorem cosElem_spec {p : f.Bits × BitVec 32} {v : ℚ} {d : ℝ} (hp : Folded f p v d) :
    f.isFinite (cosElem env cosS sinS p) ∧ |(f.ratValue (cosElem env cosS sinS p) : ℝ) - Real.cos v| ≤ d + e := by
  obtain ⟨h1, h2, k, h3, h4⟩ := hp
  obtain ⟨r, q⟩ := p
  simp only at h1 h2 h3 h4
  subst h3
  unfold cosElem
  simp only
  rw [cosFlip_eq env (Nat.mod_lt k (by norm_num)), flip_eq, odd_iff (Nat.mod_lt k (by norm_num)), finite_cond_neg, ratValue_cond_neg]
  obtain ⟨c1, c2⟩ := hc r h1 h2
  obtain ⟨s1, s2⟩ := hs r h1 h2
  have e1 := cos_quadrant (v - k * (Real.pi / 2)) k
  rw [sub_add_cancel] at e1
  rw [e1]
  have e2 : k % 4 % 2 = k % 2 := by omega
  simp only [e2, decide_eq_true_eq]
  have d1 := abs_cos_sub (f.ratValue r : ℝ) (v - k * (Real.pi / 2))
  have d2 := abs_sin_sub (f.ratValue r : ℝ) (v - k * (Real.pi / 2))
  refine ⟨by split <;> assumption, ?_⟩
  have key : |((f.ratValue (if k % 2 = 0 then cosS r else sinS r) : ℚ) : ℝ)
      - (if k % 2 = 0 then Real.cos (v - k * (Real.pi / 2)) else Real.sin (v - k * (Real.pi / 2)))| ≤ d + e := by
    split
    · have := abs_sub_le (f.ratValue (cosS r) : ℝ) (Real.cos (f.ratValue r)) (Real.cos (v - k * (Real.pi / 2)))
      linarith
    · have := abs_sub_le (f.ratValue (sinS r) : ℝ) (Real.sin (f.ratValue r)) (Real.sin (v - k * (Real.pi / 2)))
      linarith
  split
  · push_cast
    have key2 : ∀ a b : ℝ, |a - b| ≤ d + e → |-a - -b| ≤ d + e := by
      intro a b h; rw [← abs_neg]; convert h using 2; ring
    exact key2 _ _ key
  · exact key

theorem sinElem_spec {x : f.Bits} {p : f.Bits × BitVec 32} {d : ℝ} (hp : Folded f p |f.ratValue x| d) :
    f.isFinite (sinElem env cosS sinS x p) ∧ |(f.ratValue (sinElem env cosS sinS x p) : ℝ) - Real.sin (f.ratValue x)| ≤ d + e := by
  obtain ⟨h1, h2, k, h3, h4⟩ := hp
  obtain ⟨r, q⟩ := p
  simp only at h1 h2 h3 h4
  subst h3
  unfold sinElem
  simp only
  rw [sinFlip_eq env _ (Nat.mod_lt k (by norm_num)), flip_eq, odd_iff (Nat.mod_lt k (by norm_num)), finite_cond_neg, ratValue_cond_neg]
  obtain ⟨c1, c2⟩ := hc r h1 h2
  obtain ⟨s1, s2⟩ := hs r h1 h2
  have e0 : f.ratValue x = if f.sign x then -|f.ratValue x| else |f.ratValue x| := by
    cases hb : f.sign x
    · rw [if_neg (by decide)]
      rcases lt_or_ge (f.ratValue x) 0 with h | h
      · rw [sign_of_value.2 h] at hb; exact absurd hb (by decide)
      · exact (abs_of_nonneg h).symm
    · rw [if_pos rfl]
      rcases lt_or_ge 0 (f.ratValue x) with h | h
      · rw [sign_of_value.1 h] at hb; exact absurd hb (by decide)
      · rw [abs_of_nonpos h, neg_neg]
  generalize |f.ratValue x| = v at *
  have e1 := sin_quadrant (v - k * (Real.pi / 2)) k
  rw [sub_add_cancel] at e1
  have e3 : Real.sin (f.ratValue x) = if f.sign x then -Real.sin v else Real.sin v := by
    rw [e0]; split <;> push_cast <;> simp
  rw [e3, e1]
  have e2 : k % 4 % 2 = k % 2 := by omega
  simp only [e2, decide_eq_true_eq]
  have d1 := abs_cos_sub (f.ratValue r : ℝ) (v - k * (Real.pi / 2))
  have d2 := abs_sin_sub (f.ratValue r : ℝ) (v - k * (Real.pi / 2))
  refine ⟨by split <;> assumption, ?_⟩
  have key : |((f.ratValue (if k % 2 = 0 then sinS r else cosS r) : ℚ) : ℝ)
      - (if k % 2 = 0 then Real.sin (v - k * (Real.pi / 2)) else Real.cos (v - k * (Real.pi / 2)))| ≤ d + e := by
    split
    · have := abs_sub_le (f.ratValue (sinS r) : ℝ) (Real.sin (f.ratValue r)) (Real.sin (v - k * (Real.pi / 2)))
      linarith
    · have := abs_sub_le (f.ratValue (cosS r) : ℝ) (Real.cos (f.ratValue r)) (Real.cos (v - k * (Real.pi / 2)))
      linarith
  have key2 : ∀ a b : ℝ, |a - b| ≤ d + e → |-a - -b| ≤ d + e := by
    intro a b h; rw [← abs_neg]; convert h using 2; ring
  have key3 := key2 _ _ key
  cases f.sign x <;> by_cases hk : 2 ≤ k % 4 <;> simp only [hk, decide_true, decide_false, Bool.xor_true, Bool.xor_false, Bool.not_false, Bool.not_true,
      Bool.false_eq_true, if_true, if_false, neg_neg, Rat.cast_neg] <;> assumption

end

end StdSimd.Trig
