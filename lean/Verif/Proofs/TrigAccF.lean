import Verif.Proofs.TrigAcc
/-! # `sin` and `cos`: lists of elements, `float` -/
namespace StdSimd.Trig
open Spec FloatBits Math
open StdSimd.Rounding

variable (E : Env)

theorem approx_map {f : Fmt} {s : ℝ → ℝ} {B : ℚ} {e : ℝ} {xs : List f.Bits} {g : f.Bits → f.Bits}
    (h : ∀ x ∈ xs, f.isFinite x → |f.ratValue x| ≤ B → f.isFinite (g x) ∧ |(f.ratValue (g x) : ℝ) - s (f.ratValue x)| ≤ e) : f.Approx s B e xs (xs.map g) := by
  unfold Fmt.Approx
  rw [List.forall₂_map_right_iff, List.forall₂_same]
  exact h

theorem cosD_approx (hm : E.mode = .nearest) (xs : List D.Bits) : D.Approx Real.cos (2 ^ 31) (1 / 2 ^ 46) xs (cosD E xs) := by
  obtain ⟨g, h1, h2, _⟩ := cosD_acc E hm xs
  rw [h1]; exact approx_map h2
theorem sinD_approx (hm : E.mode = .nearest) (xs : List D.Bits) : D.Approx Real.sin (2 ^ 31) (1 / 2 ^ 46) xs (sinD E xs) := by
  obtain ⟨g, h1, h2, _⟩ := sinD_acc E hm xs
  rw [h1]; exact approx_map h2

theorem chunked_rel {R : D.Bits → D.Bits → Prop} {libm : D.Bits → D.Bits} {g : List D.Bits → List D.Bits}
    (h1 : ∀ x, R x (libm x)) (h2 : ∀ xs, List.Forall₂ R xs (g xs)) (ns : List Nat) (xs : List D.Bits) (h : ns.sum = xs.length) :
    List.Forall₂ R xs (chunked libm g ns xs) := by
  induction ns generalizing xs with
  | nil =>
    have : xs = [] := by simpa using h.symm
    subst this
    exact List.Forall₂.nil
  | cons n ns ih =>
    rw [List.sum_cons] at h
    have ih := ih (xs.drop n) (by rw [List.length_drop]; omega)
    unfold chunked
    have e1 : List.Forall₂ R (xs.take n) (if n = 1 then (xs.take 1).map libm else g (xs.take n)) := by
      split
      · next hn =>
        subst hn
        cases xs with
        | nil => exact List.Forall₂.nil
        | cons x xs => simpa using h1 x
      · exact h2 _
    have := List.rel_append e1 ih
    simp only at this
    rwa [List.take_append_drop] at this

theorem chunked_approx {s : ℝ → ℝ} {B : ℚ} {e : ℝ} {libm : D.Bits → D.Bits} {g : List D.Bits → List D.Bits}
    (h1 : ∀ x, D.Approx s B e [x] [libm x]) (h2 : ∀ xs, D.Approx s B e xs (g xs)) (ns : List Nat) (xs : List D.Bits) (h : ns.sum = xs.length) :
    D.Approx s B e xs (chunked libm g ns xs) :=
  chunked_rel (fun x => by have := h1 x; unfold Fmt.Approx at this; simpa using this) h2 ns xs h

/-- By way of `double`. -/
theorem wide_approx (hm : E.mode = .nearest) {s : ℝ → ℝ} (hs : ∀ t, |s t| ≤ 1) {xs : List F.Bits} {ys : List D.Bits}
    (h : D.Approx s (2 ^ 31) (1 / 2 ^ 46) (xs.map (widen E)) ys) : F.Approx s (2 ^ 31) (1 / 2 ^ 21) xs (ys.map (narrow E)) := by
  unfold Fmt.Approx at h ⊢
  rw [List.forall₂_map_left_iff] at h
  rw [List.forall₂_map_right_iff]
  refine h.imp fun x y H hf hb => ?_
  have hw := widen_val E hf (hb.trans (by norm_num))
  rw [hw.eq] at H
  obtain ⟨a, b⟩ := H hw.fin hb
  have hy : |((D.ratValue y : ℚ) : ℝ)| ≤ 2 := by
    have h1 := abs_sub_abs_le_abs_sub ((D.ratValue y : ℚ) : ℝ) (s (F.ratValue x))
    have h2 := hs (F.ratValue x)
    have h3 : (1 : ℝ) / 2 ^ 46 ≤ 1 := by norm_num
    linarith
  have hy' : |D.ratValue y| ≤ 2 := by exact_mod_cast hy
  have hn := narrow_near E hm (K := 2) (v := D.ratValue y) (e := 0) ⟨Near.self a, hy'⟩ (D := 2 / 10 ^ 7) (by norm_num [eta]) (by norm_num)
  refine ⟨hn.fin, ?_⟩
  have h4 : |((F.ratValue (narrow E y) : ℚ) : ℝ) - (D.ratValue y : ℚ)| ≤ 2 / 10 ^ 7 := by
    have : ((|F.ratValue (narrow E y) - D.ratValue y| : ℚ) : ℝ) ≤ ((2 / 10 ^ 7 : ℚ) : ℝ) := by exact_mod_cast hn.err
    push_cast at this
    exact this
  have h5 := abs_sub_le ((F.ratValue (narrow E y) : ℚ) : ℝ) (D.ratValue y : ℚ) (s (F.ratValue x))
  have h6 : (2 : ℝ) / 10 ^ 7 + 1 / 2 ^ 46 ≤ 1 / 2 ^ 21 := by norm_num
  linarith

theorem narrow_range {xs : List F.Bits} {n : ℤ} (hn : Near F (lit F n 0) n 0) (hn2 : (n : ℚ) ≤ 530000)
    (h : ¬ (xs.any fun x => F.le (lit F n 0) (FloatBits.abs F x)) = true) {x : F.Bits} (hx : x ∈ xs) (hf : F.isFinite x) : |F.ratValue x| ≤ 530000 := by
  have h1 : F.le (lit F n 0) (FloatBits.abs F x) = false := by
    by_contra h2
    exact h (List.any_eq_true.2 ⟨x, hx, by simpa using h2⟩)
  rw [le_finite goodF.ok hn.fin (abs_fin hf), hn.eq, ratValue_abs] at h1
  have := of_decide_eq_false h1
  linarith

theorem cosF_approx (hm : E.mode = .nearest) (hl : ∀ x, D.Approx Real.cos (2 ^ 31) (1 / 2 ^ 46) [x] [E.libmCos x]) (ns : List Nat) (xs : List F.Bits)
    (h : ns.sum = xs.length) : F.Approx Real.cos (2 ^ 31) (1 / 2 ^ 21) xs (cosF E ns xs) := by
  unfold cosF
  split
  · exact wide_approx E hm Real.abs_cos_le_one (chunked_approx hl (cosD_approx E hm) ns _ (by simpa using h))
  · next hb =>
    obtain ⟨g, h1, h2⟩ := foldF_spec E hm xs
    rw [h1, cosEnd_eq, List.map_map]
    refine approx_map fun x hx hf _ => ?_
    have hn := (litF1 393382 0 393382 (M := 400000) (by decide) (by decide) (by norm_num) (by norm_num)).toNear
    have := cosElem_spec E.F (cosSeriesF_ok E hm) (sinSeriesF_ok E hm) (h2 x hx hf (narrow_range (by exact_mod_cast hn) (by norm_num) hb hx hf))
    rw [Rat.cast_abs, Real.cos_abs] at this
    exact ⟨this.1, this.2.trans (by norm_num)⟩

theorem sinF_approx (hm : E.mode = .nearest) (hl : ∀ x, D.Approx Real.sin (2 ^ 31) (1 / 2 ^ 46) [x] [E.libmSin x]) (ns : List Nat) (xs : List F.Bits)
    (h : ns.sum = xs.length) : F.Approx Real.sin (2 ^ 31) (1 / 2 ^ 21) xs (sinF E ns xs) := by
  unfold sinF
  split
  · exact wide_approx E hm Real.abs_sin_le_one (chunked_approx hl (sinD_approx E hm) ns _ (by simpa using h))
  · next hb =>
    obtain ⟨g, h1, h2⟩ := foldF_spec E hm xs
    rw [h1, sinEnd_eq, zipWith_map_self]
    refine approx_map fun x hx hf _ => ?_
    have hn := (litF1 527449 0 527449 (M := 530000) (by decide) (by decide) (by norm_num) (by norm_num)).toNear
    have := sinElem_spec E.F (cosSeriesF_ok E hm) (sinSeriesF_ok E hm) (h2 x hx hf (narrow_range (by exact_mod_cast hn) (by norm_num) hb hx hf))
    exact ⟨this.1, this.2.trans (by norm_num)⟩

end StdSimd.Trig
