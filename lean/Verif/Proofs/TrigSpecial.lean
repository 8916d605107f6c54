import Verif.Proofs.TrigAccF
/-! # `sin` and `cos`: signs, zeros, infinities, NaN -/
namespace StdSimd.Trig
open Spec FloatBits Math
open StdSimd.Rounding

variable {f : Fmt}

/-! ## NaN -/

section
variable (env : f.Env)

theorem mul_nan {x y : f.Bits} (h : f.isNaN x ∨ f.isNaN y) : f.isNaN (Fmt.mul env x y) := by unfold Fmt.mul; rw [if_pos h]; exact env.isNaN _ _
theorem add_nan {x y : f.Bits} (h : f.isNaN x ∨ f.isNaN y) : f.isNaN (Fmt.add env x y) := by unfold Fmt.add; rw [if_pos h]; exact env.isNaN _ _
theorem sub_nan {x y : f.Bits} (h : f.isNaN x ∨ f.isNaN y) : f.isNaN (Fmt.sub env x y) := by unfold Fmt.sub; rw [if_pos h]; exact env.isNaN _ _
theorem fma_nan {x y z : f.Bits} (h : f.isNaN x ∨ f.isNaN y ∨ f.isNaN z) : f.isNaN (Fmt.fma env x y z) := by unfold Fmt.fma; rw [if_pos h]; exact env.isNaN _ _
theorem nan_neg {x : f.Bits} : f.isNaN (Fmt.neg x) ↔ f.isNaN x := by rw [isNaN_iff, isNaN_iff, mag_neg]

theorem madd_nan (b : Bool) {x y z : f.Bits} (h : f.isNaN x ∨ f.isNaN y ∨ f.isNaN z) : f.isNaN (madd env b x y z) := by
  unfold madd
  split
  · exact fma_nan env h
  · rcases h with h | h | h
    · exact add_nan env (.inl (mul_nan env (.inl h)))
    · exact add_nan env (.inl (mul_nan env (.inr h)))
    · exact add_nan env (.inr h)

theorem msub_nan (b : Bool) {x y z : f.Bits} (h : f.isNaN x ∨ f.isNaN y ∨ f.isNaN z) : f.isNaN (msub env b x y z) := by
  unfold msub
  split
  · exact fma_nan env (by rw [nan_neg]; exact h)
  · rcases h with h | h | h
    · exact sub_nan env (.inl (mul_nan env (.inl h)))
    · exact sub_nan env (.inl (mul_nan env (.inr h)))
    · exact sub_nan env (.inr h)

theorem nmadd_nan (b : Bool) {z x y : f.Bits} (h : f.isNaN z) : f.isNaN (nmadd env b z x y) := by
  unfold nmadd
  split
  · exact fma_nan env (.inr (.inr h))
  · exact sub_nan env (.inl h)

theorem infMag_lt (f : Fmt) : f.infMag < 2 ^ (f.ebits + f.mbits) := by
  unfold Fmt.infMag
  rw [pow_add]
  have h1 : 0 < 2 ^ f.ebits := by positivity
  have h2 : 0 < 2 ^ f.mbits := by positivity
  exact Nat.mul_lt_mul_of_pos_right (by omega) h2

theorem ofMag_inf (s : Bool) : f.isInf (f.ofMag s f.infMag) ∧ f.sign (f.ofMag s f.infMag) = s := by
  refine ⟨?_, sign_ofMag s (infMag_lt f)⟩
  rw [isInf_iff, mag_ofMag s (infMag_lt f)]; rfl

/-- `inf - inf * y`. -/
theorem nmadd_inf (hok : f.Ok) (b : Bool) {z x y : f.Bits} (hz : f.isInf z) (hx : f.isInf x) (hs : f.sign z = f.sign x) (hy : f.isFinite y) (h0 : 0 < f.ratValue y) :
    f.isNaN (nmadd env b z x y) := by
  have a1 : ¬ f.isNaN z := by rw [isInf_iff] at hz; rw [isNaN_iff]; omega
  have a2 : ¬ f.isNaN x := by rw [isInf_iff] at hx; rw [isNaN_iff]; omega
  obtain ⟨b1, b2⟩ := finite_not hok hy
  have hy0 : ¬ f.isZero y := by
    intro h
    rw [isZero_iff] at h
    rw [ratValue_mag, h] at h0
    simp [unit] at h0
  have hx0 : ¬ f.isZero x := by
    intro h
    rw [isZero_iff] at h; rw [isInf_iff] at hx
    have : 0 < inf f := by
      unfold inf
      have h1 : 2 ≤ 2 ^ f.ebits := by
        have := Nat.pow_le_pow_right (n := 2) (by norm_num) (show 1 ≤ f.ebits by have := hok.1; omega)
        simpa using this
      have h2 : 0 < 2 ^ f.mbits := by positivity
      exact Nat.mul_pos (by omega) h2
    omega
  have hsy : f.sign y = false := sign_of_value.1 h0
  unfold nmadd
  split
  · unfold Fmt.fma
    have c1 : f.isInf (Fmt.neg x) := by rw [isInf_iff, mag_neg, ← isInf_iff]; exact hx
    rw [if_neg (by rw [nan_neg]; tauto), if_pos (.inl c1), if_pos]
    · exact env.isNaN _ _
    · refine .inr (.inr ⟨hz, ?_⟩)
      rw [FloatBits.sign_neg, hsy, hs]; cases f.sign x <;> decide
  · have hm : Fmt.mul env x y = f.ofMag (f.sign x) f.infMag := by
      unfold Fmt.mul
      rw [if_neg (by tauto), if_pos (.inl hx), if_neg (by tauto), hsy, Bool.xor_false]
    have hi := ofMag_inf (f := f) (f.sign x)
    have hn : ¬ f.isNaN (f.ofMag (f.sign x) f.infMag) := by have := hi.1; rw [isInf_iff] at this; rw [isNaN_iff]; omega
    unfold Fmt.sub
    rw [hm, if_neg (by tauto)]
    unfold Fmt.add
    rw [if_neg (by rw [nan_neg]; tauto), if_pos hz, if_pos]
    · exact env.isNaN _ _
    · refine ⟨by rw [isInf_iff, mag_neg, ← isInf_iff]; exact hi.1, ?_⟩
      rw [FloatBits.sign_neg, hi.2, hs]; cases f.sign x <;> decide

theorem flip_nan (b : Bool) {y : f.Bits} (h : f.isNaN y) : f.isNaN (if b then Fmt.neg y else y) := by
  cases b
  · exact h
  · exact nan_neg.2 h

theorem cosFlip_any (q : BitVec 32) : ∃ b, cosFlip env q = if b = true then signMask f else 0#_ := by
  unfold cosFlip
  rw [BitVec.and_comm, and_signMask]; exact ⟨_, rfl⟩
theorem sinFlip_any (x : f.Bits) (q : BitVec 32) : ∃ b, sinFlip env x q = if b = true then signMask f else 0#_ := by
  unfold sinFlip
  rw [and_signMask]; exact ⟨_, rfl⟩

variable {cosS sinS : f.Bits → f.Bits} (hc : ∀ x, f.isNaN x → f.isNaN (cosS x)) (hs : ∀ x, f.isNaN x → f.isNaN (sinS x))
include hc hs

theorem cosElem_nan {p : f.Bits × BitVec 32} (h : f.isNaN p.1) : f.isNaN (cosElem env cosS sinS p) := by
  unfold cosElem
  obtain ⟨b, hb⟩ := cosFlip_any env p.2
  rw [hb, flip_eq]
  refine flip_nan b ?_
  split
  · exact hc _ h
  · exact hs _ h

theorem sinElem_nan {x : f.Bits} {p : f.Bits × BitVec 32} (h : f.isNaN p.1) : f.isNaN (sinElem env cosS sinS x p) := by
  unfold sinElem
  obtain ⟨b, hb⟩ := sinFlip_any env x p.2
  rw [hb, flip_eq]
  refine flip_nan b ?_
  split
  · exact hs _ h
  · exact hc _ h

end

variable (E : Env)

theorem cosSeriesF_nan {x : F.Bits} (h : F.isNaN x) : F.isNaN (cosSeriesF E x) := by
  
  have h2 : F.isNaN (Fmt.mul E.F x x) := mul_nan _ (.inl h)
  unfold cosSeriesF; exact add_nan _ (.inl (msub_nan _ _ (.inr (.inl (mul_nan _ (.inl h2))))))
theorem sinSeriesF_nan {x : F.Bits} (h : F.isNaN x) : F.isNaN (sinSeriesF E x) := by
  unfold sinSeriesF; exact madd_nan _ _ (.inr (.inr h))
theorem cosSeriesD_nan {x : D.Bits} (h : D.isNaN x) : D.isNaN (cosSeriesD E x) := by
  unfold cosSeriesD; exact madd_nan _ _ (.inr (.inl (mul_nan _ (.inl h))))
theorem sinSeriesD_nan {x : D.Bits} (h : D.isNaN x) : D.isNaN (sinSeriesD E x) := by
  unfold sinSeriesD; exact madd_nan _ _ (.inr (.inr h))

theorem lt_nan {x y : f.Bits} (h : f.isNaN x ∨ f.isNaN y) : f.lt x y = false := by
  
  unfold Fmt.lt Fmt.quiet Fmt.value
  rcases h with h | h
  · rw [if_pos h]
  · rw [if_pos h]; split <;> simp_all
theorem le_nan {x y : f.Bits} (h : f.isNaN x ∨ f.isNaN y) : f.le x y = false := by
  
  unfold Fmt.le Fmt.quiet Fmt.value
  rcases h with h | h
  · rw [if_pos h]
  · rw [if_pos h]; split <;> simp_all

/-! ## Operands that are not finite -/

theorem notFinite {x : f.Bits} (h : ¬ f.isFinite x) : f.isNaN x ∨ f.isInf x := by
  rw [isFinite_iff] at h; rw [isNaN_iff, isInf_iff]; omega

theorem nearbyint_nan (env : f.Env) {x : f.Bits} (h : f.isNaN x) : f.isNaN (nearbyint env x) := by
  unfold nearbyint Fmt.rint; rw [if_pos h]; exact env.isNaN _ _

theorem foldY_nan {a : D.Bits} (h : D.isNaN a) : D.isNaN (foldY E a) := by
  unfold foldY
  refine nearbyint_nan _ ?_
  unfold Fmt.div
  rw [if_pos (.inl h)]; exact E.D.isNaN _ _

theorem inf_pattern {x : f.Bits} (h : f.isInf x) : FloatBits.abs f x = f.ofMag false f.infMag := by
  refine bits_ext ?_ ?_
  · rw [sign_abs, (ofMag_inf false).2]
  · rw [mag_abs, (isInf_iff x).1 h, mag_ofMag false (infMag_lt f)]; rfl

theorem foldY_inf : foldY E (D.ofMag false D.infMag) = D.ofMag false D.infMag := by
  have h1 : D.round .nearest false (2 * D.ratValue piOver4D) = pi2D := by
    unfold pi2D lit
    rw [piOver4D_val.eq]
    congr 1
    norm_num
  unfold foldY
  rw [h1]
  have h2 := pi2D_val.fin
  obtain ⟨h3, h4⟩ := finite_not goodD.ok h2
  have h5 : D.sign pi2D = false := sign_of_value.1 (by rw [pi2D_val.eq]; norm_num)
  have h6 : Fmt.div E.D (D.ofMag false D.infMag) pi2D = D.ofMag false D.infMag := by
    unfold Fmt.div
    rw [if_neg (not_or.2 ⟨by decide, h3⟩), if_pos (by decide), if_neg h4, h5, (ofMag_inf false).2]
    rfl
  rw [h6]
  unfold nearbyint Fmt.rint
  rw [if_neg (by decide), if_pos (by decide)]

theorem foldLargeD_bad {x : D.Bits} (h : ¬ D.isFinite x) : D.isNaN (foldLargeD E (FloatBits.abs D x) (foldY E (FloatBits.abs D x))) := by
  unfold foldLargeD
  refine sub_nan _ (.inl (sub_nan _ (.inl (sub_nan _ (.inl (sub_nan _ (.inl (sub_nan _ (.inl (sub_nan _ (.inl ?_)))))))))))
  rcases notFinite h with h | h
  · exact nmadd_nan _ _ ((Hypot.isNaN_abs x).2 h)
  · rw [inf_pattern h, foldY_inf]
    have c1 := (litD 0x1921FB50000000 (0 - 52) (0x1921FB50000000 / 2 ^ 52) (M := 2) (by decide) (by decide) (by norm_num) (by norm_num)).toNear
    refine nmadd_inf _ goodD.ok _ (by decide) (by decide) (by decide) c1.fin ?_
    rw [c1.eq]; norm_num

theorem lt_inf {y : f.Bits} (hy : f.isFinite y) (hok : f.Ok) : f.lt (f.ofMag false f.infMag) y = false ∧ f.le (f.ofMag false f.infMag) y = false
    ∧ f.le y (f.ofMag false f.infMag) = true := by
  obtain ⟨a, b⟩ := finite_not hok hy
  have c := (ofMag_inf (f := f) false).1
  have d : ¬ f.isNaN (f.ofMag false f.infMag) := by rw [isInf_iff] at c; rw [isNaN_iff]; omega
  unfold Fmt.lt Fmt.le Fmt.quiet Fmt.value
  rw [if_neg a, if_neg b, if_neg d, if_pos c, (ofMag_inf false).2]
  simp

/-- A vector with an element that is not finite. -/
theorem foldD_bad {xs : List D.Bits} {x : D.Bits} (hx : x ∈ xs) (h : ¬ D.isFinite x) :
    foldD E xs = xs.map (fun x => (foldLargeD E (FloatBits.abs D x) (foldY E (FloatBits.abs D x)), toInt32 D E.undefD (foldY E (FloatBits.abs D x)) &&& 3)) := by
  have no : ∀ P : D.Bits → Bool, P (FloatBits.abs D x) = false → ¬ (xs.map (FloatBits.abs D)).all P = true := by
    intro P h1 h2
    have := all_abs h2 hx
    rw [h1] at this; exact absurd this (by decide)
  have hl : ∀ y : D.Bits, D.isFinite y → D.lt (FloatBits.abs D x) y = false := by
    intro y hy
    rcases notFinite h with h | h
    · exact lt_nan (.inl ((Hypot.isNaN_abs x).2 h))
    · rw [inf_pattern h]; exact (lt_inf hy goodD.ok).1
  unfold foldD
  simp only
  rw [if_neg (no (fun a => D.lt a piOver4D) (hl _ piOver4D_val.fin)), if_neg (no (fun a => D.lt a (D.round .nearest false (1025 * D.ratValue piOver4D))) (hl _ thresholdD.fin)), if_neg, List.map_map]
  · rfl
  · refine no (fun a => D.le (foldY E a) (lit D 1 30)) ?_
    rcases notFinite h with h | h
    · exact le_nan (.inl (foldY_nan E ((Hypot.isNaN_abs x).2 h)))
    · rw [inf_pattern h, foldY_inf]
      have hone := (litD 1 30 (2 ^ 30) (M := 2 ^ 30) (by decide) (by decide) (by norm_num) (by norm_num)).toNear
      exact (lt_inf hone.fin goodD.ok).2.1

/-- The elements that are not finite give NaN. -/
def Bad (f : Fmt) (xs ys : List f.Bits) : Prop := List.Forall₂ (fun x y => ¬ f.isFinite x → f.isNaN y) xs ys

theorem bad_map {xs : List f.Bits} {g : f.Bits → f.Bits} (h : ∀ x ∈ xs, ¬ f.isFinite x → f.isNaN (g x)) : Bad f xs (xs.map g) := by
  unfold Bad
  rw [List.forall₂_map_right_iff, List.forall₂_same]
  exact h

theorem bad_of_finite {xs ys : List f.Bits} (hl : xs.length = ys.length) (h : ∀ x ∈ xs, f.isFinite x) : Bad f xs ys := by
  unfold Bad
  rw [List.forall₂_iff_get]
  refine ⟨hl, fun i h1 h2 h3 => absurd (h _ (List.get_mem _ _)) h3⟩

theorem foldD_length (xs : List D.Bits) : (foldD E xs).length = xs.length := by
  unfold foldD
  simp only
  split
  · simp
  · split
    · simp
    · split <;> simp

theorem foldF_length (xs : List F.Bits) : (foldF E xs).length = xs.length := by
  unfold foldF
  simp only
  split
  · simp
  · split <;> simp

theorem cosD_bad (xs : List D.Bits) : Bad D xs (cosD E xs) := by
  by_cases h : ∀ x ∈ xs, D.isFinite x
  · exact bad_of_finite (by unfold cosD; rw [cosEnd_eq, List.length_map, foldD_length]) h
  · push Not at h
    obtain ⟨x, hx, hb⟩ := h
    unfold cosD
    rw [foldD_bad E hx hb, cosEnd_eq, List.map_map]
    exact bad_map fun y _ hy => cosElem_nan _ (fun _ => cosSeriesD_nan E) (fun _ => sinSeriesD_nan E) (foldLargeD_bad E hy)

theorem sinD_bad (xs : List D.Bits) : Bad D xs (sinD E xs) := by
  by_cases h : ∀ x ∈ xs, D.isFinite x
  · exact bad_of_finite (by unfold sinD; rw [sinEnd_eq, List.length_zipWith, foldD_length, Nat.min_self]) h
  · push Not at h
    obtain ⟨x, hx, hb⟩ := h
    unfold sinD
    rw [foldD_bad E hx hb, sinEnd_eq, zipWith_map_self]
    exact bad_map fun y _ hy => sinElem_nan _ (fun _ => cosSeriesD_nan E) (fun _ => sinSeriesD_nan E) (foldLargeD_bad E hy)

theorem widen_bad {x : F.Bits} (h : ¬ F.isFinite x) : ¬ D.isFinite (widen E x) := by
  unfold widen Fmt.convert
  rcases notFinite h with h | h
  · rw [if_pos h]
    intro h2
    exact (finite_not goodD.ok h2).1 (E.isNaNW x h)
  · have : ¬ F.isNaN x := by rw [isInf_iff] at h; rw [isNaN_iff]; omega
    rw [if_neg this, if_pos h]
    intro h2
    exact (finite_not goodD.ok h2).2 (ofMag_inf _).1

theorem narrow_nan {x : D.Bits} (h : D.isNaN x) : F.isNaN (narrow E x) := by
  unfold narrow Fmt.convert
  rw [if_pos h]; exact E.isNaNN x h

theorem foldLargeF_nan {x : F.Bits} (h : F.isNaN x) : F.isNaN (foldLargeF E (FloatBits.abs F x)).1 := by
  unfold foldLargeF
  refine narrow_nan E (nmadd_nan _ _ ?_)
  unfold widen Fmt.convert
  rw [if_pos ((Hypot.isNaN_abs x).2 h)]
  exact E.isNaNW _ ((Hypot.isNaN_abs x).2 h)

theorem foldF_nan {xs : List F.Bits} {x : F.Bits} (hx : x ∈ xs) (h : F.isNaN x) : foldF E xs = xs.map fun x => foldLargeF E (FloatBits.abs F x) := by
  have no : ∀ P : F.Bits → Bool, P (FloatBits.abs F x) = false → ¬ (xs.map (FloatBits.abs F)).all P = true := by
    intro P h1 h2
    have := all_abs h2 hx
    rw [h1] at this; exact absurd this (by decide)
  unfold foldF
  simp only
  rw [if_neg (no (fun a => F.lt a piOver4F) (lt_nan (.inl ((Hypot.isNaN_abs x).2 h)))),
    if_neg (no (fun a => F.lt a (F.round .nearest false (6 * F.ratValue piOver4F))) (lt_nan (.inl ((Hypot.isNaN_abs x).2 h)))), List.map_map]
  rfl

theorem wide_bad {xs : List F.Bits} {ys : List D.Bits} (h : Bad D (xs.map (widen E)) ys) : Bad F xs (ys.map (narrow E)) := by
  unfold Bad at h ⊢
  rw [List.forall₂_map_left_iff] at h
  rw [List.forall₂_map_right_iff]
  exact h.imp fun x y H hf => narrow_nan E (H (widen_bad E hf))

theorem narrow_bad {xs : List F.Bits} {n : ℤ} (hn : Near F (lit F n 0) n 0)
    (h : ¬ (xs.any fun x => F.le (lit F n 0) (FloatBits.abs F x)) = true) {x : F.Bits} (hx : x ∈ xs) (hf : ¬ F.isFinite x) : F.isNaN x := by
  rcases notFinite hf with h1 | h1
  · exact h1
  · exfalso
    apply h
    rw [List.any_eq_true]
    refine ⟨x, hx, ?_⟩
    rw [inf_pattern h1]
    exact (lt_inf hn.fin goodF.ok).2.2

theorem cosF_bad (hl : ∀ x, ¬ D.isFinite x → D.isNaN (E.libmCos x)) (ns : List Nat) (xs : List F.Bits)
    (h : ns.sum = xs.length) : Bad F xs (cosF E ns xs) := by
  unfold cosF
  split
  · exact wide_bad E (chunked_rel hl (cosD_bad E) ns _ (by simpa using h))
  · next hb =>
    have hn := (litF1 393382 0 393382 (M := 400000) (by decide) (by decide) (by norm_num) (by norm_num)).toNear
    by_cases hc : ∀ x ∈ xs, F.isFinite x
    · exact bad_of_finite (by rw [cosEnd_eq, List.length_map, foldF_length]) hc
    · push Not at hc
      obtain ⟨x, hx, hbx⟩ := hc
      have hnan := narrow_bad (n := 393382) (by exact_mod_cast hn) hb hx hbx
      rw [foldF_nan E hx hnan, cosEnd_eq, List.map_map]
      exact bad_map fun y hy hy2 => cosElem_nan _ (fun _ => cosSeriesF_nan E) (fun _ => sinSeriesF_nan E)
        (foldLargeF_nan E (narrow_bad (n := 393382) (by exact_mod_cast hn) hb hy hy2))

theorem sinF_bad (hl : ∀ x, ¬ D.isFinite x → D.isNaN (E.libmSin x)) (ns : List Nat) (xs : List F.Bits)
    (h : ns.sum = xs.length) : Bad F xs (sinF E ns xs) := by
  unfold sinF
  split
  · exact wide_bad E (chunked_rel hl (sinD_bad E) ns _ (by simpa using h))
  · next hb =>
    have hn := (litF1 527449 0 527449 (M := 530000) (by decide) (by decide) (by norm_num) (by norm_num)).toNear
    by_cases hc : ∀ x ∈ xs, F.isFinite x
    · exact bad_of_finite (by rw [sinEnd_eq, List.length_zipWith, foldF_length, Nat.min_self]) hc
    · push Not at hc
      obtain ⟨x, hx, hbx⟩ := hc
      have hnan := narrow_bad (n := 527449) (by exact_mod_cast hn) hb hx hbx
      rw [foldF_nan E hx hnan, sinEnd_eq, zipWith_map_self]
      exact bad_map fun y hy hy2 => sinElem_nan _ (fun _ => cosSeriesF_nan E) (fun _ => sinSeriesF_nan E)
        (foldLargeF_nan E (narrow_bad (n := 527449) (by exact_mod_cast hn) hb hy hy2))

end StdSimd.Trig
