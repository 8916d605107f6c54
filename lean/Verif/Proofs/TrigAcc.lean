import Verif.Proofs.TrigEnd
/-! # `sin` and `cos`: accuracy -/
namespace StdSimd.Trig
open Spec FloatBits Math
open StdSimd.Rounding

variable (E : Env)

theorem series_of {f : Fmt} {g : f.Bits → f.Bits} {s : ℝ → ℝ} {p : ℚ → ℚ} {a b : ℚ} {c d : ℝ} {M : ℚ}
    (h1 : ∀ r, f.isFinite r → |f.ratValue r| ≤ 79 / 10 ^ 2 → Appr f (g r) (p (f.ratValue r)) a M)
    (h2 : ∀ r : ℚ, |(r : ℝ)| ≤ 79 / 100 → |((p r : ℚ) : ℝ) - s r| ≤ c) (hb : a = b) (h : (b : ℝ) + c ≤ d) : Series f g s d := by
  intro r hf hr
  subst hb
  have e1 := h1 r hf hr
  have hr' : |((f.ratValue r : ℚ) : ℝ)| ≤ 79 / 100 := by
    have : ((|f.ratValue r| : ℚ) : ℝ) ≤ ((79 / 10 ^ 2 : ℚ) : ℝ) := by exact_mod_cast hr
    push_cast at this
    norm_num at this ⊢
    exact this
  have e2 := h2 _ hr'
  have e3 : |((f.ratValue (g r) : ℚ) : ℝ) - (p (f.ratValue r) : ℚ)| ≤ (a : ℝ) := by
    have : ((|f.ratValue (g r) - p (f.ratValue r)| : ℚ) : ℝ) ≤ (a : ℝ) := by exact_mod_cast e1.err
    push_cast at this
    exact this
  refine ⟨e1.fin, (abs_sub_le _ ((p (f.ratValue r) : ℚ) : ℝ) _).trans ?_⟩
  linarith

theorem cosSeriesF_ok (hm : E.mode = .nearest) : Series F (cosSeriesF E) Real.cos (196 / 10 ^ 9) :=
  series_of (fun _ hf hr => cosSeriesF_appr E hm hf hr) (fun _ h => pCosF_close h) rfl (by push_cast; norm_num)
theorem sinSeriesF_ok (hm : E.mode = .nearest) : Series F (sinSeriesF E) Real.sin (196 / 10 ^ 9) :=
  series_of (fun _ hf hr => sinSeriesF_appr E hm hf hr) (fun _ h => pSinF_close h) rfl (by push_cast; norm_num)
theorem cosSeriesD_ok (hm : E.mode = .nearest) : Series D (cosSeriesD E) Real.cos (35 / 10 ^ 17) :=
  series_of (fun _ hf hr => cosSeriesD_appr E hm hf hr) (fun _ h => pCosD_close h) rfl (by push_cast; norm_num)
theorem sinSeriesD_ok (hm : E.mode = .nearest) : Series D (sinSeriesD E) Real.sin (35 / 10 ^ 17) :=
  series_of (fun _ hf hr => sinSeriesD_appr E hm hf hr) (fun _ h => pSinD_close h) rfl (by push_cast; norm_num)

/-- No reduction. -/
theorem folded_id {f : Fmt} {a : f.Bits} (ha : f.isFinite a) (h0 : 0 ≤ f.ratValue a) (h1 : f.ratValue a ≤ 79 / 10 ^ 2) {d : ℝ} (hd : 0 ≤ d) :
    Folded f (a, 0) (f.ratValue a) d :=
  ⟨ha, by rwa [abs_of_nonneg h0], 0, rfl, by simpa using hd⟩

theorem all_abs {f : Fmt} {xs : List f.Bits} {P : f.Bits → Bool} (h : (xs.map (FloatBits.abs f)).all P = true) {x : f.Bits} (hx : x ∈ xs) :
    P (FloatBits.abs f x) = true := List.all_eq_true.1 h _ (List.mem_map_of_mem hx)

theorem thresholdF : Near F (F.round .nearest false (6 * F.ratValue piOver4F)) (6 * (0x1921FB6 / 2 ^ 25)) (1 / 10 ^ 6) := by
  have h := round_near goodF false (q := 6 * F.ratValue piOver4F) (B := 5) (by rw [piOver4F_val.eq]; norm_num) (by norm_num)
  rw [piOver4F_val.eq] at h ⊢
  exact h.mono (by norm_num [eta])
theorem thresholdD : Near D (D.round .nearest false (1025 * D.ratValue piOver4D)) (1025 * (0x1921fb54442d18 / 2 ^ 53)) (1 / 10 ^ 6) := by
  have h := round_near goodD false (q := 1025 * D.ratValue piOver4D) (B := 806) (by rw [piOver4D_val.eq]; norm_num) (by norm_num)
  rw [piOver4D_val.eq] at h ⊢
  exact h.mono (by norm_num [eta])

/-- `__fold_input` of `double`: one function of the absolute value for all elements. -/
theorem foldD_spec (hm : E.mode = .nearest) (xs : List D.Bits) : ∃ g : D.Bits → D.Bits × BitVec 32,
    foldD E xs = xs.map (fun x => g (FloatBits.abs D x)) ∧
    (∀ x ∈ xs, D.isFinite x → |D.ratValue x| ≤ 2 ^ 31 → Folded D (g (FloatBits.abs D x)) |D.ratValue x| (1 / 10 ^ 14)) ∧
    ((∀ x ∈ xs, D.isFinite x ∧ |D.ratValue x| ≤ 805) → ∀ x ∈ xs, Folded D (g (FloatBits.abs D x)) |D.ratValue x| (27 / 10 ^ 17)) := by
  have e0 : ∀ x : D.Bits, 0 ≤ D.ratValue (FloatBits.abs D x) := fun x => by rw [ratValue_abs]; exact abs_nonneg _
  unfold foldD
  simp only
  split
  · next h =>
    refine ⟨fun a => (a, 0), by rw [List.map_map]; rfl, ?_, ?_⟩
    · intro x hx hf _
      have := all_abs h hx
      rw [lt_finite goodD.ok (abs_fin hf) piOver4D_val.fin, piOver4D_val.eq] at this
      have := of_decide_eq_true this
      rw [← ratValue_abs]
      exact folded_id (abs_fin hf) (e0 x) (this.le.trans (by norm_num)) (by norm_num)
    · intro H x hx
      obtain ⟨hf, _⟩ := H x hx
      have := all_abs h hx
      rw [lt_finite goodD.ok (abs_fin hf) piOver4D_val.fin, piOver4D_val.eq] at this
      have := of_decide_eq_true this
      rw [← ratValue_abs]
      exact folded_id (abs_fin hf) (e0 x) (this.le.trans (by norm_num)) (by norm_num)
  · split
    · next h =>
      have key : ∀ x ∈ xs, D.isFinite x → D.ratValue (FloatBits.abs D x) ≤ 806 := by
        intro x hx hf
        have h1 := all_abs h hx
        rw [lt_finite goodD.ok (abs_fin hf) thresholdD.fin] at h1
        have h1 := of_decide_eq_true h1
        have h2 := (abs_le.1 thresholdD.err).2
        norm_num at h2 ⊢
        linarith
      refine ⟨fun a => (foldSmallD E a (foldY E a), toInt32 D E.undefD (foldY E a) &&& 3), by rw [List.map_map]; rfl, ?_, ?_⟩
      · intro x hx hf _
        rw [← ratValue_abs]
        exact (foldSmallD_spec E hm (abs_fin hf) (e0 x) (key x hx hf)).mono (by norm_num)
      · intro H x hx
        rw [← ratValue_abs]
        exact foldSmallD_spec E hm (abs_fin (H x hx).1) (e0 x) (key x hx (H x hx).1)
    · next h =>
      have no : ¬ ∀ x ∈ xs, D.isFinite x ∧ |D.ratValue x| ≤ 805 := by
        intro H
        apply h
        rw [List.all_eq_true]
        intro a ha
        obtain ⟨x, hx, rfl⟩ := List.mem_map.1 ha
        obtain ⟨hf, hb⟩ := H x hx
        rw [lt_finite goodD.ok (abs_fin hf) thresholdD.fin, ratValue_abs]
        have h2 := (abs_le.1 thresholdD.err).1
        apply decide_eq_true
        norm_num at h2 ⊢
        linarith
      split
      · next h =>
        refine ⟨fun a => (foldMediumD E a (foldY E a), toInt32 D E.undefD (foldY E a) &&& 3), by rw [List.map_map]; rfl, ?_, fun H => absurd H no⟩
        intro x hx hf hb
        rw [← ratValue_abs] at hb ⊢
        exact foldMediumD_spec E hm (abs_fin hf) (e0 x) hb (all_abs (P := fun a => D.le (foldY E a) (lit D 1 30)) h hx)
      · refine ⟨fun a => (foldLargeD E a (foldY E a), toInt32 D E.undefD (foldY E a) &&& 3), by rw [List.map_map]; rfl, ?_, fun H => absurd H no⟩
        intro x hx hf hb
        rw [← ratValue_abs] at hb ⊢
        exact foldLargeD_spec E hm (abs_fin hf) (e0 x) hb

/-- `__fold_input` of `float`. -/
theorem foldF_spec (hm : E.mode = .nearest) (xs : List F.Bits) : ∃ g : F.Bits → F.Bits × BitVec 32,
    foldF E xs = xs.map (fun x => g (FloatBits.abs F x)) ∧
    ∀ x ∈ xs, F.isFinite x → |F.ratValue x| ≤ 530000 → Folded F (g (FloatBits.abs F x)) |F.ratValue x| (1 / 10 ^ 7) := by
  have e0 : ∀ x : F.Bits, 0 ≤ F.ratValue (FloatBits.abs F x) := fun x => by rw [ratValue_abs]; exact abs_nonneg _
  unfold foldF
  simp only
  split
  · next h =>
    refine ⟨fun a => (a, 0), by rw [List.map_map]; rfl, ?_⟩
    intro x hx hf _
    have := all_abs h hx
    rw [lt_finite goodF.ok (abs_fin hf) piOver4F_val.fin, piOver4F_val.eq] at this
    have := of_decide_eq_true this
    rw [← ratValue_abs]
    exact folded_id (abs_fin hf) (e0 x) (this.le.trans (by norm_num)) (by norm_num)
  · split
    · next h =>
      refine ⟨foldSmallF E, by rw [List.map_map]; rfl, ?_⟩
      intro x hx hf _
      have h1 := all_abs h hx
      rw [lt_finite goodF.ok (abs_fin hf) thresholdF.fin] at h1
      have h1 := of_decide_eq_true h1
      have h2 := (abs_le.1 thresholdF.err).2
      rw [← ratValue_abs]
      refine foldSmallF_spec E hm (abs_fin hf) (e0 x) ?_
      norm_num at h2 ⊢
      linarith
    · refine ⟨foldLargeF E, by rw [List.map_map]; rfl, ?_⟩
      intro x hx hf hb
      rw [← ratValue_abs] at hb ⊢
      exact foldLargeF_spec E hm (abs_fin hf) (e0 x) hb

theorem zipWith_map_self {α β γ : Type} (g : α → β → γ) (h : α → β) (xs : List α) : List.zipWith g xs (xs.map h) = xs.map fun x => g x (h x) := by
  induction xs with
  | nil => rfl
  | cons a xs ih => simp [ih]

/-- `cos` of `double`. -/
theorem cosD_acc (hm : E.mode = .nearest) (xs : List D.Bits) : ∃ g : D.Bits → D.Bits,
    cosD E xs = xs.map g ∧
    (∀ x ∈ xs, D.isFinite x → |D.ratValue x| ≤ 2 ^ 31 → D.isFinite (g x) ∧ |(D.ratValue (g x) : ℝ) - Real.cos (D.ratValue x)| ≤ 1 / 2 ^ 46) ∧
    ((∀ x ∈ xs, D.isFinite x ∧ |D.ratValue x| ≤ 805) → ∀ x ∈ xs, |(D.ratValue (g x) : ℝ) - Real.cos (D.ratValue x)| ≤ 1 / 2 ^ 50) := by
  obtain ⟨g, h1, h2, h3⟩ := foldD_spec E hm xs
  refine ⟨fun x => cosElem E.D (cosSeriesD E) (sinSeriesD E) (g (FloatBits.abs D x)), ?_, ?_, ?_⟩
  · unfold cosD; rw [h1, cosEnd_eq, List.map_map]; rfl
  · intro x hx hf hb
    have := cosElem_spec E.D (cosSeriesD_ok E hm) (sinSeriesD_ok E hm) (h2 x hx hf hb)
    rw [Rat.cast_abs, Real.cos_abs] at this
    exact ⟨this.1, this.2.trans (by norm_num)⟩
  · intro H x hx
    have := cosElem_spec E.D (cosSeriesD_ok E hm) (sinSeriesD_ok E hm) (h3 H x hx)
    rw [Rat.cast_abs, Real.cos_abs] at this
    exact this.2.trans (by norm_num)

/-- `sin` of `double`. -/
theorem sinD_acc (hm : E.mode = .nearest) (xs : List D.Bits) : ∃ g : D.Bits → D.Bits,
    sinD E xs = xs.map g ∧
    (∀ x ∈ xs, D.isFinite x → |D.ratValue x| ≤ 2 ^ 31 → D.isFinite (g x) ∧ |(D.ratValue (g x) : ℝ) - Real.sin (D.ratValue x)| ≤ 1 / 2 ^ 46) ∧
    ((∀ x ∈ xs, D.isFinite x ∧ |D.ratValue x| ≤ 805) → ∀ x ∈ xs, |(D.ratValue (g x) : ℝ) - Real.sin (D.ratValue x)| ≤ 1 / 2 ^ 50) := by
  obtain ⟨g, h1, h2, h3⟩ := foldD_spec E hm xs
  refine ⟨fun x => sinElem E.D (cosSeriesD E) (sinSeriesD E) x (g (FloatBits.abs D x)), ?_, ?_, ?_⟩
  · unfold sinD; rw [h1, sinEnd_eq, zipWith_map_self]
  · intro x hx hf hb
    have := sinElem_spec E.D (cosSeriesD_ok E hm) (sinSeriesD_ok E hm) (h2 x hx hf hb)
    exact ⟨this.1, this.2.trans (by norm_num)⟩
  · intro H x hx
    have := sinElem_spec E.D (cosSeriesD_ok E hm) (sinSeriesD_ok E hm) (h3 H x hx)
    exact this.2.trans (by norm_num)

end StdSimd.Trig
