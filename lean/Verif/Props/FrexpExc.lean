import Verif.Model.FrexpExc
import Verif.Props.MathExc
import Verif.Proofs.Hypot
/-!
# C66, floating-point exceptions of `frexp`
-/
namespace StdSimd.Props
open Spec FloatBits FpExc Rounding Math

variable {f : Fmt}

/-- From here on numbers overflow when they are scaled: 65536 for `float`, `2 ^ 512` for `double`. -/
def frexpLimit (f : Fmt) : ℚ := if f.width = 32 then 2 ^ 16 else 2 ^ 512

theorem frexpE_val (env : f.Env) (hf : f.Ok) (p : ClassPath) (fin : Bool) (xs : List f.Bits) :
    (frexpE env p fin xs).val = frexp env fin (fun x => decide (f.isNormal x)) xs := by
  have h1 := fun x => (C66_classification_partial hf p .isnormal x).1
  have v1 : (lanes1 (classify f p .isnormal) xs).val = xs.map (fun x => decide (f.isNormal x)) := by
    rw [lanes1_val]; exact List.map_congr_left (fun x _ => h1 x)
  have v2 : ∀ x, (frexpElemE env p fin x).val = frexpElem env fin (fun x => decide (f.isNormal x)) x := by
    intro x
    have h : (classify f p .isnormal x).val = decide (f.isNormal x) := h1 x
    unfold frexpElemE frexpElem
    simp only [← h]
    cases fin <;> rfl
  unfold frexpE frexp
  simp only [val_bind, v1]
  have a1 : (List.map (fun x => decide (f.isNormal x)) xs).all id = xs.all (fun x => decide (f.isNormal x)) := by rw [List.all_map]; rfl
  rw [a1]
  split
  · rfl
  · rw [lanes1_val]; exact List.map_congr_left (fun x _ => v2 x)

/-- The scaling of a number that is not a signalling NaN. -/
theorem scale_exc (m : RMode) (hb : f = ⟨8, 23⟩ ∨ f = ⟨11, 52⟩) (x : f.Bits) (hs : ¬ f.isSignalling x) :
    f.mulExc m x (subnormScale f) =
      if f.isFinite x ∧ frexpLimit f ≤ |f.ratValue x| then { overflow := true, inexact := true } else Exc.clear := by
  have g : Good f := by rcases hb with rfl | rfl; exacts [good32, good64]
  have hn := powBits_num g.ok (f := f) (k := expOffset f) g.fits
  have hp := finite_not g.ok hn.1
  rw [g.scale]
  unfold Fmt.mulExc
  by_cases hx : f.isFinite x
  · have hx' := finite_not g.ok hx
    rw [if_neg (by tauto), if_neg (by tauto), hn.2]
    have hr : Rep f (f.ratValue x * 2 ^ expOffset f) := rep_scale (rep_ratValue g.ok x) _
    have hl : frexpLimit f ≤ |f.ratValue x| ↔ 2 ^ (f.bias + 1) ≤ |f.ratValue x * 2 ^ expOffset f| := by
      rw [abs_mul, abs_of_pos (show (0 : ℚ) < 2 ^ expOffset f by positivity)]
      have e : (2 : ℚ) ^ (f.bias + 1) = frexpLimit f * 2 ^ expOffset f := by
        rcases hb with rfl | rfl
        · show (2 : ℚ) ^ (127 + 1) = 2 ^ 16 * 2 ^ 112
          rw [← pow_add]
        · show (2 : ℚ) ^ (1023 + 1) = 2 ^ 512 * 2 ^ 512
          rw [← pow_add]
      rw [e]
      exact (mul_le_mul_iff_left₀ (by positivity)).symm
    split
    · rename_i h
      unfold Fmt.roundExc
      rw [roundTo_rep m hr]
      simp only [hl.1 h.2, ne_eq, not_true_eq_false, and_false, or_true, decide_true, decide_false]
    · rename_i h
      refine roundExc_exact m hr ?_
      rw [← not_le, ← hl]; tauto
  · rw [if_neg (fun h : f.isFinite x ∧ _ => hx h.1)]
    split
    · unfold Fmt.quietExc Exc.clear
      have : ¬ f.isSignalling (powBits f (expOffset f)) := fun h => hp.1 h.1
      simp [hs, this]
    · rename_i h
      have hi : f.isInf x := by
        rw [isFinite_iff] at hx
        have h' : ¬ f.isNaN x := fun h0 => h (Or.inl h0)
        rw [isNaN_iff] at h'
        rw [isInf_iff]; omega
      have z1 : ¬ f.isZero x := fun hz => by
        have := hi.1
        have h2 : 2 ^ 2 ≤ 2 ^ f.ebits := Nat.pow_le_pow_right (by omega) g.ok.1
        have := hz.1
        omega
      have z2 : ¬ f.isZero (powBits f (expOffset f)) := fun hz => by
        have := (Hypot.num_zero g.ok hn).1 hz
        exact absurd this (by positivity)
      rw [if_pos (Or.inl hi)]
      simp [z1, z2, Exc.clear]

theorem frexpElem_exc (env : f.Env) (hb : f = ⟨8, 23⟩ ∨ f = ⟨11, 52⟩) (p : ClassPath) (fin : Bool) (x : f.Bits) (hs : ¬ f.isSignalling x) :
    (frexpElemE env p fin x).exc = if f.isFinite x ∧ frexpLimit f ≤ |f.ratValue x| then { overflow := true, inexact := true } else Exc.clear := by
  have g : Good f := by rcases hb with rfl | rfl; exacts [good32, good64]
  have e1 : (classify f p .isnormal x).exc = Exc.clear := (C66_classification_partial g.ok p .isnormal x).2 (Or.inl (by decide))
  have e2 : f.quietExc x 0 = Exc.clear := quiet_clear hs (fun h0 => by
    have := (isNaN_iff _).1 h0.1
    rw [zero_mag] at this; omega)
  rw [← scale_exc env.mode hb x hs]
  unfold frexpElemE
  cases fin
  · show Exc.clear.or ((f.mulExc env.mode x (subnormScale f)).or ((classify f p .isnormal x).exc.or ((classify f p .isnormal x).exc.or ((f.quietExc x 0).or Exc.clear)))) = _
    rw [e1, e2]; simp
  · show (f.quietExc x 0).or ((f.mulExc env.mode x (subnormScale f)).or ((classify f p .isnormal x).exc.or ((classify f p .isnormal x).exc.or ((f.quietExc x 0).or Exc.clear)))) = _
    rw [e1, e2]; simp

theorem frexpE_exc (env : f.Env) (hf : f.Ok) (p : ClassPath) (fin : Bool) (xs : List f.Bits) :
    (frexpE env p fin xs).exc = if xs.all (fun x => decide (f.isNormal x)) then Exc.clear else (lanes1 (frexpElemE env p fin) xs).exc := by
  have h1 := fun x => (C66_classification_partial hf p .isnormal x)
  have v1 : (lanes1 (classify f p .isnormal) xs).val = xs.map (fun x => decide (f.isNormal x)) := by
    rw [lanes1_val]; exact List.map_congr_left (fun x _ => (h1 x).1)
  have e1 : (lanes1 (classify f p .isnormal) xs).exc = Exc.clear := lanes1_clear _ _ (fun x _ => (h1 x).2 (Or.inl (by decide)))
  unfold frexpE
  simp only [exc_bind, v1, e1]
  have a1 : (List.map (fun x => decide (f.isNormal x)) xs).all id = xs.all (fun x => decide (f.isNormal x)) := by rw [List.all_map]; rfl
  rw [a1]
  split <;> simp <;> rfl

/-- C66, C47. `frexp` without AVX-512: the results are right; nothing is raised if all elements are normal numbers, or if there is no signalling NaN and no
number of at least 65536 (`float`) or `2 ^ 512` (`double`).  C Annex F.10.3.7 wants that nothing is raised for any elements but signalling NaNs; missing:
`C66_frexp_overflow_wrong`. -/
theorem C66_frexp_partial (env : f.Env) (hb : f = ⟨8, 23⟩ ∨ f = ⟨11, 52⟩) (p : ClassPath) (fin : Bool) (xs : List f.Bits)
    (hfin : fin = true → ∀ x ∈ xs, f.isFinite x) :
    List.Forall₂ (fun x r => f.IsFrexp x r.1 r.2.toInt) xs (frexpE env p fin xs).val ∧
      ((∀ x ∈ xs, f.isNormal x) → (frexpE env p fin xs).exc = Exc.clear) ∧
      ((∀ x ∈ xs, ¬ f.isSignalling x ∧ (f.isFinite x → |f.ratValue x| < frexpLimit f)) → (frexpE env p fin xs).exc = Exc.clear) := by
  have g : Good f := by rcases hb with rfl | rfl; exacts [good32, good64]
  refine ⟨?_, fun h => ?_, fun h => ?_⟩
  · rw [frexpE_val env g.ok]
    exact C47_frexp env hb fin _ xs (fun _ _ => rfl) hfin
  · rw [frexpE_exc env g.ok, if_pos (by rw [List.all_eq_true]; intro x hx; simpa using h x hx)]
  · rw [frexpE_exc env g.ok]
    split
    · rfl
    · refine lanes1_clear _ _ (fun x hx => ?_)
      rw [frexpElem_exc env hb p fin x (h x hx).1, if_neg]
      exact fun hl => absurd ((h x hx).2 hl.1) (not_lt.2 hl.2)

/-- C66 fails for `frexp` without AVX-512, exactly: a zero, a subnormal number, an infinity or a NaN in one element makes every number of at least 65536
(`float`) or `2 ^ 512` (`double`) in the others raise overflow and inexact. -/
theorem C66_frexp_overflow_wrong (env : f.Env) (hb : f = ⟨8, 23⟩ ∨ f = ⟨11, 52⟩) (p : ClassPath) (fin : Bool) (xs : List f.Bits)
    (hs : ∀ x ∈ xs, ¬ f.isSignalling x) :
    (frexpE env p fin xs).exc = if (∃ y ∈ xs, ¬ f.isNormal y) ∧ (∃ x ∈ xs, f.isFinite x ∧ frexpLimit f ≤ |f.ratValue x|)
      then { overflow := true, inexact := true } else Exc.clear := by
  have g : Good f := by rcases hb with rfl | rfl; exacts [good32, good64]
  have key : ∀ l : List f.Bits, (∀ x ∈ l, ¬ f.isSignalling x) → (lanes1 (frexpElemE env p fin) l).exc =
      if ∃ x ∈ l, f.isFinite x ∧ frexpLimit f ≤ |f.ratValue x| then { overflow := true, inexact := true } else Exc.clear := by
    intro l
    induction l with
    | nil => intro _; simp; rfl
    | cons a l ih =>
      intro h
      show (frexpElemE env p fin a).exc.or (lanes1 (frexpElemE env p fin) l).exc = _
      rw [ih (fun x hx => h x (by simp [hx])), frexpElem_exc env hb p fin a (h a (by simp))]
      by_cases h1 : f.isFinite a ∧ frexpLimit f ≤ |f.ratValue a|
      · have h2 : ∃ x ∈ a :: l, f.isFinite x ∧ frexpLimit f ≤ |f.ratValue x| := ⟨a, by simp, h1⟩
        rw [if_pos h1, if_pos h2]
        split <;> rfl
      · have e : (∃ x ∈ a :: l, f.isFinite x ∧ frexpLimit f ≤ |f.ratValue x|) ↔ ∃ x ∈ l, f.isFinite x ∧ frexpLimit f ≤ |f.ratValue x| := by
          constructor
          · rintro ⟨x, hx, h2⟩
            rcases List.mem_cons.1 hx with rfl | hx
            · exact absurd h2 h1
            · exact ⟨x, hx, h2⟩
          · rintro ⟨x, hx, h2⟩; exact ⟨x, by simp [hx], h2⟩
        rw [if_neg h1]
        by_cases h3 : ∃ x ∈ l, f.isFinite x ∧ frexpLimit f ≤ |f.ratValue x|
        · rw [if_pos h3, if_pos (e.2 h3)]; rfl
        · rw [if_neg h3, if_neg (fun h => h3 (e.1 h))]; rfl
  rw [frexpE_exc env g.ok]
  by_cases h : xs.all (fun x => decide (f.isNormal x)) = true
  · rw [if_pos h, if_neg]
    rintro ⟨⟨y, hy, hn⟩, _⟩
    have := List.all_eq_true.1 h y hy
    exact hn (by simpa using this)
  · rw [if_neg h, key xs hs]
    have hy : ∃ y ∈ xs, ¬ f.isNormal y := by
      rw [List.all_eq_true] at h
      push Not at h
      obtain ⟨y, hy, h⟩ := h
      exact ⟨y, hy, by simpa using h⟩
    by_cases h3 : ∃ x ∈ xs, f.isFinite x ∧ frexpLimit f ≤ |f.ratValue x|
    · rw [if_pos h3, if_pos ⟨hy, h3⟩]
    · rw [if_neg h3, if_neg (fun h => h3 h.2)]

-- `frexp` of 0 and `2 ^ 127`; of 1 and -0
example (env : b32.Env) (p : ClassPath) (x y : b32.Bits) (hx : x = 0#32) (hy : y = 0x7f000000#32) :
    (frexpE env p false [x, y]).exc = { overflow := true, inexact := true } ∧ (frexpE env p false [x]).exc = Exc.clear ∧
      (frexpE env p false [y]).exc = Exc.clear := by
  have s1 : ¬ b32.isSignalling x := by subst hx; decide +kernel
  have s2 : ¬ b32.isSignalling y := by subst hy; decide +kernel
  have n1 : ¬ b32.isNormal x := by subst hx; decide +kernel
  have n2 : b32.isNormal y := by subst hy; decide +kernel
  have l1 : ¬ (b32.isFinite x ∧ frexpLimit b32 ≤ |b32.ratValue x|) := by subst hx; decide +kernel
  have l2 : b32.isFinite y ∧ frexpLimit b32 ≤ |b32.ratValue y| := by subst hy; decide +kernel
  refine ⟨?_, ?_, ?_⟩ <;> rw [C66_frexp_overflow_wrong env (Or.inl rfl) p false _ (by simp [s1, s2])]
  · exact if_pos ⟨⟨x, by simp, n1⟩, ⟨y, by simp, l2⟩⟩
  · exact if_neg (fun h => l1 (by simpa using h.2))
  · exact if_neg (fun h => absurd n2 (by simpa using h.1))

end StdSimd.Props
