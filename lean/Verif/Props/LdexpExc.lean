import Verif.Model.LdexpExc
import Verif.Spec.LdexpExc
import Verif.Props.Ldexp
import Verif.Props.FpExc
/-!
# C66, floating-point exceptions of `ldexp` with AVX-512
-/
namespace StdSimd.Props
open Spec FloatBits FpExc Ldexp

variable {f : Fmt}

theorem roundExc_scaled_huge (g : Wide f) (m : RMode) {x : f.Bits} (hx : f.isFinite x) (h0 : f.ratValue x ≠ 0) {e : ℤ} (he : 2 ^ (f.mbits + 1) ≤ |e|) :
    f.roundExc m (f.ratValue x * 2 ^ e) = { overflow := decide (0 ≤ e), underflow := decide (e < 0), inexact := true } := by
  have hr : (2 * f.bias + f.mbits + 1 : ℤ) ≤ 2 ^ (f.mbits + 1) := by exact_mod_cast g.range
  have hlo := ratValue_ge g.ok hx h0
  have hhi := ratValue_lt g.ok hx
  by_cases hn : e < 0
  · rw [abs_of_neg hn] at he
    have hq : |f.ratValue x * 2 ^ e| < 2 ^ (f.emin - 1) := by
      rw [abs_mul, abs_of_pos (a := (2 : ℚ) ^ e) (by positivity)]
      calc |f.ratValue x| * 2 ^ e < 2 ^ (f.bias + 1) * 2 ^ e := mul_lt_mul_of_pos_right hhi (by positivity)
        _ = 2 ^ ((f.bias + 1 : ℕ) + e) := by rw [zpow_add₀ (by norm_num), zpow_natCast]
        _ ≤ _ := zpow_le_zpow_right₀ (by norm_num) (by unfold Fmt.emin; push_cast; omega)
    have hq0 : f.ratValue x * 2 ^ e ≠ 0 := by positivity
    generalize f.ratValue x * 2 ^ e = q at hq hq0
    have hqe : f.qexp q = f.emin := by
      have : Int.log 2 |q| < f.emin - 1 := (Int.lt_zpow_iff_log_lt (by norm_num) (abs_pos.2 hq0)).1 (by exact_mod_cast hq)
      unfold Fmt.qexp
      exact max_eq_right (by omega)
    have hne : f.roundTo m q ≠ q := by
      unfold Fmt.roundTo
      rw [hqe]
      generalize m.toInt _ = n
      intro h
      have hn0 : n ≠ 0 := by rintro rfl; apply hq0; rw [← h]; simp
      have h1 : (1 : ℚ) ≤ |(n : ℚ)| := by exact_mod_cast Int.one_le_abs hn0
      have h2 : |q| = |(n : ℚ)| * 2 ^ f.emin := by rw [← h, abs_mul, abs_of_pos (a := (2 : ℚ) ^ f.emin) (by positivity)]
      have h3 : (2 : ℚ) ^ f.emin ≤ |q| := by
        rw [h2]; exact le_mul_of_one_le_left (by positivity) h1
      have h4 : (2 : ℚ) ^ (f.emin - 1) ≤ 2 ^ f.emin := zpow_le_zpow_right₀ (by norm_num) (by omega)
      linarith
    have hle := roundTo_le (f := f) m (le_refl f.emin) (q := q)
      (hq.le.trans (zpow_le_zpow_right₀ (by norm_num) (by omega)))
    have hsm : |f.roundTo m q| < 2 ^ (f.bias + 1) := by
      refine hle.trans_lt ?_
      rw [← zpow_natCast]
      exact zpow_lt_zpow_right₀ (by norm_num) (by have := emin_le g.ok; push_cast; omega)
    have hlt : |q| < 2 ^ (1 - (f.bias : ℤ)) :=
      hq.trans_le (zpow_le_zpow_right₀ (by norm_num) (by unfold Fmt.emin; omega))
    unfold Fmt.roundExc
    simp [hne, not_le.2 hsm, hlt, hn]
  · rw [abs_of_nonneg (not_lt.1 hn)] at he
    have hq : (2 : ℚ) ^ ((f.bias + 1 : ℕ) : ℤ) ≤ |f.ratValue x * 2 ^ e| := by
      rw [abs_mul, abs_of_pos (a := (2 : ℚ) ^ e) (by positivity)]
      calc (2 : ℚ) ^ ((f.bias + 1 : ℕ) : ℤ)
        _ ≤ 2 ^ (f.emin + e) := zpow_le_zpow_right₀ (by norm_num) (by unfold Fmt.emin; push_cast; omega)
        _ = 2 ^ f.emin * 2 ^ e := zpow_add₀ (by norm_num) _ _
        _ ≤ _ := mul_le_mul_of_nonneg_right hlo (by positivity)
    generalize f.ratValue x * 2 ^ e = q at hq
    have hge := roundTo_ge (f := f) m (q := q) (k := (f.bias + 1 : ℕ)) (by unfold Fmt.emin; push_cast; omega) hq
    rw [zpow_natCast] at hge
    have hlt : ¬ |q| < 2 ^ (1 - (f.bias : ℤ)) := by
      rw [not_lt]
      exact le_trans (zpow_le_zpow_right₀ (by norm_num) (by push_cast; omega)) hq
    unfold Fmt.roundExc
    simp [hge, hlt, hn, not_lt.1 hn]

/-- The conversion of an exponent raises inexact or nothing; nothing for exponents up to `2 ^ (mbits + 1)`. -/
theorem cvtExp_exc (g : Wide f) (env : f.Env) (e : BitVec 32) :
    (cvtExpE env e).exc = { inexact := decide (f.roundTo env.mode e.toInt ≠ e.toInt) } ∧
      (|e.toInt| ≤ 2 ^ (f.mbits + 1) → f.roundTo env.mode e.toInt = e.toInt) := by
  have he : |e.toInt| ≤ 2 ^ 31 := by
    have h1 := BitVec.le_toInt e
    have h2 := BitVec.toInt_lt (x := e)
    rw [abs_le]; norm_num at *; omega
  constructor
  · show f.roundExc env.mode _ = _
    generalize e.toInt = n at he
    have h31 : |(n : ℚ)| ≤ 2 ^ (31 : ℤ) := by
      have : ((|n| : ℤ) : ℚ) ≤ ((2 ^ 31 : ℤ) : ℚ) := by exact_mod_cast he
      rw [Int.cast_abs] at this
      refine this.trans (le_of_eq (by norm_num))
    have hlt : |f.roundTo env.mode n| < 2 ^ (f.bias + 1) := by
      refine (roundTo_le env.mode (by have := emin_le g.ok; omega) h31).trans_lt ?_
      rw [← zpow_natCast]
      exact zpow_lt_zpow_right₀ (by norm_num) (by have := g.int; push_cast; omega)
    have hu : ¬ (|(n : ℚ)| < 2 ^ (1 - (f.bias : ℤ)) ∧ f.roundTo env.mode n ≠ n) := by
      rintro ⟨h1, h2⟩
      have : (2 : ℚ) ^ (1 - (f.bias : ℤ)) ≤ 2 ^ (0 : ℤ) := zpow_le_zpow_right₀ (by norm_num) (by have := g.int; omega)
      rw [zpow_zero] at this
      have h3 : |n| < 1 := by
        have : ((|n| : ℤ) : ℚ) < 1 := by rw [Int.cast_abs]; linarith
        exact_mod_cast this
      have h4 : n = 0 := by rw [abs_lt] at h3; omega
      subst h4
      exact h2 (roundTo_rep _ (rep_int g.ok (by simp)))
    unfold Fmt.roundExc
    simp only [hu, not_le.2 hlt, decide_false, or_false]
  · intro h
    exact roundTo_rep _ (rep_int g.ok h)

/-- `scalef` by a converted exponent raises the exceptions of `ldexp`, although the exponent may have been rounded. -/
theorem scalef_exc (g : Wide f) (env : f.Env) (x : f.Bits) (e : BitVec 32) :
    (scalefE env x (Fmt.ofInt env e.toInt)).exc = f.ldexpExc env.mode x e.toInt := by
  obtain ⟨k, hfin, hval, h1, h2⟩ := exponent_value env g e
  obtain ⟨n1, n2⟩ := finite_not g.ok hfin
  have n3 : ¬ f.isSignalling (Fmt.ofInt env e.toInt) := fun h => n1 h.1
  show (if _ then _ else _ : Exc) = _
  unfold Fmt.ldexpExc
  by_cases h : f.isNaN x
  · rw [if_pos (.inl h), if_pos h]
    simp [Fmt.quietExc, n3]
  · rw [if_neg (by tauto), if_neg n2, if_neg h]
    by_cases h' : f.isInf x ∨ f.isZero x
    · rw [if_pos h', if_pos h']
    · rw [if_neg h', if_neg h', hval, Int.floor_intCast]
      have hx : f.isFinite x := by
        rw [isFinite_iff]; rw [isNaN_iff] at h
        have : ¬ f.isInf x := by tauto
        rw [isInf_iff] at this; omega
      have h0 : f.ratValue x ≠ 0 := fun q => h' (.inr (isZero_ratValue g.ok q hx))
      by_cases hs : |e.toInt| ≤ 2 ^ (f.mbits + 1)
      · rw [h1 hs]
      · obtain ⟨h3, h4⟩ := h2 (by omega)
        rw [roundExc_scaled_huge g _ hx h0 h3, roundExc_scaled_huge g _ hx h0 (by omega : 2 ^ (f.mbits + 1) ≤ |e.toInt|)]
        have h5 : 0 ≤ k ↔ 0 ≤ e.toInt := by omega
        simp only [h5, h4]

/-- C66, C58. `ldexp` with AVX-512, any length, rounding direction and padding, exactly: the elements are right, and the exceptions are those of `ldexp` of the elements,
and inexact if an exponent is not a number of the floating-point type. -/
theorem C66_ldexp_exceptions (env : f.Env) (hb : f = ⟨8, 23⟩ ∨ f = ⟨11, 52⟩) (xs pad : List f.Bits) (es : List (BitVec 32)) (hl : es.length ≤ xs.length) :
    (∀ i (hi : i < es.length), ∃ r, (ldexpE env xs pad es).val[i]? = some r ∧ Fmt.IsLdexp env (xs[i]'(by omega)) es[i].toInt r) ∧
      (ldexpE env xs pad es).exc = (Exc.any (List.zipWith (fun x e => f.ldexpExc env.mode x e.toInt) xs es)).or
        { inexact := es.any (fun e => decide (f.roundTo env.mode e.toInt ≠ e.toInt)) } := by
  have g := C58_wide hb
  have hm : (es.map (cvtExpE env)).map FP.val = es.map (fun e => Fmt.ofInt env e.toInt) := by
    rw [List.map_map]; rfl
  constructor
  · intro i hi
    refine ⟨scalef env (xs[i]'(by omega)) (Fmt.ofInt env es[i].toInt), ?_, scalef_spec env g _ _⟩
    have e0 : (ldexpE env xs pad es).val = FP.val (lanes (active true es.length) (scalefE env) xs ((es.map (cvtExpE env)).map FP.val ++ pad)) := rfl
    rw [e0, lanes_val, hm, List.getElem?_zipWith, List.getElem?_eq_getElem (by omega), List.getElem?_append_left (by simpa using hi), List.getElem?_map,
      List.getElem?_eq_getElem hi]
    rfl
  · have e1 : (ldexpE env xs pad es).exc = (Exc.any ((es.map (cvtExpE env)).map FP.exc)).or
        (FP.exc (lanes (active true es.length) (scalefE env) xs ((es.map (cvtExpE env)).map FP.val ++ pad))) := rfl
    have e2 : Exc.any ((es.map (cvtExpE env)).map FP.exc) = { inexact := es.any (fun e => decide (f.roundTo env.mode e.toInt ≠ e.toInt)) } := by
      clear hm hl e1
      induction es with
      | nil => rfl
      | cons a l ih =>
        rw [List.map_cons, List.map_cons, any_cons, ih, (cvtExp_exc g env a).1]
        simp [Exc.or]
    rw [e1, e2, lanes_exc, hm]
    simp only [if_true]
    rw [List.take_append_of_le_length (by simp), List.take_of_length_le (l := es.map _) (by simp), List.zipWith_map_right]
    have e3 : List.zipWith (fun a (e : BitVec 32) => FP.exc (scalefE env a (Fmt.ofInt env e.toInt))) (xs.take es.length) es =
        List.zipWith (fun x e => f.ldexpExc env.mode x e.toInt) xs es := by
      have : (fun a (e : BitVec 32) => FP.exc (scalefE env a (Fmt.ofInt env e.toInt))) = fun x e => f.ldexpExc env.mode x e.toInt := by
        funext a e; exact scalef_exc g env a e
      rw [this]
      apply List.ext_getElem
      · simp [Nat.min_comm]
      · intro i _ _; simp
    rw [e3]
    simp [Exc.or, Bool.or_comm]

/-- C66, C58. `ldexp` with AVX-512 raises exactly the exceptions of `ldexp` of the elements, for `double` always, for `float` if every exponent beyond `2 ^ 24` belongs to
a number other than zero.  Missing: `C66_ldexp_zero_wrong`. -/
theorem C66_ldexp_partial (env : f.Env) (hb : f = ⟨8, 23⟩ ∨ f = ⟨11, 52⟩) (xs pad : List f.Bits) (es : List (BitVec 32)) (hl : es.length ≤ xs.length)
    (he : ∀ i (hi : i < es.length), f = ⟨11, 52⟩ ∨ |es[i].toInt| ≤ 2 ^ 24 ∨ f.isFinite (xs[i]'(by omega)) ∧ ¬ f.isZero (xs[i]'(by omega))) :
    (ldexpE env xs pad es).exc = Exc.any (List.zipWith (fun x e => f.ldexpExc env.mode x e.toInt) xs es) := by
  have g := C58_wide hb
  rw [(C66_ldexp_exceptions env hb xs pad es hl).2]
  by_cases h : es.any (fun e => decide (f.roundTo env.mode e.toInt ≠ e.toInt)) = true
  · obtain ⟨e, hm, hd⟩ := List.any_eq_true.1 h
    obtain ⟨i, hi, rfl⟩ := List.getElem_of_mem hm
    have hd := of_decide_eq_true hd
    have hbig : ¬ |es[i].toInt| ≤ 2 ^ (f.mbits + 1) := fun q => hd ((cvtExp_exc g env es[i]).2 q)
    have h31 : |es[i].toInt| ≤ 2 ^ 31 := by
      have h1 := BitVec.le_toInt es[i]
      have h2 := BitVec.toInt_lt (x := es[i])
      rw [abs_le]; norm_num at *; omega
    have hx : f.isFinite (xs[i]'(by omega)) ∧ ¬ f.isZero (xs[i]'(by omega)) := by
      rcases he i hi with q | q | q
      · subst q; norm_num at hbig; omega
      · rcases hb with rfl | rfl
        · exact absurd q hbig
        · norm_num at hbig; omega
      · exact q
    have hi2 : (f.ldexpExc env.mode (xs[i]'(by omega)) es[i].toInt).inexact = true := by
      obtain ⟨a1, a2⟩ := finite_not g.ok hx.1
      unfold Fmt.ldexpExc
      rw [if_neg a1, if_neg (by tauto), roundExc_scaled_huge g _ hx.1 (fun q => hx.2 (isZero_ratValue g.ok q hx.1)) (by omega)]
    have hany : ∀ l : List Exc, (∃ c ∈ l, c.inexact = true) → (Exc.any l).inexact = true := by
      intro l
      induction l with
      | nil => simp
      | cons a l ih =>
        rintro ⟨c, hc, hci⟩
        rw [any_cons]
        show (a.inexact || _) = true
        rcases List.mem_cons.1 hc with rfl | hc
        · rw [hci]; rfl
        · rw [ih ⟨c, hc, hci⟩, Bool.or_true]
    have hz := hany (List.zipWith (fun x e => f.ldexpExc env.mode x e.toInt) xs es)
      ⟨_, List.getElem_mem (n := i) (by simp; omega), by rw [List.getElem_zipWith]; exact hi2⟩
    generalize Exc.any _ = a at hz
    cases a
    simp only at hz
    subst hz
    simp [Exc.or]
  · rw [Bool.not_eq_true] at h
    rw [h]
    exact or_clear _

/-- C66 fails for `ldexp` of `float` with AVX-512: for a zero or an infinity and an odd exponent from `2 ^ 24`, the conversion of the exponent raises inexact, in every
rounding direction; `ldexp` raises nothing. -/
theorem C66_ldexp_zero_wrong (env : Fmt.Env ⟨8, 23⟩) (x : Fmt.Bits ⟨8, 23⟩) (hx : Fmt.isZero ⟨8, 23⟩ x ∨ Fmt.isInf ⟨8, 23⟩ x) (pad : List (Fmt.Bits ⟨8, 23⟩))
    (e : BitVec 32) (ho : e.toInt % 2 = 1) (h1 : 2 ^ 24 ≤ |e.toInt|) (h2 : |e.toInt| < 2 ^ 25) :
    (ldexpE env [x] pad [e]).exc = { inexact := true } ∧ Fmt.ldexpExc ⟨8, 23⟩ env.mode x e.toInt = Exc.clear := by
  have g := C58_wide (f := ⟨8, 23⟩) (.inl rfl)
  have hn : ¬ Fmt.isNaN ⟨8, 23⟩ x := by
    unfold Fmt.isZero Fmt.isInf Fmt.isNaN at *
    tauto
  have hc : Fmt.ldexpExc ⟨8, 23⟩ env.mode x e.toInt = Exc.clear := by
    unfold Fmt.ldexpExc
    rw [if_neg hn, if_pos hx.symm]
  have hd : Fmt.roundTo ⟨8, 23⟩ env.mode e.toInt ≠ e.toInt := by
    have h := roundExc_odd g.ok env.mode ho h1 h2
    have h' := (cvtExp_exc g env e).1
    rw [show (cvtExpE env e).exc = Fmt.roundExc ⟨8, 23⟩ env.mode (e.toInt : ℚ) from rfl] at h'
    rw [h'] at h
    exact of_decide_eq_true h
  refine ⟨?_, hc⟩
  rw [(C66_ldexp_exceptions env (.inl rfl) [x] pad [e] (le_refl _)).2]
  simp [hc, hd, Exc.any, Exc.or, Exc.clear]

/-- The exponent `2 ^ 24 + 1` and a zero. -/
example (env : Fmt.Env ⟨8, 23⟩) : (ldexpE env [0#32] [0#32, 0#32, 0#32] [0x01000001#32]).exc = { inexact := true } :=
  (C66_ldexp_zero_wrong env _ (.inl (by decide)) _ _ (by decide) (by decide) (by decide)).1

/-- Four elements: with small exponents for the zero and the infinity, and huge ones for the numbers, the conditions are met. -/
example (env : Fmt.Env ⟨8, 23⟩) :
    (ldexpE env [0#32, 0x7f800000#32, 0x3f800000#32, 1#32] [] [5#32, 7#32, 0x7fffffff#32, 0x80000000#32]).exc =
      { overflow := true, underflow := true, inexact := true } := by
  have g := C58_wide (f := ⟨8, 23⟩) (.inl rfl)
  have hne : ∀ x : Fmt.Bits ⟨8, 23⟩, Fmt.isFinite ⟨8, 23⟩ x → ¬ Fmt.isZero ⟨8, 23⟩ x → Fmt.ratValue ⟨8, 23⟩ x ≠ 0 :=
    fun x h1 h2 q => h2 (isZero_ratValue g.ok q h1)
  rw [C66_ldexp_partial env (.inl rfl) _ _ _ (by decide)]
  · have a1 : Fmt.ldexpExc ⟨8, 23⟩ env.mode 0#32 (5#32).toInt = Exc.clear := by
      unfold Fmt.ldexpExc; rw [if_neg (by decide), if_pos (by decide)]
    have a2 : Fmt.ldexpExc ⟨8, 23⟩ env.mode 0x7f800000#32 (7#32).toInt = Exc.clear := by
      unfold Fmt.ldexpExc; rw [if_neg (by decide), if_pos (by decide)]
    have a3 : Fmt.ldexpExc ⟨8, 23⟩ env.mode 0x3f800000#32 (0x7fffffff#32).toInt = { overflow := true, inexact := true } := by
      unfold Fmt.ldexpExc
      rw [if_neg (by decide), if_neg (by decide), roundExc_scaled_huge g _ (by decide) (hne _ (by decide) (by decide)) (by decide)]
      rfl
    have a4 : Fmt.ldexpExc ⟨8, 23⟩ env.mode 1#32 (0x80000000#32).toInt = { underflow := true, inexact := true } := by
      unfold Fmt.ldexpExc
      rw [if_neg (by decide), if_neg (by decide), roundExc_scaled_huge g _ (by decide) (hne _ (by decide) (by decide)) (by decide)]
      rfl
    simp only [List.zipWith_cons_cons, List.zipWith_nil_right, a1, a2, a3, a4]
    rfl
  · intro i hi
    have hi : i < 4 := hi
    obtain rfl | rfl | rfl | rfl : i = 0 ∨ i = 1 ∨ i = 2 ∨ i = 3 := by omega
    · exact .inr (.inl (show |(5#32).toInt| ≤ 2 ^ 24 by decide))
    · exact .inr (.inl (show |(7#32).toInt| ≤ 2 ^ 24 by decide))
    · exact .inr (.inr (show Fmt.isFinite ⟨8, 23⟩ 0x3f800000#32 ∧ ¬ Fmt.isZero ⟨8, 23⟩ 0x3f800000#32 by decide))
    · exact .inr (.inr (show Fmt.isFinite ⟨8, 23⟩ 1#32 ∧ ¬ Fmt.isZero ⟨8, 23⟩ 1#32 by decide))

end StdSimd.Props
