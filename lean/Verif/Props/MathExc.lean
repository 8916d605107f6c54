import Verif.Model.MathExc
import Verif.Props.FpExc
import Verif.Props.Math
/-!
# C66, floating-point exceptions of `modf` and `logb`
-/
namespace StdSimd.Props
open Spec FloatBits FpExc Rounding Math

variable {f : Fmt}

/-- C66, C49. `modf` of any `trunc` that truncates: the results are right, and for numbers no exceptions are raised other than those of `trunc`
(none with 64-byte registers, inexact otherwise, which C Annex F.10.3.12 does not permit). -/
theorem C66_modf_partial (env : f.Env) (hf : f.Ok) (tr : f.Bits → FP f.Bits) (htr : Fmt.RoundsTo f (fun x => (tr x).val) truncZ) (p : ClassPath)
    (fin : Bool) (x : f.Bits) (hfin : fin = true → f.isFinite x) :
    f.IsModf x (modfE env tr p fin x).val.1 (modfE env tr p fin x).val.2 ∧
      (f.isFinite x → (modfE env tr p fin x).exc = (tr x).exc) := by
  have hc := C66_classification_partial hf p .isinf x
  constructor
  · have h := C49_modf_partial env hf _ htr fin x hfin
    have e : (modfE env tr p fin x).val = modf env (fun x => (tr x).val) fin x := by
      unfold modfE modf
      cases fin
      · have : (classify f p .isinf x).val = FloatBits.isinf f x := by rw [hc.1, (C34_isinf hf x).1]; rfl
        simp only [Bool.not_false, Bool.true_and, ← this]
        rfl
      · rfl
    rw [e]; exact h
  · intro hx
    obtain ⟨hr, hab⟩ := trunc_diff hf x hx
    have ht := htr.finite x hx
    have hfr1 := Int.fract_lt_one |f.ratValue x|
    have hb1 : (1 : ℚ) ≤ 2 ^ (f.bias + 1) := one_le_pow₀ (by norm_num)
    have e1 : f.subExc env.mode x (tr x).val = Exc.clear := by
      rw [subExc_finite hf _ hx ht.1, ht.2]; exact roundExc_exact _ hr (by rw [hab]; linarith)
    have e2 : (classify f p .isinf x).exc = Exc.clear := hc.2 (Or.inr (fun h => (finite_not hf hx).1 h.1))
    unfold modfE
    cases fin
    · show (tr x).exc.or ((f.subExc env.mode x (tr x).val).or ((classify f p .isinf x).exc.or (Exc.clear.or Exc.clear))) = _
      rw [e1, e2]; simp
    · show (tr x).exc.or ((f.subExc env.mode x (tr x).val).or (Exc.clear.or Exc.clear)) = _
      rw [e1]; simp

/-- C66 fails for `modf` of infinities: `inf - inf` raises invalid; C Annex F.10.3.12 wants no exception. -/
theorem C66_modf_infinite_invalid (env : f.Env) (hf : f.Ok) (tr : f.Bits → FP f.Bits) (htr : Fmt.RoundsTo f (fun x => (tr x).val) truncZ) (p : ClassPath)
    (fin : Bool) (x : f.Bits) (hx : f.isInf x) : (modfE env tr p fin x).exc.invalid = true := by
  have h1 : (tr x).val = x := htr.inf x hx
  have hn : ¬ f.isNaN x := by rw [isInf_iff] at hx; rw [isNaN_iff]; omega
  have e1 : (f.subExc env.mode x (tr x).val).invalid = true := by
    unfold Fmt.subExc
    rw [h1, if_neg (by simp [hn]), if_pos (Or.inl hx)]
    simp [hx]
  show (Exc.or _ (Exc.or (f.subExc env.mode x (tr x).val) _)).invalid = true
  simp [or_invalid, e1]

theorem lanes1_val {α : Type} (g : f.Bits → FP α) (xs : List f.Bits) : (lanes1 g xs).val = xs.map (fun x => (g x).val) := by
  show (xs.map g).map FP.val = _
  rw [List.map_map]; rfl

theorem lanes1_clear {α : Type} (g : f.Bits → FP α) (xs : List f.Bits) (h : ∀ x ∈ xs, (g x).exc = Exc.clear) : (lanes1 g xs).exc = Exc.clear := by
  show Exc.any ((xs.map g).map FP.exc) = _
  apply any_clear
  intro e he
  simp only [List.map_map, List.mem_map] at he
  obtain ⟨x, hx, rfl⟩ := he
  exact h x hx

theorem zipWith_maps {α β γ δ : Type} (g : β → γ → δ) (a : α → β) (b : α → γ) (l : List α) :
    List.zipWith g (l.map a) (l.map b) = l.map (fun x => g (a x) (b x)) := by
  induction l with
  | nil => rfl
  | cons x l ih => simp [ih]
theorem zip_maps {α β γ : Type} (a : α → β) (b : α → γ) (l : List α) : (l.map a).zip (l.map b) = l.map (fun x => (a x, b x)) := zipWith_maps _ _ _ _
theorem zip_map_self {α γ : Type} (b : α → γ) (l : List α) : l.zip (l.map b) = l.map (fun x => (x, b x)) := by
  have := zip_maps id b l
  rwa [List.map_id] at this

/-- The tests of `logb`, as lists. -/
theorem logbE_val (env : f.Env) (hf : f.Ok) (p : ClassPath) (xs : List f.Bits) :
    (logbE env p xs).val = logb env (fun x => decide (f.isNormal x)) xs := by
  have h1 := fun x => (C66_classification_partial hf p .isnormal x).1
  have h2 : ∀ x, (classify f p .isnan x).val = isnanEq f x := fun x => by rw [(C66_classification_partial hf p .isnan x).1, (C34_isnan hf x).1]; rfl
  have h3 : ∀ x, (classify f p .isinf x).val = FloatBits.isinf f x := fun x => by
    rw [(C66_classification_partial hf p .isinf x).1, (C34_isinf hf x).1]; rfl
  have v1 : (lanes1 (classify f p .isnormal) xs).val = xs.map (fun x => decide (f.isNormal x)) := by
    rw [lanes1_val]; exact List.map_congr_left (fun x _ => h1 x)
  have v2 : (lanes1 (classify f p .isnan) xs).val = xs.map (isnanEq f) := by rw [lanes1_val]; exact List.map_congr_left (fun x _ => h2 x)
  have v3 : (lanes1 (classify f p .isinf) xs).val = xs.map (FloatBits.isinf f) := by rw [lanes1_val]; exact List.map_congr_left (fun x _ => h3 x)
  have v4 : (lanes1 (fun x => cmpQ f f.eq x 0) xs).val = xs.map (fun x => f.eq x 0) := lanes1_val _ _
  have v5 : (lanes1 (fun x => fmul env (FloatBits.abs f x) (powBits f 112)) xs).val = xs.map (fun x => Fmt.mul env (FloatBits.abs f x) (powBits f 112)) := lanes1_val _ _
  unfold logbE logb
  simp only [val_bind, v1]
  have a1 : (List.map (fun x => decide (f.isNormal x)) xs).all id = xs.all (fun x => decide (f.isNormal x)) := by rw [List.all_map]; rfl
  rw [a1]
  split
  · rfl
  · simp only [val_bind, v2, v3, v4, zipWith_maps, zip_map_self, List.all_map]
    have hh : ((id : Bool → Bool) ∘ fun x => decide (f.isNormal x) || ((f.eq x 0 || isnanEq f x) || FloatBits.isinf f x)) =
        fun x => (logbSpecial env (fun x => decide (f.isNormal x)) x).2 := rfl
    rw [hh]
    split
    · rfl
    · simp only [val_bind, v5, List.map_map, zip_maps, zipWith_maps]
      rfl

/-- The exceptions of `logb`: those of the tests, and of the multiplication if there are elements that need it. -/
theorem logbE_exc (env : f.Env) (hf : f.Ok) (p : ClassPath) (xs : List f.Bits) :
    (logbE env p xs).exc = (lanes1 (classify f p .isnormal) xs).exc.or (if xs.all (fun x => decide (f.isNormal x)) then Exc.clear else
      (lanes1 (fun x => cmpQ f f.eq x 0) xs).exc.or ((lanes1 (classify f p .isnan) xs).exc.or ((lanes1 (classify f p .isinf) xs).exc.or
        (if xs.all (fun x => (logbSpecial env (fun x => decide (f.isNormal x)) x).2) then Exc.clear else
          (lanes1 (fun x => fmul env (FloatBits.abs f x) (powBits f 112)) xs).exc)))) := by
  have h1 := fun x => (C66_classification_partial hf p .isnormal x).1
  have h2 : ∀ x, (classify f p .isnan x).val = isnanEq f x := fun x => by rw [(C66_classification_partial hf p .isnan x).1, (C34_isnan hf x).1]; rfl
  have h3 : ∀ x, (classify f p .isinf x).val = FloatBits.isinf f x := fun x => by
    rw [(C66_classification_partial hf p .isinf x).1, (C34_isinf hf x).1]; rfl
  have v1 : (lanes1 (classify f p .isnormal) xs).val = xs.map (fun x => decide (f.isNormal x)) := by
    rw [lanes1_val]; exact List.map_congr_left (fun x _ => h1 x)
  have v2 : (lanes1 (classify f p .isnan) xs).val = xs.map (isnanEq f) := by rw [lanes1_val]; exact List.map_congr_left (fun x _ => h2 x)
  have v3 : (lanes1 (classify f p .isinf) xs).val = xs.map (FloatBits.isinf f) := by rw [lanes1_val]; exact List.map_congr_left (fun x _ => h3 x)
  have v4 : (lanes1 (fun x => cmpQ f f.eq x 0) xs).val = xs.map (fun x => f.eq x 0) := lanes1_val _ _
  unfold logbE
  simp only [exc_bind, v1]
  have a1 : (List.map (fun x => decide (f.isNormal x)) xs).all id = xs.all (fun x => decide (f.isNormal x)) := by rw [List.all_map]; rfl
  rw [a1]
  congr 1
  split
  · rfl
  · simp only [exc_bind, v2, v3, v4, zipWith_maps, List.all_map]
    have hh : ((id : Bool → Bool) ∘ fun x => decide (f.isNormal x) || ((f.eq x 0 || isnanEq f x) || FloatBits.isinf f x)) =
        fun x => (logbSpecial env (fun x => decide (f.isNormal x)) x).2 := rfl
    rw [hh]
    congr 3
    split
    · rfl
    · simp only [exc_bind]
      exact or_clear _

/-- C66, C48. `logb` without AVX-512: the results are right, and nothing is raised if no element is subnormal or a signalling NaN.  (C Annex F.10.3.11 wants
division by zero for zeros, `C66_logb_zero_wrong`.) -/
theorem C66_logb_partial (env : f.Env) (hf : f.Ok) (hb : f = ⟨8, 23⟩ ∨ f = ⟨11, 52⟩) (p : ClassPath) (xs : List f.Bits) :
    List.Forall₂ (fun x r => f.IsLogb x r) xs (logbE env p xs).val ∧
      ((∀ x ∈ xs, ¬ f.isSignalling x ∧ ¬ f.isSubnormal x) → (logbE env p xs).exc = Exc.clear) := by
  constructor
  · rw [logbE_val env hf]
    exact C48_logb env hb _ xs (fun _ _ => rfl)
  · intro h
    have e1 : (lanes1 (classify f p .isnormal) xs).exc = Exc.clear :=
      lanes1_clear _ _ (fun x _ => (C66_classification_partial hf p .isnormal x).2 (Or.inl (by decide)))
    have e2 : (lanes1 (classify f p .isnan) xs).exc = Exc.clear :=
      lanes1_clear _ _ (fun x hx => (C66_classification_partial hf p .isnan x).2 (Or.inr (h x hx).1))
    have e3 : (lanes1 (classify f p .isinf) xs).exc = Exc.clear :=
      lanes1_clear _ _ (fun x hx => (C66_classification_partial hf p .isinf x).2 (Or.inr (h x hx).1))
    have e4 : (lanes1 (fun x => cmpQ f f.eq x 0) xs).exc = Exc.clear :=
      lanes1_clear _ _ (fun x hx => quiet_clear (h x hx).1 (fun h0 => by
        have := (isNaN_iff _).1 h0.1
        rw [zero_mag] at this; omega))
    have hall : xs.all (fun x => (logbSpecial env (fun x => decide (f.isNormal x)) x).2) = true := by
      rw [List.all_eq_true]
      intro x hx
      show (decide (f.isNormal x) || ((f.eq x 0 || isnanEq f x) || FloatBits.isinf f x)) = true
      have n1 : isnanEq f x = decide (f.isNaN x) := (C34_isnan hf x).1
      have n2 : FloatBits.isinf f x = decide (f.isInf x) := (C34_isinf hf x).1
      rw [n1, n2]
      have hs := (h x hx).2
      by_cases h1 : f.isNormal x
      · simp [h1]
      · by_cases h2 : f.isNaN x
        · simp [h2]
        · by_cases h3 : f.isInf x
          · simp [h3]
          · have hz : f.isZero x := by
              unfold Fmt.isNormal at h1
              unfold Fmt.isNaN at h2
              unfold Fmt.isInf at h3
              unfold Fmt.isSubnormal at hs
              unfold Fmt.isZero
              tauto
            have : f.eq x 0 = true := by rw [eq_zero' hf]; simpa using hz
            rw [this]; simp
    rw [logbE_exc env hf, e1, e2, e3, e4, hall]
    simp

theorem lanes1_divByZero {α : Type} (g : f.Bits → FP α) (xs : List f.Bits) (h : ∀ x ∈ xs, (g x).exc.divByZero = false) :
    (lanes1 g xs).exc.divByZero = false := by
  show (Exc.any ((xs.map g).map FP.exc)).divByZero = false
  induction xs with
  | nil => rfl
  | cons a l ih =>
    rw [List.map_cons, List.map_cons, any_cons]
    show (_ || _) = false
    rw [h a (by simp), ih (fun x hx => h x (by simp [hx]))]; rfl

/-- C66 fails for `logb` of zeros without AVX-512: division by zero is never raised, although C Annex F.10.3.11 wants it for zeros. -/
theorem C66_logb_zero_wrong (env : f.Env) (hf : f.Ok) (p : ClassPath) (xs : List f.Bits) : (logbE env p xs).exc.divByZero = false := by
  have q : ∀ x y : f.Bits, (f.quietExc x y).divByZero = false := fun _ _ => rfl
  have m : ∀ x y : f.Bits, (f.mulExc env.mode x y).divByZero = false := fun x y => by
    unfold Fmt.mulExc
    split
    · rfl
    · split <;> rfl
  have o : ∀ a b : Exc, a.divByZero = false → b.divByZero = false → (a.or b).divByZero = false := fun a b h1 h2 => by
    show (_ || _) = false
    rw [h1, h2]; rfl
  have c : ∀ c, (lanes1 (classify f p c) xs).exc.divByZero = false := fun c => lanes1_divByZero _ _ (fun x _ => by
    cases c <;> rcases p with s | _ | _ | _ <;> first | rfl | (cases s <;> rfl))
  rw [logbE_exc env hf]
  refine o _ _ (c _) ?_
  split
  · rfl
  · refine o _ _ (lanes1_divByZero _ _ (fun x _ => q _ _)) (o _ _ (c _) (o _ _ (c _) ?_))
    split
    · rfl
    · exact lanes1_divByZero _ _ (fun x _ => m _ _)

/-- C66 fails for `logb` without AVX-512 of a subnormal and a large number: the multiplication of the large one overflows, although its result is not used.
`logb` of each alone raises no overflow. -/
theorem C66_logb_overflow_wrong (m : RMode) (p : ClassPath) :
    (logbE (env32 m) p [0x00000001#32, 0x7f000000#32]).exc.overflow = true ∧ (logbE (env32 m) p [0x00000001#32]).exc.overflow = false ∧
      (logbE (env32 m) p [0x7f000000#32]).exc = Exc.clear := by
  have o : ∀ a b : Exc, (a.or b).overflow = (a.overflow || b.overflow) := fun _ _ => rfl
  have n1 : decide (b32.isNormal (0x00000001#32 : b32.Bits)) = false := by decide +kernel
  have n2 : decide (b32.isNormal (0x7f000000#32 : b32.Bits)) = true := by decide +kernel
  have s1 : (logbSpecial (env32 m) (fun x => decide (b32.isNormal x)) (0x00000001#32 : b32.Bits)).2 = false := by
    show (decide (b32.isNormal (0x00000001#32 : b32.Bits)) || ((b32.eq (0x00000001#32 : b32.Bits) 0 || isnanEq b32 (0x00000001#32 : b32.Bits)) || FloatBits.isinf b32 (0x00000001#32 : b32.Bits))) = false
    decide +kernel
  have m1 : (b32.mulExc m (FloatBits.abs b32 (0x00000001#32 : b32.Bits)) (powBits b32 112)).overflow = false := by cases m <;> decide +kernel
  have m2 : (b32.mulExc m (FloatBits.abs b32 (0x7f000000#32 : b32.Bits)) (powBits b32 112)).overflow = true := by cases m <;> decide +kernel
  have q : ∀ x y : b32.Bits, (b32.quietExc x y).overflow = false := fun _ _ => rfl
  refine ⟨?_, ?_, ?_⟩
  · rw [logbE_exc (env32 m) b32_ok.1]
    rw [if_neg (by simp [n1]), if_neg (by simp [s1])]
    simp only [o]
    have : (lanes1 (fun x => fmul (env32 m) (FloatBits.abs b32 x) (powBits b32 112)) [(0x00000001#32 : b32.Bits), 0x7f000000#32]).exc.overflow = true := by
      show (_ || ((b32.mulExc m (FloatBits.abs b32 (0x7f000000#32 : b32.Bits)) (powBits b32 112)).overflow || _)) = true
      rw [m2]; simp
    rw [this]; simp
  · rw [logbE_exc (env32 m) b32_ok.1]
    rw [if_neg (by simp [n1]), if_neg (by simp [s1])]
    have hs : ¬ b32.isSignalling (0x00000001#32 : b32.Bits) := by decide +kernel
    have c : ∀ c, (lanes1 (classify b32 p c) [(0x00000001#32 : b32.Bits)]).exc = Exc.clear := fun c =>
      lanes1_clear _ _ (fun x hx => (C66_classification_partial b32_ok.1 p c x).2 (Or.inr (by rw [List.mem_singleton] at hx; rw [hx]; exact hs)))
    rw [c, c, c]
    simp only [o]
    show (false || ((false || false) || (false || (false || ((b32.mulExc m (FloatBits.abs b32 (0x00000001#32 : b32.Bits)) (powBits b32 112)).overflow || false))))) = false
    rw [m1]; rfl
  · refine (C66_logb_partial (env32 m) b32_ok.1 (Or.inl rfl) p _).2 (fun x hx => ?_)
    rw [List.mem_singleton] at hx; rw [hx]
    decide +kernel

-- non-vacuity: binary32, `modf(-2.5f)` with 64-byte registers raises nothing and otherwise inexact; infinities
example (m : RMode) (x : b32.Bits) (e : x = 0xc0200000#32) : (modfE (env32 m) (truncI (env32 m) true) .dq false x).exc = Exc.clear ∧
    (modfE (env32 m) (truncI (env32 m) false) .dq false x).exc = { inexact := true } := by
  have h := fun z => C66_round_instructions (env32 m) b32_ok.1 b32_ok.2 z
  have hx : b32.isFinite x := by subst e; decide +kernel
  have h1 := (C66_modf_partial (env32 m) b32_ok.1 _ (h true).1.1 .dq false x (fun h => by cases h)).2 hx
  have h2 := (C66_modf_partial (env32 m) b32_ok.1 _ (h false).1.1 .dq false x (fun h => by cases h)).2 hx
  rw [h1, h2, ((h true).2 x).1, ((h false).2 x).1]
  subst e; decide +kernel
example : b32.isInf (0xff800000#32 : b32.Bits) := by decide +kernel
-- 1, -0, infinity, a quiet NaN
example : [0x3f800000#32, 0x80000000#32, 0x7f800000#32, 0x7fc00000#32].all (fun x : b32.Bits => decide (¬ b32.isSignalling x ∧ ¬ b32.isSubnormal x)) = true := by
  decide +kernel

end StdSimd.Props
