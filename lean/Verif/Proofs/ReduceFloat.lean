import Verif.Proofs.ReduceFixed
import Verif.Proofs.Math
/-!
# Lemmas about reductions of floating-point vectors
-/
namespace StdSimd.Reduce
open Spec FloatBits

/-! ## neutral operands of an expression -/

section
variable {α : Type}

/-- `R` is compatible with the operation and `u` is neutral up to `R`. -/
structure Neutral (f : α → α → α) (R : α → α → Prop) (u : α) : Prop where
  refl : ∀ a, R a a
  trans : ∀ a b c, R a b → R b c → R a c
  congr : ∀ a a' b b', R a a' → R b b' → R (f a b) (f a' b')
  left : ∀ a, R (f u a) a
  right : ∀ a, R (f a u) a

/-- Leave out the operands marked `false`. -/
theorem prune_tree {f : α → α → α} {R : α → α → Prop} {u : α} (hR : Neutral f R u) (t : Spec.Tree α) :
    ∀ q : List (α × Bool), q.map Prod.fst = t.leaves → (∀ x ∈ q, x.2 = false → R x.1 u) →
      ((q.filter Prod.snd).map Prod.fst = [] ∧ R (t.eval f) u) ∨
        ∃ t' : Spec.Tree α, t'.leaves = (q.filter Prod.snd).map Prod.fst ∧ R (t.eval f) (t'.eval f) := by
  induction t with
  | leaf a =>
    intro q hq hu
    match q, hq with
    | [(b, m)], hq =>
      have hb : b = a := by simpa [Tree.leaves] using hq
      subst hb
      cases m with
      | false => exact Or.inl ⟨by simp, hu (b, false) (by simp) rfl⟩
      | true => exact Or.inr ⟨.leaf b, by simp [Tree.leaves], hR.refl _⟩
  | node l r ihl ihr =>
    intro q hq hu
    obtain ⟨q1, q2, rfl, h1, h2⟩ := List.map_eq_append_iff.1 hq
    have e : (((q1 ++ q2).filter Prod.snd).map Prod.fst) = (q1.filter Prod.snd).map Prod.fst ++ (q2.filter Prod.snd).map Prod.fst := by
      rw [List.filter_append, List.map_append]
    rw [e]
    have hl := ihl q1 h1 (fun x hx => hu x (by simp [hx]))
    have hr := ihr q2 h2 (fun x hx => hu x (by simp [hx]))
    show (_ ∧ R (f (l.eval f) (r.eval f)) u) ∨ ∃ t' : Spec.Tree α, _ ∧ R (f (l.eval f) (r.eval f)) _
    rcases hl with ⟨el, rl⟩ | ⟨tl, el, rl⟩ <;> rcases hr with ⟨er, rr⟩ | ⟨tr, er, rr⟩
    · exact Or.inl ⟨by rw [el, er]; rfl, hR.trans _ _ _ (hR.congr _ _ _ _ rl rr) (hR.left u)⟩
    · exact Or.inr ⟨tr, by rw [el, er]; rfl, hR.trans _ _ _ (hR.congr _ _ _ _ rl rr) (hR.left _)⟩
    · exact Or.inr ⟨tl, by rw [el, er]; simp, hR.trans _ _ _ (hR.congr _ _ _ _ rl rr) (hR.right _)⟩
    · exact Or.inr ⟨.node tl tr, by rw [← el, ← er]; rfl, hR.congr _ _ _ _ rl rr⟩

theorem prune {f : α → α → α} {R : α → α → Prop} {u : α} (hR : Neutral f R u) {l p : List α} {r : α} (hl : l ≠ [])
    (hp : ∀ x ∈ p, R x u) (h : Combines f (l ++ p) r) : ∃ r', Combines f l r' ∧ R r r' := by
  obtain ⟨t, ht, rfl⟩ := h
  have hm : (l ++ p) = (l.map (fun a => (a, true)) ++ p.map (fun a => (a, false))).map Prod.fst := by
    simp [Function.comp_def]
  have hf : List.Forall₂ (fun (a : α) (q : α × Bool) => q.1 = a) (l ++ p) (l.map (fun a => (a, true)) ++ p.map (fun a => (a, false))) := by
    rw [hm, List.forall₂_map_left_iff]
    exact List.forall₂_same.2 (fun _ _ => rfl)
  obtain ⟨q, h2, h3⟩ := List.perm_comp_forall₂ ht hf
  have hq : q.map Prod.fst = t.leaves := by
    rw [← List.forall₂_eq_eq_eq, List.forall₂_map_left_iff]
    exact h2.flip.imp (fun a b h => h)
  have hsel : ((q.filter Prod.snd).map Prod.fst).Perm l := by
    have := (h3.filter Prod.snd).map Prod.fst
    rw [List.filter_append, List.map_append] at this
    simpa [List.filter_map, Function.comp_def] using this
  rcases prune_tree hR t q hq (fun x hx hb => by
    have := h3.mem_iff.1 hx
    simp only [List.mem_append, List.mem_map] at this
    rcases this with ⟨a, _, rfl⟩ | ⟨a, ha, rfl⟩
    · cases hb
    · exact hp a ha) with ⟨e, _⟩ | ⟨t', e, hr⟩
  · rw [e] at hsel
    exact absurd (List.nil_perm.1 hsel) hl
  · exact ⟨t'.eval f, ⟨t', by rw [e]; exact hsel, rfl⟩, hr⟩

theorem select_perm (e : α) : ∀ (k : List Bool) (v : List α), k.length = v.length →
    ∃ j, (Spec.select k v (List.replicate k.length e)).Perm (Spec.selected k v ++ List.replicate j e) := by
  intro k
  induction k with
  | nil => intro v _; exact ⟨0, by simp [Spec.select, Spec.selected]⟩
  | cons b k ih =>
    intro v h
    cases v with
    | nil => simp at h
    | cons x v =>
      obtain ⟨j, hj⟩ := ih v (by simpa using h)
      cases b with
      | true =>
        refine ⟨j, ?_⟩
        simpa [Spec.select, Spec.selected, List.replicate_succ] using hj.cons x
      | false =>
        refine ⟨j + 1, ?_⟩
        have h2 : Spec.select (false :: k) (x :: v) (List.replicate (false :: k).length e) = e :: Spec.select k v (List.replicate k.length e) := by
          simp [Spec.select, List.replicate_succ]
        have h3 : Spec.selected (false :: k) (x :: v) = Spec.selected k v := by simp [Spec.selected]
        rw [h2, h3, List.replicate_succ]
        exact (hj.cons e).trans List.perm_middle.symm

end

/-! ## floating-point values -/

variable {f : Fmt} (env : f.Env)

theorem cls (hf : f.Ok) (x : f.Bits) : f.isNaN x ∨ f.isInf x ∨ f.isFinite x := by
  rw [isNaN_iff, isInf_iff, isFinite_iff]; omega

theorem zero_finite (hf : f.Ok) {x : f.Bits} (h : f.isZero x) : f.isFinite x ∧ f.ratValue x = 0 := by
  rw [isZero_iff] at h
  refine ⟨by rw [isFinite_iff, h]; exact (inf_lt hf).2.2, ?_⟩
  rw [ratValue_mag, h, unit_zero]; simp

theorem value_nan {x : f.Bits} (h : f.isNaN x) : f.value x = none := by unfold Fmt.value; rw [if_pos h]

theorem value_fin (hf : f.Ok) {x : f.Bits} (h : f.isFinite x) : f.value x = some ((f.ratValue x : WithTop ℚ) : WithBot (WithTop ℚ)) := by
  obtain ⟨a, b⟩ := finite_not hf h
  unfold Fmt.value; rw [if_neg a, if_neg b]

/-- Equal values: the same pattern, two NaNs or two zeros. -/
theorem value_cases (hf : f.Ok) {x y : f.Bits} (h : f.value x = f.value y) :
    x = y ∨ (f.isNaN x ∧ f.isNaN y) ∨ (f.isZero x ∧ f.isZero y) := by
  rw [value_eq hf, value_eq hf] at h
  by_cases hx : f.isNaN x <;> by_cases hy : f.isNaN y
  · exact Or.inr (Or.inl ⟨hx, hy⟩)
  · rw [if_pos hx, if_neg hy] at h; cases h
  · rw [if_neg hx, if_pos hy] at h; cases h
  · rw [if_neg hx, if_neg hy] at h
    have h1 := Option.some.inj h
    have bx := ikey_bounds x hx
    have by' := ikey_bounds y hy
    have he : ikey f x = ikey f y := by
      rcases lt_trichotomy (ikey f x) (ikey f y) with hlt | heq | hgt
      · exact absurd h1 (ne_of_lt (ext_mono hf bx.1 by'.2 hlt))
      · exact heq
      · exact absurd h1.symm (ne_of_lt (ext_mono hf by'.1 bx.2 hgt))
    by_cases h0 : mag f x = 0
    · right; right
      rw [isZero_iff, isZero_iff]
      refine ⟨h0, ?_⟩
      unfold ikey at he
      cases hs : f.sign x <;> cases ht : f.sign y <;> simp [hs, ht] at he <;> omega
    · left
      unfold ikey at he
      apply bits_ext
      · cases hs : f.sign x <;> cases ht : f.sign y <;> simp [hs, ht] at he ⊢ <;> omega
      · cases hs : f.sign x <;> cases ht : f.sign y <;> simp [hs, ht] at he <;> omega

theorem value_of_nan {x y : f.Bits} (hx : f.isNaN x) (hy : f.isNaN y) : f.value x = f.value y := by
  rw [value_nan hx, value_nan hy]

/-- The value of a rounded number does not depend on the sign given to zero. -/
theorem value_round (hf : f.Ok) (m : RMode) (s s' : Bool) (q : ℚ) : f.value (f.round m s q) = f.value (f.round m s' q) := by
  by_cases h : q = 0
  · subst h
    have hr : Rep f 0 := by simpa using rep_int hf (n := 0) (by simp)
    have h1 := round_exact hf m s hr (by simp)
    have h2 := round_exact hf m s' hr (by simp)
    rw [value_fin hf h1.1, value_fin hf h2.1, h1.2, h2.2]
  · unfold Fmt.round; rw [if_neg h, if_neg h]

theorem value_add_fin (hf : f.Ok) {x x' y y' : f.Bits} (hx : f.isFinite x) (hx' : f.isFinite x') (hy : f.isFinite y) (hy' : f.isFinite y')
    (h1 : f.ratValue x = f.ratValue x') (h2 : f.ratValue y = f.ratValue y') : f.value (Fmt.add env x y) = f.value (Fmt.add env x' y') := by
  rw [add_finite env hf hx hy, add_finite env hf hx' hy', h1, h2]
  exact value_round hf _ _ _ _

theorem add_inf' (hf : f.Ok) {x y : f.Bits} (hx : f.isFinite x) (hy : f.isInf y) : Fmt.add env x y = y := by
  have h1 := Rounding.inf_facts hf hy
  have h2 := finite_not hf hx
  unfold Fmt.add
  rw [if_neg (by tauto), if_neg (by tauto), if_pos hy]

theorem value_add (hf : f.Ok) {x x' y y' : f.Bits} (h1 : f.value x = f.value x') (h2 : f.value y = f.value y') :
    f.value (Fmt.add env x y) = f.value (Fmt.add env x' y') := by
  rcases value_cases hf h1 with rfl | ⟨a, b⟩ | ⟨a, b⟩
  · rcases value_cases hf h2 with rfl | ⟨c, d⟩ | ⟨c, d⟩
    · rfl
    · exact value_of_nan (Rounding.add_nan env (Or.inr c)) (Rounding.add_nan env (Or.inr d))
    · obtain ⟨c1, c2⟩ := zero_finite hf c
      obtain ⟨d1, d2⟩ := zero_finite hf d
      rcases cls hf x with hx | hx | hx
      · exact value_of_nan (Rounding.add_nan env (Or.inl hx)) (Rounding.add_nan env (Or.inl hx))
      · rw [Rounding.add_inf env hf hx c1, Rounding.add_inf env hf hx d1]
      · exact value_add_fin env hf hx hx c1 d1 rfl (by rw [c2, d2])
  · exact value_of_nan (Rounding.add_nan env (Or.inl a)) (Rounding.add_nan env (Or.inl b))
  · obtain ⟨a1, a2⟩ := zero_finite hf a
    obtain ⟨b1, b2⟩ := zero_finite hf b
    rcases value_cases hf h2 with rfl | ⟨c, d⟩ | ⟨c, d⟩
    · rcases cls hf y with hy | hy | hy
      · exact value_of_nan (Rounding.add_nan env (Or.inr hy)) (Rounding.add_nan env (Or.inr hy))
      · rw [add_inf' env hf a1 hy, add_inf' env hf b1 hy]
      · exact value_add_fin env hf a1 b1 hy hy (by rw [a2, b2]) rfl
    · exact value_of_nan (Rounding.add_nan env (Or.inr c)) (Rounding.add_nan env (Or.inr d))
    · obtain ⟨c1, c2⟩ := zero_finite hf c
      obtain ⟨d1, d2⟩ := zero_finite hf d
      exact value_add_fin env hf a1 b1 c1 d1 (by rw [a2, b2]) (by rw [c2, d2])

theorem mul_nan {x y : f.Bits} (h : f.isNaN x ∨ f.isNaN y) : f.isNaN (Fmt.mul env x y) := by
  unfold Fmt.mul; rw [if_pos h]; exact env.isNaN _ _

theorem mul_finite (hf : f.Ok) {x y : f.Bits} (hx : f.isFinite x) (hy : f.isFinite y) :
    Fmt.mul env x y = f.round env.mode (f.sign x ^^ f.sign y) (f.ratValue x * f.ratValue y) := by
  obtain ⟨c1, c2⟩ := finite_not hf hx
  obtain ⟨d1, d2⟩ := finite_not hf hy
  unfold Fmt.mul
  rw [if_neg (by tauto), if_neg (by tauto)]

/-- `0 * ∞` is a NaN. -/
theorem mul_zero_inf (hf : f.Ok) {x y : f.Bits} (h : (f.isZero x ∧ f.isInf y) ∨ (f.isInf x ∧ f.isZero y)) : f.isNaN (Fmt.mul env x y) := by
  unfold Fmt.mul
  split
  · exact env.isNaN _ _
  · rw [if_pos (by tauto), if_pos (by tauto)]; exact env.isNaN _ _

theorem value_mul_fin (hf : f.Ok) {x x' y y' : f.Bits} (hx : f.isFinite x) (hx' : f.isFinite x') (hy : f.isFinite y) (hy' : f.isFinite y')
    (h1 : f.ratValue x = f.ratValue x') (h2 : f.ratValue y = f.ratValue y') : f.value (Fmt.mul env x y) = f.value (Fmt.mul env x' y') := by
  rw [mul_finite env hf hx hy, mul_finite env hf hx' hy', h1, h2]
  exact value_round hf _ _ _ _

theorem value_mul (hf : f.Ok) {x x' y y' : f.Bits} (h1 : f.value x = f.value x') (h2 : f.value y = f.value y') :
    f.value (Fmt.mul env x y) = f.value (Fmt.mul env x' y') := by
  rcases value_cases hf h1 with rfl | ⟨a, b⟩ | ⟨a, b⟩
  · rcases value_cases hf h2 with rfl | ⟨c, d⟩ | ⟨c, d⟩
    · rfl
    · exact value_of_nan (mul_nan env (Or.inr c)) (mul_nan env (Or.inr d))
    · obtain ⟨c1, c2⟩ := zero_finite hf c
      obtain ⟨d1, d2⟩ := zero_finite hf d
      rcases cls hf x with hx | hx | hx
      · exact value_of_nan (mul_nan env (Or.inl hx)) (mul_nan env (Or.inl hx))
      · exact value_of_nan (mul_zero_inf env hf (Or.inr ⟨hx, c⟩)) (mul_zero_inf env hf (Or.inr ⟨hx, d⟩))
      · exact value_mul_fin env hf hx hx c1 d1 rfl (by rw [c2, d2])
  · exact value_of_nan (mul_nan env (Or.inl a)) (mul_nan env (Or.inl b))
  · obtain ⟨a1, a2⟩ := zero_finite hf a
    obtain ⟨b1, b2⟩ := zero_finite hf b
    rcases value_cases hf h2 with rfl | ⟨c, d⟩ | ⟨c, d⟩
    · rcases cls hf y with hy | hy | hy
      · exact value_of_nan (mul_nan env (Or.inr hy)) (mul_nan env (Or.inr hy))
      · exact value_of_nan (mul_zero_inf env hf (Or.inl ⟨a, hy⟩)) (mul_zero_inf env hf (Or.inl ⟨b, hy⟩))
      · exact value_mul_fin env hf a1 b1 hy hy (by rw [a2, b2]) rfl
    · exact value_of_nan (mul_nan env (Or.inr c)) (mul_nan env (Or.inr d))
    · obtain ⟨c1, c2⟩ := zero_finite hf c
      obtain ⟨d1, d2⟩ := zero_finite hf d
      exact value_mul_fin env hf a1 b1 c1 d1 (by rw [a2, b2]) (by rw [c2, d2])

theorem neutral_add (hf : f.Ok) {u : f.Bits} (hu : f.isZero u) : Neutral (Fmt.add env) (fun x y => f.value x = f.value y) u where
  refl _ := rfl
  trans _ _ _ h h' := h.trans h'
  congr _ _ _ _ h h' := value_add env hf h h'
  left x := by
    obtain ⟨u1, u2⟩ := zero_finite hf hu
    rcases cls hf x with hx | hx | hx
    · exact value_of_nan (Rounding.add_nan env (Or.inr hx)) hx
    · rw [add_inf' env hf u1 hx]
    · have := Rounding.add_exact env hf ⟨u1, u2, rfl⟩ ⟨hx, rfl, rfl⟩ (by rw [zero_add]; exact rep_ratValue hf x)
        (by rw [zero_add]; exact ratValue_lt hf hx)
      rw [value_fin hf this.1, value_fin hf hx, this.2, zero_add]
  right x := by
    obtain ⟨u1, u2⟩ := zero_finite hf hu
    rcases cls hf x with hx | hx | hx
    · exact value_of_nan (Rounding.add_nan env (Or.inl hx)) hx
    · rw [Rounding.add_inf env hf hx u1]
    · have := Rounding.add_exact env hf ⟨hx, rfl, rfl⟩ ⟨u1, u2, rfl⟩ (by rw [add_zero]; exact rep_ratValue hf x)
        (by rw [add_zero]; exact ratValue_lt hf hx)
      rw [value_fin hf this.1, value_fin hf hx, this.2, add_zero]

theorem mul_inf_one (hf : f.Ok) {u x : f.Bits} (hu : f.isFinite u) (h1 : f.ratValue u = 1) (hx : f.isInf x) :
    Fmt.mul env x u = x ∧ Fmt.mul env u x = x := by
  have hs : f.sign u = false := by
    by_contra h
    have := ratValue_sign.2 (by simpa using h : f.sign u = true)
    rw [h1] at this; norm_num at this
  have hz : ¬ f.isZero u := fun h => by have := (zero_finite hf h).2; rw [h1] at this; norm_num at this
  have hzx : ¬ f.isZero x := fun h => (Rounding.inf_facts hf hx).2 (zero_finite hf h).1
  have n1 := (Rounding.inf_facts hf hx).1
  have n2 := (finite_not hf hu).1
  have he : f.ofMag (f.sign x) f.infMag = x := by
    conv_rhs => rw [← ofMag_sign_mag x, (isInf_iff x).1 hx]
    rfl
  unfold Fmt.mul
  rw [if_neg (by tauto), if_pos (by tauto), if_neg (by tauto), if_neg (by tauto), if_pos (by tauto), if_neg (by tauto), hs]
  simp [he]

theorem neutral_mul (hf : f.Ok) {u : f.Bits} (hu : f.isFinite u) (h1 : f.ratValue u = 1) :
    Neutral (Fmt.mul env) (fun x y => f.value x = f.value y) u where
  refl _ := rfl
  trans _ _ _ h h' := h.trans h'
  congr _ _ _ _ h h' := value_mul env hf h h'
  left x := by
    rcases cls hf x with hx | hx | hx
    · exact value_of_nan (mul_nan env (Or.inr hx)) hx
    · rw [(mul_inf_one env hf hu h1 hx).2]
    · have := Math.mul_exact env hf ⟨hu, h1, rfl⟩ ⟨hx, rfl, rfl⟩ (by rw [one_mul]; exact rep_ratValue hf x)
        (by rw [one_mul]; exact ratValue_lt hf hx)
      rw [value_fin hf this.1, value_fin hf hx, this.2, one_mul]
  right x := by
    rcases cls hf x with hx | hx | hx
    · exact value_of_nan (mul_nan env (Or.inl hx)) hx
    · rw [(mul_inf_one env hf hu h1 hx).1]
    · have := Math.mul_exact env hf ⟨hx, rfl, rfl⟩ ⟨hu, h1, rfl⟩ (by rw [mul_one]; exact rep_ratValue hf x)
        (by rw [mul_one]; exact ratValue_lt hf hx)
      rw [value_fin hf this.1, value_fin hf hx, this.2, mul_one]

theorem isZero_zero (f : Fmt) : f.isZero 0#f.width := by unfold Fmt.isZero Fmt.expo Fmt.mant; simp

end StdSimd.Reduce
