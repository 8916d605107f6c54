import Verif.Proofs.TrigAccF
import Verif.Proofs.TrigZero
/-! Rounding to nearest and towards zero treats both signs alike; so do the conversions, and `sin` and `cos` of `float` by way of `double`. -/
namespace StdSimd.Trig
open Spec FloatBits

variable {f : Fmt}

/-- Rounding directions that do not depend on the sign. -/
def Sym (m : RMode) : Prop := m = .nearest ∨ m = .zero

theorem truncZ_neg (q : ℚ) : truncZ (-q) = -truncZ q := by
  unfold truncZ
  rcases lt_trichotomy q 0 with h | h | h
  · rw [if_pos (by linarith), if_neg (by linarith), Int.floor_neg]
  · subst h; simp
  · rw [if_neg (by linarith), if_pos (by linarith), Int.ceil_neg]

theorem toInt_neg {m : RMode} (hm : Sym m) (q : ℚ) : m.toInt (-q) = -m.toInt q := by
  rcases hm with rfl | rfl
  · exact roundEven_neg q
  · exact truncZ_neg q

theorem qexp_neg (q : ℚ) : f.qexp (-q) = f.qexp q := by unfold Fmt.qexp; rw [abs_neg]

theorem roundTo_neg {m : RMode} (hm : Sym m) (q : ℚ) : f.roundTo m (-q) = -f.roundTo m q := by
  unfold Fmt.roundTo; rw [qexp_neg, neg_div, toInt_neg hm]; push_cast; ring

theorem neg_ofMag (s : Bool) {n : Nat} (h : n < 2 ^ (f.ebits + f.mbits)) : Fmt.neg (f.ofMag s n) = f.ofMag (!s) n :=
  bits_ext (by rw [FloatBits.sign_neg, sign_ofMag _ h, sign_ofMag _ h]) (by rw [mag_neg, mag_ofMag _ h, mag_ofMag _ h])

theorem round_neg {m : RMode} (hm : Sym m) (zs : Bool) (q : ℚ) : f.round m (!zs) (-q) = Fmt.neg (f.round m zs q) := by
  have hi := infMag_lt f
  have hb : ∀ b : Bool, (if b = true then f.infMag else f.infMag - 1) < 2 ^ (f.ebits + f.mbits) := by
    intro b; cases b
    · exact Nat.lt_of_le_of_lt (Nat.sub_le _ _) hi
    · exact hi
  unfold Fmt.round
  dsimp only
  rw [roundTo_neg hm, abs_neg]
  have ho : ∀ s t : Bool, Fmt.overflowInf m s = Fmt.overflowInf m t := by intro s t; rcases hm with rfl | rfl <;> rfl
  rw [ho (if -q = 0 then !zs else decide (-q < 0)) (if q = 0 then zs else decide (q < 0)), neg_ofMag]
  · congr 1
    by_cases h : q = 0
    · rw [if_pos h, if_pos (by rw [h, neg_zero])]
    · rw [if_neg h, if_neg (neg_ne_zero.2 h)]
      rcases lt_or_gt_of_ne h with h | h
      · rw [decide_eq_false (by linarith), decide_eq_true h]; rfl
      · rw [decide_eq_true (by linarith), decide_eq_false (by linarith)]; rfl
  · split
    · omega
    · exact hb _

theorem isNaN_neg' (x : f.Bits) : f.isNaN (Fmt.neg x) ↔ f.isNaN x := by rw [isNaN_iff, isNaN_iff, mag_neg]
theorem isInf_neg' (x : f.Bits) : f.isInf (Fmt.neg x) ↔ f.isInf x := by rw [isInf_iff, isInf_iff, mag_neg]

theorem convert_neg {s d : Fmt} {m : RMode} (hm : Sym m) (nan : s.Bits → d.Bits) {x : s.Bits} (hx : ¬ s.isNaN x) :
    Fmt.convert s d m nan (Fmt.neg x) = Fmt.neg (Fmt.convert s d m nan x) := by
  unfold Fmt.convert
  rw [if_neg (by rw [isNaN_neg']; exact hx), if_neg hx, FloatBits.sign_neg]
  by_cases hi : s.isInf x
  · rw [if_pos hi, if_pos ((isInf_neg' x).2 hi), neg_ofMag _ (infMag_lt d)]
  · rw [if_neg hi, if_neg (by rw [isInf_neg']; exact hi), ratValue_neg, round_neg hm]

/-- Equal or both NaN. -/
def SameF (y z : F.Bits) : Prop := y = z ∨ F.isNaN y ∧ F.isNaN z

variable (E : Env)

theorem narrow_neg (hm : Sym E.mode) (y : D.Bits) : SameF (narrow E (Fmt.neg y)) (Fmt.neg (narrow E y)) := by
  by_cases h : D.isNaN y
  · right
    unfold narrow Fmt.convert
    rw [if_pos h, if_pos ((isNaN_neg' y).2 h)]
    exact ⟨E.isNaNN _ ((isNaN_neg' y).2 h), (isNaN_neg' _).2 (E.isNaNN _ h)⟩
  · left; exact convert_neg hm _ h

theorem negate_append {bs cs : List Bool} {xs ys : List f.Bits} (h : bs.length = xs.length) :
    negate f (bs ++ cs) (xs ++ ys) = negate f bs xs ++ negate f cs ys := by
  unfold negate; exact List.zipWith_append h

theorem negate_length {bs : List Bool} {xs : List f.Bits} (h : bs.length = xs.length) : (negate f bs xs).length = xs.length := by
  unfold negate; simp [h]

theorem negate_take (bs : List Bool) (xs : List f.Bits) (n : Nat) : (negate f bs xs).take n = negate f (bs.take n) (xs.take n) := by
  unfold negate; exact List.take_zipWith
theorem negate_drop (bs : List Bool) (xs : List f.Bits) (n : Nat) : (negate f bs xs).drop n = negate f (bs.drop n) (xs.drop n) := by
  unfold negate; exact List.drop_zipWith

/-- An odd (`o`) or even function of the elements, in chunks. -/
theorem chunked_parity (o : Bool) {libm : D.Bits → D.Bits} {g : List D.Bits → List D.Bits}
    (hl : ∀ x, libm (Fmt.neg x) = if o then Fmt.neg (libm x) else libm x) (hlen : ∀ xs, (g xs).length = xs.length)
    (hg : ∀ bs xs, bs.length = xs.length → g (negate D bs xs) = if o then negate D bs (g xs) else g xs)
    (ns : List Nat) (bs : List Bool) (xs : List D.Bits) (h : ns.sum = xs.length) (hb : bs.length = xs.length) :
    chunked libm g ns (negate D bs xs) = if o then negate D bs (chunked libm g ns xs) else chunked libm g ns xs := by
  induction ns generalizing bs xs with
  | nil =>
    have hx : xs = [] := by simpa using h.symm
    subst hx
    cases o <;> simp [chunked, negate]
  | cons n ns ih =>
    rw [List.sum_cons] at h
    unfold chunked
    rw [negate_drop, ih (bs.drop n) (xs.drop n) (by rw [List.length_drop]; omega) (by simp [hb]), negate_take, negate_take]
    have hhead : (if n = 1 then (negate D (bs.take 1) (xs.take 1)).map libm else g (negate D (bs.take n) (xs.take n))) =
        if o then negate D (bs.take n) (if n = 1 then (xs.take 1).map libm else g (xs.take n)) else (if n = 1 then (xs.take 1).map libm else g (xs.take n)) := by
      by_cases hn : n = 1
      · subst hn
        rw [if_pos rfl, if_pos rfl]
        cases xs with
        | nil => simp at h
        | cons x xs =>
          cases bs with
          | nil => simp at hb
          | cons b bs => cases b <;> cases o <;> simp [negate, hl]
      · rw [if_neg hn, if_neg hn]
        exact hg _ _ (by simp [hb])
    rw [hhead]
    cases o with
    | false => rfl
    | true =>
      simp only [if_true]
      rw [← negate_append, List.take_append_drop]
      by_cases hn : n = 1
      · subst hn; simp [hb]
      · rw [if_neg hn, hlen]; simp [hb]

theorem widen_negate (hm : Sym E.mode) {bs : List Bool} {xs : List F.Bits} (hn : ∀ x ∈ xs, ¬ F.isNaN x) :
    (negate F bs xs).map (widen E) = negate D bs (xs.map (widen E)) := by
  unfold negate
  induction xs generalizing bs with
  | nil => simp
  | cons x xs ih =>
    cases bs with
    | nil => simp
    | cons b bs =>
      rw [List.zipWith_cons_cons, List.map_cons, List.map_cons, List.zipWith_cons_cons, ih (fun x hx => hn x (by simp [hx]))]
      congr 1
      cases b
      · rfl
      · exact convert_neg hm _ (hn x (by simp))

theorem narrow_negate (hm : Sym E.mode) (bs : List Bool) (ys : List D.Bits) :
    List.Forall₂ SameF ((negate D bs ys).map (narrow E)) (negate F bs (ys.map (narrow E))) := by
  unfold negate
  induction ys generalizing bs with
  | nil => simp
  | cons y ys ih =>
    cases bs with
    | nil => simp
    | cons b bs =>
      rw [List.zipWith_cons_cons, List.map_cons, List.map_cons, List.zipWith_cons_cons]
      refine List.Forall₂.cons ?_ (ih bs)
      cases b
      · left; rfl
      · exact narrow_neg E hm y

end StdSimd.Trig
