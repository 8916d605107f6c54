import Verif.Model.OtherMask
import Verif.Proofs.VMask
import Verif.Proofs.VMaskRed
namespace StdSimd.VMask
open BitMask

variable {w n full : Nat}

/-- The pairs of element and register size. -/
theorem Reg.cases (h : Reg w n full) :
    (w = 8 ∧ full = 2) ∨ (w = 8 ∧ full = 4) ∨ (w = 8 ∧ full = 8) ∨ (w = 8 ∧ full = 16) ∨
    (w = 16 ∧ full = 2) ∨ (w = 16 ∧ full = 4) ∨ (w = 16 ∧ full = 8) ∨
    (w = 32 ∧ full = 2) ∨ (w = 32 ∧ full = 4) ∨ (w = 64 ∧ full = 2) := by
  have h1 := h.two
  have h2 := h.le
  rcases h.ew with rfl | rfl | rfl | rfl <;> rcases h.size with h' | h' | h' | h' <;> omega

theorem Reg.pos (h : Reg w n full) : 8 ≤ w := by rcases h.ew with h | h | h | h <;> omega

/-! ## Words -/

theorem elem_toNat (b : Bool) : (elem w b).toNat = (2 ^ w - 1) * b.toNat := by cases b <;> simp [elem]

theorem elem_ofInt (b : Bool) : elem w b = BitVec.ofInt w (-(b.toNat : Int)) := by
  cases b
  · simp [elem]
  · simp only [elem, if_true, Bool.toNat_true]
    rw [← BitVec.neg_one_eq_allOnes]; simp [BitVec.ofInt_neg]

@[simp] theorem word_nil : word ([] : VMask w) = 0 := rfl
@[simp] theorem word_cons (v : BitVec w) (l : VMask w) : word (v :: l) = v.toNat + 2 ^ w * word l := rfl

theorem word_lt (l : VMask w) : word l < 2 ^ (w * l.length) := by
  induction l with
  | nil => simp
  | cons v l ih =>
    rw [word_cons, List.length_cons, Nat.mul_succ, Nat.pow_add, Nat.mul_comm (2 ^ (w * l.length))]
    have h : v.toNat < 2 ^ w := v.isLt
    have h' : 2 ^ w * (word l + 1) ≤ 2 ^ w * 2 ^ (w * l.length) := Nat.mul_le_mul_left _ ih
    rw [Nat.mul_succ] at h'
    omega

theorem word_append (l l' : VMask w) : word (l ++ l') = word l + 2 ^ (w * l.length) * word l' := by
  induction l with
  | nil => simp
  | cons v l ih =>
    rw [List.cons_append, word_cons, ih, word_cons, List.length_cons, Nat.mul_succ, Nat.pow_add, Nat.mul_add,
      Nat.mul_comm (2 ^ (w * l.length)) (2 ^ w), Nat.mul_assoc, Nat.add_assoc]

theorem word_eq_zero (hw : 0 < w) (bs : List Bool) : word (bs.map (elem w)) = 0 ↔ ∀ b ∈ bs, b = false := by
  induction bs with
  | nil => simp
  | cons b bs ih =>
    have hp : 2 ≤ 2 ^ w := Nat.pow_le_pow_right (n := 2) (by omega) hw
    simp only [List.map_cons, word_cons, Nat.add_eq_zero_iff, Nat.mul_eq_zero, elem_toNat, ih, List.mem_cons, forall_eq_or_imp]
    cases b <;> simp <;> omega

theorem word_eq_ones (hw : 0 < w) (bs : List Bool) :
    word (bs.map (elem w)) = 2 ^ (w * bs.length) - 1 ↔ ∀ b ∈ bs, b = true := by
  induction bs with
  | nil => simp
  | cons b bs ih =>
    have hp : 2 ≤ 2 ^ w := Nat.pow_le_pow_right (n := 2) (by omega) hw
    have hlt := word_lt (bs.map (elem w))
    rw [List.length_map] at hlt
    rw [List.map_cons, word_cons, elem_toNat, List.length_cons, Nat.mul_succ, Nat.pow_add, Nat.mul_comm (2 ^ (w * bs.length))]
    simp only [List.mem_cons, forall_eq_or_imp, ← ih]
    generalize hX : word (bs.map (elem w)) = X at *
    generalize hB : 2 ^ (w * bs.length) = B at *
    generalize hP : 2 ^ w = P at *
    have hm : P * (X + 1) ≤ P * B := Nat.mul_le_mul_left _ hlt
    rw [Nat.mul_succ] at hm
    constructor
    · intro h
      cases b
      · simp at h; omega
      · simp at h
        refine ⟨rfl, ?_⟩
        have : P * B = P * (X + 1) := by rw [Nat.mul_succ]; omega
        have := Nat.eq_of_mul_eq_mul_left (by omega) this
        omega
    · rintro ⟨rfl, rfl⟩
      have : P * (B - 1) = P * B - P := by rw [Nat.mul_sub, Nat.mul_one]
      simp; omega

theorem word_two (hw : 2 ≤ w) (bs : List Bool) : ∀ cs : List Bool, bs.length = cs.length →
    2 ^ (w * bs.length) ∣ word (bs.map (elem w)) + word (cs.map (elem w)) + 2 →
    (∀ b ∈ bs, b = true) ∧ ∀ b ∈ cs, b = true := by
  induction bs with
  | nil => intro cs h _; rw [List.length_nil] at h; rw [List.eq_nil_of_length_eq_zero h.symm]; simp
  | cons b bs ih =>
    intro cs h hd
    obtain ⟨c, cs, rfl⟩ : ∃ c cs', cs = c :: cs' := by
      cases cs with
      | nil => simp at h
      | cons c cs => exact ⟨c, cs, rfl⟩
    simp only [List.length_cons, Nat.add_right_cancel_iff] at h
    have hp : 4 ≤ 2 ^ w := Nat.pow_le_pow_right (n := 2) (j := w) (i := 2) (by omega) hw
    simp only [List.map_cons, word_cons, elem_toNat] at hd
    rw [List.length_cons, Nat.mul_succ, Nat.pow_add, Nat.mul_comm (2 ^ (w * bs.length))] at hd
    generalize hX : word (bs.map (elem w)) = X at *
    generalize hY : word (cs.map (elem w)) = Y at *
    generalize hB : 2 ^ (w * bs.length) = B at *
    generalize hP : 2 ^ w = P at *
    have e : (P - 1) * b.toNat + P * X + ((P - 1) * c.toNat + P * Y) + 2 =
        P * (X + Y) + ((P - 1) * b.toNat + (P - 1) * c.toNat + 2) := by rw [Nat.mul_add]; omega
    rw [e] at hd
    have hd' : P ∣ (P - 1) * b.toNat + (P - 1) * c.toNat + 2 :=
      (Nat.dvd_add_right (Nat.dvd_mul_right P (X + Y))).1 (Nat.dvd_trans (Nat.dvd_mul_right P B) hd)
    have hbc : b = true ∧ c = true := by
      cases b <;> cases c <;> simp at hd' ⊢
      · have := Nat.le_of_dvd (by omega) hd'; omega
      · rw [show P - 1 + 2 = P + 1 by omega, Nat.dvd_add_right (Nat.dvd_refl P)] at hd'
        have := Nat.le_of_dvd (by omega) hd'; omega
      · rw [show P - 1 + 2 = P + 1 by omega, Nat.dvd_add_right (Nat.dvd_refl P)] at hd'
        have := Nat.le_of_dvd (by omega) hd'; omega
    obtain ⟨rfl, rfl⟩ := hbc
    have hd2 : P * B ∣ P * (X + Y + 2) := by
      rw [show P * (X + Y + 2) = P * (X + Y) + ((P - 1) * true.toNat + (P - 1) * true.toNat + 2) by
        rw [Nat.mul_add P (X + Y) 2]; simp; omega]
      exact hd
    have := ih cs h (Nat.dvd_of_mul_dvd_mul_left (k := P) (by omega) (by rw [hY]; exact hd2))
    simpa using this

/-! ## The masked registers -/

/-- A list is described by its elements. -/
theorem eq_map_range {α : Type} (d : α) (l : List α) (m : Nat) (h : l.length = m) : l = (List.range m).map fun i => (l[i]?).getD d := by
  apply List.ext_getElem (by simp [h])
  intro i h1 h2
  simp [h1]

theorem getD_implicitMask {i : Nat} (hi : i < full) :
    ((implicitMask w n full)[i]?).getD 0#w = elem w (decide (i < n)) := by
  rw [getElem?_implicitMask hi]
  by_cases h : i < n
  · simp [h, elem]
  · simp [h, elem, show ¬ full = n by omega]

/-- Elements of `orPadding`. -/
def orBit (n : Nat) (bs : List Bool) (i : Nat) : Bool := decide (n ≤ i) || bit bs i

theorem orPadding_eq (hx : Rep n full x bs) : orPadding (w := w) n full x = (List.range full).map fun i => elem w (orBit n bs i) := by
  have hl : (orPadding (w := w) n full x).length = full := by simp [orPadding, length_implicitMask, hx.len]
  rw [eq_map_range 0#w _ _ hl]
  apply List.map_congr_left
  intro i hi
  rw [List.mem_range] at hi
  have h1 : i < x.length := by rw [hx.len]; exact hi
  have h2 : i < (implicitMask w n full).length := by rw [length_implicitMask]; exact hi
  have e := getD_implicitMask (w := w) (n := n) hi
  rw [List.getElem?_eq_getElem h2, Option.getD_some] at e
  simp only [orPadding, List.getElem?_zipWith, List.getElem?_eq_getElem h1, List.getElem?_eq_getElem h2, Option.getD_some, e]
  by_cases hn : i < n
  · have := hx.getD hn
    rw [List.getElem?_eq_getElem h1, Option.getD_some] at this
    rw [this]
    simp [hn, elem, orBit, show ¬ n ≤ i by omega]
  · simp [hn, elem, orBit, show n ≤ i by omega]

theorem masked_eq (hx : Rep n full x bs) : masked (w := w) n full x = (List.range full).map fun i => elem w (bit bs i) := by
  unfold masked
  by_cases hf : full = n
  · subst hf
    rw [if_pos rfl]
    conv => lhs; rw [eq_map_range 0#w x full hx.len]
    apply List.map_congr_left
    intro i hi
    exact hx.getD (List.mem_range.1 hi)
  · rw [if_neg hf]
    have hl : (List.zipWith (· &&& ·) x (implicitMask w n full)).length = full := by simp [length_implicitMask, hx.len]
    rw [eq_map_range 0#w _ _ hl]
    apply List.map_congr_left
    intro i hi
    rw [List.mem_range] at hi
    have h1 : i < x.length := by rw [hx.len]; exact hi
    have h2 : i < (implicitMask w n full).length := by rw [length_implicitMask]; exact hi
    have e := getD_implicitMask (w := w) (n := n) hi
    rw [List.getElem?_eq_getElem h2, Option.getD_some] at e
    simp only [List.getElem?_zipWith, List.getElem?_eq_getElem h1, List.getElem?_eq_getElem h2, Option.getD_some, e]
    by_cases hn : i < n
    · have := hx.getD hn
      rw [List.getElem?_eq_getElem h1, Option.getD_some] at this
      rw [this]
      simp [hn, elem]
    · have : bit bs i = false := by simp [bit, List.getElem?_eq_none (show bs.length ≤ i by rw [hx.blen]; omega)]
      simp [hn, elem, this]

/-! ## NEON reductions -/

theorem all_map (P : Nat → Bool) (full : Nat) (v : Bool) : (∀ b ∈ (List.range full).map P, b = v) ↔ ∀ i < full, P i = v := by simp

theorem spec_all (hx : Rep (w := w) n full x bs) : Spec.allOf bs ↔ ∀ i < full, orBit n bs i = true := by
  have hl := hx.le
  constructor
  · intro h i _
    by_cases hn : n ≤ i
    · simp [hn, orBit]
    · have : i < bs.length := by rw [hx.blen]; omega
      simp [orBit, bit, this, h bs[i] (List.getElem_mem this)]
  · intro h b hb
    obtain ⟨i, hi, rfl⟩ := List.mem_iff_getElem.1 hb
    have := h i (by rw [hx.blen] at hi; omega)
    rw [hx.blen] at hi
    simpa [orBit, bit, show ¬ n ≤ i by omega, show i < bs.length by rw [hx.blen]; exact hi] using this

theorem spec_none (hx : Rep (w := w) n full x bs) : Spec.noneOf bs ↔ ∀ i < full, bit bs i = false := by
  have hl := hx.le
  constructor
  · intro h i _
    by_cases hn : i < bs.length
    · simp [bit, hn, h bs[i] (List.getElem_mem hn)]
    · simp [bit, List.getElem?_eq_none (show bs.length ≤ i by omega)]
  · intro h b hb
    obtain ⟨i, hi, rfl⟩ := List.mem_iff_getElem.1 hb
    have := h i (by rw [hx.blen] at hi; omega)
    simpa [bit, hi] using this

/-- Both halves of a register of 16 bytes. -/
theorem halves (P : Nat → Bool) (m : Nat) (_ : 64 / w = m) : (((List.range (2 * m)).map fun i => elem w (P i)).take m) = ((List.range m).map P).map (elem w) ∧
    (((List.range (2 * m)).map fun i => elem w (P i)).drop m) = ((List.range m).map fun i => P (m + i)).map (elem w) := by
  rw [Nat.two_mul, List.range_add, List.map_append]
  constructor
  · rw [List.take_left' (by simp)]; simp
  · rw [List.drop_left' (by simp)]; simp [Function.comp_def]

theorem reg_full (hw : w = 8 ∨ w = 16 ∨ w = 32 ∨ w = 64) (h : w * full = 128) : full = 2 * (64 / w) ∧ w * (64 / w) = 64 := by
  rcases hw with rfl | rfl | rfl | rfl <;> omega

theorem x0_eq_zero (hw : w = 8 ∨ w = 16 ∨ w = 32 ∨ w = 64) (bs : List Bool) (h : bs.length = 64 / w) :
    BitVec.ofNat 64 (word (bs.map (elem w))) = 0#64 ↔ ∀ b ∈ bs, b = false := by
  have hlt := word_lt (bs.map (elem w))
  rw [List.length_map, h, (show w * (64 / w) = 64 by rcases hw with rfl | rfl | rfl | rfl <;> rfl)] at hlt
  rw [← word_eq_zero (w := w) (by rcases hw with rfl | rfl | rfl | rfl <;> omega), ← BitVec.toNat_inj, BitVec.toNat_ofNat,
    Nat.mod_eq_of_lt hlt]
  simp

/-- The value of half a register as a signed number: close to 0 on both sides. -/
theorem x0_toInt (hw : w = 8 ∨ w = 16 ∨ w = 32 ∨ w = 64) (bs : List Bool) (h : bs.length = 64 / w) :
    -(2 ^ 56) ≤ (BitVec.ofNat 64 (word (bs.map (elem w)))).toInt ∧ (BitVec.ofNat 64 (word (bs.map (elem w)))).toInt ≤ 2 ^ 56 ∧
    ((BitVec.ofNat 64 (word (bs.map (elem w)))).toInt = word (bs.map (elem w)) ∨
     (BitVec.ofNat 64 (word (bs.map (elem w)))).toInt = word (bs.map (elem w)) - 2 ^ 64) := by
  obtain ⟨bs', b, rfl⟩ : ∃ bs' b, bs = bs' ++ [b] := by
    refine ⟨bs.dropLast, bs.getLast ?_, (List.dropLast_concat_getLast _).symm⟩
    intro e; subst e
    rcases hw with rfl | rfl | rfl | rfl <;> simp at h
  rw [List.map_append, word_append, List.length_map, List.map_singleton]
  have hl : bs'.length = 64 / w - 1 := by simp at h; omega
  have hlt := word_lt (bs'.map (elem w))
  rw [List.length_map, hl] at hlt
  rw [hl]
  generalize word (bs'.map (elem w)) = X at *
  simp only [word_cons, word_nil, elem_toNat, Nat.mul_zero, Nat.add_zero]
  have hb : b.toNat = 0 ∨ b.toNat = 1 := by cases b <;> simp
  rw [BitVec.toInt_eq_toNat_cond, BitVec.toNat_ofNat]
  rcases hw with rfl | rfl | rfl | rfl <;> simp only [Nat.reducePow, Nat.reduceMul, Nat.reduceSub, Nat.reduceDiv] at hlt ⊢ <;>
    rcases hb with e | e <;> rw [e] <;> split <;> omega

theorem bne_iff {α : Type} [BEq α] [LawfulBEq α] (a b : α) : (a != b) = true ↔ ¬ a = b := by simp

theorem or_eq_zero (a b : BitVec 64) : a ||| b = 0#64 ↔ a = 0#64 ∧ b = 0#64 := by
  constructor
  · intro h
    constructor <;> apply BitVec.eq_of_getLsbD_eq <;> intro i _ <;>
      have := congrArg (fun v => v.getLsbD i) h <;> simp at this <;> simp [this]
  · rintro ⟨rfl, rfl⟩; simp

theorem ofNat_eq_zero (hw : 0 < w) (P : Nat → Bool) :
    BitVec.ofNat (w * full) (word ((List.range full).map fun i => elem w (P i))) = 0#(w * full) ↔ ∀ i < full, P i = false := by
  rw [← all_map, ← word_eq_zero hw, ← BitVec.toNat_inj, BitVec.toNat_ofNat, List.map_map]
  have := word_lt ((List.range full).map fun i => elem w (P i))
  simp only [List.length_map, List.length_range] at this
  rw [Nat.mod_eq_of_lt this]
  simp [Function.comp_def]

theorem ofNat_eq_ones (hw : 0 < w) (P : Nat → Bool) :
    BitVec.ofNat (w * full) (word ((List.range full).map fun i => elem w (P i))) = BitVec.allOnes (w * full) ↔ ∀ i < full, P i = true := by
  rw [← all_map, ← word_eq_ones hw, ← BitVec.toNat_inj, BitVec.toNat_ofNat, List.map_map]
  have := word_lt ((List.range full).map fun i => elem w (P i))
  simp only [List.length_map, List.length_range] at this ⊢
  rw [Nat.mod_eq_of_lt this]
  simp [Function.comp_def]

theorem halves_zero (hw : w = 8 ∨ w = 16 ∨ w = 32 ∨ w = 64) (hs : w * full = 128) (P : Nat → Bool) :
    (x0 ((List.range full).map fun i => elem w (P i)) ||| x1 ((List.range full).map fun i => elem w (P i)) = 0#64) ↔ ∀ i < full, P i = false := by
  obtain ⟨hf, hm⟩ := reg_full hw hs
  obtain ⟨e0, e1⟩ := halves (w := w) P (64 / w) rfl
  rw [or_eq_zero, x0, x1, hf, e0, e1, x0_eq_zero hw _ (by simp), x0_eq_zero hw _ (by simp), all_map, all_map]
  constructor
  · rintro ⟨h1, h2⟩ i hi
    by_cases h : i < 64 / w
    · exact h1 i h
    · have := h2 (i - 64 / w) (by omega)
      rwa [show 64 / w + (i - 64 / w) = i by omega] at this
  · intro h
    exact ⟨fun i hi => h i (by omega), fun i hi => h _ (by omega)⟩

theorem neonNoneOf_spec (hr : Reg w n full) {x : VMask w} {bs : List Bool} (hx : Rep n full x bs) :
    neonNoneOf n full x = true ↔ Spec.noneOf bs := by
  have hw : 0 < w := by have := hr.pos; omega
  rw [spec_none hx, neonNoneOf, masked_eq hx]
  split
  · rename_i h
    rw [beq_iff_eq, halves_zero hr.ew h]
  · rw [beq_iff_eq, ofNat_eq_zero hw]

theorem neonAnyOf_spec (hr : Reg w n n) {x : VMask w} {bs : List Bool} (hx : Rep n n x bs) :
    neonAnyOf n n x = true ↔ Spec.anyOf bs := by
  have hw : 0 < w := by have := hr.pos; omega
  have e : Spec.anyOf bs ↔ ¬ Spec.noneOf bs := by
    simp only [Spec.anyOf, Spec.noneOf]
    constructor
    · rintro ⟨b, hb, rfl⟩ h; simpa using h _ hb
    · intro h
      refine Classical.byContradiction fun hc => h fun b hb => ?_
      cases b
      · rfl
      · exact absurd ⟨true, hb, rfl⟩ hc
  have hb : ∀ i < n, orBit n bs i = bit bs i := fun i hi => by simp [orBit, show ¬ n ≤ i by omega]
  rw [e, spec_none hx, neonAnyOf, orPadding_eq hx]
  have key : (∀ i < n, orBit n bs i = false) ↔ ∀ i < n, bit bs i = false :=
    forall_congr' fun i => forall_congr' fun hi => by rw [hb i hi]
  split
  · rename_i h
    rw [bne_iff, halves_zero hr.ew h, key]
  · rw [bne_iff, ofNat_eq_zero hw, key]

/-- A register with padding: `any_of` is true. -/
theorem neonAnyOf_padding (hr : Reg w n full) (hn : n < full) {x : VMask w} {bs : List Bool} (hx : Rep n full x bs) : neonAnyOf n full x = true := by
  have hw : 0 < w := by have := hr.pos; omega
  rw [neonAnyOf, orPadding_eq hx]
  have key : ¬ ∀ i < full, orBit n bs i = false := by
    intro h; simpa [orBit] using h n hn
  split
  · rename_i h
    rw [bne_iff, halves_zero hr.ew h]; exact key
  · rw [bne_iff, ofNat_eq_zero hw]; exact key

theorem neonAllOf_spec (hr : Reg w n full) {x : VMask w} {bs : List Bool} (hx : Rep n full x bs) :
    ∃ r, neonAllOf n full x = some r ∧ (r = true ↔ Spec.allOf bs) := by
  have hw : 0 < w := by have := hr.pos; omega
  rw [spec_all hx, neonAllOf, orPadding_eq hx]
  generalize orBit n bs = P
  by_cases h : w * full = 128
  · rw [if_pos h]
    obtain ⟨hf, hm⟩ := reg_full hr.ew h
    obtain ⟨e0, e1⟩ := halves (w := w) P (64 / w) rfl
    obtain ⟨a1, a2, a3⟩ := x0_toInt hr.ew ((List.range (64 / w)).map P) (by simp)
    obtain ⟨b1, b2, b3⟩ := x0_toInt hr.ew ((List.range (64 / w)).map fun i => P (64 / w + i)) (by simp)
    rw [x0, x1, hf, e0, e1]
    have htw := word_two (w := w) (by have := hr.pos; omega) ((List.range (64 / w)).map P) ((List.range (64 / w)).map fun i => P (64 / w + i)) (by simp)
    have hone0 := word_eq_ones (w := w) hw ((List.range (64 / w)).map P)
    have hone1 := word_eq_ones (w := w) hw ((List.range (64 / w)).map fun i => P (64 / w + i))
    simp only [List.length_map, List.length_range, hm] at htw hone0 hone1
    rw [all_map] at hone0 hone1
    rw [all_map, all_map] at htw
    generalize (BitVec.ofNat 64 (word (((List.range (64 / w)).map P).map (elem w)))).toInt = A at *
    generalize (BitVec.ofNat 64 (word (((List.range (64 / w)).map fun i => P (64 / w + i)).map (elem w)))).toInt = B at *
    generalize word (((List.range (64 / w)).map P).map (elem w)) = X at *
    generalize word (((List.range (64 / w)).map fun i => P (64 / w + i)).map (elem w)) = Y at *
    rw [if_pos (by omega)]
    refine ⟨_, rfl, ?_⟩
    rw [decide_eq_true_iff]
    have split_iff : (∀ i < 2 * (64 / w), P i = true) ↔ (∀ i < 64 / w, P i = true) ∧ ∀ i < 64 / w, P (64 / w + i) = true := by
      constructor
      · intro h; exact ⟨fun i hi => h i (by omega), fun i hi => h _ (by omega)⟩
      · rintro ⟨h1, h2⟩ i hi
        by_cases h : i < 64 / w
        · exact h1 i h
        · have := h2 (i - 64 / w) (by omega)
          rwa [show 64 / w + (i - 64 / w) = i by omega] at this
    rw [split_iff]
    constructor
    · intro e
      apply htw
      apply Nat.dvd_of_mod_eq_zero
      omega
    · rintro ⟨h1, h2⟩
      have := hone0.2 h1
      have := hone1.2 h2
      omega
  · rw [if_neg h]
    exact ⟨_, rfl, by rw [beq_iff_eq, ofNat_eq_ones hw]⟩

/-! ## Counting -/

theorem Rep.eq_map (hx : Rep n n x bs) : x = bs.map (elem w) := by
  apply List.ext_getElem?
  intro i
  rw [List.getElem?_map]
  by_cases hi : i < n
  · exact hx.get i hi
  · rw [List.getElem?_eq_none (by rw [hx.len]; omega), List.getElem?_eq_none (by rw [hx.blen]; omega)]; rfl

theorem ofInt_toInt (hw : 8 ≤ w) (s : Int) (h1 : -128 ≤ s) (h2 : s < 128) : (BitVec.ofInt w s).toInt = s := by
  rw [BitVec.toInt_ofInt]
  have : 2 ^ 8 ≤ 2 ^ w := Nat.pow_le_pow_right (by omega) hw
  exact Int.bmod_eq_of_le_mul_two (by omega) (by omega)

theorem count_cons_toNat (b : Bool) (l : List Bool) : Spec.popcount (b :: l) = b.toNat + Spec.popcount l := by
  cases b <;> simp [Spec.popcount] ; omega

theorem toNat_le (b : Bool) : b.toNat ≤ 1 := by cases b <;> simp

theorem length16 {α : Type} : ∀ (l : List α), l.length = 16 → ∃ a0 a1 a2 a3 a4 a5 a6 a7 a8 a9 b0 b1 b2 b3 b4 b5, l = [a0, a1, a2, a3, a4, a5, a6, a7, a8, a9, b0, b1, b2, b3, b4, b5]
  | [a0, a1, a2, a3, a4, a5, a6, a7, a8, a9, b0, b1, b2, b3, b4, b5], _ => ⟨a0, a1, a2, a3, a4, a5, a6, a7, a8, a9, b0, b1, b2, b3, b4, b5, rfl⟩
theorem length8 {α : Type} : ∀ (l : List α), l.length = 8 → ∃ a0 a1 a2 a3 a4 a5 a6 a7, l = [a0, a1, a2, a3, a4, a5, a6, a7]
  | [a0, a1, a2, a3, a4, a5, a6, a7], _ => ⟨a0, a1, a2, a3, a4, a5, a6, a7, rfl⟩
theorem length4 {α : Type} : ∀ (l : List α), l.length = 4 → ∃ a0 a1 a2 a3, l = [a0, a1, a2, a3]
  | [a0, a1, a2, a3], _ => ⟨a0, a1, a2, a3, rfl⟩
theorem length2 {α : Type} : ∀ (l : List α), l.length = 2 → ∃ a0 a1, l = [a0, a1]
  | [a0, a1], _ => ⟨a0, a1, rfl⟩

theorem ofInt_add_zero (a : BitVec w) : a + 0#w = a := by simp

theorem neonPopcount_full (hr : Reg w full full) (h8 : 64 ≤ w * full) (lp64 : Bool) (hl : w = 64 → lp64 = true) {k : VMask w} {cs : List Bool}
    (hx : Rep full full k cs) : neonPopcount lp64 full k = some (Spec.popcount cs : Int) := by
  have hk := hx.eq_map
  have hc := hx.blen
  subst hk
  clear hx
  rcases hr.cases with ⟨rfl, rfl⟩ | ⟨rfl, rfl⟩ | ⟨rfl, rfl⟩ | ⟨rfl, rfl⟩ | ⟨rfl, rfl⟩ | ⟨rfl, rfl⟩ | ⟨rfl, rfl⟩ | ⟨rfl, rfl⟩ | ⟨rfl, rfl⟩ | ⟨rfl, rfl⟩
  · omega
  · omega
  · obtain ⟨a0, a1, a2, a3, a4, a5, a6, a7, rfl⟩ := length8 cs hc
    show some (-((_ : BitVec 8)).toInt) = _
    simp [List.zipWith, vpadd, pairs, zeros, elem_ofInt, ← BitVec.ofInt_add, -BitVec.ofInt_toInt, List.replicate]
    have := toNat_le a0; have := toNat_le a1; have := toNat_le a2; have := toNat_le a3; have := toNat_le a4; have := toNat_le a5; have := toNat_le a6; have := toNat_le a7
    rw [Int.bmod_eq_of_le_mul_two (by omega) (by omega)]
    simp only [count_cons_toNat]
    simp [Spec.popcount]; omega
  · obtain ⟨a0, a1, a2, a3, a4, a5, a6, a7, a8, a9, b0, b1, b2, b3, b4, b5, rfl⟩ := length16 cs hc
    show some (-((_ : BitVec 8)).toInt) = _
    simp [List.zipWith, vpadd, pairs, zeros, elem_ofInt, ← BitVec.ofInt_add, -BitVec.ofInt_toInt, List.replicate]
    have := toNat_le a0; have := toNat_le a1; have := toNat_le a2; have := toNat_le a3; have := toNat_le a4; have := toNat_le a5; have := toNat_le a6; have := toNat_le a7; have := toNat_le a8; have := toNat_le a9; have := toNat_le b0; have := toNat_le b1; have := toNat_le b2; have := toNat_le b3; have := toNat_le b4; have := toNat_le b5
    rw [Int.bmod_eq_of_le_mul_two (by omega) (by omega)]
    simp only [count_cons_toNat]
    simp [Spec.popcount]; omega
  · omega
  · obtain ⟨a0, a1, a2, a3, rfl⟩ := length4 cs hc
    show some (-((_ : BitVec 16)).toInt) = _
    simp [List.zipWith, vpadd, pairs, zeros, elem_ofInt, ← BitVec.ofInt_add, -BitVec.ofInt_toInt, List.replicate]
    have := toNat_le a0; have := toNat_le a1; have := toNat_le a2; have := toNat_le a3
    rw [Int.bmod_eq_of_le_mul_two (by omega) (by omega)]
    simp only [count_cons_toNat]
    simp [Spec.popcount]; omega
  · obtain ⟨a0, a1, a2, a3, a4, a5, a6, a7, rfl⟩ := length8 cs hc
    show some (-((_ : BitVec 16)).toInt) = _
    simp [List.zipWith, vpadd, pairs, zeros, elem_ofInt, ← BitVec.ofInt_add, -BitVec.ofInt_toInt, List.replicate]
    have := toNat_le a0; have := toNat_le a1; have := toNat_le a2; have := toNat_le a3; have := toNat_le a4; have := toNat_le a5; have := toNat_le a6; have := toNat_le a7
    rw [Int.bmod_eq_of_le_mul_two (by omega) (by omega)]
    simp only [count_cons_toNat]
    simp [Spec.popcount]; omega
  · obtain ⟨a0, a1, rfl⟩ := length2 cs hc
    show some (-((_ : BitVec 32)).toInt) = _
    simp [List.zipWith, vpadd, pairs, zeros, elem_ofInt, ← BitVec.ofInt_add, -BitVec.ofInt_toInt, List.replicate]
    have := toNat_le a0; have := toNat_le a1
    rw [Int.bmod_eq_of_le_mul_two (by omega) (by omega)]
    simp only [count_cons_toNat]
    simp [Spec.popcount]; omega
  · obtain ⟨a0, a1, a2, a3, rfl⟩ := length4 cs hc
    show some (-((_ : BitVec 32)).toInt) = _
    simp [List.zipWith, vpadd, pairs, zeros, elem_ofInt, ← BitVec.ofInt_add, -BitVec.ofInt_toInt, List.replicate]
    have := toNat_le a0; have := toNat_le a1; have := toNat_le a2; have := toNat_le a3
    rw [Int.bmod_eq_of_le_mul_two (by omega) (by omega)]
    simp only [count_cons_toNat]
    simp [Spec.popcount]; omega
  · obtain ⟨a0, a1, rfl⟩ := length2 cs hc
    have hlp := hl rfl
    subst hlp
    show some (-((elem 64 a0).toInt + (elem 64 a1).toInt)) = _
    cases a0 <;> cases a1 <;> decide

/-- With empty padding, the elements are the lanes followed by `false`. -/
theorem Rep.extend (hx : Rep n full x bs) (hp : ∀ v ∈ x.drop n, v = 0#w) : Rep full full x (bs ++ List.replicate (full - n) false) where
  len := hx.len
  blen := by simp [hx.blen]; have := hx.le; omega
  le := Nat.le_refl _
  get := by
    intro i hi
    by_cases hn : i < n
    · rw [hx.get i hn, List.getElem?_append_left (by rw [hx.blen]; exact hn)]
    · have h1 : i < x.length := by rw [hx.len]; exact hi
      have hm : x[i] ∈ x.drop n := by
        rw [List.mem_drop_iff_getElem]
        exact ⟨i - n, by omega, by simp [show n + (i - n) = i by omega]⟩
      rw [List.getElem?_append_right (by rw [hx.blen]; omega), hx.blen, List.getElem?_replicate, if_pos (by omega), List.getElem?_eq_getElem h1,
        hp _ hm]
      simp [elem]

theorem popcount_extend (bs : List Bool) (m : Nat) : Spec.popcount (bs ++ List.replicate m false) = Spec.popcount bs := by
  simp [Spec.popcount, List.count_append, List.count_replicate]

theorem neonPopcount_spec (hr : Reg w n full) (h8 : 64 ≤ w * full) (lp64 : Bool) (hl : w = 64 → lp64 = true) {k : VMask w} {bs : List Bool}
    (hx : Rep n full k bs) (hp : ∀ v ∈ k.drop n, v = 0#w) : neonPopcount lp64 full k = some (Spec.popcount bs : Int) := by
  rw [neonPopcount_full ⟨hr.ew, hr.size, by have := hr.two; have := hr.le; omega, Nat.le_refl _, by have := hr.two; have := hr.le; omega⟩ h8 lp64 hl
    (hx.extend hp), popcount_extend]

theorem someOf_iff_not (bs : List Bool) : Spec.someOf bs ↔ ¬ Spec.noneOf bs ∧ ¬ Spec.allOf bs := by
  simp only [Spec.someOf, Spec.noneOf, Spec.allOf]
  constructor
  · rintro ⟨h1, h2⟩
    exact ⟨fun h => by simpa using h _ h1, fun h => by simpa using h _ h2⟩
  · rintro ⟨h1, h2⟩
    constructor
    · refine Classical.byContradiction fun hc => h1 fun b hb => ?_
      cases b
      · rfl
      · exact absurd hb hc
    · refine Classical.byContradiction fun hc => h2 fun b hb => ?_
      cases b
      · exact absurd hb hc
      · rfl

theorem add_one_gt {W : Nat} (hW : 1 ≤ W) (u : BitVec W) : 1 < (u + 1).toNat ↔ u ≠ 0#W ∧ u ≠ BitVec.allOnes W := by
  have h2 : 2 ≤ 2 ^ W := Nat.pow_le_pow_right (n := 2) (by omega) hW
  have hu := u.isLt
  rw [BitVec.toNat_add, Ne, Ne, ← BitVec.toNat_inj, ← BitVec.toNat_inj, BitVec.toNat_allOnes]
  have h1 : (1 : BitVec W).toNat = 1 := by simp [Nat.mod_eq_of_lt (show 1 < 2 ^ W by omega)]
  rw [h1, BitVec.toNat_zero]
  by_cases h : u.toNat + 1 = 2 ^ W
  · rw [h, Nat.mod_self]; omega
  · rw [Nat.mod_eq_of_lt (by omega)]; omega

theorem neonSomeOf_small (hr : Reg w n n) (h4 : 32 ≤ w * n) (h8 : w * n ≤ 64) (lp64 : Bool) {x : VMask w} {bs : List Bool} (hx : Rep n n x bs) :
    ∃ r, neonSomeOf lp64 n n x = some r ∧ (r = true ↔ Spec.someOf bs) := by
  have hw : 0 < w := by have := hr.pos; omega
  refine ⟨_, by rw [neonSomeOf, if_pos h8], ?_⟩
  rw [if_neg (by omega), decide_eq_true_iff, add_one_gt (by omega), orPadding_eq hx, Ne, Ne, ofNat_eq_zero hw, ofNat_eq_ones hw,
    someOf_iff_not, spec_none hx, spec_all hx]
  have : (∀ i < n, orBit n bs i = false) ↔ ∀ i < n, bit bs i = false :=
    forall_congr' fun i => forall_congr' fun hi => by simp [orBit, show ¬ n ≤ i by omega]
  rw [this]

theorem someOf_count (bs : List Bool) : Spec.someOf bs ↔ 0 < Spec.popcount bs ∧ Spec.popcount bs < bs.length := by
  rw [Spec.someOf, Spec.popcount, List.count_pos_iff]
  refine and_congr_right fun _ => ?_
  have := List.count_le_length (a := true) (l := bs)
  have h : bs.count true = bs.length ↔ ∀ b ∈ bs, true = b := List.count_eq_length
  constructor
  · intro hf
    refine Nat.lt_of_le_of_ne this fun e => ?_
    simpa using h.1 e _ hf
  · intro hlt
    refine Classical.byContradiction fun hc => ?_
    have := h.2 fun b hb => by
      cases b
      · exact absurd hb hc
      · rfl
    omega

theorem neonSomeOf_large (hr : Reg w n full) (h16 : w * full = 128) (lp64 : Bool) (hl : w = 64 → lp64 = true) {k : VMask w} {bs : List Bool}
    (hx : Rep n full k bs) (hp : ∀ v ∈ k.drop n, v = 0#w) :
    ∃ r, neonSomeOf lp64 n full k = some r ∧ (r = true ↔ Spec.someOf bs) := by
  rw [neonSomeOf, if_neg (by omega), neonPopcount_spec hr (by omega) lp64 hl hx hp]
  refine ⟨_, rfl, ?_⟩
  rw [someOf_count, hx.blen]
  simp

/-! ## Bits -/

theorem lanes_ofULL_word (hn : 2 ≤ n) (h : n ≤ 64) (s : Bool) (x : BitVec 64) (bs : List Bool) (hb : bs.length = n)
    (hx : ∀ i < wordBits n, x.getLsbD i = bit bs i) : (ofULL n s x).lanes = bs ∧ (ofULL n s x).Clean := by
  have hge := wordBits_ge (show 1 ≤ n by omega) h
  constructor
  · apply lanes_ext _ _ hb
    intro i hi
    rw [lane_ofULL_single hn h, hx i (by omega)]
    simp [bit, hb, hi]; omega
  · intro i hi
    rw [lane_ofULL_single hn h]
    by_cases hi' : i < wordBits n
    · rw [hx i hi']; simp [bit, List.getElem?_eq_none (show bs.length ≤ i by omega)]
    · simp [hi']

/-- The selected bits: lane `i` at position `sh i`. -/
def pick (w : Nat) (b : Bool) (i : Nat) : BitVec w := if b then 1#w <<< i else 0#w

theorem bitsel_eq {x : VMask w} {bs : List Bool} (hx : Rep n full x bs) (hs : ∀ i < n, (if w = 8 ∧ 8 ≤ i then i - 8 else i) < w) :
    List.zipWith (· &&& ·) x (bitsel w n full) = (List.range full).map fun i => pick w (bit bs i) (if w = 8 ∧ 8 ≤ i then i - 8 else i) := by
  have hl : (List.zipWith (· &&& ·) x (bitsel w n full)).length = full := by simp [bitsel, hx.len]
  rw [eq_map_range 0#w _ _ hl]
  apply List.map_congr_left
  intro i hi
  rw [List.mem_range] at hi
  have h1 : i < x.length := by rw [hx.len]; exact hi
  simp only [bitsel, List.getElem?_zipWith, List.getElem?_eq_getElem h1, List.getElem?_map, List.getElem?_range hi, Option.map_some, Option.getD_some]
  by_cases hn : i < n
  · have := hx.getD hn
    rw [List.getElem?_eq_getElem h1, Option.getD_some] at this
    rw [this, if_pos hn]
    have hlt := hs i hn
    unfold pick
    cases bit bs i
    · simp [elem]
    · simp only [elem, if_true]
      exact BitVec.allOnes_and
  · have : bit bs i = false := by simp [bit, List.getElem?_eq_none (show bs.length ≤ i by rw [hx.blen]; omega)]
    simp [hn, this, pick]

theorem wordBits_8 : ∀ n < 9, 2 ≤ n → wordBits n = 8 := by decide
theorem wordBits_16 : ∀ n < 17, 9 ≤ n → wordBits n = 16 := by decide

/-- Reading off the sum of the selected bits. -/
theorem lanes_of_table (hn : 2 ≤ n) (h8 : n ≤ 8) (V : BitVec 64) (cs : List Bool)
    (bs : List Bool) (hb : bs.length = n) (hc : ∀ i, bit cs i = bit bs i) (hV : V.setWidth 8 = (BitVec.ofBoolListLE cs).setWidth 8) :
    (ofULL n true V).lanes = bs ∧ (ofULL n true V).Clean := by
  apply lanes_ofULL_word hn (by omega) _ _ _ hb
  intro i hi
  rw [wordBits_8 n (by omega) hn] at hi
  have := congrArg (fun v => v.getLsbD i) hV
  simp only [BitVec.getLsbD_setWidth, BitVec.getLsbD_ofBoolListLE, hi, decide_true, Bool.true_and] at this
  rw [this, ← hc]
  simp [bit, List.getD_eq_getElem?_getD]

theorem tab8x8a : ∀ c0 c1 c2 c3 c4 c5 c6 c7 : Bool, BitVec.setWidth 8 (sext (vaddv [pick 8 c0 0, pick 8 c1 1, pick 8 c2 2, pick 8 c3 3, pick 8 c4 4, pick 8 c5 5, pick 8 c6 6, pick 8 c7 7])) = BitVec.setWidth 8 (BitVec.ofBoolListLE [c0, c1, c2, c3, c4, c5, c6, c7]) := by decide +kernel
theorem tab16x4a : ∀ c0 c1 c2 c3 : Bool, BitVec.setWidth 8 (sext (vaddv [pick 16 c0 0, pick 16 c1 1, pick 16 c2 2, pick 16 c3 3])) = BitVec.setWidth 8 (BitVec.ofBoolListLE [c0, c1, c2, c3]) := by decide +kernel
theorem tab16x8a : ∀ c0 c1 c2 c3 c4 c5 c6 c7 : Bool, BitVec.setWidth 8 (sext (vaddv [pick 16 c0 0, pick 16 c1 1, pick 16 c2 2, pick 16 c3 3, pick 16 c4 4, pick 16 c5 5, pick 16 c6 6, pick 16 c7 7])) = BitVec.setWidth 8 (BitVec.ofBoolListLE [c0, c1, c2, c3, c4, c5, c6, c7]) := by decide +kernel
theorem tab32x2a : ∀ c0 c1 : Bool, BitVec.setWidth 8 (sext (vaddv [pick 32 c0 0, pick 32 c1 1])) = BitVec.setWidth 8 (BitVec.ofBoolListLE [c0, c1]) := by decide +kernel
theorem tab32x4a : ∀ c0 c1 c2 c3 : Bool, BitVec.setWidth 8 (sext (vaddv [pick 32 c0 0, pick 32 c1 1, pick 32 c2 2, pick 32 c3 3])) = BitVec.setWidth 8 (BitVec.ofBoolListLE [c0, c1, c2, c3]) := by decide +kernel
theorem tab8x8b : ∀ c0 c1 c2 c3 c4 c5 c6 c7 : Bool, BitVec.setWidth 8 (sext ((vpadd (vpadd (vpadd [pick 8 c0 0, pick 8 c1 1, pick 8 c2 2, pick 8 c3 3, pick 8 c4 4, pick 8 c5 5, pick 8 c6 6, pick 8 c7 7] (zeros 8)) (zeros 8)) (zeros 8))[0]?.getD 0#8)) = BitVec.setWidth 8 (BitVec.ofBoolListLE [c0, c1, c2, c3, c4, c5, c6, c7]) := by decide +kernel
theorem tab16x4b : ∀ c0 c1 c2 c3 : Bool, BitVec.setWidth 8 (sext ((vpadd (vpadd [pick 16 c0 0, pick 16 c1 1, pick 16 c2 2, pick 16 c3 3] (zeros 16)) (zeros 16))[0]?.getD 0#16)) = BitVec.setWidth 8 (BitVec.ofBoolListLE [c0, c1, c2, c3]) := by decide +kernel
theorem tab32x2b : ∀ c0 c1 : Bool, BitVec.setWidth 8 (sext ((vpadd [pick 32 c0 0, pick 32 c1 1] (zeros 32))[0]?.getD 0#32)) = BitVec.setWidth 8 (BitVec.ofBoolListLE [c0, c1]) := by decide +kernel
theorem tab16x8b : ∀ c0 c1 c2 c3 c4 c5 c6 c7 : Bool, BitVec.setWidth 8 (sext ((vpadd (vpadd (vpadd ([pick 16 c0 0, pick 16 c1 1, pick 16 c2 2, pick 16 c3 3, pick 16 c4 4, pick 16 c5 5, pick 16 c6 6, pick 16 c7 7].take 4) ([pick 16 c0 0, pick 16 c1 1, pick 16 c2 2, pick 16 c3 3, pick 16 c4 4, pick 16 c5 5, pick 16 c6 6, pick 16 c7 7].drop 4)) (zeros 16)) (zeros 16))[0]?.getD 0#16)) = BitVec.setWidth 8 (BitVec.ofBoolListLE [c0, c1, c2, c3, c4, c5, c6, c7]) := by decide +kernel
theorem tab32x4b : ∀ c0 c1 c2 c3 : Bool, BitVec.setWidth 8 (sext ((vpadd (vpadd ([pick 32 c0 0, pick 32 c1 1, pick 32 c2 2, pick 32 c3 3].take 2) ([pick 32 c0 0, pick 32 c1 1, pick 32 c2 2, pick 32 c3 3].drop 2)) (zeros 32))[0]?.getD 0#32)) = BitVec.setWidth 8 (BitVec.ofBoolListLE [c0, c1, c2, c3]) := by decide +kernel
theorem tab64x2 : ∀ c0 c1 : Bool, BitVec.setWidth 8 (sext ((elem 64 c0 &&& 1#64) ||| (elem 64 c1 &&& 2#64))) = BitVec.setWidth 8 (BitVec.ofBoolListLE [c0, c1]) := by decide +kernel

/-- The sum of eight selected bytes, as a tree. -/
def tree8 (a0 a1 a2 a3 a4 a5 a6 a7 : BitVec 8) : BitVec 8 := ((a0 + a1) + (a2 + a3)) + ((a4 + a5) + (a6 + a7))
theorem tab_tree8 : ∀ c0 c1 c2 c3 c4 c5 c6 c7 : Bool, tree8 (pick 8 c0 0) (pick 8 c1 1) (pick 8 c2 2) (pick 8 c3 3) (pick 8 c4 4) (pick 8 c5 5) (pick 8 c6 6) (pick 8 c7 7) = BitVec.ofBoolListLE [c0, c1, c2, c3, c4, c5, c6, c7] := by decide +kernel

theorem word_bytes (lo hi : BitVec 8) (i : Nat) :
    (BitVec.ofNat 64 (word [lo, hi])).getLsbD i = if i < 8 then lo.getLsbD i else hi.getLsbD (i - 8) := by
  have e : BitVec.ofNat 64 (word [lo, hi]) = (hi ++ lo).setWidth 64 := by
    apply BitVec.eq_of_toNat_eq
    have h1 := lo.isLt
    have h2 := hi.isLt
    rw [BitVec.toNat_ofNat, BitVec.toNat_setWidth, BitVec.toNat_append, ← Nat.shiftLeft_add_eq_or_of_lt lo.isLt, Nat.shiftLeft_eq]
    simp
    omega
  rw [e, BitVec.getLsbD_setWidth, BitVec.getLsbD_append]
  by_cases h : i < 8
  · simp [h]; omega
  · simp only [h, if_false]
    by_cases h' : i < 64
    · simp [h']
    · simp [h', BitVec.getLsbD_of_ge hi (i - 8) (by omega)]

theorem bit_map_range (bs : List Bool) (m : Nat) (h : bs.length ≤ m) (i : Nat) : bit ((List.range m).map (bit bs)) i = bit bs i := by
  by_cases hi : i < m
  · simp [bit, hi]
  · simp [bit, List.getElem?_eq_none (show bs.length ≤ i by omega), hi]

theorem neonToBits_spec (a64 : Bool) (hr : Reg w n full) {x : VMask w} {bs : List Bool} (hx : Rep n full x bs) :
    (neonToBits a64 n full x).lanes = bs ∧ (neonToBits a64 n full x).Clean := by
  have hc2 := hr.two
  have hle := hr.le
  have hhalf := hr.half
  have hbase : 2 ≤ n → n ≤ 64 → w ≤ 64 → 0 < w → (toBits n x).lanes = bs ∧ (toBits n x).Clean := fun h1 h2 h3 h4 =>
    toBits_spec h4 h3 (by omega) h2 hx
  have hm : ∀ i, bit ((List.range full).map (bit bs)) i = bit bs i := bit_map_range bs full (by rw [hx.blen]; exact hle)
  rcases hr.cases with ⟨rfl, rfl⟩ | ⟨rfl, rfl⟩ | ⟨rfl, rfl⟩ | ⟨rfl, rfl⟩ | ⟨rfl, rfl⟩ | ⟨rfl, rfl⟩ | ⟨rfl, rfl⟩ | ⟨rfl, rfl⟩ | ⟨rfl, rfl⟩ | ⟨rfl, rfl⟩
  · exact hbase (by omega) (by omega) (by omega) (by omega)
  · exact hbase (by omega) (by omega) (by omega) (by omega)
  · have e := bitsel_eq hx (fun i hi => by split <;> omega)
    cases a64
    · unfold neonToBits
      simp only [Nat.reduceMul, Nat.reduceEqDiff, if_true, if_false, Bool.false_eq_true, e]
      exact lanes_of_table (by omega) (by omega) _ _ _ hx.blen hm (tab8x8b (bit bs 0) (bit bs 1) (bit bs 2) (bit bs 3) (bit bs 4) (bit bs 5) (bit bs 6) (bit bs 7))
    · unfold neonToBits
      simp only [Nat.reduceMul, Nat.reduceEqDiff, if_true, if_false, e]
      exact lanes_of_table (by omega) (by omega) _ _ _ hx.blen hm (tab8x8a (bit bs 0) (bit bs 1) (bit bs 2) (bit bs 3) (bit bs 4) (bit bs 5) (bit bs 6) (bit bs 7))
  · have e := bitsel_eq hx (fun i hi => by split <;> omega)
    have hb : wordBits n = 16 := wordBits_16 n (by omega) (by omega)
    have key : neonToBits a64 n 16 x = BitMask.ofULL n true (BitVec.ofNat 64 (word [tree8 (pick 8 (bit bs 0) 0) (pick 8 (bit bs 1) 1) (pick 8 (bit bs 2) 2) (pick 8 (bit bs 3) 3) (pick 8 (bit bs 4) 4) (pick 8 (bit bs 5) 5) (pick 8 (bit bs 6) 6) (pick 8 (bit bs 7) 7), tree8 (pick 8 (bit bs 8) 0) (pick 8 (bit bs 9) 1) (pick 8 (bit bs 10) 2) (pick 8 (bit bs 11) 3) (pick 8 (bit bs 12) 4) (pick 8 (bit bs 13) 5) (pick 8 (bit bs 14) 6) (pick 8 (bit bs 15) 7)])) := by
      unfold neonToBits
      simp only [Nat.reduceMul, Nat.reduceEqDiff, if_true, if_false, e]
      cases a64 <;> rfl
    rw [key, tab_tree8, tab_tree8]
    apply lanes_ofULL_word hc2 (by omega) _ _ _ hx.blen
    intro i hi
    rw [hb] at hi
    rw [word_bytes]
    split
    · rename_i h
      rw [BitVec.getLsbD_ofBoolListLE, ← hm i]
      have : ∀ j < 8, ([bit bs 0, bit bs 1, bit bs 2, bit bs 3, bit bs 4, bit bs 5, bit bs 6, bit bs 7] : List Bool).getD j false = bit ((List.range 16).map (bit bs)) j := by
        intro j hj
        match j, hj with
        | 0, _ => rfl
        | 1, _ => rfl
        | 2, _ => rfl
        | 3, _ => rfl
        | 4, _ => rfl
        | 5, _ => rfl
        | 6, _ => rfl
        | 7, _ => rfl
      exact this i h
    · rename_i h
      rw [BitVec.getLsbD_ofBoolListLE, ← hm i]
      have : ∀ j < 8, ([bit bs 8, bit bs 9, bit bs 10, bit bs 11, bit bs 12, bit bs 13, bit bs 14, bit bs 15] : List Bool).getD j false = bit ((List.range 16).map (bit bs)) (8 + j) := by
        intro j hj
        match j, hj with
        | 0, _ => rfl
        | 1, _ => rfl
        | 2, _ => rfl
        | 3, _ => rfl
        | 4, _ => rfl
        | 5, _ => rfl
        | 6, _ => rfl
        | 7, _ => rfl
      have e' := this (i - 8) (by omega)
      rwa [show 8 + (i - 8) = i by omega] at e'
  · exact hbase (by omega) (by omega) (by omega) (by omega)
  · have e := bitsel_eq hx (fun i hi => by split <;> omega)
    cases a64
    · unfold neonToBits
      simp only [Nat.reduceMul, Nat.reduceEqDiff, if_true, if_false, Bool.false_eq_true, e]
      exact lanes_of_table (by omega) (by omega) _ _ _ hx.blen hm (tab16x4b (bit bs 0) (bit bs 1) (bit bs 2) (bit bs 3))
    · unfold neonToBits
      simp only [Nat.reduceMul, Nat.reduceEqDiff, if_true, if_false, e]
      exact lanes_of_table (by omega) (by omega) _ _ _ hx.blen hm (tab16x4a (bit bs 0) (bit bs 1) (bit bs 2) (bit bs 3))
  · have e := bitsel_eq hx (fun i hi => by split <;> omega)
    cases a64
    · unfold neonToBits
      simp only [Nat.reduceMul, Nat.reduceEqDiff, if_true, if_false, Bool.false_eq_true, e]
      exact lanes_of_table (by omega) (by omega) _ _ _ hx.blen hm (tab16x8b (bit bs 0) (bit bs 1) (bit bs 2) (bit bs 3) (bit bs 4) (bit bs 5) (bit bs 6) (bit bs 7))
    · unfold neonToBits
      simp only [Nat.reduceMul, Nat.reduceEqDiff, if_true, if_false, e]
      exact lanes_of_table (by omega) (by omega) _ _ _ hx.blen hm (tab16x8a (bit bs 0) (bit bs 1) (bit bs 2) (bit bs 3) (bit bs 4) (bit bs 5) (bit bs 6) (bit bs 7))
  · have hn2 : n = 2 := by omega
    subst hn2
    have e := bitsel_eq hx (fun i hi => by split <;> omega)
    have e' : List.zipWith (· &&& ·) x [1#32, 2#32] = [pick 32 (bit bs 0) 0, pick 32 (bit bs 1) 1] := e
    cases a64
    · unfold neonToBits
      simp only [Nat.reduceMul, Nat.reduceEqDiff, if_true, if_false, Bool.false_eq_true, e']
      exact lanes_of_table (by omega) (by omega) _ _ _ hx.blen hm (tab32x2b (bit bs 0) (bit bs 1))
    · unfold neonToBits
      simp only [Nat.reduceMul, Nat.reduceEqDiff, if_true, if_false, e']
      exact lanes_of_table (by omega) (by omega) _ _ _ hx.blen hm (tab32x2a (bit bs 0) (bit bs 1))
  · have e := bitsel_eq hx (fun i hi => by split <;> omega)
    cases a64
    · unfold neonToBits
      simp only [Nat.reduceMul, Nat.reduceEqDiff, if_true, if_false, Bool.false_eq_true, e]
      exact lanes_of_table (by omega) (by omega) _ _ _ hx.blen hm (tab32x4b (bit bs 0) (bit bs 1) (bit bs 2) (bit bs 3))
    · unfold neonToBits
      simp only [Nat.reduceMul, Nat.reduceEqDiff, if_true, if_false, e]
      exact lanes_of_table (by omega) (by omega) _ _ _ hx.blen hm (tab32x4a (bit bs 0) (bit bs 1) (bit bs 2) (bit bs 3))
  · have hn2 : n = 2 := by omega
    subst hn2
    unfold neonToBits
    simp only [Nat.reduceMul, if_true, hx.getD (show 0 < 2 by omega), hx.getD (show 1 < 2 by omega)]
    exact lanes_of_table (by omega) (by omega) _ _ _ hx.blen hm (tab64x2 (bit bs 0) (bit bs 1))

/-! ## PowerPC -/

theorem ppcPopcount_full (hw : w = 8 ∨ w = 16 ∨ w = 32 ∨ w = 64) (p10 : Bool) (cs : List Bool) :
    ppcPopcount p10 (cs.map (elem w)) = (Spec.popcount cs : Int) := by
  have hpos : 0 < w := by rcases hw with rfl | rfl | rfl | rfl <;> omega
  unfold ppcPopcount
  cases p10
  · rw [if_neg (by simp)]
    split
    · have key : ∀ m : Nat, w = 32 * m → vecSums ((cs.map (elem w)).flatMap fun v => (List.range m).map fun j => (v.extractLsb' (32 * j) 32).toInt) =
          -((m : Int) * Spec.popcount cs) := by
        intro m hm
        induction cs with
        | nil => simp [vecSums, Spec.popcount]
        | cons b cs ih =>
          have hb : ((List.range m).map fun j => ((elem w b).extractLsb' (32 * j) 32).toInt) = List.replicate m (-(b.toNat : Int)) := by
            apply List.ext_getElem (by simp)
            intro j h1 h2
            simp only [List.getElem_map, List.getElem_range, List.getElem_replicate]
            have hj : j < m := by simpa using h1
            have : (elem w b).extractLsb' (32 * j) 32 = elem 32 b := by
              apply BitVec.eq_of_getLsbD_eq
              intro i hi
              rw [BitVec.getLsbD_extractLsb', getLsbD_elem, getLsbD_elem]
              have : 32 * j + i < w := by omega
              simp [hi, this]
            rw [this]
            cases b <;> decide
          rw [List.map_cons, List.flatMap_cons, vecSums, List.sum_append, hb, count_cons_toNat]
          unfold vecSums at ih
          rw [ih]
          simp only [List.sum_replicate_int, Int.natCast_add]
          rw [Int.mul_add]
          simp only [Int.mul_neg]
          omega
      rcases hw with rfl | rfl | rfl | rfl
      · omega
      · omega
      · rw [key (32 / 32) (by omega)]; simp
      · rw [key (64 / 32) (by omega)]; simp
    · induction cs with
      | nil => simp [vecSums, Spec.popcount]
      | cons b cs ih =>
        have hb : (elem w b).toInt = -(b.toNat : Int) := by
          rcases hw with rfl | rfl | rfl | rfl <;> cases b <;> decide
        rw [List.map_cons, List.map_cons, vecSums, List.sum_cons, hb, count_cons_toNat]
        unfold vecSums at ih
        omega
  · rw [if_pos rfl]
    congr 1
    induction cs with
    | nil => simp [Spec.popcount]
    | cons b cs ih =>
      rw [List.map_cons, List.countP_cons, ih, count_cons_toNat, msb_elem hpos]
      cases b <;> simp ; omega

theorem ppcPopcount_spec (hr : Reg w n full) (p10 : Bool) {k : VMask w} {bs : List Bool}
    (hx : Rep n full k bs) (hp : ∀ v ∈ k.drop n, v = 0#w) : ppcPopcount p10 k = (Spec.popcount bs : Int) := by
  rw [(hx.extend hp).eq_map, ppcPopcount_full hr.ew, popcount_extend]

theorem ppcSomeOf_spec (hr : Reg w n full) (p10 : Bool) {k : VMask w} {bs : List Bool}
    (hx : Rep n full k bs) (hp : ∀ v ∈ k.drop n, v = 0#w) : ppcSomeOf p10 n k = true ↔ Spec.someOf bs := by
  rw [ppcSomeOf, ppcPopcount_spec hr p10 hx hp, someOf_count, hx.blen]
  simp

end StdSimd.VMask
