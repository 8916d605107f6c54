import Verif.Model.VMask
import Verif.Spec.Lanes
import Verif.Proofs.BitMask
import Verif.Proofs.BitOps
import Verif.Proofs.FixedMask
import Verif.Proofs.Memory
import Verif.Proofs.Util
namespace StdSimd.VMask
open BitMask

variable {w n full : Nat}

/-- `x` represents the lane sequence `bs`. -/
structure Rep (n full : Nat) (x : VMask w) (bs : List Bool) : Prop where
  len : x.length = full
  blen : bs.length = n
  le : n ≤ full
  get : ∀ i, i < n → x[i]? = (bs[i]?).map (elem w)

theorem elem_ne_zero (hw : 0 < w) (b : Bool) : (elem w b != 0#w) = b := by
  cases b
  · simp [elem]
  · simp only [elem, if_true, bne_iff_ne, ne_eq]
    intro h
    have := congrArg (fun v => BitVec.getLsbD v 0) h
    simp [hw] at this

theorem getLsbD_elem (b : Bool) (i : Nat) : (elem w b).getLsbD i = (b && decide (i < w)) := by
  cases b <;> simp [elem]

theorem elem_cases (v : BitVec w) (hw : 0 < w) (h : v = 0#w ∨ v = BitVec.allOnes w) : v = elem w (v != 0#w) := by
  rcases h with h | h <;> subst h
  · simp [elem]
  · have := elem_ne_zero hw true
    simp only [elem, if_true] at this
    rw [this]; simp [elem]

theorem Wf.rep (hw : 0 < w) (hn : n ≤ full) {x : VMask w} (h : Wf n full x) : Rep n full x (lanes n x) where
  len := h.len
  blen := by simp [lanes, h.len]; omega
  le := hn
  get := by
    intro i hi
    have hi' : i < x.length := by rw [h.len]; omega
    have hmem : x[i] ∈ x.take n := by
      rw [List.mem_take_iff_getElem]; exact ⟨i, by omega, rfl⟩
    have := elem_cases _ hw (h.lane _ hmem)
    simp only [lanes, List.getElem?_map, List.getElem?_take_of_lt hi, List.getElem?_eq_getElem hi', Option.map_some]
    exact congrArg some this

theorem Rep.wf {x : VMask w} {bs : List Bool} (h : Rep n full x bs) : Wf n full x where
  len := h.len
  lane := by
    intro v hv
    rw [List.mem_take_iff_getElem] at hv
    obtain ⟨i, hi, rfl⟩ := hv
    have h1 := h.get i (by omega)
    rw [List.getElem?_eq_getElem (by omega), List.getElem?_eq_getElem (by have := h.blen; omega)] at h1
    simp only [Option.map_some, Option.some.injEq] at h1
    rw [h1]
    generalize bs[i]'(by have := h.blen; omega) = b
    cases b <;> simp [elem]

theorem Rep.lanes_eq (hw : 0 < w) {x : VMask w} {bs : List Bool} (h : Rep n full x bs) : lanes n x = bs := by
  apply List.ext_getElem?
  intro i
  by_cases hi : i < n
  · simp only [lanes, List.getElem?_map, List.getElem?_take_of_lt hi, h.get i hi]
    rw [List.getElem?_eq_getElem (by rw [h.blen]; exact hi)]
    simp only [Option.map_some]
    exact congrArg some (elem_ne_zero hw _)
  · rw [List.getElem?_eq_none (by simp [lanes, h.len]; omega), List.getElem?_eq_none (by rw [h.blen]; omega)]

/-- Value of lane `i`. -/
def bit (bs : List Bool) (i : Nat) : Bool := (bs[i]?).getD false

theorem Rep.getD {x : VMask w} {bs : List Bool} (h : Rep n full x bs) {i : Nat} (hi : i < n) :
    (x[i]?).getD 0#w = elem w (bit bs i) := by
  rw [h.get i hi, List.getElem?_eq_getElem (by rw [h.blen]; exact hi)]
  simp [bit, List.getElem?_eq_getElem (show i < bs.length by rw [h.blen]; exact hi)]

theorem Rep.getD' {x : VMask w} {bs : List Bool} (h : Rep n full x bs) {i : Nat} (hi : i < n) :
    x[i]? = some (elem w (bit bs i)) := by
  rw [h.get i hi, List.getElem?_eq_getElem (by rw [h.blen]; exact hi)]
  simp [bit, List.getElem?_eq_getElem (show i < bs.length by rw [h.blen]; exact hi)]

theorem rep_of {x : VMask w} {bs : List Bool} (hl : x.length = full) (hb : bs.length = n) (hn : n ≤ full)
    (h : ∀ i < n, x[i]? = some (elem w (bit bs i))) : Rep n full x bs where
  len := hl
  blen := hb
  le := hn
  get := by
    intro i hi
    rw [h i hi, List.getElem?_eq_getElem (by rw [hb]; exact hi)]
    simp [bit, List.getElem?_eq_getElem (show i < bs.length by rw [hb]; exact hi)]

theorem length_implicitMask : (implicitMask w n full).length = full := by
  unfold implicitMask; split <;> simp

theorem getElem?_implicitMask {i : Nat} (hi : i < full) :
    (implicitMask w n full)[i]? = some (if full = n ∨ i < n then BitVec.allOnes w else 0#w) := by
  unfold implicitMask
  split
  · rename_i h; subst h; simp [hi]
  · simp [List.getElem?_map, List.getElem?_range, hi, *]

theorem rep_broadcast (b : Bool) (hn : n ≤ full) : Rep n full (broadcast w n full b) (List.replicate n b) := by
  apply rep_of
  · unfold broadcast; split <;> simp [length_implicitMask]
  · simp
  · exact hn
  · intro i hi
    unfold broadcast
    cases b
    · simp [bit, elem, hi, show i < full by omega]
    · simp only [if_true]
      rw [getElem?_implicitMask (by omega)]
      simp [bit, elem, hi]

theorem rep_zipWith (f : BitVec w → BitVec w → BitVec w) (g : Bool → Bool → Bool)
    (hfg : ∀ a b, f (elem w a) (elem w b) = elem w (g a b)) {x y : VMask w} {bs cs : List Bool}
    (hx : Rep n full x bs) (hy : Rep n full y cs) : Rep n full (List.zipWith f x y) (List.zipWith g bs cs) := by
  apply rep_of
  · simp [hx.len, hy.len]
  · simp [hx.blen, hy.blen]
  · exact hx.le
  · intro i hi
    rw [List.getElem?_zipWith, hx.getD' hi, hy.getD' hi]
    simp only [hfg]
    congr 2
    unfold bit
    rw [List.getElem?_zipWith, List.getElem?_eq_getElem (show i < bs.length by rw [hx.blen]; exact hi),
      List.getElem?_eq_getElem (show i < cs.length by rw [hy.blen]; exact hi)]
    simp

theorem elem_and (a b : Bool) : elem w a &&& elem w b = elem w (a && b) := by cases a <;> cases b <;> simp [elem]
theorem elem_or (a b : Bool) : elem w a ||| elem w b = elem w (a || b) := by cases a <;> cases b <;> simp [elem]
theorem elem_xor (a b : Bool) : elem w a ^^^ elem w b = elem w (a ^^ b) := by cases a <;> cases b <;> simp [elem]
theorem elem_not (a : Bool) : ~~~ elem w a = elem w (!a) := by cases a <;> simp [elem]

theorem rep_implicitMask (hn : n ≤ full) : Rep n full (implicitMask w n full) (List.replicate n true) := by
  have := rep_broadcast (w := w) true hn
  simpa [broadcast] using this

theorem zipWith_replicate_true (g : Bool → Bool → Bool) (bs : List Bool) (n : Nat) (h : bs.length = n) :
    List.zipWith g bs (List.replicate n true) = bs.map (fun b => g b true) := by
  subst h
  induction bs with
  | nil => rfl
  | cons b bs ih => simp [List.replicate_succ, ih]

theorem rep_not {x : VMask w} {bs : List Bool} (hx : Rep n full x bs) :
    Rep n full (not n full x) (bs.map (!·)) := by
  unfold not
  split
  · apply rep_of
    · simp [hx.len]
    · simp [hx.blen]
    · exact hx.le
    · intro i hi
      rw [List.getElem?_map, hx.getD' hi]
      simp only [Option.map_some, elem_not]
      congr 2
      unfold bit
      rw [List.getElem?_map, List.getElem?_eq_getElem (show i < bs.length by rw [hx.blen]; exact hi)]
      simp
  · have := rep_zipWith (fun a b : BitVec w => ~~~a &&& b) (fun a b => !a && b)
      (by intro a b; simp only [elem_not, elem_and]) hx (rep_implicitMask hx.le)
    rw [zipWith_replicate_true _ _ _ hx.blen] at this
    simpa using this

theorem neg_ofBool (hw : 0 < w) (b : Bool) : -(BitVec.ofBool b).setWidth w = elem w b := by
  cases b
  · simp [elem]
  · simp only [elem, if_true]
    rw [← BitVec.neg_one_eq_allOnes]
    congr 1
    apply BitVec.eq_of_toNat_eq
    have : 1 < 2 ^ w := Nat.one_lt_two_pow (by omega)
    simp [Nat.mod_eq_of_lt this]

theorem bit_set (bs : List Bool) {i j : Nat} (hi : i < bs.length) (b : Bool) :
    bit (bs.set i b) j = if i = j then b else bit bs j := by
  unfold bit
  rw [List.getElem?_set]
  by_cases h : i = j
  · subst h; simp [hi]
  · simp [h]

theorem rep_set (hw : 0 < w) {x : VMask w} {bs : List Bool} (hx : Rep n full x bs) {i : Nat} (hi : i < n) (b : Bool) :
    Rep n full (set x i b) (bs.set i b) := by
  apply rep_of
  · simp [set, hx.len]
  · simp [hx.blen]
  · exact hx.le
  · intro j hj
    unfold set
    rw [bit_set _ (by rw [hx.blen]; exact hi), List.getElem?_set, neg_ofBool hw]
    have h1 := hx.le
    have h2 := hx.len
    by_cases hij : i = j
    · subst hij; simp; omega
    · simp [hij, hx.getD' hj]

theorem elem_eq_zero (hw : 0 < w) (b : Bool) : (elem w b = 0#w) ↔ b = false := by
  have := elem_ne_zero hw b
  rw [bne_eq_false_iff_eq.symm, this]

theorem rep_blend (hw : 0 < w) {k x y : VMask w} {ks bs cs : List Bool} (hk : Rep n full k ks) (hx : Rep n full x bs)
    (hy : Rep n full y cs) : Rep n full (blend k x y) (Spec.select ks cs bs) := by
  apply rep_of
  · simp [blend, hk.len, hx.len, hy.len]
  · simp [Spec.select, hk.blen, hx.blen, hy.blen]
  · exact hk.le
  · intro i hi
    have h1 : i < ks.length := by rw [hk.blen]; exact hi
    have h2 : i < bs.length := by rw [hx.blen]; exact hi
    have h3 : i < cs.length := by rw [hy.blen]; exact hi
    have e1 : bit ks i = ks[i] := by simp [bit, h1]
    have e2 : bit bs i = bs[i] := by simp [bit, h2]
    have e3 : bit cs i = cs[i] := by simp [bit, h3]
    have e4 : bit (Spec.select ks cs bs) i = if ks[i] then cs[i] else bs[i] := by
      simp only [bit, Spec.select, List.getElem?_zipWith, List.getElem?_zip_eq_some]
      rw [List.getElem?_eq_getElem h1, List.getElem?_eq_getElem (by simp; omega)]
      simp
    have hz : (x.zip y)[i]? = some (elem w (bit bs i), elem w (bit cs i)) := by
      rw [List.getElem?_zip_eq_some]; exact ⟨hx.getD' hi, hy.getD' hi⟩
    unfold blend
    rw [List.getElem?_zipWith, hk.getD' hi, hz, e4, e1, e2, e3]
    simp only [Option.some.injEq]
    cases h : ks[i]
    · simp [elem]
    · simp [elem_eq_zero hw]

theorem select_bool (ks bs : List Bool) (n : Nat) (h1 : ks.length = n) (h2 : bs.length = n) (b : Bool) :
    Spec.select ks (List.replicate n b) bs = List.zipWith (fun k x => if k then b else x) ks bs := by
  apply List.ext_getElem
  · simp [Spec.select, h1, h2]
  · intro i hi hi'
    simp [Spec.select]

theorem rep_maskedAssignBool (hw : 0 < w) (const : Bool) {k x : VMask w} {ks bs : List Bool} (hk : Rep n full k ks)
    (hx : Rep n full x bs) (b : Bool) :
    Rep n full (maskedAssignBool n full const k x b) (Spec.select ks (List.replicate n b) bs) := by
  unfold maskedAssignBool
  cases const
  · exact rep_blend hw hk hx (rep_broadcast b hk.le)
  · rw [select_bool _ _ _ hk.blen hx.blen]
    cases b
    · have := rep_zipWith (fun a b : BitVec w => ~~~a &&& b) (fun a b => if a then false else b)
        (by intro a b; simp only [elem_not, elem_and]; cases a <;> simp) hk hx
      simpa using this
    · have := rep_zipWith (fun a b : BitVec w => a ||| b) (fun a b => if a then true else b)
        (by intro a b; simp only [elem_or]; cases a <;> simp) hk hx
      simpa [or] using this

/-! ### bit words -/

theorem getLsbD_ofBools (v : Nat) (l : List Bool) (i : Nat) :
    (ofBools v l).getLsbD i = (decide (i < v) && bit l i) := by
  simp [ofBools, bit, BitVec.getLsbD_setWidth]

theorem foldl_or_getLsbD (f : Nat → BitVec 64) (l : List Nat) (r : BitVec 64) (j : Nat) :
    (l.foldl (fun (r : BitVec 64) i => r ||| f i) r).getLsbD j = (r.getLsbD j || l.any (fun i => (f i).getLsbD j)) := by
  induction l generalizing r with
  | nil => simp
  | cons a l ih => simp [ih, Bool.or_assoc]

theorem lane_ofULL_of (h1 : 1 ≤ n) (h : n ≤ 64) (s : Bool) (x : BitVec 64) (bs : List Bool) (hb : bs.length = n)
    (hx : ∀ i, x.getLsbD i = bit bs i) (i : Nat) : (ofULL n s x).lane i = bit bs i := by
  by_cases hn : n = 1
  · subst hn
    by_cases hi : i = 0
    · subst hi
      rw [lane_ofULL_one, ← hx 0]
      cases hb0 : x.getLsbD 0
      · simp only [bne_eq_false_iff_eq]
        apply BitVec.eq_of_getLsbD_eq
        intro j hj
        rw [hx j]
        by_cases hj0 : j = 0
        · subst hj0; rw [← hx 0, hb0]; simp
        · simp [bit, List.getElem?_eq_none (show bs.length ≤ j by omega)]
      · simp only [bne_iff_ne]
        intro h0; rw [h0] at hb0; simp at hb0
    · rw [lane_ge_one _ (by omega)]
      simp [bit, List.getElem?_eq_none (show bs.length ≤ i by omega)]
  · rw [lane_ofULL_single (by omega) h, hx]
    by_cases hi : i < wordBits n
    · simp [hi]
    · have := wordBits_ge h1 h
      have : bit bs i = false := by simp [bit, List.getElem?_eq_none (show bs.length ≤ i by omega)]
      simp [this]

theorem lanes_ofULL_of (h1 : 1 ≤ n) (h : n ≤ 64) (s : Bool) (x : BitVec 64) (bs : List Bool) (hb : bs.length = n)
    (hx : ∀ i, x.getLsbD i = bit bs i) : (ofULL n s x).lanes = bs ∧ (ofULL n s x).Clean := by
  constructor
  · apply lanes_ext _ _ hb
    intro i hi
    rw [lane_ofULL_of h1 h s x bs hb hx]
    simp [bit, hb, hi]
  · intro i hi
    rw [lane_ofULL_of h1 h s x bs hb hx]
    simp [bit, List.getElem?_eq_none (show bs.length ≤ i by omega)]

/-- As `lanes_ofULL_of` when only the low `n` bits are known and the result is sanitised. -/
theorem lanes_ofULL_sanitized (h1 : 1 ≤ n) (h : n ≤ 64) (x : BitVec 64) (bs : List Bool) (hb : bs.length = n)
    (hn : 2 ≤ n) (hx : ∀ i < n, x.getLsbD i = bit bs i) :
    (ofULL n false x).sanitized.lanes = bs ∧ (ofULL n false x).sanitized.Clean := by
  refine ⟨?_, clean_sanitized h1 _⟩
  apply lanes_ext _ _ hb
  intro i hi
  have := wordBits_ge h1 h
  rw [lane_sanitized_lt h1 _ hi, lane_ofULL_single hn h, hx i hi]
  simp [bit, hb, hi]; omega

theorem toBits_spec (hw : 0 < w) (hw64 : w ≤ 64) (h1 : 1 ≤ n) (h : n ≤ 64) {x : VMask w} {bs : List Bool}
    (hx : Rep n full x bs) : (toBits n x).lanes = bs ∧ (toBits n x).Clean := by
  apply lanes_ofULL_of h1 h _ _ _ hx.blen
  intro j
  rw [foldl_or_getLsbD]
  have key : ∀ i, i < n → ∀ j, ((((x[i]?).getD 0#w >>> (w - 1)).setWidth 64) <<< i).getLsbD j
      = (decide (j = i) && bit bs i) := by
    intro i hi j
    rw [hx.getD hi]
    simp only [BitVec.getLsbD_shiftLeft, BitVec.getLsbD_setWidth, BitVec.getLsbD_ushiftRight, getLsbD_elem]
    by_cases hj : j = i
    · subst hj
      have : j < 64 := by omega
      have : w - 1 < w := by omega
      simp [*]
    · by_cases hlt : j < i
      · simp [hlt, hj]
      · have : ¬ (w - 1 + (j - i) < w) := by omega
        simp [this, hj]
  rw [Bool.eq_iff_iff]
  simp only [BitVec.getLsbD_zero, Bool.false_or, List.any_eq_true, List.mem_range]
  constructor
  · rintro ⟨i, hi, hb⟩
    rw [key i hi] at hb
    simp at hb
    obtain ⟨rfl, hb⟩ := hb; exact hb
  · intro hb
    have hj : j < n := by
      rcases Nat.lt_or_ge j n with h | h
      · exact h
      · simp [bit, List.getElem?_eq_none (show bs.length ≤ j by rw [hx.blen]; exact h)] at hb
    exact ⟨j, hj, by rw [key j hj]; simp [hb]⟩

theorem x86ToBitsConst_spec (hw : 0 < w) (hw64 : w ≤ 64) (h1 : 1 ≤ n) (h : n ≤ 64) {x : VMask w} {bs : List Bool}
    (hx : Rep n full x bs) (hw1 : 2 ≤ w) : (x86ToBitsConst n x).lanes = bs ∧ (x86ToBitsConst n x).Clean := by
  apply lanes_ofULL_of h1 h _ _ _ hx.blen
  intro j
  rw [foldl_or_getLsbD]
  have hneg : ∀ b : Bool, (-(elem w b)).signExtend 64 = (BitVec.ofBool b).setWidth 64 := by
    intro b
    have h2 : -(elem w b) = (BitVec.ofBool b).setWidth w := by
      rw [← neg_ofBool hw b, BitVec.neg_neg]
    rw [h2]
    apply BitVec.eq_of_getLsbD_eq
    intro i hi
    rw [BitVec.getLsbD_signExtend]
    have hm : ((BitVec.ofBool b).setWidth w).msb = false := by
      rw [BitVec.msb_eq_getLsbD_last, BitVec.getLsbD_setWidth]
      simp [BitVec.getLsbD_ofBool]; omega
    rw [hm]
    by_cases hiw : i < w
    · simp [hiw, hi, BitVec.getLsbD_setWidth]
    · simp [hiw, BitVec.getLsbD_setWidth, BitVec.getLsbD_ofBool]; omega
  have key : ∀ i, i < n → ∀ j, (((-((x[i]?).getD 0#w)).signExtend 64) <<< i).getLsbD j
      = (decide (j = i) && bit bs i) := by
    intro i hi j
    rw [hx.getD hi, hneg]
    simp only [BitVec.getLsbD_shiftLeft, BitVec.getLsbD_setWidth, BitVec.getLsbD_ofBool]
    by_cases hj : j = i
    · subst hj
      have : j < 64 := by omega
      simp [*]
    · by_cases hlt : j < i
      · simp [hlt, hj]
      · simp [hj]; omega
  rw [Bool.eq_iff_iff]
  simp only [BitVec.getLsbD_zero, Bool.false_or, List.any_eq_true, List.mem_range]
  constructor
  · rintro ⟨i, hi, hb⟩
    rw [key i hi] at hb
    simp at hb
    obtain ⟨rfl, hb⟩ := hb; exact hb
  · intro hb
    have hj : j < n := by
      rcases Nat.lt_or_ge j n with h | h
      · exact h
      · simp [bit, List.getElem?_eq_none (show bs.length ≤ j by rw [hx.blen]; exact h)] at hb
    exact ⟨j, hj, by rw [key j hj]; simp [hb]⟩

theorem getElem?_toIntrin {x : VMask w} {i : Nat} (hi : i < x.length) : (toIntrin x)[i]? = x[i]? := by
  simp [toIntrin, List.getElem?_append_left hi]

theorem msb_elem (hw : 0 < w) (b : Bool) : (elem w b).msb = b := by
  rw [BitVec.msb_eq_getLsbD_last, getLsbD_elem]; simp; omega

theorem bit_signBits (hw : 0 < w) {x : VMask w} {bs : List Bool} (hx : Rep n full x bs) {i : Nat} (hi : i < n) :
    bit (signBits (toIntrin x)) i = bit bs i := by
  have h1 := hx.le
  have h2 := hx.len
  conv => lhs; unfold bit signBits
  rw [List.getElem?_map, getElem?_toIntrin (by omega), hx.getD' hi]
  simp [msb_elem hw]

theorem x86ToBitsSign_spec (hw : 0 < w) (h1 : 2 ≤ n) (h : n ≤ 64) (isInt : Bool) (h32 : isInt = true → n ≤ 32)
    {x : VMask w} {bs : List Bool} (hx : Rep n full x bs) :
    (x86ToBitsSign n isInt x).lanes = bs ∧ (x86ToBitsSign n isInt x).Clean := by
  apply lanes_ofULL_sanitized (by omega) h _ _ hx.blen h1
  intro i hi
  cases isInt
  · simp only [Bool.false_eq_true, if_false]
    rw [getLsbD_ofBools, bit_signBits hw hx hi]; simp; omega
  · have := h32 rfl
    simp only [if_true]
    rw [BitVec.getLsbD_signExtend, getLsbD_ofBools, bit_signBits hw hx hi]
    simp [show i < 32 by omega, show i < 64 by omega]

theorem sat8_msb (v : BitVec 16) : (sat8 v).msb = v.msb := by
  unfold sat8
  have hv := BitVec.msb_eq_toInt (x := v)
  have hi := v.isLt
  rw [BitVec.msb_eq_toInt, BitVec.msb_eq_toInt]
  split
  · rename_i h; simp; omega
  · split
    · rename_i h1 h2
      have : ((-128 : BitVec 8)).toInt = -128 := by decide
      rw [this]; simp; omega
    · rename_i h1 h2
      congr 1
      have h3 : (v.setWidth 8).toInt = v.toInt := by
        rw [BitVec.toInt_setWidth, Int.bmod_def]
        rw [BitVec.toInt_eq_toNat_cond] at h1 h2 ⊢
        by_cases hc : 2 * v.toNat < 2 ^ 16
        · simp only [hc, if_true] at h1 h2 ⊢
          rw [if_pos (by omega)]; omega
        · simp only [hc, if_false] at h1 h2 ⊢
          rw [if_neg (by omega)]; omega
      rw [h3]

theorem x86ToBits16_spec (h1 : 2 ≤ n) (h : n ≤ 16) (hf : full ≤ 16) {x : VMask 16} {bs : List Bool}
    (hx : Rep n full x bs) : (x86ToBits16 n x).lanes = bs ∧ (x86ToBits16 n x).Clean := by
  apply lanes_ofULL_sanitized (by omega) (by omega) _ _ hx.blen h1
  intro i hi
  have hle := hx.le
  have hlen := hx.len
  have key : bit (signBits (packs16 ((toIntrin x).take 8)
      ((toIntrin x).drop 8 ++ List.replicate (16 - (toIntrin x).length) 0#16))) i = bit bs i := by
    have hti : (toIntrin x)[i]? = some (elem 16 (bit bs i)) := by
      rw [getElem?_toIntrin (by omega), hx.getD' hi]
    have hln : 8 ≤ (toIntrin x).length := by simp [toIntrin]; omega
    conv => lhs; unfold bit signBits packs16
    rw [← List.map_append, List.map_map, ← List.append_assoc, List.take_append_drop, List.getElem?_map,
      List.getElem?_append_left (by
        have := List.getElem?_eq_some_iff.1 hti
        exact this.1), hti]
    simp [sat8_msb, msb_elem]
  rw [BitVec.getLsbD_signExtend, getLsbD_ofBools, key]
  simp [show i < 32 by omega, show i < 64 by omega]

/-! ### to vector masks -/

theorem ofBits_spec (hn1 : 1 ≤ n) (hn : n ≤ full) {s : Bool} (x : BitMask n s) :
    ∃ v, ofBits w full x = some v ∧ Rep n full v x.lanes ∧ ∀ i, n ≤ i → i < full → v[i]? = some 0#w := by
  refine ⟨(List.range full).map (fun i => if i < n then elem w (x.lane i) else 0#w), ?_, ?_, ?_⟩
  · unfold ofBits
    apply mapM_some
    intro i hi
    by_cases h : i < n
    · simp [h, get_eq hn1 x h]
    · simp [h]
  · apply rep_of
    · simp
    · simp [BitMask.lanes]
    · exact hn
    · intro i hi
      have : bit x.lanes i = x.lane i := by
        unfold bit; rw [lanes_getElem?]; simp [hi]
      rw [this]
      simp [List.getElem?_map, List.getElem?_range (show i < full by omega), hi]
  · intro i hi hf
    simp [List.getElem?_map, List.getElem?_range hf]
    omega

end StdSimd.VMask
