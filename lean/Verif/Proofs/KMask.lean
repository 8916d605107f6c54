import Verif.Model.KMask
import Verif.Proofs.VMaskPop
namespace StdSimd.KMask
open BitMask
open VMask (bit ofBools getLsbD_ofBools)

variable {n : Nat}

theorem le_kBits (n : Nat) : n ≤ kBits n := by
  have := bitCeil_ge n; unfold kBits; omega

theorem kBits_le (h : n ≤ 64) : kBits n ≤ 64 := by
  have : ∀ k ≤ 64, kBits k ≤ 64 := by decide
  exact this n h

theorem kBits_le_wide (h : n ≤ 8) : kBits n = 8 := by
  have : ∀ k ≤ 8, kBits k = 8 := by decide
  exact this n h

theorem getLsbD_low (h : n < 64) (i : Nat) : ((1#64 <<< n) - 1#64).getLsbD i = decide (i < n) := by
  have e : (1#64 <<< n) - 1#64 = BitVec.ofNat 64 (2 ^ n - 1) := by
    have hp : 2 ^ n < 2 ^ 64 := Nat.pow_lt_pow_right (by omega) h
    have h0 : 0 < 2 ^ n := Nat.pow_pos (by omega)
    apply BitVec.eq_of_toNat_eq
    rw [BitVec.toNat_sub, BitVec.toNat_shiftLeft, BitVec.toNat_ofNat, BitVec.toNat_ofNat, Nat.shiftLeft_eq]
    rw [show (1 % 2 ^ 64) = 1 by decide, Nat.one_mul, Nat.mod_eq_of_lt hp]
    rw [show 2 ^ 64 - 1 + 2 ^ n = 2 ^ 64 + (2 ^ n - 1) by omega, Nat.add_mod_left]
  rw [e, BitVec.getLsbD_ofNat, Nat.testBit_two_pow_sub_one]
  by_cases hi : i < n
  · have : i < 64 := by omega
    simp [hi, this]
  · simp [hi]

theorem getLsbD_implicitMask (h : n ≤ 64) (i : Nat) : (implicitMask n).getLsbD i = decide (i < n) := by
  have h1 := le_kBits n
  have h2 := kBits_le h
  unfold implicitMask
  split
  · rw [BitVec.getLsbD_setWidth, getLsbD_low (by omega)]
    by_cases hi : i < n
    · have : i < kBits n := by omega
      simp [hi, this]
    · simp [hi]
  · rw [BitVec.getLsbD_allOnes]
    congr 1
    rw [show kBits n = n by omega]

theorem masked_cases : ∀ n ≤ 64, 1 ≤ n → (n < 8 ∨ n &&& (n - 1) ≠ 0) ∧ n < 64 ∨ ¬(n < 8 ∨ n &&& (n - 1) ≠ 0) ∧ kBits n = n := by
  decide

theorem getLsbD_masked (h1 : 1 ≤ n) (h : n ≤ 64) (k : KMask n) (i : Nat) :
    (masked k).getLsbD i = (k.getLsbD i && decide (i < n)) := by
  unfold masked
  rcases masked_cases n h h1 with ⟨c, hlt⟩ | ⟨c, hk⟩
  · rw [if_pos c, BitVec.getLsbD_and, BitVec.getLsbD_setWidth, getLsbD_low hlt]
    by_cases hi : i < n
    · have := le_kBits n
      have : i < kBits n := by omega
      simp [hi, this]
    · simp [hi]
  · rw [if_neg c]
    by_cases hi : i < n
    · simp [hi]
    · rw [BitVec.getLsbD_of_ge _ _ (by omega)]; simp

theorem clean_masked (h1 : 1 ≤ n) (h : n ≤ 64) (k : KMask n) : (masked k).Clean := by
  intro i hi; rw [getLsbD_masked h1 h]; simp; omega

/-- `k` represents the lane sequence `bs`, with no phantom lanes. -/
structure Rep (k : KMask n) (bs : List Bool) : Prop where
  blen : bs.length = n
  get : ∀ i, k.getLsbD i = bit bs i

theorem Rep.clean {k : KMask n} {bs : List Bool} (h : Rep k bs) : k.Clean := by
  intro i hi; rw [h.get, VMask.bit_of_ge (by rw [h.blen]; exact hi)]

theorem lanes_getElem? (k : KMask n) (i : Nat) : (lanes k)[i]? = if i < n then some (k.getLsbD i) else none := by
  unfold lanes
  by_cases h : i < n
  · simp [h]
  · simp [h]

theorem bit_lanes (k : KMask n) (i : Nat) : bit (lanes k) i = (k.getLsbD i && decide (i < n)) := by
  unfold bit; rw [lanes_getElem?]; by_cases h : i < n <;> simp [h]

theorem length_lanes (k : KMask n) : (lanes k).length = n := by simp [lanes]

theorem rep_iff (k : KMask n) : Rep k (lanes k) ↔ k.Clean := by
  constructor
  · exact Rep.clean
  · intro h
    refine ⟨length_lanes k, fun i => ?_⟩
    rw [bit_lanes]
    by_cases hi : i < n
    · simp [hi]
    · rw [h i (by omega)]; simp

theorem lanes_ext (k : KMask n) (bs : List Bool) (hl : bs.length = n) (h : ∀ i < n, k.getLsbD i = bit bs i) :
    lanes k = bs := by
  apply List.ext_getElem?
  intro i
  rw [lanes_getElem?]
  by_cases hi : i < n
  · rw [if_pos hi, h i hi, List.getElem?_eq_getElem (by omega)]
    simp [bit, List.getElem?_eq_getElem (show i < bs.length by omega)]
  · rw [if_neg hi, List.getElem?_eq_none (by omega)]

theorem Rep.lanes_eq {k : KMask n} {bs : List Bool} (h : Rep k bs) : lanes k = bs :=
  lanes_ext k bs h.blen (fun i _ => h.get i)

theorem bit_replicate (m : Nat) (b : Bool) (i : Nat) : bit (List.replicate m b) i = (b && decide (i < m)) := by
  unfold bit; rw [List.getElem?_replicate]; by_cases h : i < m <;> simp [h]

theorem bit_map (f : Bool → Bool) (bs : List Bool) {i : Nat} (h : i < bs.length) : bit (bs.map f) i = f (bit bs i) := by
  simp [bit, h]

theorem bit_zipWith (f : Bool → Bool → Bool) (bs cs : List Bool) {i : Nat} (h : i < bs.length) (h' : i < cs.length) :
    bit (List.zipWith f bs cs) i = f (bit bs i) (bit cs i) := by
  simp [bit, h, h', List.getElem?_zipWith]

theorem bit_select (k x v : List Bool) {i : Nat} (h : i < k.length) (h' : i < x.length) (h'' : i < v.length) :
    bit (Spec.select k x v) i = if bit k i then bit x i else bit v i := by
  have hz : (x.zip v)[i]? = some (x[i], v[i]) := by simp [List.getElem?_eq_some_iff]; omega
  simp [bit, Spec.select, List.getElem?_zipWith, h, h', h'', hz]

theorem rep_broadcast (h1 : 1 ≤ n) (h : n ≤ 64) (b : Bool) : Rep (broadcast n b) (List.replicate n b) := by
  refine ⟨by simp, fun i => ?_⟩
  rw [bit_replicate]
  unfold broadcast
  cases b
  · simp
  · simp only [if_true, Bool.true_and]
    rw [getLsbD_masked h1 h]
    have e : (-1 : KMask n) = BitVec.allOnes _ := by
      rw [← BitVec.neg_one_eq_allOnes]; rfl
    rw [e, BitVec.getLsbD_allOnes]
    have := le_kBits n
    by_cases hi : i < n
    · have : i < kBits n := by omega
      simp [hi, this]
    · simp [hi]

theorem rep_zip {x y r : KMask n} {bs cs : List Bool} (g : Bool → Bool → Bool) (h0 : g false false = false)
    (hr : ∀ i, r.getLsbD i = g (x.getLsbD i) (y.getLsbD i)) (hx : Rep x bs) (hy : Rep y cs) :
    Rep r (List.zipWith g bs cs) := by
  have hb := hx.blen; have hc := hy.blen
  refine ⟨by simp [hb, hc], fun i => ?_⟩
  rw [hr, hx.get, hy.get]
  by_cases hi : i < n
  · rw [bit_zipWith _ _ _ (by omega) (by omega)]
  · rw [VMask.bit_of_ge (by omega), VMask.bit_of_ge (by omega), VMask.bit_of_ge (by simp; omega), h0]

theorem getLsbD_not (h : n ≤ 64) (x : KMask n) (i : Nat) : (not x).getLsbD i = (!x.getLsbD i && decide (i < n)) := by
  unfold not
  rw [BitVec.getLsbD_and, getLsbD_implicitMask h, BitVec.getLsbD_not]
  have := le_kBits n
  by_cases hi : i < n
  · have : i < kBits n := by omega
    simp [hi, this]
  · simp [hi]

theorem rep_not (h : n ≤ 64) {x : KMask n} {bs : List Bool} (hx : Rep x bs) : Rep (not x) (bs.map (!·)) := by
  have hb := hx.blen
  refine ⟨by simp [hb], fun i => ?_⟩
  rw [getLsbD_not h, hx.get]
  by_cases hi : i < n
  · rw [bit_map _ _ (by omega)]; simp [hi]
  · rw [VMask.bit_of_ge (show (bs.map (!·)).length ≤ i by simp; omega)]; simp [hi]

theorem getLsbD_one_shl {w : Nat} {i : Nat} (hi : i < w) (j : Nat) : (1#w <<< i).getLsbD j = decide (i = j) := by
  rw [BitVec.getLsbD_shiftLeft]
  by_cases hj : j < w
  · by_cases h : i = j
    · subst h; have hw : 0 < w := by omega
      simp [hj, hw]
    · by_cases h2 : j < i
      · simp [h2, h]
      · have : j - i ≠ 0 := by omega
        simp [h, hj, h2, BitVec.getLsbD_one, this]
  · have : ¬ i = j := by omega
    simp [hj, this]

theorem getLsbD_set (k : KMask n) {i : Nat} (hi : i < n) (b : Bool) (j : Nat) :
    (set k i b).getLsbD j = if i = j then b else k.getLsbD j := by
  have := le_kBits n
  have hk : i < kBits n := by omega
  unfold set
  cases b
  · simp only [Bool.false_eq_true, if_false]
    rw [BitVec.getLsbD_and, BitVec.getLsbD_not, getLsbD_one_shl hk]
    by_cases h : i = j
    · simp [h]
    · by_cases hj : j < kBits n
      · simp [h, hj]
      · simp [h, BitVec.getLsbD_of_ge k j (by omega)]
  · simp only [if_true]
    rw [BitVec.getLsbD_or, getLsbD_one_shl hk]
    by_cases h : i = j <;> simp [h]

theorem rep_set {x : KMask n} {bs : List Bool} (hx : Rep x bs) {i : Nat} (hi : i < n) (b : Bool) :
    Rep (set x i b) (bs.set i b) := by
  have hb := hx.blen
  refine ⟨by simp [hb], fun j => ?_⟩
  rw [getLsbD_set _ hi, VMask.bit_set _ (by omega), hx.get]

theorem rep_maskedAssign {k x y : KMask n} {ks bs cs : List Bool} (hk : Rep k ks) (hx : Rep x bs) (hy : Rep y cs) :
    Rep (maskedAssign k x y) (Spec.select ks cs bs) := by
  have h1 := hk.blen; have h2 := hx.blen; have h3 := hy.blen
  refine ⟨by simp [Spec.select, h1, h2, h3], fun i => ?_⟩
  unfold maskedAssign
  rw [BitVec.getLsbD_or, BitVec.getLsbD_and, BitVec.getLsbD_and, BitVec.getLsbD_not, hk.get, hx.get, hy.get]
  have := le_kBits n
  by_cases hi : i < n
  · rw [bit_select _ _ _ (by omega) (by omega) (by omega)]
    have : i < kBits n := by omega
    cases bit ks i <;> simp [this]
  · rw [VMask.bit_of_ge (show ks.length ≤ i by omega), VMask.bit_of_ge (show bs.length ≤ i by omega),
      VMask.bit_of_ge (show cs.length ≤ i by omega), VMask.bit_of_ge (by simp [Spec.select]; omega)]
    simp

theorem rep_maskedAssignBool {k x : KMask n} {ks bs : List Bool} (hk : Rep k ks) (hx : Rep x bs) (b : Bool) :
    Rep (maskedAssignBool k x b) (Spec.select ks (List.replicate n b) bs) := by
  have h1 := hk.blen; have h2 := hx.blen
  refine ⟨by simp [Spec.select, h1, h2], fun i => ?_⟩
  have := le_kBits n
  unfold maskedAssignBool
  by_cases hi : i < n
  · rw [bit_select _ _ _ (by omega) (by simp; omega) (by omega), bit_replicate]
    have : i < kBits n := by omega
    cases b
    · simp only [Bool.false_eq_true, if_false]
      rw [BitVec.getLsbD_and, BitVec.getLsbD_not, hk.get, hx.get]
      cases bit ks i <;> simp [this]
    · simp only [if_true]
      rw [BitVec.getLsbD_or, hk.get, hx.get]
      cases bit ks i <;> simp [hi]
  · rw [VMask.bit_of_ge (show (Spec.select ks (List.replicate n b) bs).length ≤ i by simp [Spec.select]; omega)]
    cases b
    · simp only [Bool.false_eq_true, if_false]
      rw [BitVec.getLsbD_and, hx.get, VMask.bit_of_ge (show bs.length ≤ i by omega)]; simp
    · simp only [if_true]
      rw [BitVec.getLsbD_or, hk.get, hx.get, VMask.bit_of_ge (show bs.length ≤ i by omega),
        VMask.bit_of_ge (show ks.length ≤ i by omega)]; rfl

/-! ### reductions, for every content of the unused bits -/

theorem eq_allOnes_iff {w : Nat} (x : BitVec w) : x = BitVec.allOnes w ↔ ∀ i < w, x.getLsbD i = true := by
  constructor
  · rintro rfl i hi; simp [hi]
  · intro h
    apply BitVec.eq_of_getLsbD_eq
    intro i hi; rw [h i hi]; simp [hi]

theorem eq_zero_iff {w : Nat} (x : BitVec w) : x = 0 ↔ ∀ i, x.getLsbD i = false := by
  constructor
  · rintro rfl i; simp
  · intro h
    apply BitVec.eq_of_getLsbD_eq
    intro i hi; rw [h i]; simp

theorem allOf_spec (h : n ≤ 64) (wide : Bool) (hw : wide = true → n ≤ 8) (k : KMask n) :
    allOf wide k = true ↔ Spec.allOf (lanes k) := by
  have hl := le_kBits n
  have key : Spec.allOf (lanes k) ↔ ∀ i < n, k.getLsbD i = true := by
    simp [Spec.allOf, lanes]
  rw [key]
  unfold allOf
  cases wide
  · simp only [Bool.false_eq_true, if_false, beq_iff_eq]
    rw [eq_allOnes_iff]
    by_cases hm : implicitMask n = BitVec.allOnes (kBits n)
    · rw [if_pos hm]
      have hn : n = kBits n := by
        rw [eq_allOnes_iff] at hm
        rcases Nat.lt_or_ge n (kBits n) with hlt | hge
        · have := hm n hlt; rw [getLsbD_implicitMask h] at this; simp at this
        · omega
      constructor
      · intro H i hi
        have := H i (by omega)
        simpa using this
      · intro H i hi
        rw [BitVec.getLsbD_or, H i (by omega)]; rfl
    · rw [if_neg hm]
      constructor
      · intro H i hi
        have := H i (by omega)
        rw [BitVec.getLsbD_or, BitVec.getLsbD_not, getLsbD_implicitMask h] at this
        simpa [hi] using this
      · intro H i hi
        rw [BitVec.getLsbD_or, BitVec.getLsbD_not, getLsbD_implicitMask h]
        by_cases hin : i < n
        · rw [H i hin]; rfl
        · simp [hin, hi]
  · simp only [if_true, beq_iff_eq]
    have h8 := kBits_le_wide (hw rfl)
    have hn8 := hw rfl
    rw [eq_allOnes_iff]
    constructor
    · intro H i hi
      have := H i (by omega)
      rw [BitVec.getLsbD_or, BitVec.getLsbD_not, BitVec.getLsbD_setWidth, BitVec.getLsbD_setWidth,
        getLsbD_implicitMask h] at this
      simpa [hi, show i < 16 by omega] using this
    · intro H i hi
      rw [BitVec.getLsbD_or, BitVec.getLsbD_not, BitVec.getLsbD_setWidth, BitVec.getLsbD_setWidth,
        getLsbD_implicitMask h]
      by_cases hin : i < n
      · rw [H i hin]; simp [hi]
      · simp [hin, hi]

theorem noneOf_spec (h : n ≤ 64) (k : KMask n) : noneOf k = true ↔ Spec.noneOf (lanes k) := by
  have key : Spec.noneOf (lanes k) ↔ ∀ i < n, k.getLsbD i = false := by simp [Spec.noneOf, lanes]
  rw [key]
  unfold noneOf
  rw [beq_iff_eq, eq_zero_iff]
  constructor
  · intro H i hi
    have := H i
    rw [BitVec.getLsbD_and, getLsbD_implicitMask h] at this
    simpa [hi] using this
  · intro H i
    rw [BitVec.getLsbD_and, getLsbD_implicitMask h]
    by_cases hi : i < n
    · rw [H i hi]; rfl
    · simp [hi]

theorem anyOf_eq (k : KMask n) : anyOf k = !noneOf k := by
  unfold anyOf noneOf; rfl

theorem anyOf_spec (h : n ≤ 64) (k : KMask n) : anyOf k = true ↔ Spec.anyOf (lanes k) := by
  rw [anyOf_eq, Bool.not_eq_true', ← Bool.not_eq_true, noneOf_spec h]
  simp [Spec.noneOf, Spec.anyOf]

theorem someOf_spec (h : n ≤ 64) (wide : Bool) (hw : wide = true → n ≤ 8) (k : KMask n) :
    someOf wide k = true ↔ Spec.someOf (lanes k) := by
  unfold someOf
  rw [Bool.and_eq_true, anyOf_spec h, Bool.not_eq_true', ← Bool.not_eq_true, allOf_spec h wide hw]
  simp [Spec.anyOf, Spec.allOf, Spec.someOf]

theorem popcount_spec (h1 : 1 ≤ n) (h : n ≤ 64) (k : KMask n) : popcount k = Spec.popcount (lanes k) := by
  unfold popcount popcountWord Spec.popcount
  rw [← VMask.countP_range_bit (lanes k) (kBits n) (by rw [length_lanes]; exact le_kBits n)]
  apply List.countP_congr
  intro i _
  rw [getLsbD_masked h1 h, bit_lanes]

theorem findFirstSet_spec (k : KMask n) (hne : Spec.anyOf (lanes k)) :
    Spec.IsFirstSet (lanes k) (findFirstSet k) := by
  obtain ⟨b, hb, rfl⟩ := hne
  simp only [lanes, List.mem_map, List.mem_range] at hb
  obtain ⟨j, hj, hjt⟩ := hb
  have h0 : k ≠ 0 := by rintro rfl; simp at hjt
  obtain ⟨c1, c2, c3⟩ := ctz_spec k h0
  have hc : ctz k ≤ j := by
    rcases Nat.lt_or_ge j (ctz k) with hl | hl
    · rw [c3 j hl] at hjt; exact absurd hjt (by decide)
    · exact hl
  unfold findFirstSet
  refine ⟨by rw [lanes_getElem?, if_pos (by omega), c2], fun i hi => ?_⟩
  rw [lanes_getElem?, if_pos (by omega), c3 i hi]

theorem findLastSet_spec (k : KMask n) (hk : k.Clean) (hne : Spec.anyOf (lanes k)) :
    ∃ i, findLastSet k = (i : Nat) ∧ Spec.IsLastSet (lanes k) i := by
  obtain ⟨b, hb, rfl⟩ := hne
  simp only [lanes, List.mem_map, List.mem_range] at hb
  obtain ⟨j, hj, hjt⟩ := hb
  have h0 : k ≠ 0 := by rintro rfl; simp at hjt
  obtain ⟨i, hi, c2, c3⟩ := bitWidth_spec k h0
  have hin : i < n := by
    rcases Nat.lt_or_ge i n with hl | hl
    · exact hl
    · rw [hk i hl] at c2; exact absurd c2 (by decide)
  refine ⟨i, by unfold findLastSet; rw [hi]; omega, by rw [lanes_getElem?, if_pos hin, c2], fun m hm => ?_⟩
  rw [lanes_getElem?]
  split
  · rw [c3 m hm]; decide
  · simp

/-! ### conversions -/

theorem toBits_spec (h1 : 2 ≤ n) (h : n ≤ 64) (k : KMask n) :
    (toBits k).lanes = lanes k ∧ (toBits k).Clean := by
  apply VMask.lanes_ofULL_sanitized (by omega) h _ _ (length_lanes k) h1
  intro i hi
  rw [BitVec.getLsbD_setWidth, bit_lanes]
  simp [hi]; omega

theorem ofBits_spec (h1 : 1 ≤ n) (h : n ≤ 64) (x : BitMask n true) (hx : x.Clean) :
    ∃ k, ofBits x = some k ∧ Rep k x.lanes := by
  obtain ⟨v, hv, hb⟩ := toULL_eq h1 h x
  refine ⟨_, by unfold ofBits; rw [hv]; rfl, by simp [BitMask.lanes], fun i => ?_⟩
  rw [BitVec.getLsbD_setWidth, hb]
  have := le_kBits n
  unfold bit
  rw [BitMask.lanes_getElem?]
  by_cases hi : i < n
  · have : i < kBits n := by omega
    simp [hi, this]
  · simp [hi, hx i (by omega)]

theorem rep_ofBools (bs : List Bool) (hb : bs.length = n) : Rep (ofBools (kBits n) bs : KMask n) bs := by
  refine ⟨hb, fun i => ?_⟩
  rw [getLsbD_ofBools]
  have := le_kBits n
  by_cases hi : i < kBits n
  · simp [hi]
  · simp [hi, VMask.bit_of_ge (show bs.length ≤ i by omega)]

theorem cmp_spec {α : Type} (h : n ≤ 64) (p : α → α → Bool) (x y : List α) (hx : n ≤ x.length) (hy : n ≤ y.length) :
    Rep (cmp n p x y) (List.zipWith p (x.take n) (y.take n)) := by
  refine ⟨by simp; omega, fun i => ?_⟩
  unfold cmp maskCmp
  rw [BitVec.getLsbD_and, getLsbD_implicitMask h, getLsbD_ofBools]
  have := le_kBits n
  by_cases hi : i < n
  · have h' : i < kBits n := by omega
    simp only [h', hi, decide_true, Bool.true_and, Bool.and_true]
    unfold bit
    rw [List.getElem?_zipWith, List.getElem?_zipWith, List.getElem?_take_of_lt hi, List.getElem?_take_of_lt hi]
  · rw [VMask.bit_of_ge (show (List.zipWith p (x.take n) (y.take n)).length ≤ i by simp; omega)]
    simp [hi]

theorem intNotEqual_lanes {α : Type} (h : n ≤ 64) (p : α → α → Bool) (x y : List α) (hx : n ≤ x.length) (hy : n ≤ y.length) :
    lanes (intNotEqual n p x y) = List.zipWith (fun a b => !p a b) (x.take n) (y.take n) := by
  have hr := cmp_spec h p x y hx hy
  have hl := le_kBits n
  apply lanes_ext
  · simp; omega
  · intro i hi
    unfold intNotEqual
    have := hr.get i
    unfold cmp at this
    rw [BitVec.getLsbD_not, this]
    have h' : i < kBits n := by omega
    have e1 : i < (x.take n).length := by simp; omega
    have e2 : i < (y.take n).length := by simp; omega
    simp only [h', decide_true, Bool.true_and, bit, List.getElem?_zipWith, List.getElem?_eq_getElem e1,
      List.getElem?_eq_getElem e2, Option.getD_some]

theorem classifyXor_spec {α : Type} (h : n ≤ 64) (p : α → Bool) (x : List α) (hx : n ≤ x.length) :
    Rep (classifyXor n p x) ((x.take n).map (fun a => !p a)) := by
  refine ⟨by simp; omega, fun i => ?_⟩
  unfold classifyXor
  rw [BitVec.getLsbD_xor, BitVec.getLsbD_and, getLsbD_implicitMask h, getLsbD_ofBools]
  have := le_kBits n
  by_cases hi : i < n
  · have h' : i < kBits n := by omega
    simp only [h', hi, decide_true, Bool.true_and, Bool.and_true]
    unfold bit
    rw [List.getElem?_map, List.getElem?_map, List.getElem?_take_of_lt hi, List.getElem?_eq_getElem (by omega)]
    simp
  · rw [VMask.bit_of_ge (show ((x.take n).map (fun a => !p a)).length ≤ i by simp; omega)]
    simp [hi]

theorem classifyRaw_lanes {α : Type} (p : α → Bool) (x : List α) (hx : n ≤ x.length) :
    lanes (classifyRaw n p x) = (x.take n).map p := by
  have := le_kBits n
  apply lanes_ext
  · simp; omega
  · intro i hi
    unfold classifyRaw
    rw [getLsbD_ofBools]
    have h' : i < kBits n := by omega
    simp only [h', decide_true, Bool.true_and]
    unfold bit
    rw [List.getElem?_map, List.getElem?_map, List.getElem?_take_of_lt hi]

/-- A full register has no element that could produce a phantom lane. -/
theorem classifyRaw_full {α : Type} (p : α → Bool) (x : List α) (hx : x.length = n) :
    Rep (classifyRaw n p x) (x.map p) := rep_ofBools _ (by simpa using hx)

theorem cmpConst_spec {α : Type} (h1 : 2 ≤ n) (h : n ≤ 64) (p : α → α → Bool) (x y : List α) (hx : n ≤ x.length) (hy : n ≤ y.length) :
    Rep (cmpConst n p x y) (List.zipWith p (x.take n) (y.take n)) := by
  have hlen : (List.zipWith p (x.take n) (y.take n)).length = n := by simp; omega
  have hs := VMask.lanes_ofULL_sanitized (n := n) (by omega) h (ofBools 64 (List.zipWith p x y))
    (List.zipWith p (x.take n) (y.take n)) hlen h1 (by
      intro i hi
      rw [getLsbD_ofBools]
      simp only [show i < 64 by omega, decide_true, Bool.true_and, bit]
      rw [List.getElem?_zipWith, List.getElem?_zipWith, List.getElem?_take_of_lt hi, List.getElem?_take_of_lt hi])
  obtain ⟨k, hk, hrep⟩ := ofBits_spec (by omega) h _ hs.2
  unfold ofBits at hk
  unfold cmpConst
  rw [hs.1] at hrep
  cases he : (ofULL n false (ofBools 64 (List.zipWith p x y))).sanitized.toULL with
  | none => rw [he] at hk; simp at hk
  | some v =>
    rw [he] at hk
    simp only [Option.map_some, Option.some.injEq] at hk
    simp only [Option.getD_some]
    rw [hk]; exact hrep

/-! ### memory -/

theorem load_spec (mem : Mem Bool) (base : Nat) (f : Nat → Bool) (hm : ∀ i < n, mem (base + i) = some (f i)) :
    ∃ k, load n mem base = some k ∧ Rep k ((List.range n).map f) := by
  refine ⟨_, ?_, rep_ofBools _ (by simp)⟩
  unfold load
  rw [mapM_some _ f _ (by intro i hi; exact hm i (by simpa using hi))]
  rfl

theorem maskedLoad_spec {merge mask : KMask n} {bs ks : List Bool} (hm : Rep merge bs) (hk : Rep mask ks)
    (mem : Mem Bool) (base : Nat) (f : Nat → Bool) (hmem : ∀ i < n, bit ks i = true → mem (base + i) = some (f i)) :
    ∃ r, maskedLoad merge mask mem base = some r ∧ Rep r (Spec.select ks ((List.range n).map f) bs) := by
  have h1 := hm.blen; have h2 := hk.blen
  have hread : (List.range (kBits n)).mapM (fun i => if mask.getLsbD i then mem.read (base + i) else some false)
      = some ((List.range (kBits n)).map (fun i => bit ks i && f i)) := by
    apply mapM_some
    intro i _
    rw [hk.get]
    cases hb : bit ks i
    · simp
    · have hi : i < n := by
        rcases Nat.lt_or_ge i n with hl | hl
        · exact hl
        · rw [VMask.bit_of_ge (by omega)] at hb; exact absurd hb (by decide)
      simp [Mem.read, hmem i hi hb]
  refine ⟨_, by unfold maskedLoad; rw [hread]; rfl, by simp [Spec.select, h1, h2], fun i => ?_⟩
  have := le_kBits n
  rw [BitVec.getLsbD_or, BitVec.getLsbD_and, BitVec.getLsbD_not, hm.get, hk.get, getLsbD_ofBools]
  by_cases hi : i < n
  · have h' : i < kBits n := by omega
    rw [bit_select _ _ _ (by omega) (by simp; omega) (by omega)]
    have e1 : bit ((List.range (kBits n)).map (fun i => bit ks i && f i)) i = (bit ks i && f i) := by
      simp [bit, h']
    have e2 : bit ((List.range n).map f) i = f i := by simp [bit, hi]
    rw [e1, e2]
    cases bit ks i <;> simp [h']
  · have e1 : bit ((List.range (kBits n)).map (fun i => bit ks i && f i)) i = false := by
      unfold bit
      by_cases h' : i < kBits n
      · have : ks[i]? = none := List.getElem?_eq_none (by omega)
        simp [h', this]
      · simp [h']
    rw [e1, VMask.bit_of_ge (show bs.length ≤ i by omega), VMask.bit_of_ge (show ks.length ≤ i by omega),
      VMask.bit_of_ge (by simp [Spec.select]; omega)]
    simp

theorem store_spec (v : KMask n) (mem : Mem Bool) (base : Nat) (hm : ∀ i < n, (mem (base + i)).isSome) :
    ∃ mem', store v mem base = some mem' ∧
      ∀ a, mem' a = if base ≤ a ∧ a - base < n then some (v.getLsbD (a - base)) else mem a := by
  obtain ⟨mem', e, hs⟩ := foldlM_write (fun i => v.getLsbD i) (fun i => some (v.getLsbD i)) base (List.range n) mem
    (fun i _ => rfl) (fun i hi => hm i (by simpa using hi))
  exact ⟨mem', e, by simpa using hs⟩

theorem maskedStore_spec (v k : KMask n) (hk : k.Clean) (mem : Mem Bool) (base : Nat)
    (hm : ∀ i < n, k.getLsbD i = true → (mem (base + i)).isSome) :
    ∃ mem', maskedStore v mem base k = some mem' ∧
      ∀ a, mem' a = if base ≤ a ∧ k.getLsbD (a - base) = true then some (v.getLsbD (a - base)) else mem a := by
  have hin : ∀ i, i ∈ (List.range (kBits n)).filter (fun i => k.getLsbD i) ↔ k.getLsbD i = true := by
    intro i
    rw [List.mem_filter]
    constructor
    · exact fun h => h.2
    · intro h; exact ⟨by simpa using BitVec.lt_of_getLsbD h, h⟩
  obtain ⟨mem', e, hs⟩ := foldlM_write (fun i => v.getLsbD i) (fun i => some (v.getLsbD i)) base
    ((List.range (kBits n)).filter (fun i => k.getLsbD i)) mem (fun i _ => rfl) (by
      intro i hi
      rw [hin] at hi
      refine hm i ?_ hi
      rcases Nat.lt_or_ge i n with hl | hl
      · exact hl
      · rw [hk i hl] at hi; exact absurd hi (by decide))
  refine ⟨mem', e, fun a => ?_⟩
  rw [hs]
  simp only [hin]

end StdSimd.KMask
