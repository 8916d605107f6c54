import Verif.Model.Resize
import Verif.Proofs.MaskVec
import Verif.Proofs.KMask
import Verif.Proofs.Util
import Verif.Spec.Resize
/-! Lemmas about `resizing_simd_cast`. -/
namespace StdSimd
open X86 BoolArray

namespace MaskVec

theorem rep_iff {e n : Nat} (he : 0 < e) {b : Nat → Bool} {r : Reg} : Rep e n b r ↔ Spec.HoldsMask e n b r := by
  constructor
  · intro h i hi t ht
    have h1 : e * i + t < n * e := by
      have := Nat.mul_le_mul_left e (show i + 1 ≤ n from hi)
      rw [Nat.mul_comm n e]; rw [Nat.mul_succ] at this; omega
    rw [h _ h1, Nat.mul_add_div he, Nat.div_eq_of_lt ht, Nat.add_zero]
    cases b i <;> rfl
  · intro h j hj
    have hjn : j / e < n := Nat.div_lt_of_lt_mul (by rwa [Nat.mul_comm])
    have := h (j / e) hjn (j % e) (Nat.mod_lt _ he)
    rw [Nat.div_add_mod] at this
    rw [this]
    cases b (j / e) <;> rfl

theorem elem_zero {e : Nat} {r : Reg} {i : Nat} (h : ∀ t < e, r (e * i + t) = 0#8) : elem e r i = 0#(8 * e) := by
  have := join_ones (W := 8 * e) false e (fun t => r (e * i + t)) (fun t ht => by rw [h t ht]; rfl) rfl
  exact this

theorem packs16_hi (k : Reg) {j : Nat} (h : 8 ≤ j) : packs16 k zero j = 0#8 := by
  unfold packs16
  dsimp only
  rw [if_neg (by omega), elem_zero (fun _ _ => rfl)]; decide

theorem packs32_hi (k : Reg) {j : Nat} (h : 8 ≤ j) : packs32 k zero j = 0#8 := by
  have : ∀ t < 2, lane 8 (sat16 (0#(8 * 4))) t = 0#8 := by decide
  unfold packs32
  dsimp only
  rw [if_neg (by omega), elem_zero (fun _ _ => rfl)]
  exact this _ (by omega)

/-- `packs` of a register that is zero from byte `m` on is zero from byte `m / 2` on. -/
theorem packs16_tail (k : Reg) {m : Nat} (hk : ∀ j, m ≤ j → j < 16 → k j = 0#8) {j : Nat} (h : m ≤ 2 * j) (hj : j < 16) :
    packs16 k zero j = 0#8 := by
  by_cases h8 : 8 ≤ j
  · exact packs16_hi k h8
  unfold packs16
  dsimp only
  rw [if_pos (by omega), elem_zero (fun t ht => hk _ (by omega) (by omega))]; decide

theorem packs32_tail (k : Reg) {m : Nat} (hk : ∀ j, m ≤ j → j < 16 → k j = 0#8) {j : Nat} (h : m ≤ 2 * j) (hj : j < 16) (hm : m % 4 = 0) :
    packs32 k zero j = 0#8 := by
  by_cases h8 : 8 ≤ j
  · exact packs32_hi k h8
  have : ∀ t < 2, lane 8 (sat16 (0#(8 * 4))) t = 0#8 := by decide
  unfold packs32
  dsimp only
  rw [if_pos (by omega), elem_zero (fun t ht => hk _ (by omega) (by omega))]
  exact this _ (by omega)

theorem shuffle8_tail (tab : List Nat) (k : Reg) {j : Nat} (h : tab.length ≤ j) : shuffle8 tab k j = 0#8 := by
  unfold shuffle8
  dsimp only
  rw [List.getD_eq_getElem?_getD, List.getElem?_eq_none h]; rfl

/-- Between registers, apart from the two cases that leave half of the target undefined, target bytes that have no source byte are
zero. -/
theorem vecToVec_zero (ft : Feat) (junk : Reg) {s s' e e' n toN : Nat} (hs : s = 16 ∨ s = 32) (hs' : s' = 16 ∨ s' = 32)
    (he : Size e) (he' : Size e') {k r : Reg} (hr : vecToVec ft junk s s' e e' n toN k = some r)
    (hu1 : s = 32 → s' = 32 → e ≤ e') (hu2 : s = 16 → s' = 32 → e = e' → ft.avx = false) {j : Nat} (h1 : s / e * e' ≤ j) (h2 : j < s') :
    r j = 0#8 := by
  obtain ⟨sse2, ssse3, avx, avx2, _, _, _, _⟩ := ft
  have z4 : ∀ k : Reg, ∀ j, 4 ≤ j → j < 16 → packs32 (packs32 k zero) zero j = 0#8 :=
    fun k j h4 h16 => packs32_tail _ (m := 8) (fun j hj _ => packs32_hi _ hj) (by omega) h16 (by omega)
  rcases hs with rfl | rfl <;> rcases hs' with rfl | rfl
  -- 16 → 16
  · rcases he with rfl | rfl | rfl | rfl <;> rcases he' with rfl | rfl | rfl | rfl <;> try omega
    · obtain rfl := (show packs16 k zero = r by cases ssse3 <;> exact Option.some.inj hr)
      exact packs16_hi _ (by omega)
    · cases ssse3
      · obtain rfl := (Option.some.inj hr)
        exact packs16_tail _ (m := 8) (fun j hj _ => packs32_hi _ hj) (by omega) h2
      · obtain rfl := (Option.some.inj hr)
        exact shuffle8_tail _ _ (by simpa using h1)
    · obtain rfl := (Option.some.inj hr)
      exact packs32_hi _ (by omega)
    · cases ssse3
      · obtain rfl : packs16 (packs32 (packs32 k zero) zero) zero = r := by cases sse2 <;> exact Option.some.inj hr
        exact packs16_tail _ (m := 4) (fun j hj h => z4 k j hj h) (by omega) h2
      · obtain rfl : shuffle8 [7, 15] k = r := by cases sse2 <;> exact Option.some.inj hr
        exact shuffle8_tail _ _ (by simpa using h1)
    · have hp : (fun i => if i < 4 then k ([6, 14].getD (i / 2) 0 + i % 2) else 0#8 : Reg) j = 0#8 := by
        dsimp only; rw [if_neg (by omega)]
      cases ssse3
      · cases sse2
        · obtain rfl := (Option.some.inj hr); exact hp
        · obtain rfl := (Option.some.inj hr); exact z4 k j (by omega) h2
      · cases sse2 <;> (obtain rfl := (Option.some.inj hr); exact hp)
    · cases sse2
      · obtain rfl := (Option.some.inj hr)
        dsimp only; rw [if_neg (by omega)]
      · obtain rfl := (Option.some.inj hr); exact packs32_hi _ (by omega)
  -- 16 → 32
  · by_cases hee : e = e'
    · subst hee
      have := hu2 rfl rfl rfl
      dsimp only at this
      subst this
      have : r = zeroExtend k := by
        unfold vecToVec at hr
        rw [if_neg (by omega), if_pos rfl, if_pos (by omega)] at hr
        exact (Option.some.inj hr).symm
      subst this
      unfold zeroExtend
      rw [if_neg]
      rcases he with rfl | rfl | rfl | rfl <;> omega
    rcases he with rfl | rfl | rfl | rfl <;> rcases he' with rfl | rfl | rfl | rfl <;> try omega
    all_goals
      obtain rfl := (Option.some.inj hr)
      unfold zeroExtend
      split
      · first
        | exact packs16_hi _ (by omega)
        | exact shuffle8_tail _ _ (by simpa using h1)
      · rfl
  -- 32 → 16
  · rcases he with rfl | rfl | rfl | rfl <;> rcases he' with rfl | rfl | rfl | rfl <;> try omega
    all_goals
      obtain rfl := (Option.some.inj hr)
      first
      | exact packs16_hi _ (by omega)
      | exact shuffle8_tail _ _ (by simpa using h1)
  · have := hu1 rfl rfl
    rcases he with rfl | rfl | rfl | rfl <;> rcases he' with rfl | rfl | rfl | rfl <;> omega

/-- A mask without set padding, with all lanes of the target. -/
theorem vecToVec_clean (ft : Feat) (junk : Reg) {s s' e e' n toN : Nat} (hs : s = 16 ∨ s = 32) (hs' : s' = 16 ∨ s' = 32)
    (he : Size e) (he' : Size e') {b : Nat → Bool} {k : Reg} (h : Rep e (s / e) b k) (ht : toN * e' ≤ s')
    (hb : ∀ i, s / e ≤ i → b i = false)
    (hu1 : s = 32 → s' = 32 → e ≤ e') (hu2 : s = 16 → s' = 32 → e = e' → ft.avx = false) (hn : n ≤ s / e) (hbn : ∀ i, n ≤ i → b i = false) :
    ∃ r, vecToVec ft junk s s' e e' n toN k = some r ∧ Rep e' toN b r := by
  have he0 : 0 < e := by unfold Size at he; omega
  have he0' : 0 < e' := by unfold Size at he'; omega
  have hse : s / e * e = s := by
    rcases hs with rfl | rfl <;> rcases he with rfl | rfl | rfl | rfl <;> rfl
  have hse' : s' / e' * e' = s' := by
    rcases hs' with rfl | rfl <;> rcases he' with rfl | rfl | rfl | rfl <;> rfl
  have hm1 : min (s / e) (s' / e') * e ≤ s := by
    calc _ ≤ s / e * e := Nat.mul_le_mul_right _ (Nat.min_le_left _ _)
      _ = s := hse
  have hm2 : min (s / e) (s' / e') * e' ≤ s' := by
    calc _ ≤ s' / e' * e' := Nat.mul_le_mul_right _ (Nat.min_le_right _ _)
      _ = s' := hse'
  have hrep : Rep e (min (s / e) (s' / e')) b k := rep_mono h (Nat.mul_le_mul_right _ (Nat.min_le_left _ _))
  by_cases hbc : e = e' ∧ s = s'
  · obtain ⟨rfl, rfl⟩ := hbc
    unfold vecToVec
    rw [if_pos ⟨rfl, rfl⟩]
    refine ⟨_, rfl, ?_⟩
    split
    · exact rep_mono h (by omega)
    · intro j hj
      dsimp only
      split
      · exact h j (by omega)
      · have : n ≤ j / e := (Nat.le_div_iff_mul_le he0).2 (by omega)
        rw [hbn _ this]; rfl
  obtain ⟨r, hr, hR⟩ := vecToVec_spec (n := min (s / e) (s' / e')) (toN := toN) ft junk hs hs' he he' hrep hm1 hm2
  have hr' : vecToVec ft junk s s' e e' n toN k = some r := by
    unfold vecToVec at hr ⊢
    rw [if_neg hbc] at hr ⊢
    exact hr
  refine ⟨r, hr', fun j hj => ?_⟩
  by_cases hj2 : j < min (s / e) (s' / e') * e'
  · exact hR j hj2
  · have h3 : s / e * e' ≤ j := by
      rcases Nat.le_total (s / e) (s' / e') with h | h
      · rw [Nat.min_eq_left h] at hj2; omega
      · rw [Nat.min_eq_right h] at hj2; omega
    rw [vecToVec_zero ft junk hs hs' he he' hr' hu1 hu2 h3 (by omega), hb _ ((Nat.le_div_iff_mul_le he0').2 h3)]; rfl

end MaskVec

namespace Resize

theorem maskedReg_get {α : Type} (z : α) (n : Nat) (x : List α) {i : Nat} (h : i < x.length) :
    (maskedReg z n x)[i]? = some (if i < n then x[i] else z) := by
  unfold maskedReg
  split
  · rw [List.getElem?_eq_getElem h, if_pos (by omega)]
  · rw [List.getElem?_mapIdx, List.getElem?_eq_getElem h]; rfl

theorem value_spec {α : Type} (z : α) (sameAbi fixed : Bool) {n m mfull : Nat} {x : List α} (hn : 1 ≤ n) (hm : 1 ≤ m) (hx : n ≤ x.length)
    (hmf : m ≤ mfull) (hs : sameAbi = true → n = m ∧ mfull = x.length) :
    ∃ r, value z sameAbi fixed n m mfull x = some r ∧ r.length = mfull ∧ r.take m = Spec.resize z m (x.take n) := by
  have key : ∀ r : List α, r.length = mfull → (∀ i < m, r[i]? = some (if h : i < n then x[i] else z)) →
      r.take m = Spec.resize z m (x.take n) := by
    intro r hl hr
    apply List.ext_getElem?
    intro i
    unfold Spec.resize
    by_cases hi : i < m
    · rw [List.getElem?_take_of_lt hi, hr i hi, List.getElem?_map, List.getElem?_range hi]
      by_cases hin : i < n
      · rw [dif_pos hin]; simp [List.getElem?_take_of_lt hin, List.getElem?_eq_getElem (show i < x.length by omega)]
      · rw [dif_neg hin, Option.map_some, List.getElem?_eq_none (by simp; omega)]; rfl
    · rw [List.getElem?_eq_none (by simp; omega), List.getElem?_eq_none (by simp; omega)]
  have h0 : x[0]? = some (x[0]'(by omega)) := List.getElem?_eq_getElem _
  unfold value
  split
  · rename_i h
    obtain ⟨h1, h2⟩ := hs h
    refine ⟨x, rfl, h2.symm, key x h2.symm (fun i hi => ?_)⟩
    rw [dif_pos (by omega), List.getElem?_eq_getElem]
  split
  · rename_i h1
    rw [h0]
    refine ⟨_, rfl, by simp, key _ (by simp) (fun i hi => ?_)⟩
    subst h1
    by_cases hi0 : i = 0
    · subst hi0
      rw [dif_pos (by omega), List.getElem?_set_self (by simp; omega)]
    · rw [dif_neg (by omega), List.getElem?_set_ne (by omega), List.getElem?_replicate, if_pos (by omega)]
  split
  · rename_i h1
    rw [h0]
    subst h1
    refine ⟨_, rfl, by simp, key _ (by simp) (fun i hi => ?_)⟩
    obtain rfl : i = 0 := by omega
    rw [dif_pos (by omega), List.getElem?_replicate, if_pos (by omega)]
  split
  · rename_i h1
    refine ⟨_, rfl, ?_, key _ ?_ (fun i hi => ?_)⟩
    · unfold maskedReg; split <;> simp [h1.1]
    · unfold maskedReg; split <;> simp [h1.1]
    · rw [maskedReg_get z n x (by omega)]
      by_cases hin : i < n <;> simp [hin]
  · have hmm : (List.range (min m n)).mapM (fun i => x[i]?) = some (x.take (min m n)) := by
      rw [mapM_some (fun i => x[i]?) (fun i => (x[i]?).getD z) _ (fun i hi => by
        rw [List.mem_range] at hi
        rw [List.getElem?_eq_getElem (by omega)]; rfl)]
      congr 1
      apply List.ext_getElem?
      intro i
      by_cases hi : i < min m n
      · rw [List.getElem?_map, List.getElem?_range hi, List.getElem?_take_of_lt hi, Option.map_some,
          List.getElem?_eq_getElem (show i < x.length by omega)]; rfl
      · rw [List.getElem?_eq_none (by simp; omega), List.getElem?_eq_none (by simp; omega)]
    rw [hmm]
    refine ⟨_, rfl, by simp; omega, key _ (by simp; omega) (fun i hi => ?_)⟩
    by_cases hin : i < n
    · rw [List.getElem?_append_left (by simp; omega), List.getElem?_take_of_lt (by omega), List.getElem?_eq_getElem, dif_pos hin]
    · rw [List.getElem?_append_right (by simp; omega), dif_neg hin, List.getElem?_replicate,
        if_pos (by simp; omega)]

theorem extract_beyond {n m : Nat} (h1 : 1 ≤ n) (hm : 1 ≤ m) (h64 : m ≤ 64) (x : BitMask n true) (hx : x.Clean) :
    ∃ r, x.extract 0 m = some r ∧ (∀ j < m, r.lane j = (x.lane j && decide (j < n))) ∧
      (BitMask.extractSan n true 0 m = true → r.Clean) := by
  obtain ⟨r, e, l, c⟩ := BitMask.extract_spec h1 x (fun _ => hx) (drop := 0) (new := m) (by omega) hm (by omega)
  refine ⟨r, e, fun j hj => ?_, c⟩
  by_cases hjn : j < n
  · rw [l j hj (by omega)]; simp [hjn]
  · have hn1 : m ≠ 1 := by omega
    have h0 : 0 < x.words.length := by rw [x.len]; exact arraySize_pos h1
    have hr : r = BitMask.ofULL m _ (BitVec.setWidth 64 x.words[0] >>> 0) := by
      have : x.extract 0 m = some (BitMask.ofULL m _ (BitVec.setWidth 64 x.words[0] >>> 0)) := by
        simp [BitMask.extract, show 0 < n by omega, h64, List.getElem?_eq_getElem h0, hn1]
      rw [this] at e; exact (Option.some.inj e).symm
    rw [hr, BitMask.lane_ofULL_single (by omega) (by omega)]
    have hz : x.words[0].getLsbD j = false := by
      by_cases hw : j < wordBits n
      · have := hx j (by omega)
        rwa [BitMask.lane_first_word x (List.getElem?_eq_getElem h0) hw] at this
      · exact BitVec.getLsbD_of_ge _ _ (by omega)
    simp [hz, hjn]

theorem fixed_spec {n m : Nat} (h1 : 1 ≤ n) (hm : 1 ≤ m) (h64 : m ≤ 64) (x : BitMask n true) (hx : x.Clean) :
    ∃ r, fixed m x = some r ∧ r.Clean ∧ r.lanes = Spec.resize false m x.lanes := by
  obtain ⟨r, e, l, c⟩ := extract_beyond h1 hm h64 x hx
  refine ⟨r.sanitized, by unfold fixed; rw [e]; rfl, BitMask.sanitized_clean hm r c, ?_⟩
  unfold BitMask.lanes Spec.resize
  apply List.map_congr_left
  intro i hi
  rw [List.mem_range] at hi
  rw [BitMask.lane_sanitized_lt hm r hi, l i hi]
  by_cases hin : i < n
  · simp [hin]
  · simp [hin]

theorem bits_lanes {W n m : Nat} (k : BitVec W) (hk : ∀ i, n ≤ i → k.getLsbD i = false) (hm : m ≤ 64) :
    (bits m k).lanes = Spec.resize false m ((List.range n).map (fun i => k.getLsbD i)) := by
  have hmb : m ≤ kBits m := by unfold kBits; have := bitCeil_ge m; omega
  unfold KMask.lanes Spec.resize bits
  apply List.map_congr_left
  intro i hi
  rw [List.mem_range] at hi
  rw [BitVec.getLsbD_setWidth]
  by_cases hin : i < n
  · simp [hin, show i < kBits m by omega]
  · simp [hin, hk i (by omega)]

end Resize
end StdSimd
