import Verif.Model.MaskVec
import Verif.Proofs.BoolArray
/-! Lemmas about the x86 conversions between mask representations. -/
namespace StdSimd.MaskVec
open X86 BoolArray

/-- The first `n` elements, of `e` bytes each, are the mask `b`. -/
def Rep (e n : Nat) (b : Nat → Bool) (r : Reg) : Prop := ∀ j < n * e, r j = ones (b (j / e))

theorem ones_bit {w : Nat} (b : Bool) (i : Nat) : (ones b : BitVec w).getLsbD i = (b && decide (i < w)) := by
  cases b <;> simp [ones]

theorem lane_ones {W : Nat} (b : Bool) (i : Nat) (h : 8 * (i + 1) ≤ W) : lane 8 (ones b : BitVec W) i = ones b := by
  apply BitVec.eq_of_getLsbD_eq
  intro j hj
  rw [getLsbD_lane, ones_bit, ones_bit]
  have : 8 * i + j < W := by omega
  simp [hj, this]

theorem join_ones {W : Nat} (b : Bool) (k : Nat) (f : Nat → BitVec 8) (hf : ∀ t < k, f t = ones b) (h : 8 * k = W) :
    join W k f = ones b := by
  apply BitVec.eq_of_getLsbD_eq
  intro j hj
  have h1 : j / 8 < k := by omega
  have h2 : j % 8 < 8 := by omega
  rw [getLsbD_join (by omega), hf _ h1, ones_bit, ones_bit]
  have : j < 8 * k := by omega
  simp [hj, h2, this]

theorem rep_ofElems {e n : Nat} (he : 0 < e) {b : Nat → Bool} {f : Nat → BitVec (8 * e)} (h : ∀ i < n, f i = ones (b i)) :
    Rep e n b (ofElems e f) := by
  intro j hj
  unfold ofElems
  have hjn : j / e < n := Nat.div_lt_of_lt_mul (by rwa [Nat.mul_comm])
  rw [h _ hjn, lane_ones _ _ (by have := Nat.mod_lt j he; omega)]

theorem rep_elem {e n : Nat} (he : 0 < e) {b : Nat → Bool} {r : Reg} (h : Rep e n b r) {i : Nat} (hi : i < n) :
    elem e r i = ones (b i) := by
  unfold elem
  refine join_ones _ _ _ (fun t ht => ?_) rfl
  have h1 : e * i + t < n * e := by
    have := Nat.mul_le_mul_left e (show i + 1 ≤ n from hi)
    rw [Nat.mul_comm n e]; rw [Nat.mul_succ] at this; omega
  rw [h _ h1, Nat.mul_add_div he, Nat.div_eq_of_lt ht, Nat.add_zero]

/-- A permutation of bytes. -/
theorem rep_perm {e e' n W : Nat} (he : 0 < e) (he' : 0 < e') {b : Nat → Bool} {r r' : Reg} (σ : Nat → Nat)
    (hr : ∀ i < W, r' i = r (σ i)) (hs : ∀ i < W, σ i / e = i / e') (h : Rep e n b r) (hW : n * e' ≤ W) : Rep e' n b r' := by
  intro j hj
  have h1 : σ j / e = j / e' := hs j (by omega)
  have h2 : j / e' < n := Nat.div_lt_of_lt_mul (by rwa [Nat.mul_comm])
  have h3 : σ j < n * e := by
    rw [Nat.mul_comm]; exact (Nat.div_lt_iff_lt_mul he).1 (by omega) |>.trans_eq (Nat.mul_comm _ _)
  rw [hr j (by omega), h _ h3, h1]

theorem sat8_ones (b : Bool) : sat8 (ones b) = ones b := by cases b <;> decide
theorem sat16_ones (b : Bool) : sat16 (ones b) = ones b := by cases b <;> decide

/-- Two bytes of the same element make a short of it. -/
theorem elem2_of {e n : Nat} {b : Nat → Bool} {r : Reg} (h : Rep (2 * e) n b r) (he : 0 < e) {i : Nat} (hi : i < n * e) :
    elem 2 r i = ones (b (i / e)) := by
  unfold elem
  refine join_ones _ _ _ (fun t ht => ?_) rfl
  rw [h _ (by rw [Nat.mul_left_comm]; omega)]
  congr 2
  rw [← Nat.div_div_eq_div_mul]
  congr 1; omega

theorem rep_packs16 {e n : Nat} (he : 0 < e) {b : Nat → Bool} {k : Reg} (h : Rep (2 * e) n b k) (hn : n * e ≤ 16) :
    Rep e n b (packs16 k (hi 16 k)) := by
  intro j hj
  unfold packs16
  dsimp only
  by_cases h8 : j < 8
  · rw [if_pos h8, Nat.mod_eq_of_lt h8, elem2_of h he hj, sat8_ones]
  · rw [if_neg h8]
    have : elem 2 (hi 16 k) (j % 8) = elem 2 k j := by
      unfold elem hi
      congr 1; funext t; congr 1; omega
    rw [this, elem2_of h he hj, sat8_ones]

theorem rep_packs16_zero {e n : Nat} (he : 0 < e) {b : Nat → Bool} {k : Reg} (h : Rep (2 * e) n b k) (hn : n * e ≤ 8) :
    Rep e n b (packs16 k zero) := by
  intro j hj
  unfold packs16
  dsimp only
  rw [if_pos (by omega), Nat.mod_eq_of_lt (by omega), elem2_of h he hj, sat8_ones]

theorem elem4_of {e n : Nat} {b : Nat → Bool} {r : Reg} (h : Rep (4 * e) n b r) (he : 0 < e) {i : Nat} (hi : i < n * e) :
    elem 4 r i = ones (b (i / e)) := by
  unfold elem
  refine join_ones _ _ _ (fun t ht => ?_) rfl
  rw [h _ (by rw [Nat.mul_left_comm]; omega)]
  congr 2
  rw [← Nat.div_div_eq_div_mul]
  congr 1; omega

theorem rep_packs32_zero {e n : Nat} (he : 0 < e) {b : Nat → Bool} {k : Reg} (h : Rep (4 * e) n b k) (hn : n * e ≤ 4) :
    Rep (2 * e) n b (packs32 k zero) := by
  intro j hj
  rw [Nat.mul_left_comm] at hj
  unfold packs32
  dsimp only
  rw [if_pos (by omega), Nat.mod_eq_of_lt (by omega), elem4_of h he (by omega), sat16_ones, lane_ones _ _ (by omega),
    Nat.div_div_eq_div_mul]

theorem rep_cast {e n : Nat} {b : Nat → Bool} {k junk : Reg} (h : Rep e n b k) (hn : n * e ≤ 16) : Rep e n b (cast256 junk k) := by
  intro j hj; unfold cast256; rw [if_pos (by omega)]; exact h j hj

theorem rep_zeroExtend {e n : Nat} {b : Nat → Bool} {k : Reg} (h : Rep e n b k) (hn : n * e ≤ 16) : Rep e n b (zeroExtend k) := by
  intro j hj; unfold zeroExtend; rw [if_pos (by omega)]; exact h j hj

/-! ## vector to vector -/

def Size (e : Nat) : Prop := e = 1 ∨ e = 2 ∨ e = 4 ∨ e = 8

theorem unpacklo_pow {g e n : Nat} {b : Nat → Bool} {k : Reg} (h : Rep e n b k) (hn : n * (2 * e) ≤ 16)
    (he : 0 < e) (hg : ∀ i < 16, (i / g / 2 * g + i % g) / e = i / (2 * e)) : Rep (2 * e) n b (unpacklo g k) :=
  rep_perm he (by omega) (fun i => i / g / 2 * g + i % g) (fun _ _ => rfl) hg h hn

theorem sseToSse_spec (ft : Feat) {e e' n : Nat} (he : Size e) (he' : Size e') (hne : e ≠ e') {b : Nat → Bool} {k : Reg}
    (h : Rep e n b k) (hs : n * e ≤ 16) (ht : n * e' ≤ 16) :
    ∃ r, sseToSse ft e e' k = some r ∧ Rep e' n b r := by
  obtain ⟨sse2, ssse3, _, _, _, _, _, _⟩ := ft
  rcases he with rfl | rfl | rfl | rfl <;> rcases he' with rfl | rfl | rfl | rfl <;>
    first
    | exact absurd rfl hne
    | skip
  -- 1 → 2
  · exact ⟨_, rfl, unpacklo_pow (e := 1) h (by omega) (by omega) (by decide)⟩
  -- 1 → 4
  · exact ⟨_, rfl, unpacklo_pow (e := 2) (unpacklo_pow (e := 1) h (by omega) (by omega) (by decide)) (by omega) (by omega) (by decide)⟩
  -- 1 → 8
  · exact ⟨_, rfl, unpacklo_pow (e := 4) (unpacklo_pow (e := 2) (unpacklo_pow (e := 1) h (by omega) (by omega) (by decide))
      (by omega) (by omega) (by decide)) (by omega) (by omega) (by decide)⟩
  -- 2 → 1
  · exact ⟨_, by cases ssse3 <;> rfl, rep_packs16_zero (e := 1) (by omega) h (by omega)⟩
  -- 2 → 4
  · exact ⟨_, rfl, unpacklo_pow (e := 2) h (by omega) (by omega) (by decide)⟩
  -- 2 → 8
  · exact ⟨_, rfl, unpacklo_pow (e := 4) (unpacklo_pow (e := 2) h (by omega) (by omega) (by decide)) (by omega) (by omega) (by decide)⟩
  -- 4 → 1
  · cases ssse3
    · exact ⟨_, rfl, rep_packs16_zero (e := 1) (by omega) (rep_packs32_zero (e := 1) (by omega) h (by omega)) (by omega)⟩
    · refine ⟨_, rfl, rep_perm (W := 4) (by omega) (by omega) (fun i => 4 * i + 3) ?_ (by omega) h (by omega)⟩
      intro i hi; interval_cases i <;> rfl
  -- 4 → 2
  · exact ⟨_, by rfl, rep_packs32_zero (e := 1) (by omega) h (by omega)⟩
  -- 4 → 8
  · exact ⟨_, rfl, unpacklo_pow (e := 4) h (by omega) (by omega) (by decide)⟩
  -- 8 → 1
  · cases ssse3
    · exact ⟨_, by cases sse2 <;> rfl, rep_packs16_zero (e := 1) (by omega) (rep_packs32_zero (e := 1) (by omega)
        (rep_packs32_zero (e := 2) (by omega) h (by omega)) (by omega)) (by omega)⟩
    · refine ⟨shuffle8 [7, 15] k, by cases sse2 <;> rfl, rep_perm (W := 2) (by omega) (by omega) (fun i => 8 * i + 7) ?_ (by omega) h (by omega)⟩
      intro i hi; interval_cases i <;> rfl
  -- 8 → 2
  · have hp : Rep 2 n b (fun i => if i < 4 then k ([6, 14].getD (i / 2) 0 + i % 2) else 0#8) := by
      refine rep_perm (W := 4) (by omega) (by omega) (fun i => 8 * (i / 2) + 6 + i % 2) ?_ (by omega) h (by omega)
      intro i hi; interval_cases i <;> rfl
    have hq := rep_packs32_zero (e := 1) (by omega) (rep_packs32_zero (e := 2) (by omega) h (by omega)) (by omega)
    cases ssse3
    · cases sse2
      · exact ⟨_, rfl, hp⟩
      · exact ⟨_, rfl, hq⟩
    · cases sse2 <;> exact ⟨_, rfl, hp⟩
  -- 8 → 4
  · cases sse2
    · refine ⟨_, rfl, rep_perm (W := 8) (by omega) (by omega) (fun i => 8 * (i / 4) + 4 + i % 4) ?_ (by omega) h (by omega)⟩
      intro i hi; interval_cases i <;> rfl
    · exact ⟨_, rfl, rep_packs32_zero (e := 2) (by omega) h (by omega)⟩

theorem avxToAvx_spec (ft : Feat) (junk : Reg) {e e' n : Nat} (he : Size e) (he' : Size e') (hne : e ≠ e') {b : Nat → Bool} {k : Reg}
    (h : Rep e n b k) (hs : n * e ≤ 32) (ht : n * e' ≤ 32) :
    ∃ r, avxToAvx ft junk e e' k = some r ∧ Rep e' n b r := by
  obtain ⟨_, _, _, avx2, _, _, _, _⟩ := ft
  have hlo : ∀ e g, 0 < e → n * (2 * e) ≤ 32 → Rep e n b k →
      (∀ i < 32, ([0, 16, 8, 24].getD ((16 * (i / 16) + (i % 16 / g / 2 * g + i % g)) / 8) 0
        + (16 * (i / 16) + (i % 16 / g / 2 * g + i % g)) % 8) / e = i / (2 * e)) →
      Rep (2 * e) n b (unpacklo256 g (xzyw k)) :=
    fun e g he hn h hg => rep_perm he (by omega)
      (fun i => [0, 16, 8, 24].getD ((16 * (i / 16) + (i % 16 / g / 2 * g + i % g)) / 8) 0
        + (16 * (i / 16) + (i % 16 / g / 2 * g + i % g)) % 8) (fun _ _ => rfl) hg h hn
  have h4 : ∀ e, 0 < e → n * (4 * e) ≤ 32 → Rep e n b k →
      (∀ i < 32, (if i < 16 then (i / 2 / 2 * 2 + i % 2) / 1 / 2 * 1 + (i / 2 / 2 * 2 + i % 2) % 1
        else (8 + (i - 16) / 2 / 2 * 2 + (i - 16) % 2) / 1 / 2 * 1 + (8 + (i - 16) / 2 / 2 * 2 + (i - 16) % 2) % 1) / e = i / (4 * e)) →
      Rep (4 * e) n b (concat (unpacklo 2 (unpacklo 1 k)) (unpackhi 2 (unpacklo 1 k))) := by
    intro e he hn h hg
    refine rep_perm he (by omega) (fun i => if i < 16 then (i / 2 / 2 * 2 + i % 2) / 1 / 2 * 1 + (i / 2 / 2 * 2 + i % 2) % 1
        else (8 + (i - 16) / 2 / 2 * 2 + (i - 16) % 2) / 1 / 2 * 1 + (8 + (i - 16) / 2 / 2 * 2 + (i - 16) % 2) % 1)
      (fun i _ => ?_) hg h hn
    unfold concat unpacklo unpackhi
    dsimp only
    split <;> rfl
  rcases he with rfl | rfl | rfl | rfl <;> rcases he' with rfl | rfl | rfl | rfl <;>
    first
    | exact absurd rfl hne
    | skip
  -- 1 → 2
  · exact ⟨_, by cases avx2 <;> rfl, hlo 1 1 (by omega) (by omega) h (by decide)⟩
  -- 1 → 4
  · exact ⟨_, rfl, h4 1 (by omega) (by omega) h (by decide)⟩
  -- 1 → 8
  · refine ⟨_, rfl, rep_perm (W := 32) (by omega) (by omega) (fun i => i / 8) (fun i hi => ?_) (by omega) h (by omega)⟩
    unfold concat unpacklo unpackhi
    dsimp only
    split <;> congr 1 <;> omega
  -- 2 → 1
  · exact ⟨_, rfl, rep_cast (rep_packs16 (e := 1) (by omega) h (by omega)) (by omega)⟩
  -- 2 → 4
  · exact ⟨_, by cases avx2 <;> rfl, hlo 2 1 (by omega) (by omega) h (by decide)⟩
  -- 2 → 8
  · exact ⟨_, rfl, h4 2 (by omega) (by omega) h (by decide)⟩
  -- 4 → 1
  · exact ⟨_, rfl, rep_cast (rep_packs16_zero (e := 1) (by omega) (rep_packs16 (e := 2) (by omega) h (by omega)) (by omega)) (by omega)⟩
  -- 4 → 2
  · exact ⟨_, rfl, rep_cast (rep_packs16 (e := 2) (by omega) h (by omega)) (by omega)⟩
  -- 4 → 8
  · cases avx2
    · exact ⟨_, rfl, hlo 4 4 (by omega) (by omega) h (by decide)⟩
    · exact ⟨_, rfl, hlo 4 1 (by omega) (by omega) h (by decide)⟩
  -- 8 → 1
  · refine ⟨_, rfl, rep_cast ?_ (by omega)⟩
    refine rep_perm (W := 4) (e := 4) (by omega) (by omega) (fun i => 4 * i + 3) ?_ (by omega)
      (rep_packs16 (e := 4) (by omega) h (by omega)) (by omega)
    intro i hi; interval_cases i <;> rfl
  -- 8 → 2
  · exact ⟨_, rfl, rep_cast (rep_packs16_zero (e := 2) (by omega) (rep_packs16 (e := 4) (by omega) h (by omega)) (by omega)) (by omega)⟩
  -- 8 → 4
  · exact ⟨_, rfl, rep_cast (rep_packs16 (e := 4) (by omega) h (by omega)) (by omega)⟩

theorem sseToAvx_spec (ft : Feat) {e e' n : Nat} (he : Size e) (he' : Size e') {b : Nat → Bool} {k : Reg}
    (h : Rep e n b k) (hs : n * e ≤ 16) (ht : n * e' ≤ 32) :
    ∃ r, sseToAvx ft e e' k = some r ∧ Rep e' n b r := by
  obtain ⟨_, _, _, avx2, _, _, _, _⟩ := ft
  have h2 : ∀ e, 0 < e → n * (2 * e) ≤ 32 → Rep e n b k → Rep (2 * e) n b (concat (unpacklo 1 k) (unpackhi 1 k)) := by
    intro e he hn h
    refine rep_perm (W := 32) he (by omega) (fun i => i / 2) (fun i hi => ?_) (fun i hi => by rw [Nat.div_div_eq_div_mul]) h hn
    unfold concat unpacklo unpackhi
    split <;> congr 1 <;> omega
  have hp : ∀ (tab : List Nat) (d : Nat), (∀ i < 32, tab.getD i 128 < 16 ∧ tab.getD i 128 = i / d) →
      ∀ i < 32, shuffle8x256 tab (concat k k) i = k (i / d) := by
    intro tab d ht i hi
    obtain ⟨h1, h2⟩ := ht i hi
    unfold shuffle8x256 concat
    dsimp only
    rw [if_neg (by omega)]
    split
    · congr 1; omega
    · congr 1; omega
  have hq : ∀ (t1 t2 : List Nat) (d : Nat), (∀ i < 16, t1.getD i 128 < 16 ∧ t1.getD i 128 = i / d) →
      (∀ i < 16, t2.getD i 128 < 16 ∧ t2.getD i 128 = (i + 16) / d) →
      ∀ i < 32, concat (shuffle8 t1 k) (shuffle8 t2 k) i = k (i / d) := by
    intro t1 t2 d g1 g2 i hi
    unfold concat shuffle8
    dsimp only
    split
    · obtain ⟨h1, h2⟩ := g1 i (by omega)
      rw [if_neg (by omega), h2, Nat.mod_eq_of_lt (by omega)]
    · obtain ⟨h1, h2⟩ := g2 (i - 16) (by omega)
      rw [if_neg (by omega), Nat.mod_eq_of_lt h1, h2]
      congr 2; omega
  have h4 : ∀ e, 0 < e → n * (4 * e) ≤ 32 → Rep e n b k →
      ∀ r : Reg, (∀ i < 32, r i = k (i / 4)) → Rep (4 * e) n b r := by
    intro e he hn h r hr
    exact rep_perm (W := 32) he (by omega) (fun i => i / 4) hr (fun i hi => by rw [Nat.div_div_eq_div_mul]) h hn
  rcases he with rfl | rfl | rfl | rfl <;> rcases he' with rfl | rfl | rfl | rfl
  -- 1 → 1
  · exact ⟨_, rfl, rep_zeroExtend h (by omega)⟩
  -- 1 → 2
  · exact ⟨_, rfl, h2 1 (by omega) (by omega) h⟩
  -- 1 → 4
  · cases avx2
    · exact ⟨_, rfl, h4 1 (by omega) (by omega) h _ (hq _ _ 4 (by decide) (by decide))⟩
    · exact ⟨_, rfl, h4 1 (by omega) (by omega) h _ (hp _ 4 (by decide))⟩
  -- 1 → 8
  · cases avx2
    · exact ⟨_, rfl, rep_perm (W := 32) (by omega) (by omega) (fun i => i / 8) (hq _ _ 8 (by decide) (by decide)) (by omega) h (by omega)⟩
    · exact ⟨_, rfl, rep_perm (W := 32) (by omega) (by omega) (fun i => i / 8) (hp _ 8 (by decide)) (by omega) h (by omega)⟩
  -- 2 → 1
  · exact ⟨_, rfl, rep_zeroExtend (rep_packs16_zero (e := 1) (by omega) h (by omega)) (by omega)⟩
  · exact ⟨_, rfl, rep_zeroExtend h (by omega)⟩
  -- 2 → 4
  · exact ⟨_, rfl, h2 2 (by omega) (by omega) h⟩
  -- 2 → 8
  · cases avx2
    · exact ⟨_, rfl, h4 2 (by omega) (by omega) h _ (hq _ _ 4 (by decide) (by decide))⟩
    · exact ⟨_, rfl, h4 2 (by omega) (by omega) h _ (hp _ 4 (by decide))⟩
  -- 4 → 1
  · refine ⟨_, rfl, rep_zeroExtend ?_ (by omega)⟩
    refine rep_perm (W := 4) (by omega) (by omega) (fun i => 4 * i + 3) ?_ (by omega) h (by omega)
    intro i hi; interval_cases i <;> rfl
  -- 4 → 2
  · exact ⟨_, rfl, rep_zeroExtend (rep_packs16_zero (e := 2) (by omega) h (by omega)) (by omega)⟩
  · exact ⟨_, rfl, rep_zeroExtend h (by omega)⟩
  -- 4 → 8
  · exact ⟨_, rfl, h2 4 (by omega) (by omega) h⟩
  -- 8 → 1
  · refine ⟨_, rfl, rep_zeroExtend ?_ (by omega)⟩
    refine rep_perm (W := 2) (by omega) (by omega) (fun i => 8 * i + 7) ?_ (by omega) h (by omega)
    intro i hi; interval_cases i <;> rfl
  -- 8 → 2
  · refine ⟨_, rfl, rep_zeroExtend ?_ (by omega)⟩
    refine rep_perm (W := 4) (by omega) (by omega) (fun i => 8 * (i / 2) + 6 + i % 2) ?_ (by omega) h (by omega)
    intro i hi; interval_cases i <;> rfl
  -- 8 → 4
  · exact ⟨_, rfl, rep_zeroExtend (rep_packs16_zero (e := 4) (by omega) h (by omega)) (by omega)⟩
  · exact ⟨_, rfl, rep_zeroExtend h (by omega)⟩

theorem avxToSse_spec {e e' n : Nat} (he : Size e) (he' : Size e') {b : Nat → Bool} {k : Reg}
    (h : Rep e n b k) (hs : n * e ≤ 32) (ht : n * e' ≤ 16) :
    ∃ r, avxToSse e e' k = some r ∧ Rep e' n b r := by
  have hu : ∀ e (k : Reg), 0 < e → n * (2 * e) ≤ 16 → Rep e n b k → Rep (2 * e) n b (unpacklo 1 k) := by
    intro e k he hn h
    refine rep_perm (W := 16) he (by omega) (fun i => i / 2) (fun i hi => ?_) (fun i hi => by rw [Nat.div_div_eq_div_mul]) h hn
    unfold unpacklo; congr 1; omega
  rcases he with rfl | rfl | rfl | rfl <;> rcases he' with rfl | rfl | rfl | rfl
  · exact ⟨_, rfl, h⟩
  · exact ⟨_, rfl, hu 1 _ (by omega) (by omega) h⟩
  · exact ⟨_, rfl, hu 2 _ (by omega) (by omega) (hu 1 _ (by omega) (by omega) h)⟩
  · exact ⟨_, rfl, hu 4 _ (by omega) (by omega) (hu 2 _ (by omega) (by omega) (hu 1 _ (by omega) (by omega) h))⟩
  · exact ⟨_, rfl, rep_packs16 (e := 1) (by omega) h (by omega)⟩
  · exact ⟨_, rfl, h⟩
  · exact ⟨_, rfl, hu 2 _ (by omega) (by omega) h⟩
  · exact ⟨_, rfl, hu 4 _ (by omega) (by omega) (hu 2 _ (by omega) (by omega) h)⟩
  · exact ⟨_, rfl, rep_packs16_zero (e := 1) (by omega) (rep_packs16 (e := 2) (by omega) h (by omega)) (by omega)⟩
  · exact ⟨_, rfl, rep_packs16 (e := 2) (by omega) h (by omega)⟩
  · exact ⟨_, rfl, h⟩
  · exact ⟨_, rfl, hu 4 _ (by omega) (by omega) h⟩
  · refine ⟨_, rfl, ?_⟩
    refine rep_perm (W := 4) (e := 4) (by omega) (by omega) (fun i => 4 * i + 3) ?_ (by omega)
      (rep_packs16 (e := 4) (by omega) h (by omega)) (by omega)
    intro i hi; interval_cases i <;> rfl
  · exact ⟨_, rfl, rep_packs16_zero (e := 2) (by omega) (rep_packs16 (e := 4) (by omega) h (by omega)) (by omega)⟩
  · exact ⟨_, rfl, rep_packs16 (e := 4) (by omega) h (by omega)⟩
  · exact ⟨_, rfl, h⟩

theorem vecToVec_spec (ft : Feat) (junk : Reg) {s s' e e' n toN : Nat} (hs : s = 16 ∨ s = 32) (hs' : s' = 16 ∨ s' = 32)
    (he : Size e) (he' : Size e') {b : Nat → Bool} {k : Reg} (h : Rep e n b k) (hn : n * e ≤ s) (hn' : n * e' ≤ s') :
    ∃ r, vecToVec ft junk s s' e e' n toN k = some r ∧ Rep e' n b r := by
  unfold vecToVec
  by_cases h1 : e = e' ∧ s = s'
  · rw [if_pos h1]
    refine ⟨_, rfl, ?_⟩
    obtain ⟨rfl, rfl⟩ := h1
    split
    · exact h
    · intro j hj; dsimp only; rw [if_pos hj]; exact h j hj
  rw [if_neg h1]
  by_cases h2 : e = e'
  · rw [if_pos h2]
    refine ⟨_, rfl, ?_⟩
    subst h2
    split
    · have : n * e ≤ 16 := by omega
      split
      · exact rep_cast h this
      · exact rep_zeroExtend h this
    · exact h
  rw [if_neg h2]
  rcases hs with rfl | rfl <;> rcases hs' with rfl | rfl
  · exact sseToSse_spec ft he he' h2 h hn hn'
  · exact sseToAvx_spec ft he he' h hn hn'
  · exact avxToSse_spec he he' h hn hn'
  · exact avxToAvx_spec ft junk he he' h2 h hn hn'

/-! ## bits to vector -/

theorem rep_movm {e n : Nat} (he : 0 < e) (k : BitVec 64) : Rep e n (fun i => k.getLsbD i) (movm e k) :=
  rep_ofElems he (fun _ _ => rfl)

theorem elem_hi {e h : Nat} (c : Nat) (r : Reg) (i : Nat) (hc : h = e * c) : elem e (hi h r) i = elem e r (c + i) := by
  subst hc
  unfold elem hi
  congr 1; funext t; congr 1; rw [Nat.mul_add]; omega

theorem xzyw_packs32 (a : Reg) {j : Nat} (hj : j < 32) :
    xzyw (packs32x256 a (hi 32 a)) j = lane 8 (sat16 (elem 4 a (j / 2))) (j % 2) := by
  interval_cases j <;> simp [xzyw, packs32x256, packs32, elem_hi 8, elem_hi (e := 4) 4]

theorem xzyw_packs16 (a : Reg) {j : Nat} (hj : j < 32) :
    xzyw (packs16x256 a (hi 32 a)) j = sat8 (elem 2 a j) := by
  interval_cases j <;> simp [xzyw, packs16x256, packs16, elem_hi (e := 2) 16, elem_hi (e := 2) 8]

theorem rep_shorts16 {b : Nat → Bool} {a : Reg} (h : Rep 4 16 b a) : Rep 2 16 b (xzyw (packs32x256 a (hi 32 a))) := by
  intro j hj
  rw [xzyw_packs32 a hj, rep_elem (by omega) h (by omega), sat16_ones, lane_ones _ _ (by omega)]

theorem rep_bytes16Avx512f (k : BitVec 64) : Rep 1 16 (fun i => k.getLsbD i) (bytes16Avx512f k) :=
  rep_packs16 (e := 1) (by omega) (rep_shorts16 (rep_movm (by omega) k)) (by omega)

theorem rep_shorts8Avx512f (k : BitVec 64) : Rep 2 8 (fun i => k.getLsbD i) (shorts8Avx512f k) := by
  intro j hj
  have h : Rep 4 8 (fun i => k.getLsbD i) (movm 4 k) := rep_movm (by omega) k
  unfold shorts8Avx512f packs32
  dsimp only
  by_cases h8 : j < 8
  · rw [if_pos h8, Nat.mod_eq_of_lt (by omega), rep_elem (by omega) h (by omega), sat16_ones, lane_ones _ _ (by omega)]
  · rw [if_neg h8, elem_hi 4 _ _ rfl, rep_elem (by omega) h (by omega), sat16_ones, lane_ones _ _ (by omega)]
    congr 2; omega

theorem and_bit (W : Nat) (a : BitVec W) {i : Nat} (hi : i < W) : ((a &&& (1#W <<< i)) != 0#W) = a.getLsbD i := by
  rw [Bool.eq_iff_iff, bne_iff_ne]
  constructor
  · intro h
    by_contra hc
    apply h
    apply BitVec.eq_of_getLsbD_eq
    intro j hj
    rw [BitVec.getLsbD_and, ← BitVec.twoPow_eq, BitVec.getLsbD_twoPow]
    by_cases hji : i = j
    · subst hji; simp [hc]
    · simp [hji]
  · intro h hc
    have := congrArg (fun v => v.getLsbD i) hc
    rw [← BitVec.twoPow_eq] at this
    simp [BitVec.getLsbD_and, BitVec.getLsbD_twoPow, h, hi, -BitVec.getLsbD_eq_getElem] at this

theorem slt_bit (W : Nat) (a : BitVec W) {i : Nat} (hi : i + 1 < W) : (0#W).slt (a &&& (1#W <<< i)) = a.getLsbD i := by
  rw [← and_bit W a (show i < W by omega)]
  have hm : (a &&& (1#W <<< i)).msb = false := by
    rw [BitVec.msb_eq_getLsbD_last, BitVec.getLsbD_and, ← BitVec.twoPow_eq, BitVec.getLsbD_twoPow]
    have : ¬ i = W - 1 := by omega
    simp [this]
  rw [Bool.eq_iff_iff, BitVec.slt_iff_toInt_lt, bne_iff_ne, BitVec.toInt_zero, BitVec.toInt_eq_toNat_of_msb hm, Ne, ← BitVec.toNat_inj]
  simp only [BitVec.toNat_ofNat, Nat.zero_mod]
  omega

theorem neg_ofBool {W : Nat} (hW : 0 < W) (b : Bool) : -((BitVec.ofBool b).setWidth W) = ones b := by
  cases b
  · simp [ones]
  · have : (BitVec.ofBool true).setWidth W = 1#W := by
      apply BitVec.eq_of_toNat_eq
      simp
    rw [this, BitVec.neg_one_eq_allOnes]; rfl

theorem byte_bit (k : BitVec 64) (tab : List (BitVec 8)) (j c : Nat) (hj : j < 8 * c + 8) (h8 : 8 * c ≤ j)
    (ht : tab.getD (j % 16) 0#8 = 1#8 <<< (j % 8)) :
    (lane 8 k c &&& tab.getD (j % 16) 0#8 != 0#8) = k.getLsbD j := by
  rw [ht, and_bit 8 _ (by omega), getLsbD_lane]
  have : 8 * c + j % 8 = j := by omega
  have h2 : j % 8 < 8 := by omega
  simp [this, h2]

theorem rep_bytes16Ssse3 (k : BitVec 64) : Rep 1 16 (fun i => k.getLsbD i) (bytes16Ssse3 k) := by
  intro j hj
  unfold bytes16Ssse3 shuffle8
  dsimp only
  rw [Nat.div_one]
  congr 1
  have h1 : ∀ j < 16, [0, 0, 0, 0, 0, 0, 0, 0, 1, 1, 1, 1, 1, 1, 1, 1].getD j 128 = j / 8 := by decide
  rw [h1 j hj, if_neg (by omega), Nat.mod_eq_of_lt (a := j / 8) (by omega), if_pos (by omega)]
  have h2 : j % 16 = j := by omega
  have h3 : ∀ j < 16, [1#8, 2#8, 4#8, 8#8, 16#8, 32#8, 64#8, 128#8, 1#8, 2#8, 4#8, 8#8, 16#8, 32#8, 64#8, 128#8].getD (j % 16) 0#8
    = 1#8 <<< (j % 8) := by decide
  have := byte_bit k _ j (j / 8) (by omega) (by omega) (h3 j hj)
  rwa [h2] at this

theorem rep_bytes32Avx2 (k : BitVec 64) : Rep 1 32 (fun i => k.getLsbD i) (bytes32Avx2 k) := by
  intro j hj
  unfold bytes32Avx2 shuffle8x256
  dsimp only
  rw [Nat.div_one]
  congr 1
  have h1 : ∀ j < 32, [0, 0, 0, 0, 0, 0, 0, 0, 1, 1, 1, 1, 1, 1, 1, 1, 2, 2, 2, 2, 2, 2, 2, 2, 3, 3, 3, 3, 3, 3, 3, 3].getD j 128 = j / 8 := by
    decide
  rw [h1 j hj, if_neg (by omega), Nat.mod_eq_of_lt (a := j / 8) (by omega)]
  have h4 : (16 * (j / 16) + j / 8) % 16 = j / 8 := by omega
  rw [h4, if_pos (by omega)]
  have h3 : ∀ j < 32, [1#8, 2#8, 4#8, 8#8, 16#8, 32#8, 64#8, 128#8, 1#8, 2#8, 4#8, 8#8, 16#8, 32#8, 64#8, 128#8].getD (j % 16) 0#8
    = 1#8 <<< (j % 8) := by decide
  exact byte_bit k _ j (j / 8) (by omega) (by omega) (h3 j hj)

theorem shuffle32 (y : Reg) {j : Nat} (hj : j < 32) :
      xzyw (shuffle8x256 [0, 2, 4, 6, 8, 10, 12, 14, 1, 3, 5, 7, 9, 11, 13, 15,
        0, 2, 4, 6, 8, 10, 12, 14, 1, 3, 5, 7, 9, 11, 13, 15] y) j = y (2 * (j % 16) + j / 16) := by
  have hx : ∀ j < 32, [0, 16, 8, 24].getD (j / 8) 0 + j % 8 < 32 ∧
      [0, 2, 4, 6, 8, 10, 12, 14, 1, 3, 5, 7, 9, 11, 13, 15,
        0, 2, 4, 6, 8, 10, 12, 14, 1, 3, 5, 7, 9, 11, 13, 15].getD ([0, 16, 8, 24].getD (j / 8) 0 + j % 8) 128 < 128 ∧
      16 * (([0, 16, 8, 24].getD (j / 8) 0 + j % 8) / 16) + [0, 2, 4, 6, 8, 10, 12, 14, 1, 3, 5, 7, 9, 11, 13, 15,
        0, 2, 4, 6, 8, 10, 12, 14, 1, 3, 5, 7, 9, 11, 13, 15].getD ([0, 16, 8, 24].getD (j / 8) 0 + j % 8) 128 % 16
          = 2 * (j % 16) + j / 16 := by decide
  obtain ⟨_, h2, h3⟩ := hx j hj
  unfold xzyw shuffle8x256
  dsimp only
  rw [if_neg (by omega), h3]

theorem split_ones : ∀ (a b : Bool), ∀ t < 4,
    lane 8 (((ones a : BitVec 32) >>> 16) ||| ((ones b : BitVec 32) <<< 16)) t = ones (if t < 2 then a else b) := by decide

theorem rep_bytes32Avx512f (k : BitVec 64) : Rep 1 32 (fun i => k.getLsbD i) (bytes32Avx512f k) := by
  have hel : ∀ (r : Reg), r = ofElems 4 (fun i => ((ones (k.getLsbD i) : BitVec 32) >>> 16)
      ||| ((ones ((k >>> 16).getLsbD i) : BitVec 32) <<< 16)) → ∀ i, elem 2 r i = ones (k.getLsbD (16 * (i % 2) + i / 2)) := by
    rintro r rfl i
    unfold elem
    refine join_ones _ _ _ (fun t ht => ?_) rfl
    unfold ofElems
    rw [split_ones _ _ _ (by omega)]
    have h1 : (2 * i + t) / 4 = i / 2 := by omega
    rw [h1]
    congr 1
    by_cases h2 : i % 2 = 0
    · rw [if_pos (by omega), h2]; simp
    · rw [if_neg (by omega), BitVec.getLsbD_ushiftRight]
      congr 1; omega
  have hy : ∀ j < 32, xzyw (packs16x256 (ofElems 4 (fun i => ((ones (k.getLsbD i) : BitVec 32) >>> 16)
      ||| ((ones ((k >>> 16).getLsbD i) : BitVec 32) <<< 16))) (hi 32 (ofElems 4 (fun i => ((ones (k.getLsbD i) : BitVec 32) >>> 16)
      ||| ((ones ((k >>> 16).getLsbD i) : BitVec 32) <<< 16))))) j = ones (k.getLsbD (16 * (j % 2) + j / 2)) := by
    intro j hj
    rw [xzyw_packs16 _ hj, hel _ rfl, sat8_ones]
  intro j hj
  unfold bytes32Avx512f
  dsimp only
  generalize xzyw (packs16x256 _ _) = y at hy ⊢
  rw [shuffle32 y (by omega), hy _ (by omega), Nat.div_one]
  congr 2; omega

theorem bytes4_tab : ∀ m < 128, ∀ i < 4,
    lane 8 ((((BitVec.ofNat 64 m).setWidth 32 * 0x00204081#32) &&& 0x01010101#32) * 0xff#32) i = ones (m.testBit i) := by decide +kernel

theorem bytes7_tab : ∀ m < 128, ∀ i < 8,
    lane 8 (((BitVec.ofNat 64 m * 0x40810204081#64) &&& 0x0101010101010101#64) * 0xff#64) i = ones (m.testBit i) := by decide +kernel

theorem rep_bytes4 (k : BitVec 64) {np uv toN : Nat} (hk : ∀ i, np ≤ i → k.getLsbD i = false) (hm : min toN np ≤ 4) (hu : toN ≤ uv) :
    Rep 1 toN (fun i => k.getLsbD i) (bytes4 np uv k) := by
  intro j hj
  rw [Nat.div_one]
  unfold bytes4
  dsimp only
  by_cases h4 : j < min uv 4
  · rw [if_pos h4]
    have h : ∃ x : BitVec 64, (if np > 7 then k &&& 0x0f#64 else k) = x ∧ x.toNat < 128 ∧ x.getLsbD j = k.getLsbD j := by
      refine ⟨_, rfl, ?_, ?_⟩
      · apply toNat_lt_of_bits _ 7
        intro i hi
        split
        · rw [BitVec.getLsbD_and]
          have : (0x0f#64).getLsbD i = false := by
            by_cases h : i < 64
            · have : ∀ i < 64, 7 ≤ i → (0x0f#64).getLsbD i = false := by decide
              exact this i h hi
            · exact BitVec.getLsbD_of_ge _ _ (by omega)
          simp [this]
        · exact hk i (by omega)
      · split
        · rw [BitVec.getLsbD_and]
          have : ∀ i < 4, (0x0f#64).getLsbD i = true := by decide
          rw [this j (by omega), Bool.and_true]
        · rfl
    obtain ⟨x, e, hx, hb⟩ := h
    rw [e, ← hb, eq_ofNat x, bytes4_tab _ hx j (by omega)]
    simp [BitVec.getLsbD]
  · rw [if_neg h4, hk j (by omega)]; rfl

theorem rep_bytes7 (k : BitVec 64) {np uv toN : Nat} (hk : ∀ i, np ≤ i → k.getLsbD i = false) (hm : min toN np ≤ 7) (hu : toN ≤ uv) :
    Rep 1 toN (fun i => k.getLsbD i) (bytes7 np uv k) := by
  intro j hj
  rw [Nat.div_one]
  unfold bytes7
  dsimp only
  by_cases h4 : j < min uv 8
  · rw [if_pos h4]
    have h : ∃ x : BitVec 64, (if np > 7 then k &&& 0x7f#64 else k) = x ∧ x.toNat < 128 ∧ x.getLsbD j = k.getLsbD j := by
      refine ⟨_, rfl, ?_, ?_⟩
      · apply toNat_lt_of_bits _ 7
        intro i hi
        split
        · rw [BitVec.getLsbD_and]
          have : (0x7f#64).getLsbD i = false := by
            by_cases h : i < 64
            · have : ∀ i < 64, 7 ≤ i → (0x7f#64).getLsbD i = false := by decide
              exact this i h hi
            · exact BitVec.getLsbD_of_ge _ _ (by omega)
          simp [this]
        · exact hk i (by omega)
      · split
        · rw [BitVec.getLsbD_and]
          have : ∀ i < 7, (0x7f#64).getLsbD i = true := by decide
          rw [this j (by omega), Bool.and_true]
        · rfl
    obtain ⟨x, e, hx, hb⟩ := h
    rw [e, ← hb, eq_ofNat x, bytes7_tab _ hx j (by omega)]
    simp [BitVec.getLsbD]
  · rw [if_neg h4, hk j (by omega)]; rfl

theorem rep_tail (ft : Feat) {e w toN : Nat} (he : 0 < e) (k : BitVec 64) (h32 : w = 32 → ft.avx2 = false → toN ≤ 8 * e) (h64 : toN ≤ 64) :
    Rep e toN (fun i => k.getLsbD i) (bitsTail ft e w toN k) := by
  have hsw : ∀ i < 8 * e, (k.setWidth (8 * e)).getLsbD i = k.getLsbD i := by
    intro i hi; rw [BitVec.getLsbD_setWidth]; simp [hi]
  unfold bitsTail
  dsimp only
  split
  · apply rep_ofElems he
    intro i hi
    rw [if_pos (by omega), neg_ofBool (by omega)]
  split
  · rename_i h
    simp only [Bool.and_eq_true, Bool.not_eq_true', beq_iff_eq] at h
    have := h32 h.2 h.1.1
    apply rep_ofElems he
    intro i hi
    rw [and_bit _ _ (by omega), hsw i (by omega)]
  split
  · split
    · apply rep_ofElems he
      intro i hi
      rw [if_pos hi, slt_bit _ _ (by omega), hsw i (by omega)]
    · apply rep_ofElems he
      intro i hi
      rw [if_pos hi, and_bit _ _ (by omega), hsw i (by omega)]
  · apply rep_ofElems he
    intro i hi
    have hm : i % (8 * e) < 8 * e := Nat.mod_lt _ (by omega)
    rw [and_bit _ _ hm, BitVec.getLsbD_setWidth, BitVec.getLsbD_ushiftRight]
    have : 8 * e * (i / (8 * e)) + i % (8 * e) = i := Nat.div_add_mod _ _
    rw [this]
    simp [hm]

theorem rep_mono {e n m : Nat} {b : Nat → Bool} {r : Reg} (h : Rep e n b r) (hm : m * e ≤ n * e) : Rep e m b r :=
  fun j hj => h j (by omega)

theorem bitsToVec_spec (ft : Feat) {e w uv np toN : Nat} (he : Size e) (hw : w = 16 ∨ w = 32 ∨ w = 64) (hn : toN * e ≤ w)
    (hu : toN * e ≤ uv) (h2 : w = 32 → e ≤ 2 → ft.avx2 = true) (k : BitVec 64) (hk : ∀ i, np ≤ i → k.getLsbD i = false) :
    Rep e toN (fun i => k.getLsbD i) (bitsToVec ft e w uv np toN k) := by
  have hs : e = 1 → Rep 1 toN (fun i => k.getLsbD i)
      (if min toN np ≤ 4 then bytes4 np uv k else if min toN np ≤ 7 then bytes7 np uv k else bitsTail ft 1 w toN k) := by
    rintro rfl
    split
    · exact rep_bytes4 k hk (by assumption) (by omega)
    split
    · exact rep_bytes7 k hk (by assumption) (by omega)
    · refine rep_tail ft (by omega) k (fun h h' => ?_) (by omega)
      have := h2 h (by omega); simp [h'] at this
  have ht : e ≤ 2 → Rep e toN (fun i => k.getLsbD i) (bitsTail ft e w toN k) := by
    intro h
    rcases he with rfl | rfl | rfl | rfl <;> refine rep_tail ft (by omega) k (fun h h' => ?_) (by omega) <;>
    first
    | omega
    | (have := h2 h (by omega); simp [h'] at this)
  unfold bitsToVec
  dsimp only
  split
  · subst e
    split
    · split
      · exact rep_movm (by omega) k
      split
      · exact rep_mono (rep_bytes16Avx512f k) (by omega)
      split
      · exact rep_mono (rep_bytes16Ssse3 k) (by omega)
      · exact hs rfl
    split
    · split
      · exact rep_movm (by omega) k
      split
      · exact rep_mono (rep_bytes32Avx512f k) (by omega)
      split
      · exact rep_mono (rep_bytes32Avx2 k) (by omega)
      · exact hs rfl
    · exact rep_movm (by omega) k
  split
  · subst e
    split
    · split
      · exact rep_movm (by omega) k
      split
      · exact rep_mono (rep_shorts8Avx512f k) (by omega)
      · exact ht (by omega)
    split
    · split
      · exact rep_movm (by omega) k
      split
      · exact rep_mono (rep_shorts16 (rep_movm (by omega) k)) (by omega)
      · exact ht (by omega)
    · exact rep_movm (by omega) k
  have h0 : 0 < e := by unfold Size at he; omega
  split
  · exact rep_movm h0 k
  split
  · exact rep_movm h0 k
  · refine rep_tail ft h0 k (fun _ _ => ?_) ?_
    · rcases he with rfl | rfl | rfl | rfl <;> omega
    · rcases he with rfl | rfl | rfl | rfl <;> omega

theorem bitsToVecConst_spec {e np toN : Nat} (he : 0 < e) (k : BitVec 64) (hk : ∀ i, np ≤ i → k.getLsbD i = false) :
    Rep e toN (fun i => k.getLsbD i) (bitsToVecConst e np toN k) := by
  unfold bitsToVecConst
  apply rep_ofElems he
  intro i hi
  split
  · rw [neg_ofBool (by omega)]
  · rw [hk i (by omega)]; simp [ones]

end StdSimd.MaskVec
