import Verif.Proofs.VMaskRed
namespace StdSimd.VMask
open BitMask

variable {w n full : Nat}

theorem countP_range_bit (l : List Bool) (v : Nat) (h : l.length ≤ v) :
    (List.range v).countP (fun i => bit l i) = l.count true := by
  induction l generalizing v with
  | nil => simp [bit]
  | cons b l ih =>
    obtain ⟨v, rfl⟩ : ∃ u, v = u + 1 := ⟨v - 1, by simp at h; omega⟩
    rw [List.range_succ_eq_map, List.countP_cons, List.countP_map, List.count_cons]
    have : ((fun i => bit (b :: l) i) ∘ Nat.succ) = fun i => bit l i := by
      funext i; simp [bit]
    rw [this, ih v (by simpa using h)]
    simp [bit]

theorem popcountWord_ofBools (v : Nat) (l : List Bool) (h : l.length ≤ v) :
    popcountWord (ofBools v l) = l.count true := by
  unfold popcountWord
  rw [← countP_range_bit l v h]
  apply List.countP_congr
  intro i hi
  rw [getLsbD_ofBools]
  simp at hi
  simp [hi]

theorem bit_append_false (bs : List Bool) (m i : Nat) : bit (bs ++ List.replicate m false) i = bit bs i := by
  unfold bit
  by_cases h : i < bs.length
  · rw [List.getElem?_append_left h]
  · rw [List.getElem?_append_right (by omega), List.getElem?_eq_none (show bs.length ≤ i by omega), List.getElem?_replicate]
    split <;> rfl

/-- After `_S_masked` and widening, every element of the register is a mask element. -/
theorem rep_toIntrin_masked {k : VMask w} {bs : List Bool} (hk : Rep n full k bs) :
    Rep (full + (128 / w - full)) (full + (128 / w - full)) (toIntrin (masked n full k))
      (bs ++ List.replicate (full + (128 / w - full) - n) false) := by
  have h1 := hk.blen; have h2 := hk.len; have h3 := hk.le
  have hlm : (masked n full k).length = full := by
    unfold masked; split
    · exact h2
    · simp [h2, length_implicitMask]
  apply rep_of
  · rw [length_toIntrin, hlm]
  · simp [h1]; omega
  · exact Nat.le_refl _
  · intro i hi
    rw [bit_append_false]
    by_cases hf : i < full
    · rw [getElem?_toIntrin (by omega)]
      unfold masked
      split
      · exact hk.getD' (by omega)
      · rename_i hne
        rw [List.getElem?_zipWith, getElem?_implicitMask hf, List.getElem?_eq_getElem (by omega)]
        simp only [hne, false_or]
        by_cases hin : i < n
        · have := hk.getD' hin
          rw [List.getElem?_eq_getElem (by omega)] at this
          simp only [Option.some.injEq] at this
          simp [hin, this]
        · simp [hin, bit_of_ge (show bs.length ≤ i by omega), elem]
    · rw [List.getElem?_eq_getElem (by rw [length_toIntrin]; omega)]
      have := toIntrin_ge (x := masked n full k) (i := i) (by omega)
      rw [List.getElem?_eq_getElem (by rw [length_toIntrin]; omega)] at this
      simp only [Option.getD_some] at this
      rw [this, bit_of_ge (by omega)]; simp [elem]

theorem count_append_false (bs : List Bool) (m : Nat) : (bs ++ List.replicate m false).count true = bs.count true := by
  simp [List.count_append, List.count_replicate]

theorem Rep.map_eq {x : VMask w} {bs : List Bool} (h : Rep n n x bs) : x = bs.map (elem w) := by
  have := h.take_eq
  rwa [List.take_of_length_le (by have := h.len; omega)] at this

theorem byteSignBits_map (h8 : 8 ∣ w) (bs : List Bool) :
    byteSignBits (bs.map (elem w)) = bs.flatMap (fun b => List.replicate (w / 8) b) := by
  unfold byteSignBits
  rw [List.flatMap_map]
  congr 1
  funext b
  apply List.ext_getElem
  · simp
  · intro i h1 h2
    simp at h1
    simp only [List.getElem_map, List.getElem_range, List.getElem_replicate, getLsbD_elem]
    have : 8 * i + 7 < w := by omega
    simp [this]

theorem count_flatMap_replicate (s : Nat) (bs : List Bool) :
    (bs.flatMap (fun b => List.replicate s b)).count true = bs.count true * s := by
  induction bs with
  | nil => simp
  | cons b bs ih =>
    rw [List.flatMap_cons, List.count_append, ih, List.count_cons, List.count_replicate]
    cases b
    · simp
    · simp [Nat.add_mul, Nat.add_comm]

theorem length_flatMap_replicate (s : Nat) (bs : List Bool) :
    (bs.flatMap (fun b => List.replicate s b)).length = bs.length * s := by
  induction bs with
  | nil => simp
  | cons b bs ih =>
    rw [List.flatMap_cons, List.length_append, ih]
    simp [Nat.add_mul, Nat.add_comm]

theorem x86PopcountPopcnt_spec (h8 : 8 ∣ w) (hw : 0 < w) (fp : Bool) {k : VMask w} {bs : List Bool}
    (hk : Rep n full k bs) (h32 : full * w ≤ 256) :
    x86PopcountPopcnt fp n full k = Spec.popcount bs := by
  have hs : 0 < w / 8 := Nat.div_pos (Nat.le_of_dvd hw h8) (by omega)
  have hr := rep_toIntrin_masked hk
  have hN : (full + (128 / w - full)) * (w / 8) ≤ 32 := by
    obtain ⟨s, rfl⟩ := h8
    rw [Nat.mul_div_cancel_left _ (by omega : 0 < 8)] at hs ⊢
    have h1 : full * s ≤ 32 := by
      have : full * (8 * s) = 8 * (full * s) := by rw [Nat.mul_left_comm]
      omega
    have h2 : 128 / (8 * s) * s ≤ 32 := by
      have := Nat.div_mul_le_self 128 (8 * s)
      have e : 128 / (8 * s) * (8 * s) = 8 * (128 / (8 * s) * s) := by rw [Nat.mul_left_comm]
      omega
    rcases Nat.le_total full (128 / (8 * s)) with h | h
    · rw [show full + (128 / (8 * s) - full) = 128 / (8 * s) by omega]; exact h2
    · rw [show full + (128 / (8 * s) - full) = full by omega]; exact h1
  have hN' : full + (128 / w - full) ≤ 32 := Nat.le_trans (Nat.le_mul_of_pos_right _ hs) hN
  have hx := hr.map_eq
  have hbl := hr.blen
  unfold x86PopcountPopcnt sseMovemask Spec.popcount
  cases fp
  · simp only [Bool.false_eq_true, if_false]
    rw [hx, byteSignBits_map h8, popcountWord_ofBools _ _ (by rw [length_flatMap_replicate, hbl]; exact hN),
      count_flatMap_replicate, count_append_false, Nat.mul_div_cancel _ hs]
  · simp only [if_true]
    rw [popcountWord_ofBools _ _ (by simp [signBits, hr.len]; omega)]
    rw [hx, ← count_append_false bs (full + (128 / w - full) - n)]
    congr 1
    unfold signBits
    rw [List.map_map]
    have : BitVec.msb ∘ elem w = id := by funext b; simp [msb_elem hw]
    rw [this, List.map_id]

theorem list4 {α : Type} (l : List α) (h : l.length = 4) : ∃ a b c d, l = [a, b, c, d] := by
  match l, h with
  | [a, b, c, d], _ => exact ⟨a, b, c, d, rfl⟩

theorem list2 {α : Type} (l : List α) (h : l.length = 2) : ∃ a b, l = [a, b] := by
  match l, h with
  | [a, b], _ => exact ⟨a, b, rfl⟩

theorem list8 {α : Type} (l : List α) (h : l.length = 8) : ∃ a b c d e f g i, l = [a, b, c, d, e, f, g, i] := by
  match l, h with
  | [a, b, c, d, e, f, g, i], _ => exact ⟨a, b, c, d, e, f, g, i, rfl⟩

theorem list16 {α : Type} (l : List α) (h : l.length = 16) : ∃ a0 a1 a2 a3 a4 a5 a6 a7 a8 a9 a10 a11 a12 a13 a14 a15,
    l = [a0, a1, a2, a3, a4, a5, a6, a7, a8, a9, a10, a11, a12, a13, a14, a15] := by
  match l, h with
  | [a0, a1, a2, a3, a4, a5, a6, a7, a8, a9, a10, a11, a12, a13, a14, a15], _ =>
    exact ⟨a0, a1, a2, a3, a4, a5, a6, a7, a8, a9, a10, a11, a12, a13, a14, a15, rfl⟩

theorem x86Popcount8x2_spec {k : VMask 64} {bs : List Bool} (hk : Rep 2 2 k bs) :
    x86Popcount8x2 2 k = (Spec.popcount bs : Int) := by
  have hr := rep_toIntrin_masked hk
  have hx := hr.map_eq
  obtain ⟨a, b, rfl⟩ := list2 bs hk.blen
  unfold x86Popcount8x2
  rw [hx]
  clear hk hr hx
  revert a b; decide

theorem x86Popcount8x4_spec {k : VMask 64} {bs : List Bool} (hk : Rep n 4 k bs) :
    x86Popcount8x4 n 4 k = (Spec.popcount bs : Int) := by
  have hr := rep_toIntrin_masked hk
  have hx := hr.map_eq
  have h2 := hk.len
  have hm : masked n 4 k = toIntrin (masked n 4 k) := by
    unfold toIntrin masked
    split <;> simp [h2, length_implicitMask]
  obtain ⟨a, b, c, d, e⟩ := list4 _ hr.blen
  unfold x86Popcount8x4 Spec.popcount
  rw [← count_append_false bs (4 + (128 / 64 - 4) - n), hm, hx, e]
  clear e hx hr hm
  revert a b c d; decide

theorem x86Popcount4x4_spec {k : VMask 32} {bs : List Bool} (hk : Rep n full k bs) (hf : full ≤ 4) :
    x86Popcount4x4 n full k = (Spec.popcount bs : Int) := by
  have hr := rep_toIntrin_masked hk
  have hx := hr.map_eq
  have hbl := hr.blen
  rw [show full + (128 / 32 - full) = 4 by omega] at hbl hx
  obtain ⟨a, b, c, d, e⟩ := list4 _ hbl
  unfold x86Popcount4x4 Spec.popcount
  rw [← count_append_false bs (4 - n), hx, e]
  clear e hx hr
  revert a b c d; decide

theorem addTree8 (a b c d e f g i : BitVec 16) :
    at' (addTree [a, b, c, d, e, f, g, i]) 0 = [a, b, c, d, e, f, g, i].foldl (· + ·) 0#16 := by
  simp [addTree, shufRev32, shufLo16, add, at', List.range_succ]
  ac_rfl

theorem x86Popcount2x8_spec {k : VMask 16} {bs : List Bool} (hk : Rep n full k bs) (hf : full ≤ 8) :
    x86Popcount2x8 n full k = (Spec.popcount bs : Int) := by
  have hr := rep_toIntrin_masked hk
  have hx := hr.map_eq
  have hbl := hr.blen
  rw [show full + (128 / 16 - full) = 8 by omega] at hbl hx
  have hle := List.count_le_length (a := true) (l := bs ++ List.replicate (8 - n) false)
  rw [hbl] at hle
  unfold x86Popcount2x8 Spec.popcount
  rw [← count_append_false bs (8 - n), hx]
  generalize bs ++ List.replicate (8 - n) false = l at *
  obtain ⟨a, b, c, d, e, f, g, i, rfl⟩ := list8 l hbl
  have := addTree8 (elem 16 a) (elem 16 b) (elem 16 c) (elem 16 d) (elem 16 e) (elem 16 f) (elem 16 g) (elem 16 i)
  rw [List.map_cons, List.map_cons, List.map_cons, List.map_cons, List.map_cons, List.map_cons, List.map_cons,
    List.map_cons, List.map_nil, this]
  have h2 := foldl_elem (w := 16) [a, b, c, d, e, f, g, i] 0#16
  simp only [List.map_cons, List.map_nil] at h2
  rw [h2, BitVec.zero_add, neg_toInt_neg (by omega) (by omega)]

theorem addTree16_even (a0 a1 a2 a3 a4 a5 a6 a7 a8 a9 a10 a11 a12 a13 a14 a15 : BitVec 8) :
    at' (addTree [a0, a1, a2, a3, a4, a5, a6, a7, a8, a9, a10, a11, a12, a13, a14, a15]) 0
      = [a0, a2, a4, a6, a8, a10, a12, a14].foldl (· + ·) 0#8 := by
  simp [addTree, shufRev32, shufLo16, add, at', List.range_succ]
  ac_rfl

theorem addTree16_odd (a0 a1 a2 a3 a4 a5 a6 a7 a8 a9 a10 a11 a12 a13 a14 a15 : BitVec 8) :
    at' (addTree [a0, a1, a2, a3, a4, a5, a6, a7, a8, a9, a10, a11, a12, a13, a14, a15]) 1
      = [a1, a3, a5, a7, a9, a11, a13, a15].foldl (· + ·) 0#8 := by
  simp [addTree, shufRev32, shufLo16, add, at', List.range_succ]
  ac_rfl

theorem neg_toNat_foldl_elem (l : List Bool) (h : l.length ≤ 8) :
    (-((l.map (elem 8)).foldl (· + ·) 0#8)).toNat = l.count true := by
  rw [foldl_elem, BitVec.zero_add, BitVec.neg_neg, BitVec.toNat_ofNat]
  have := List.count_le_length (a := true) (l := l)
  omega

theorem x86Popcount1x16_spec {k : VMask 8} {bs : List Bool} (hk : Rep n full k bs) (hf : full ≤ 16) :
    x86Popcount1x16 n full k = Spec.popcount bs := by
  have hr := rep_toIntrin_masked hk
  have hx := hr.map_eq
  have hbl := hr.blen
  rw [show full + (128 / 8 - full) = 16 by omega] at hbl hx
  unfold x86Popcount1x16 Spec.popcount
  rw [← count_append_false bs (16 - n), hx]
  generalize bs ++ List.replicate (16 - n) false = l at *
  obtain ⟨a0, a1, a2, a3, a4, a5, a6, a7, a8, a9, a10, a11, a12, a13, a14, a15, rfl⟩ := list16 l hbl
  have he := addTree16_even (elem 8 a0) (elem 8 a1) (elem 8 a2) (elem 8 a3) (elem 8 a4) (elem 8 a5) (elem 8 a6) (elem 8 a7)
    (elem 8 a8) (elem 8 a9) (elem 8 a10) (elem 8 a11) (elem 8 a12) (elem 8 a13) (elem 8 a14) (elem 8 a15)
  have ho := addTree16_odd (elem 8 a0) (elem 8 a1) (elem 8 a2) (elem 8 a3) (elem 8 a4) (elem 8 a5) (elem 8 a6) (elem 8 a7)
    (elem 8 a8) (elem 8 a9) (elem 8 a10) (elem 8 a11) (elem 8 a12) (elem 8 a13) (elem 8 a14) (elem 8 a15)
  have e1 := neg_toNat_foldl_elem [a0, a2, a4, a6, a8, a10, a12, a14] (by simp)
  have e2 := neg_toNat_foldl_elem [a1, a3, a5, a7, a9, a11, a13, a15] (by simp)
  simp only [List.map_cons, List.map_nil] at e1 e2 ⊢
  rw [he, ho, e1, e2]
  simp only [List.count_cons, List.count_nil]
  omega

end StdSimd.VMask
