import Verif.Proofs.VMask
namespace StdSimd.VMask
open BitMask

variable {w n full : Nat}

theorem bit_of_lt {bs : List Bool} {i : Nat} (h : i < bs.length) : bit bs i = bs[i] := by simp [bit, h]
theorem bit_of_ge {bs : List Bool} {i : Nat} (h : bs.length ≤ i) : bit bs i = false := by
  simp [bit, List.getElem?_eq_none h]

theorem allOf_iff_bit (bs : List Bool) : Spec.allOf bs ↔ ∀ i < bs.length, bit bs i = true := by
  unfold Spec.allOf
  rw [List.forall_mem_iff_forall_getElem]
  exact ⟨fun h i hi => by rw [bit_of_lt hi]; exact h i hi, fun h i hi => by have := h i hi; rwa [bit_of_lt hi] at this⟩

theorem noneOf_iff_bit (bs : List Bool) : Spec.noneOf bs ↔ ∀ i < bs.length, bit bs i = false := by
  unfold Spec.noneOf
  rw [List.forall_mem_iff_forall_getElem]
  exact ⟨fun h i hi => by rw [bit_of_lt hi]; exact h i hi, fun h i hi => by have := h i hi; rwa [bit_of_lt hi] at this⟩

theorem anyOf_iff_not_noneOf (bs : List Bool) : Spec.anyOf bs ↔ ¬ Spec.noneOf bs := by
  unfold Spec.anyOf Spec.noneOf; simp

theorem someOf_iff (bs : List Bool) : Spec.someOf bs ↔ ¬ Spec.noneOf bs ∧ ¬ Spec.allOf bs := by
  unfold Spec.someOf Spec.noneOf Spec.allOf; simp

theorem someOf_iff_count (bs : List Bool) :
    Spec.someOf bs ↔ 0 < Spec.popcount bs ∧ Spec.popcount bs < bs.length := by
  rw [someOf_iff]
  unfold Spec.popcount Spec.noneOf Spec.allOf
  rw [List.count_pos_iff]
  have h1 := List.count_le_length (a := true) (l := bs)
  have h2 : bs.count true = bs.length ↔ ∀ b ∈ bs, true = b := List.count_eq_length
  constructor
  · rintro ⟨a, b⟩
    refine ⟨by simpa using a, ?_⟩
    rcases Nat.lt_or_eq_of_le h1 with h | h
    · exact h
    · exact absurd (fun b hb => (h2.1 h b hb).symm) b
  · rintro ⟨a, b⟩
    refine ⟨fun h => by have := h _ a; exact absurd this (by decide), fun h => ?_⟩
    have := h2.2 (fun b hb => (h b hb).symm); omega

theorem allOf_spec (hw : 0 < w) {k : VMask w} {bs : List Bool} (hk : Rep n full k bs) :
    allOf n k = true ↔ Spec.allOf bs := by
  rw [allOf_iff_bit, hk.blen]
  unfold allOf
  simp only [List.all_eq_true, List.mem_range]
  apply forall_congr'; intro i
  apply imp_congr_right; intro hi
  rw [hk.getD hi]
  have := elem_ne_zero hw (bit bs i)
  simp only [bne] at this
  rw [this]

theorem noneOf_spec (hw : 0 < w) {k : VMask w} {bs : List Bool} (hk : Rep n full k bs) :
    noneOf n k = true ↔ Spec.noneOf bs := by
  rw [noneOf_iff_bit, hk.blen]
  unfold noneOf
  simp only [List.all_eq_true, List.mem_range, beq_iff_eq]
  apply forall_congr'; intro i
  apply imp_congr_right; intro hi
  rw [hk.getD hi, elem_eq_zero hw]

theorem anyOf_eq (k : VMask w) : anyOf n k = !noneOf n k := by
  unfold anyOf noneOf
  rw [List.not_all_eq_any_not]

theorem anyOf_spec (hw : 0 < w) {k : VMask w} {bs : List Bool} (hk : Rep n full k bs) :
    anyOf n k = true ↔ Spec.anyOf bs := by
  rw [anyOf_eq, anyOf_iff_not_noneOf, ← noneOf_spec hw hk]; simp

theorem elem_eq_neg (b : Bool) : elem w b = -(BitVec.ofNat w b.toNat) := by
  rcases Nat.eq_zero_or_pos w with h | h
  · subst h; exact Subsingleton.elim _ _
  · rw [← neg_ofBool h b]
    congr 1
    cases b
    · simp
    · apply BitVec.eq_of_toNat_eq; simp

theorem foldl_elem (bs : List Bool) (a : BitVec w) :
    (bs.map (elem w)).foldl (· + ·) a = a + -(BitVec.ofNat w (bs.count true)) := by
  induction bs generalizing a with
  | nil => simp
  | cons b bs ih =>
    rw [List.map_cons, List.foldl_cons, ih, elem_eq_neg, List.count_cons]
    cases b
    · simp
    · simp only [Bool.toNat_true, BEq.rfl, if_true]
      rw [Nat.add_comm (List.count true bs) 1, BitVec.ofNat_add, BitVec.neg_add, BitVec.sub_eq_add_neg]
      ac_rfl

theorem neg_toInt_neg {c : Nat} (hw : 0 < w) (hc : c ≤ 2 ^ (w - 1)) : -(-(BitVec.ofNat w c)).toInt = (c : Int) := by
  have h2 : 2 ^ w = 2 * 2 ^ (w - 1) := by rw [← Nat.pow_succ', show (w - 1).succ = w by omega]
  have hp := Nat.two_pow_pos (w - 1)
  rw [BitVec.toInt_eq_toNat_cond, BitVec.toNat_neg, BitVec.toNat_ofNat, Nat.mod_eq_of_lt (show c < 2 ^ w by omega)]
  rcases Nat.eq_zero_or_pos c with h0 | h0
  · subst h0; simp
  · rw [Nat.mod_eq_of_lt (show 2 ^ w - c < 2 ^ w by omega), if_neg (by omega)]
    omega

theorem Rep.take_eq {k : VMask w} {bs : List Bool} (hk : Rep n full k bs) : k.take n = bs.map (elem w) := by
  apply List.ext_getElem?
  intro i
  have h1 := hk.blen; have h2 := hk.len; have h3 := hk.le
  by_cases hi : i < n
  · rw [List.getElem?_take_of_lt hi, hk.get i hi, List.getElem?_map]
  · rw [List.getElem?_eq_none (by simp; omega), List.getElem?_eq_none (by simp; omega)]

theorem popcount_spec (hw : 0 < w) (hn : n ≤ 2 ^ (w - 1)) {k : VMask w} {bs : List Bool} (hk : Rep n full k bs) :
    popcount n k = (Spec.popcount bs : Int) := by
  unfold popcount
  rw [hk.take_eq, foldl_elem, BitVec.zero_add]
  apply neg_toInt_neg hw
  have := List.count_le_length (a := true) (l := bs)
  have := hk.blen
  omega

theorem someOf_spec (hw : 0 < w) (hn : n ≤ 2 ^ (w - 1)) {k : VMask w} {bs : List Bool} (hk : Rep n full k bs) :
    someOf n k = true ↔ Spec.someOf bs := by
  unfold someOf
  rw [popcount_spec hw hn hk, someOf_iff_count, hk.blen]
  simp

/-! ### x86 -/

theorem all_zipWith (f : BitVec w → BitVec w → BitVec w) (p : BitVec w → Bool) (a b : VMask w)
    (h : a.length = b.length) :
    (List.zipWith f a b).all p = true ↔
      ∀ i < a.length, p (f ((a[i]?).getD 0#w) ((b[i]?).getD 0#w)) = true := by
  rw [List.all_eq_true, List.forall_mem_iff_forall_getElem]
  constructor
  · intro hh i hi
    have := hh i (by simp; omega)
    simpa [List.getElem?_eq_getElem hi, List.getElem?_eq_getElem (show i < b.length by omega)] using this
  · intro hh i hi
    simp at hi
    have := hh i (by omega)
    simpa [List.getElem?_eq_getElem (show i < a.length by omega), List.getElem?_eq_getElem (show i < b.length by omega)] using this

theorem length_toIntrin (x : VMask w) : (toIntrin x).length = x.length + (128 / w - x.length) := by simp [toIntrin]

theorem toIntrin_ge {x : VMask w} {i : Nat} (h : x.length ≤ i) : ((toIntrin x)[i]?).getD 0#w = 0#w := by
  unfold toIntrin
  rw [List.getElem?_append_right h, List.getElem?_replicate]
  split <;> rfl

/-- The second operand of the SSE4.1 tests: all-ones exactly for the lanes. -/
theorem implicit_at (hn : n ≤ full) (i : Nat) :
    ((toIntrin (implicitMask w n full))[i]?).getD 0#w = if i < n then BitVec.allOnes w else 0#w := by
  by_cases hi : i < full
  · rw [getElem?_toIntrin (by rw [length_implicitMask]; exact hi), getElem?_implicitMask hi]
    by_cases h : full = n
    · subst h; simp [hi]
    · simp [h]
  · rw [toIntrin_ge (by rw [length_implicitMask]; omega), if_neg (by omega)]

theorem toIntrin_at {k : VMask w} {bs : List Bool} (hk : Rep n full k bs) {i : Nat} (hi : i < n) :
    ((toIntrin k)[i]?).getD 0#w = elem w (bit bs i) := by
  have h2 := hk.len; have h3 := hk.le
  rw [getElem?_toIntrin (by omega), hk.getD hi]

/-- The element test of `testz`/`testc` on mask elements. -/
theorem zeroTest_elem (hw : 0 < w) (signOnly b : Bool) :
    (if signOnly then !(elem w b).msb else elem w b == 0#w) = !b := by
  cases signOnly
  · have := elem_ne_zero hw b
    simp only [bne] at this
    simp only [Bool.false_eq_true, if_false]
    cases b <;> simp_all
  · simp [msb_elem hw]

theorem testc_spec (hw : 0 < w) (signOnly : Bool) {k : VMask w} {bs : List Bool} (hk : Rep n full k bs) :
    testc signOnly (toIntrin k) (toIntrin (implicitMask w n full)) = true ↔ Spec.allOf bs := by
  have h2 := hk.len; have h3 := hk.le
  unfold testc
  rw [all_zipWith _ _ _ _ (by rw [length_toIntrin, length_toIntrin, length_implicitMask, h2]), allOf_iff_bit, hk.blen]
  have hl : n ≤ (toIntrin k).length := by rw [length_toIntrin]; omega
  constructor
  · intro h i hi
    have := h i (by omega)
    rw [implicit_at h3, if_pos hi, toIntrin_at hk hi, show BitVec.allOnes w = elem w true by simp [elem],
      elem_not, elem_and, zeroTest_elem hw] at this
    simpa using this
  · intro h i _
    rw [implicit_at h3]
    by_cases hi : i < n
    · rw [if_pos hi, toIntrin_at hk hi, show BitVec.allOnes w = elem w true by simp [elem],
      elem_not, elem_and, zeroTest_elem hw, h i hi]; rfl
    · rw [if_neg hi, show (0#w) = elem w false by simp [elem], show ∀ x : BitVec w, ~~~x &&& elem w false = elem w false by
        intro x; simp [elem]]
      have := zeroTest_elem hw signOnly false
      simpa [elem] using this

theorem testz_spec (hw : 0 < w) (signOnly : Bool) {k : VMask w} {bs : List Bool} (hk : Rep n full k bs) :
    testz signOnly (toIntrin k) (toIntrin (implicitMask w n full)) = true ↔ Spec.noneOf bs := by
  have h2 := hk.len; have h3 := hk.le
  unfold testz
  rw [all_zipWith _ _ _ _ (by rw [length_toIntrin, length_toIntrin, length_implicitMask, h2]), noneOf_iff_bit, hk.blen]
  have hl : n ≤ (toIntrin k).length := by rw [length_toIntrin]; omega
  constructor
  · intro h i hi
    have := h i (by omega)
    rw [implicit_at h3, if_pos hi, toIntrin_at hk hi, show BitVec.allOnes w = elem w true by simp [elem],
      elem_and, zeroTest_elem hw] at this
    simpa using this
  · intro h i _
    rw [implicit_at h3]
    by_cases hi : i < n
    · rw [if_pos hi, toIntrin_at hk hi, show BitVec.allOnes w = elem w true by simp [elem],
      elem_and, zeroTest_elem hw, h i hi]; rfl
    · rw [if_neg hi, show ∀ x : BitVec w, x &&& 0#w = 0#w by intro x; simp]
      have := zeroTest_elem hw signOnly false
      simpa [elem] using this

theorem testz_self_spec (hw : 0 < w) (signOnly : Bool) {k : VMask w} {bs : List Bool} (hk : Rep n n k bs)
    (h16 : 128 ≤ n * w) : testz signOnly (toIntrin k) (toIntrin k) = true ↔ Spec.noneOf bs := by
  have h2 := hk.len
  have hi0 : 128 / w ≤ n := by
    rw [Nat.div_le_iff_le_mul_add_pred hw]
    have : w * n = n * w := Nat.mul_comm _ _
    omega
  have hl : (toIntrin k).length = n := by rw [length_toIntrin]; omega
  unfold testz
  rw [all_zipWith _ _ _ _ rfl, noneOf_iff_bit, hk.blen, hl]
  apply forall_congr'; intro i
  apply imp_congr_right; intro hi
  rw [toIntrin_at hk hi, elem_and, zeroTest_elem hw]
  simp

theorem getLsbD_lowMask {k : Nat} (hk : k < 32) (i : Nat) : (lowMask k).getLsbD i = decide (i < k) := by
  have h1 : (lowMask k).toNat = 2 ^ k - 1 := by
    unfold lowMask
    have : 2 ^ k < 2 ^ 32 := Nat.pow_lt_pow_right (by omega) hk
    have hp := Nat.two_pow_pos k
    rw [BitVec.toNat_sub, BitVec.toNat_shiftLeft]
    simp only [BitVec.toNat_ofNat, Nat.shiftLeft_eq, Nat.one_mul]
    rw [Nat.mod_eq_of_lt (show 1 < 2 ^ 32 by decide), Nat.one_mul]
    rw [Nat.mod_eq_of_lt this]
    omega
  rw [BitVec.getLsbD, h1, Nat.testBit_two_pow_sub_one]

theorem toNat_lowMask {k : Nat} (hk : k < 32) : (lowMask k).toNat = 2 ^ k - 1 := by
  apply Nat.eq_of_testBit_eq
  intro i
  rw [Nat.testBit_two_pow_sub_one]
  exact getLsbD_lowMask hk i

theorem and_lowMask_all {a : BitVec 32} {k : Nat} (hk : k < 32) :
    ((a &&& lowMask k) == lowMask k) = true ↔ ∀ i < k, a.getLsbD i = true := by
  rw [beq_iff_eq]
  constructor
  · intro h i hi
    have := congrArg (fun v => BitVec.getLsbD v i) h
    simpa [getLsbD_lowMask hk, hi] using this
  · intro h
    apply BitVec.eq_of_getLsbD_eq
    intro i _
    rw [BitVec.getLsbD_and, getLsbD_lowMask hk]
    by_cases hi : i < k
    · simp [hi, h i hi]
    · simp [hi]

theorem and_lowMask_none {a : BitVec 32} {k : Nat} (hk : k < 32) :
    ((a &&& lowMask k) == 0#32) = true ↔ ∀ i < k, a.getLsbD i = false := by
  rw [beq_iff_eq]
  constructor
  · intro h i hi
    have := congrArg (fun v => BitVec.getLsbD v i) h
    simpa [getLsbD_lowMask hk, hi] using this
  · intro h
    apply BitVec.eq_of_getLsbD_eq
    intro i _
    rw [BitVec.getLsbD_and, getLsbD_lowMask hk]
    by_cases hi : i < k
    · simp [hi, h i hi]
    · simp [hi]

theorem flatMap_getElem? {α β : Type} (f : α → List β) (s : Nat) (hs : 0 < s) (hf : ∀ a, (f a).length = s)
    (x : List α) (i : Nat) : (x.flatMap f)[i]? = (x[i / s]?).bind (fun a => (f a)[i % s]?) := by
  induction x generalizing i with
  | nil => simp
  | cons a x ih =>
    rw [List.flatMap_cons]
    by_cases hi : i < s
    · rw [List.getElem?_append_left (by rw [hf]; exact hi), Nat.div_eq_of_lt hi, Nat.mod_eq_of_lt hi]
      simp
    · rw [List.getElem?_append_right (by rw [hf]; omega), hf, ih]
      have h1 : i / s = (i - s) / s + 1 := by
        rw [← Nat.sub_add_cancel (Nat.le_of_not_lt hi), Nat.add_div_right _ hs]; simp
      have h2 : i % s = (i - s) % s := by
        conv => lhs; rw [← Nat.sub_add_cancel (Nat.le_of_not_lt hi), Nat.add_mod_right]
      rw [h1, h2]; simp

theorem bit_byteSignBits (h8 : 8 ∣ w) (hw : 0 < w) {x : VMask w} {bs : List Bool} {m : Nat}
    (hx : ∀ i < m, x[i]? = some (elem w (bit bs i))) {i : Nat} (hi : i < m * (w / 8)) :
    bit (byteSignBits x) i = bit bs (i / (w / 8)) := by
  obtain ⟨s, rfl⟩ := h8
  have hs : 0 < s := by omega
  rw [Nat.mul_div_cancel_left _ (by omega : 0 < 8)] at hi ⊢
  conv => lhs; unfold bit byteSignBits
  rw [Nat.mul_div_cancel_left _ (by omega : 0 < 8), flatMap_getElem? _ s hs (by intro a; simp)]
  have h1 : i / s < m := by rw [Nat.div_lt_iff_lt_mul hs]; exact hi
  have h2 : i % s < s := Nat.mod_lt _ hs
  rw [hx _ h1]
  simp only [Option.bind_some, List.getElem?_map, List.getElem?_range h2, Option.map_some, Option.getD_some,
    getLsbD_elem]
  simp; intro _; omega

theorem sse_bit (fp : Bool) (h8 : 8 ∣ w) (hw : 0 < w) {k : VMask w} {bs : List Bool} (hk : Rep n full k bs)
    {i : Nat} (hi : i < sseBits fp w n) (h32 : sseBits fp w n ≤ 32) :
    (sseMovemask fp (toIntrin k)).getLsbD i = bit bs (if fp then i else i / (w / 8)) := by
  have h2 := hk.len; have h3 := hk.le
  unfold sseMovemask sseBits at *
  cases fp
  · simp only [Bool.false_eq_true, if_false] at *
    rw [getLsbD_ofBools, bit_byteSignBits h8 hw (m := n) (bs := bs) ?_ hi]
    · simp; omega
    · intro j hj
      rw [getElem?_toIntrin (by omega), hk.getD' hj]
  · simp only [if_true] at *
    rw [getLsbD_ofBools, bit_signBits hw hk hi]
    simp; omega

theorem sse_forall (fp : Bool) (h8 : 8 ∣ w) (hw : 0 < w) (b : Bool) {k : VMask w} {bs : List Bool} (hk : Rep n full k bs)
    (h32 : sseBits fp w n ≤ 32) :
    (∀ i < sseBits fp w n, (sseMovemask fp (toIntrin k)).getLsbD i = b) ↔ ∀ i < n, bit bs i = b := by
  have hs : 0 < w / 8 := Nat.div_pos (Nat.le_of_dvd hw h8) (by omega)
  constructor
  · intro h i hi
    cases fp
    · have hlt : i * (w / 8) < sseBits false w n := by
        simp only [sseBits, Bool.false_eq_true, if_false]; exact Nat.mul_lt_mul_of_pos_right hi hs
      have := h _ hlt
      rw [sse_bit false h8 hw hk hlt h32] at this
      simpa [Nat.mul_div_cancel _ hs] using this
    · have hlt : i < sseBits true w n := by simpa [sseBits] using hi
      have := h _ hlt
      rw [sse_bit true h8 hw hk hlt h32] at this
      simpa using this
  · intro h i hi
    rw [sse_bit fp h8 hw hk hi h32]
    apply h
    cases fp
    · simp only [sseBits, Bool.false_eq_true, if_false] at *
      rw [Nat.div_lt_iff_lt_mul hs]; exact hi
    · simpa [sseBits] using hi

theorem x86AllOf_spec (h8 : 8 ∣ w) (hw : 0 < w) (sse41 fp signOnly : Bool) {k : VMask w} {bs : List Bool}
    (hk : Rep n full k bs) (hsse : sse41 = false → sseBits fp w n ≤ 16) :
    x86AllOf sse41 fp signOnly n full k = true ↔ Spec.allOf bs := by
  unfold x86AllOf
  cases sse41
  · have := hsse rfl
    simp only [Bool.false_eq_true, if_false]
    rw [and_lowMask_all (by omega), sse_forall fp h8 hw true hk (by omega), allOf_iff_bit, hk.blen]
  · exact testc_spec hw signOnly hk

theorem x86NoneOf_spec (h8 : 8 ∣ w) (hw : 0 < w) (sse41 fp signOnly : Bool) {k : VMask w} {bs : List Bool}
    (hk : Rep n full k bs) (hsse : sse41 = false → sseBits fp w n ≤ 16) :
    x86NoneOf sse41 fp signOnly n full k = true ↔ Spec.noneOf bs := by
  unfold x86NoneOf
  cases sse41
  · have := hsse rfl
    simp only [Bool.false_eq_true, if_false]
    rw [and_lowMask_none (by omega), sse_forall fp h8 hw false hk (by omega), noneOf_iff_bit, hk.blen]
  · simp only [if_true]
    split
    · exact testz_spec hw signOnly hk
    · rename_i h
      have hf : full = n := by omega
      subst hf
      exact testz_self_spec hw signOnly hk (by omega)

theorem x86AnyOf_eq (sse41 fp signOnly : Bool) (k : VMask w) :
    x86AnyOf sse41 fp signOnly n full k = !x86NoneOf sse41 fp signOnly n full k := by
  unfold x86AnyOf x86NoneOf
  cases sse41
  · simp [bne]
  · simp only [if_true]; split <;> rfl

theorem x86AnyOf_spec (h8 : 8 ∣ w) (hw : 0 < w) (sse41 fp signOnly : Bool) {k : VMask w} {bs : List Bool}
    (hk : Rep n full k bs) (hsse : sse41 = false → sseBits fp w n ≤ 16) :
    x86AnyOf sse41 fp signOnly n full k = true ↔ Spec.anyOf bs := by
  rw [x86AnyOf_eq, anyOf_iff_not_noneOf, ← x86NoneOf_spec h8 hw sse41 fp signOnly hk hsse]; simp

theorem x86SomeOf_spec (h8 : 8 ∣ w) (hw : 0 < w) (sse41 fp signOnly : Bool) {k : VMask w} {bs : List Bool}
    (hk : Rep n full k bs) (hsse : sse41 = false → sseBits fp w n ≤ 16) :
    x86SomeOf sse41 fp signOnly n full k = true ↔ Spec.someOf bs := by
  rw [someOf_iff]
  unfold x86SomeOf
  cases sse41
  · have hb := hsse rfl
    simp only [Bool.false_eq_true, if_false, Bool.and_eq_true, decide_eq_true_eq]
    have hA := and_lowMask_all (a := sseMovemask fp (toIntrin k)) (k := sseBits fp w n) (by omega)
    have hN := and_lowMask_none (a := sseMovemask fp (toIntrin k)) (k := sseBits fp w n) (by omega)
    rw [sse_forall fp h8 hw _ hk (by omega), ← hk.blen, ← allOf_iff_bit, beq_iff_eq] at hA
    rw [sse_forall fp h8 hw _ hk (by omega), ← hk.blen, ← noneOf_iff_bit, beq_iff_eq] at hN
    rw [hk.blen] at hA hN
    rw [← hA, ← hN]
    generalize ht : sseMovemask fp (toIntrin k) &&& lowMask (sseBits fp w n) = tmp
    have hm := toNat_lowMask (k := sseBits fp w n) (by omega)
    have hp : 2 ^ sseBits fp w n ≤ 2 ^ 16 := Nat.pow_le_pow_right (by omega) hb
    have hle : tmp.toNat ≤ (lowMask (sseBits fp w n)).toNat := by
      rw [← ht, BitVec.toNat_and]; exact Nat.and_le_right
    have e1 : tmp.toInt = (tmp.toNat : Int) := by
      apply BitVec.toInt_eq_toNat_of_lt; omega
    have e2 : (lowMask (sseBits fp w n)).toInt = ((lowMask (sseBits fp w n)).toNat : Int) := by
      apply BitVec.toInt_eq_toNat_of_lt; omega
    rw [e1, e2, ← BitVec.toNat_inj, ← BitVec.toNat_inj]
    simp only [BitVec.toNat_ofNat, Nat.zero_mod]
    omega
  · simp only [if_true, testnzc, Bool.and_eq_true, Bool.not_eq_true', ← Bool.not_eq_true]
    rw [testz_spec hw signOnly hk, testc_spec hw signOnly hk]

end StdSimd.VMask
