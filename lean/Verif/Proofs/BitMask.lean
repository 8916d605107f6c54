import Verif.Model.BitMask
namespace StdSimd

theorem bitCeil_ge (n : Nat) : n ≤ bitCeil n := by
  unfold bitCeil; split
  · omega
  · have := Nat.lt_log2_self (n := n - 1); omega

theorem bitCeil_le8 {n : Nat} (h : n ≤ 8) : bitCeil n ≤ 8 := by
  have : ∀ k ≤ 8, bitCeil k ≤ 8 := by decide
  exact this n h

theorem wordBytes_le (n : Nat) : wordBytes n ≤ 8 := by unfold wordBytes; split <;> omega

theorem wordBytes_pos (n : Nat) : 0 < wordBytes n := by
  unfold wordBytes bitCeil; split
  · omega
  · split
    · omega
    · have : 0 < 2 ^ ((nBytes n - 1).log2 + 1) := Nat.two_pow_pos _
      omega

theorem wordBits_pos (n : Nat) : 0 < wordBits n := by
  have := wordBytes_pos n
  unfold wordBits; split <;> omega

theorem arraySize_small {n : Nat} (h1 : 1 ≤ n) (h : n ≤ 64) : arraySize n = 1 := by
  have hb : nBytes n = (n + 7) / 8 := rfl
  have hw : nBytes n ≤ wordBytes n := by
    unfold wordBytes; split
    · subst_vars; decide
    · have := bitCeil_ge (nBytes n); omega
  have := wordBytes_pos n
  unfold arraySize divRoundup
  apply Nat.div_eq_of_lt_le <;> omega

theorem wordBytes_large {n : Nat} (h : 64 < n) : wordBytes n = 8 := by
  have hb : nBytes n = (n + 7) / 8 := rfl
  have := bitCeil_ge (nBytes n)
  unfold wordBytes; split <;> omega

theorem unusedBits_eq {n : Nat} (h1 : 1 ≤ n) : unusedBits n = arraySize n * wordBits n - n := by
  unfold unusedBits wordBits
  split
  · subst_vars; decide
  · rw [Nat.mul_comm 8, Nat.mul_assoc]

theorem size_le {n : Nat} (h1 : 1 ≤ n) : n ≤ arraySize n * wordBits n := by
  by_cases h : n ≤ 64
  · rw [arraySize_small h1 h]
    unfold wordBits; split
    · omega
    · have hb : nBytes n = (n + 7) / 8 := rfl
      have := bitCeil_ge (nBytes n)
      have : nBytes n ≤ wordBytes n := by unfold wordBytes; split <;> omega
      omega
  · have hw := wordBytes_large (n := n) (by omega)
    unfold wordBits arraySize divRoundup; rw [hw]
    have hb : nBytes n = (n + 7) / 8 := rfl
    split <;> omega

theorem last_word_lt {n : Nat} (h1 : 1 ≤ n) : (arraySize n - 1) * wordBits n < n := by
  by_cases h : n ≤ 64
  · rw [arraySize_small h1 h]; omega
  · have hw := wordBytes_large (n := n) (by omega)
    unfold wordBits arraySize divRoundup; rw [hw]
    have hb : nBytes n = (n + 7) / 8 := rfl
    split <;> omega

theorem arraySize_pos {n : Nat} (h1 : 1 ≤ n) : 0 < arraySize n := by
  have := size_le h1
  rcases Nat.eq_zero_or_pos (arraySize n) with h | h
  · rw [h] at this; omega
  · exact h

theorem unused_lt {n : Nat} (h1 : 1 ≤ n) : unusedBits n < wordBits n := by
  rw [unusedBits_eq h1]
  have h2 := last_word_lt h1
  have h3 := arraySize_pos h1
  have h4 := wordBits_pos n
  generalize arraySize n = a at *
  obtain _ | k := a
  · omega
  · have e : (k + 1) * wordBits n = k * wordBits n + wordBits n := by rw [Nat.succ_mul]
    simp at *
    omega

theorem wordMask_getLsbD {n : Nat} (i : Nat) :
    (wordMask n).getLsbD i = decide (i + unusedBits n < wordBits n) := by
  unfold wordMask
  rw [BitVec.getLsbD_ushiftRight, BitVec.getLsbD_allOnes]
  simp [Nat.add_comm]

namespace BitMask
variable {n m : Nat} {s s' : Bool}

theorem lane_eq (x : BitMask n s) (i : Nat) (h : i / wordBits n < x.words.length) :
    x.lane i = (x.words[i / wordBits n]).getLsbD (i % wordBits n) := by
  simp [lane, List.getElem?_eq_getElem h]

theorem div_lt_of_lt (h1 : 1 ≤ n) {i : Nat} (h : i < n) : i / wordBits n < arraySize n := by
  have := size_le h1
  rw [Nat.div_lt_iff_lt_mul (wordBits_pos n)]; omega

/-- unused position in the last word -/
theorem mask_index (h1 : 1 ≤ n) {i : Nat} (hi : i / wordBits n = arraySize n - 1) :
    (i % wordBits n + unusedBits n < wordBits n) ↔ i < n := by
  rw [unusedBits_eq h1]
  have h2 := last_word_lt h1
  have h3 := arraySize_pos h1
  have h4 := size_le h1
  have hd := Nat.div_add_mod i (wordBits n)
  generalize arraySize n = a at *
  obtain _ | k := a
  · omega
  · have e : (k + 1) * wordBits n = k * wordBits n + wordBits n := by rw [Nat.succ_mul]
    have e2 : wordBits n * (i / wordBits n) = k * wordBits n := by rw [hi]; simp [Nat.mul_comm]
    have hm := Nat.mod_lt i (wordBits_pos n)
    simp at *
    omega


theorem lane_oob (x : BitMask n s) {i : Nat} (h : arraySize n ≤ i / wordBits n) : x.lane i = false := by
  unfold lane
  rw [List.getElem?_eq_none (by rw [x.len]; exact h)]

theorem lane_of_words_eq {x : BitMask n s} {y : BitMask n s'} (h : x.words = y.words) (i : Nat) :
    x.lane i = y.lane i := by unfold lane; rw [h]

theorem wordBits_one : wordBits 1 = 1 := by decide
theorem arraySize_one : arraySize 1 = 1 := by decide

theorem lane_ge_one (x : BitMask 1 s) {i : Nat} (h : 1 ≤ i) : x.lane i = false := by
  apply lane_oob; rw [wordBits_one, arraySize_one]; omega

/-- Every `_BitMask<1>` is clean. -/
theorem clean_one (x : BitMask 1 s) : x.Clean := fun _ h => x.lane_ge_one h

/-- Lane of the result of a per-word map depending on the word index. -/
theorem lane_mapIdx (x : BitMask n s) (f : Nat → BitVec (wordBits n) → BitVec (wordBits n)) (y : BitMask n s')
    (hy : y.words = x.words.mapIdx f) (i : Nat) :
    y.lane i = match x.words[i / wordBits n]? with
      | some w => (f (i / wordBits n) w).getLsbD (i % wordBits n)
      | none => false := by
  unfold lane; rw [hy, List.getElem?_mapIdx]
  cases x.words[i / wordBits n]? <;> rfl

theorem lane_sanitized (h1 : 1 ≤ n) (x : BitMask n false) (i : Nat) :
    x.sanitized.lane i = (x.lane i && decide (i < n)) := by
  have hsz := size_le h1
  have hw := wordBits_pos n
  by_cases hi : arraySize n ≤ i / wordBits n
  · rw [lane_oob _ hi, lane_oob _ hi]; rfl
  have hlt : i / wordBits n < x.words.length := by rw [x.len]; omega
  unfold sanitized
  simp only [Bool.false_eq_true, if_false]
  have full : unusedBits n = 0 → i < n := by
    intro h
    rw [unusedBits_eq h1] at h
    have hi' : i / wordBits n < arraySize n := by omega
    rw [Nat.div_lt_iff_lt_mul hw] at hi'
    omega
  split
  · subst_vars
    have : i < 1 := full (by decide)
    simp only [this, decide_true, Bool.and_true]; exact lane_of_words_eq rfl i
  · split
    · unfold lane modifyLast
      simp only [List.getElem?_modify, List.getElem?_eq_getElem hlt]
      by_cases hl : x.words.length - 1 = i / wordBits n
      · have hidx := mask_index (i := i) h1 (by rw [← hl, x.len])
        simp only [hl, if_true, Option.map_eq_map, Option.map_some, BitVec.getLsbD_and, wordMask_getLsbD]
        rw [decide_eq_decide.2 hidx]
      · simp only [hl, if_false]
        have h2 := last_word_lt h1
        rw [x.len] at hl
        have : i < n := by
          have : i / wordBits n < arraySize n - 1 := by omega
          rw [Nat.div_lt_iff_lt_mul hw] at this
          omega
        simp [this]
    · rename_i hu
      have := full (by omega)
      simp only [this, decide_true, Bool.and_true]; exact lane_of_words_eq rfl i

theorem lane_sanitized_true (x : BitMask n true) (i : Nat) : x.sanitized.lane i = x.lane i := by
  unfold sanitized; rfl

theorem clean_sanitized (h1 : 1 ≤ n) (x : BitMask n false) : x.sanitized.Clean := by
  intro i hi; rw [lane_sanitized h1]; simp; omega

/-- all lanes below `n` are kept by `_M_sanitized`. -/
theorem lane_sanitized_lt (h1 : 1 ≤ n) (x : BitMask n s) {i : Nat} (hi : i < n) :
    x.sanitized.lane i = x.lane i := by
  cases s
  · rw [lane_sanitized h1]; simp [hi]
  · exact lane_sanitized_true x i

theorem lane_zipW (f : BitVec (wordBits n) → BitVec (wordBits n) → BitVec (wordBits n)) (g : Bool → Bool → Bool)
    (hfg : ∀ a b i, (f a b).getLsbD i = g (a.getLsbD i) (b.getLsbD i)) (h0 : g false false = false)
    (x y : BitMask n s) (i : Nat) : (zipW f x y).lane i = g (x.lane i) (y.lane i) := by
  by_cases hi : arraySize n ≤ i / wordBits n
  · rw [lane_oob _ hi, lane_oob _ hi, lane_oob _ hi, h0]
  · have h1 : i / wordBits n < x.words.length := by rw [x.len]; omega
    have h2 : i / wordBits n < y.words.length := by rw [y.len]; omega
    unfold lane zipW
    simp [List.getElem?_zipWith, List.getElem?_eq_getElem h1, List.getElem?_eq_getElem h2, hfg]

theorem lane_xor (x y : BitMask n s) (i : Nat) : (x.xor y).lane i = (x.lane i ^^ y.lane i) :=
  lane_zipW _ Bool.xor (by simp) rfl x y i
theorem lane_or (x y : BitMask n s) (i : Nat) : (x.or y).lane i = (x.lane i || y.lane i) :=
  lane_zipW _ Bool.or (by simp) rfl x y i
theorem lane_and (x y : BitMask n s) (i : Nat) : (x.and y).lane i = (x.lane i && y.lane i) :=
  lane_zipW _ Bool.and (by simp) rfl x y i

theorem lane_not (h1 : 1 ≤ n) (x : BitMask n s) {i : Nat} (hi : i < n) : x.not.lane i = !x.lane i := by
  have hlt : i / wordBits n < x.words.length := by rw [x.len]; exact div_lt_of_lt h1 hi
  have hm := Nat.mod_lt i (wordBits_pos n)
  unfold not
  split
  · unfold lane; simp [List.getElem?_eq_getElem hlt, hm]
  · rw [lane_mapIdx x _ _ rfl, lane_eq x i hlt, List.getElem?_eq_getElem hlt]
    simp only
    split
    · simp [hm]
    · rename_i hl
      rw [x.len] at hlt
      have hidx := mask_index (i := i) h1 (by omega)
      split
      · simp [wordMask_getLsbD, hidx, hi]
      · simp [hm]

theorem clean_not (h1 : 1 ≤ n) (x : BitMask n true) (hx : x.Clean) : x.not.Clean := by
  intro i hi
  by_cases hio : arraySize n ≤ i / wordBits n
  · exact lane_oob _ hio
  have hlt : i / wordBits n < x.words.length := by rw [x.len]; omega
  have hm := Nat.mod_lt i (wordBits_pos n)
  have h2 := last_word_lt h1
  have hlast : i / wordBits n = arraySize n - 1 := by
    have : ¬ i / wordBits n < arraySize n - 1 := by
      rw [Nat.div_lt_iff_lt_mul (wordBits_pos n)]; omega
    omega
  by_cases hn1 : n = 1
  · subst hn1; exact lane_ge_one _ hi
  unfold not
  rw [if_neg hn1, lane_mapIdx x _ _ rfl, List.getElem?_eq_getElem hlt]
  have hxi := hx i hi
  rw [lane_eq x i hlt] at hxi
  have hidx := mask_index (i := i) h1 hlast
  simp [hlast, wordMask_getLsbD, hidx, show ¬ i < n by omega]
  simpa [hlast] using hxi


theorem get_eq (h1 : 1 ≤ n) (x : BitMask n s) {i : Nat} (hi : i < n) : x.get i = some (x.lane i) := by
  have hlt : i / wordBits n < x.words.length := by rw [x.len]; exact div_lt_of_lt h1 hi
  have h0 : 0 < x.words.length := Nat.lt_of_le_of_lt (Nat.zero_le _) hlt
  rw [lane_eq x i hlt]
  unfold get
  split
  · subst_vars
    have : i = 0 := by omega
    subst this
    simp [List.getElem?_eq_getElem h0]
  · split
    · rename_i ha
      have hs := size_le h1
      rw [ha] at hs
      have hiw : i < wordBits n := by omega
      rw [if_pos hiw]
      simp [List.getElem?_eq_getElem h0, Nat.div_eq_of_lt hiw, Nat.mod_eq_of_lt hiw]
    · simp [List.getElem?_eq_getElem hlt]

theorem getLsbD_setBitWord {w : Nat} (x : BitVec w) {i : Nat} (hi : i < w) (b : Bool) (j : Nat) :
    (setBitWord x i b).getLsbD j = if i = j then b else x.getLsbD j := by
  unfold setBitWord
  by_cases hj : j < w
  · by_cases hij : i = j
    · subst hij; simp [hj]
    · simp [hj, hij]
      by_cases hlt : j < i
      · simp [hlt]
      · have : j - i ≠ 0 := by omega
        simp [hlt, this]
  · rw [BitVec.getLsbD_of_ge _ _ (by omega), if_neg (by omega), BitVec.getLsbD_of_ge _ _ (by omega)]

theorem lane_set (h1 : 1 ≤ n) (x : BitMask n s) {i : Nat} (hi : i < n) (b : Bool) (j : Nat) :
    (x.set i b).lane j = if i = j then b else x.lane j := by
  have hlt : i / wordBits n < x.words.length := by rw [x.len]; exact div_lt_of_lt h1 hi
  have hm := Nat.mod_lt i (wordBits_pos n)
  have hw := wordBits_pos n
  by_cases hn1 : n = 1
  · subst hn1
    have hi0 : i = 0 := by omega
    subst hi0
    by_cases hj : j = 0
    · subst hj
      unfold lane set
      simp [List.getElem?_eq_getElem (show 0 < x.words.length by rw [x.len]; decide), hw]
    · rw [lane_ge_one _ (by omega), lane_ge_one _ (by omega), if_neg (by omega)]
  · have key : x.set i b = ⟨x.words.modify (i / wordBits n) (fun w => setBitWord w (i % wordBits n) b),
        by simp [x.len]⟩ := by
      unfold set
      rw [if_neg hn1]
      split
      · rename_i ha
        have hs := size_le h1
        rw [ha] at hs
        have hiw : i < wordBits n := by omega
        simp [Nat.div_eq_of_lt hiw, Nat.mod_eq_of_lt hiw]
      · rfl
    rw [key]
    unfold lane
    simp only [List.getElem?_modify]
    by_cases hd : i / wordBits n = j / wordBits n
    · rw [← hd, List.getElem?_eq_getElem hlt]
      simp only [if_true, Option.map_eq_map, Option.map_some, getLsbD_setBitWord _ hm]
      have hij : i % wordBits n = j % wordBits n ↔ i = j := by
        constructor
        · intro h
          have a := Nat.div_add_mod i (wordBits n)
          have c := Nat.div_add_mod j (wordBits n)
          rw [hd, h, c] at a; exact a.symm
        · rintro rfl; rfl
      simp [hij]
    · have : i ≠ j := by rintro rfl; exact hd rfl
      simp [hd, this]

theorem clean_set (h1 : 1 ≤ n) (x : BitMask n s) (hx : x.Clean) {i : Nat} (hi : i < n) (b : Bool) :
    (x.set i b).Clean := by
  intro j hj; rw [lane_set h1 x hi, if_neg (by omega)]; exact hx j hj

theorem lane_zero (i : Nat) : (zero n s).lane i = false := by
  unfold lane zero
  by_cases hi : i / wordBits n < arraySize n
  · simp [List.getElem?_replicate, hi]
  · simp [List.getElem?_replicate, hi]

/-- one-word masks -/
theorem words_single (h : arraySize n = 1) (x : BitMask n s) : ∃ w, x.words = [w] := by
  have := x.len; rw [h] at this
  exact List.length_eq_one_iff.1 this

theorem lane_single (x : BitMask n s) {w : BitVec (wordBits n)} (h : x.words = [w]) (i : Nat) :
    x.lane i = w.getLsbD i := by
  unfold lane; rw [h]
  by_cases hi : i < wordBits n
  · simp [Nat.div_eq_of_lt hi, Nat.mod_eq_of_lt hi]
  · have : ¬ i / wordBits n < 1 := by
      rw [Nat.div_lt_iff_lt_mul (wordBits_pos n)]; omega
    rw [List.getElem?_eq_none (by simp; omega), BitVec.getLsbD_of_ge _ _ (by omega)]

theorem castWord_getLsbD_of_ne_one (hn : n ≠ 1) (x : BitVec 64) (i : Nat) :
    (castWord n x).getLsbD i = (decide (i < wordBits n) && x.getLsbD i) := by
  unfold castWord; simp [hn, BitVec.getLsbD_setWidth]

theorem ofULL_words (h : arraySize n = 1) (x : BitVec 64) : (ofULL n s x).words = [castWord n x] := by
  unfold ofULL; simp [h]

theorem lane_ofULL_single (h1 : 2 ≤ n) (h : n ≤ 64) (x : BitVec 64) (i : Nat) :
    (ofULL n s x).lane i = (decide (i < wordBits n) && x.getLsbD i) := by
  rw [lane_single _ (ofULL_words (arraySize_small (by omega) h) x), castWord_getLsbD_of_ne_one (by omega)]

theorem lane_ofULL_one (x : BitVec 64) : (ofULL 1 s x).lane 0 = (x != 0) := by
  rw [lane_single _ (ofULL_words (arraySize_small (by omega) (by omega)) x)]
  unfold castWord; simp [wordBits_pos]

theorem wordBits_ge (h1 : 1 ≤ n) (h : n ≤ 64) : n ≤ wordBits n := by
  have := size_le h1; rw [arraySize_small h1 h] at this; omega

theorem wordBits_le (n : Nat) : wordBits n ≤ 64 := by
  have := wordBytes_le n
  unfold wordBits; split <;> omega

theorem toULL_eq (h1 : 1 ≤ n) (h : n ≤ 64) (x : BitMask n s) :
    ∃ v, x.toULL = some v ∧ ∀ i, v.getLsbD i = x.lane i := by
  obtain ⟨w, hw⟩ := words_single (arraySize_small h1 h) x
  refine ⟨w.setWidth 64, ?_, ?_⟩
  · unfold toULL; rw [hw]
  · intro i
    rw [lane_single x hw, BitVec.getLsbD_setWidth]
    have := wordBits_le n
    by_cases hi : i < 64
    · simp [hi]
    · rw [BitVec.getLsbD_of_ge w i (by omega)]; simp

theorem lane_prepend (hn : 1 ≤ n) (hm : 1 ≤ m) (h : n + m ≤ 64) (x : BitMask n s) (l : BitMask m s') :
    ∃ r, x.prepend l = some r ∧ (∀ i < m, r.lane i = l.lane i) ∧
      (∀ i, m ≤ i → i < wordBits (n + m) → r.lane i = (x.lane (i - m) || l.sanitized.lane i)) := by
  have ha := arraySize_small (n := n + m) (by omega) h
  obtain ⟨a, hxa⟩ := words_single (arraySize_small hn (by omega)) x
  obtain ⟨b, hlb⟩ := words_single (arraySize_small hm (by omega)) l.sanitized
  have hge := wordBits_ge (n := n + m) (by omega) h
  refine ⟨_, by simp only [prepend, ha, dite_true, hxa, hlb]; rfl, ?_, ?_⟩
  · intro i hi
    rw [lane_single _ rfl, ← lane_sanitized_lt hm l hi, lane_single _ hlb]
    simp [BitVec.getLsbD_setWidth, hi, show i < wordBits (n + m) by omega]
  · intro i hi hiw
    rw [lane_single _ rfl, lane_single _ hxa, lane_single _ hlb]
    simp [BitVec.getLsbD_setWidth, show ¬ i < m by omega, hiw, show i - m < wordBits (n + m) by omega]

theorem lane_prepend_ge (hn : 1 ≤ n) (hm : 1 ≤ m) (h : n + m ≤ 64) (x : BitMask n s) (l : BitMask m s')
    (hl : s' = true → l.Clean) (r : BitMask (n + m) s) (hr : x.prepend l = some r) {i : Nat} (hi : m ≤ i)
    (hiw : i < wordBits (n + m)) : r.lane i = x.lane (i - m) := by
  obtain ⟨r', hr', _, h2⟩ := lane_prepend hn hm h x l
  rw [hr] at hr'
  obtain rfl := Option.some.inj hr'
  rw [h2 i hi hiw]
  have : l.sanitized.lane i = false := by
    cases s' with
    | false => exact clean_sanitized hm l i hi
    | true => rw [lane_sanitized_true]; exact hl rfl i hi
  rw [this, Bool.or_false]

theorem clean_prepend (hn : 1 ≤ n) (hm : 1 ≤ m) (h : n + m ≤ 64) (x : BitMask n s) (l : BitMask m s')
    (hx : x.Clean) (hl : s' = true → l.Clean) (r : BitMask (n + m) s) (hr : x.prepend l = some r) :
    r.Clean := by
  intro i hi
  by_cases hiw : i < wordBits (n + m)
  · rw [lane_prepend_ge hn hm h x l hl r hr (by omega) hiw]
    exact hx _ (by omega)
  · obtain ⟨w, hw⟩ := words_single (arraySize_small (n := n + m) (by omega) h) r
    rw [lane_single r hw]; exact BitVec.getLsbD_of_ge _ _ (by omega)


theorem lane_first_word (x : BitMask n s) {w : BitVec (wordBits n)} (h : x.words[0]? = some w) {i : Nat}
    (hi : i < wordBits n) : x.lane i = w.getLsbD i := by
  unfold lane; rw [Nat.div_eq_of_lt hi, Nat.mod_eq_of_lt hi, h]

theorem extract_spec (h1 : 1 ≤ n) (x : BitMask n s) (hx : s = true → x.Clean) {drop new : Nat} (hd : drop < n)
    (hnew : 1 ≤ new) (h64 : drop + new ≤ 64) :
    ∃ r, x.extract drop new = some r ∧
      (∀ j < new, drop + j < n → r.lane j = x.lane (drop + j)) ∧
      (extractSan n s drop new = true → r.Clean) := by
  have h0 : 0 < x.words.length := by rw [x.len]; exact arraySize_pos h1
  have hwle := wordBits_le n
  have hfit : ∀ j, drop + j < n → j < new → drop + j < wordBits n := by
    intro j hj hjn
    by_cases h : n ≤ 64
    · have := wordBits_ge h1 h; omega
    · have := wordBytes_large (n := n) (by omega)
      unfold wordBits; rw [if_neg (by omega)]; omega
  by_cases hn1 : new = 1
  · subst hn1
    refine ⟨ofULL 1 _ (BitVec.setWidth 64 x.words[0] &&& (1#64 <<< drop)), ?_, ?_, ?_⟩
    · simp [extract, hd, h64, List.getElem?_eq_getElem h0]
    · intro j hj hjn
      have hj0 : j = 0 := by omega
      subst hj0
      rw [lane_ofULL_one]
      have hdw := hfit 0 hjn (by omega)
      simp only [Nat.add_zero] at *
      rw [lane_first_word x (List.getElem?_eq_getElem h0) hdw]
      have hbit : ∀ i, (BitVec.setWidth 64 x.words[0] &&& (1#64 <<< drop)).getLsbD i =
          (decide (i = drop) && x.words[0].getLsbD drop) := by
        intro i
        by_cases hid : i = drop
        · subst hid; simp [show i < 64 by omega]
        · simp only [hid, decide_false, Bool.false_and, BitVec.getLsbD_and, BitVec.getLsbD_shiftLeft,
            BitVec.getLsbD_one]
          by_cases hlt : i < drop
          · simp [hlt]
          · have : i - drop ≠ 0 := by omega
            simp [this]
      cases hb : x.words[0].getLsbD drop with
      | false =>
        have : BitVec.setWidth 64 x.words[0] &&& (1#64 <<< drop) = 0 := by
          apply BitVec.eq_of_getLsbD_eq; intro i _; rw [hbit, hb]; simp
        simp [this]
      | true =>
        have : BitVec.setWidth 64 x.words[0] &&& (1#64 <<< drop) ≠ 0 := by
          intro h
          have := hbit drop
          rw [h, hb] at this; simp at this
        simpa using this
    · intro _; exact clean_one _
  · have hlane : ∀ j, (ofULL new (extractSan n s drop new) (BitVec.setWidth 64 x.words[0] >>> drop)).lane j =
        (decide (j < wordBits new) && x.words[0].getLsbD (drop + j)) := by
      intro j
      rw [lane_ofULL_single (by omega) (by omega)]
      simp
      by_cases hjt : drop + j < 64
      · simp [hjt]
      · rw [BitVec.getLsbD_of_ge _ _ (by omega)]; simp
    refine ⟨ofULL new _ (BitVec.setWidth 64 x.words[0] >>> drop), ?_, ?_, ?_⟩
    · simp [extract, hd, h64, List.getElem?_eq_getElem h0, hn1]
    · intro j hj hjn
      rw [hlane, lane_first_word x (List.getElem?_eq_getElem h0) (hfit j hjn hj)]
      have := wordBits_ge (n := new) (by omega) (by omega)
      simp [show j < wordBits new by omega]
    · intro hsan j hj
      rw [hlane]
      unfold extractSan at hsan
      simp only [hn1, if_false, Bool.or_eq_true, Bool.and_eq_true, beq_iff_eq, decide_eq_true_eq] at hsan
      have hzero : x.words[0].getLsbD (drop + j) = false := by
        by_cases hjw : wordBits n ≤ drop + j
        · exact BitVec.getLsbD_of_ge _ _ hjw
        · rcases hsan with ⟨h1', h2'⟩ | ⟨h1' | h1', h2'⟩
          · unfold wordBits at hjw
            split at hjw <;> omega
          · have := hx h1' (drop + j) (by omega)
            rwa [lane_first_word x (List.getElem?_eq_getElem h0) (by omega)] at this
          · unfold wordBits at hjw
            split at hjw <;> omega
      simp [hzero]

theorem sanitized_clean (h1 : 1 ≤ n) (x : BitMask n s) (hx : s = true → x.Clean) : x.sanitized.Clean := by
  cases s with
  | false => exact clean_sanitized h1 x
  | true => intro i hi; rw [lane_sanitized_true]; exact hx rfl i hi

theorem head_ne_zero_one (x : BitMask 1 s) : (x.words.head? != some 0) = x.lane 0 := by
  obtain ⟨w, hw⟩ := words_single (arraySize_small (n := 1) (by omega) (by omega)) x
  rw [lane_single x hw, hw]
  have key : ∀ k, k = 1 → ∀ w : BitVec k, (some w != some 0) = w.getLsbD 0 := by
    intro k hk; subst hk; decide
  exact key _ wordBits_one w

theorem all_words_iff (h1 : 1 ≤ n) (k : BitMask n true) (hk : k.Clean) :
    (k.words.dropLast.all (· == BitVec.allOnes _) && k.words.getLast? == some (wordMask n)) = true ↔
      ∀ i < n, k.lane i = true := by
  have hpos := arraySize_pos h1
  have hw := wordBits_pos n
  have hlast : k.words.getLast? = some (k.words[arraySize n - 1]'(by rw [k.len]; omega)) := by
    rw [List.getLast?_eq_getElem?, ← List.getElem?_eq_getElem]
    simp only [k.len]
  rw [hlast]
  simp only [Bool.and_eq_true, List.all_eq_true, beq_iff_eq, Option.some.injEq]
  constructor
  · rintro ⟨ha, hl⟩ i hi
    have hd := div_lt_of_lt h1 hi
    rw [lane_eq k i (by rw [k.len]; exact hd)]
    by_cases hlt : i / wordBits n < arraySize n - 1
    · have hmem : k.words[i / wordBits n]'(by rw [k.len]; exact hd) ∈ k.words.dropLast := by
        rw [List.mem_iff_getElem]
        exact ⟨i / wordBits n, by simp [k.len]; exact hlt, by simp⟩
      rw [ha _ hmem]; simp [Nat.mod_lt _ hw]
    · have he : i / wordBits n = arraySize n - 1 := by omega
      simp only [he, hl, wordMask_getLsbD, decide_eq_true_eq]
      exact (mask_index h1 he).2 hi
  · intro h
    constructor
    · intro w hmem
      obtain ⟨j, hj, rfl⟩ := List.mem_iff_getElem.1 hmem
      simp only [List.length_dropLast, k.len] at hj
      apply BitVec.eq_of_getLsbD_eq
      intro b hb
      have hidx : j * wordBits n + b < n := by
        have h2 := last_word_lt h1
        have : (j + 1) * wordBits n ≤ (arraySize n - 1) * wordBits n := Nat.mul_le_mul_right _ (by omega)
        rw [Nat.succ_mul] at this
        omega
      have e1 : (j * wordBits n + b) / wordBits n = j := by
        rw [Nat.mul_comm, Nat.mul_add_div hw, Nat.div_eq_of_lt hb]; omega
      have e2 : (j * wordBits n + b) % wordBits n = b := by
        rw [Nat.mul_comm, Nat.mul_add_mod, Nat.mod_eq_of_lt hb]
      have := h _ hidx
      rw [lane_eq k _ (by rw [k.len, e1]; omega)] at this
      simp only [e1, e2] at this
      simp [this, hb]
    · apply BitVec.eq_of_getLsbD_eq
      intro b hb
      rw [wordMask_getLsbD]
      have e1 : ((arraySize n - 1) * wordBits n + b) / wordBits n = arraySize n - 1 := by
        rw [Nat.mul_comm, Nat.mul_add_div hw, Nat.div_eq_of_lt hb]; omega
      have e2 : ((arraySize n - 1) * wordBits n + b) % wordBits n = b := by
        rw [Nat.mul_comm, Nat.mul_add_mod, Nat.mod_eq_of_lt hb]
      have hm := mask_index h1 e1
      rw [e2] at hm
      have hl : k.lane ((arraySize n - 1) * wordBits n + b) = (k.words[arraySize n - 1]'(by rw [k.len]; omega)).getLsbD b := by
        rw [lane_eq k _ (by rw [k.len, e1]; omega)]
        simp only [e1, e2]
      rw [← hl]
      by_cases hlt : (arraySize n - 1) * wordBits n + b < n
      · rw [h _ hlt]; simp [hm.2 hlt]
      · rw [hk _ (by omega)]
        have : ¬ (b + unusedBits n < wordBits n) := fun h => hlt (hm.1 h)
        simp [this]

theorem none_words_iff (h1 : 1 ≤ n) (k : BitMask n true) (hk : k.Clean) :
    (k.words.dropLast.all (· == 0) && k.words.getLast? == some 0) = true ↔
      ∀ i < n, k.lane i = false := by
  have hpos := arraySize_pos h1
  have hw := wordBits_pos n
  have hne : k.words ≠ [] := by
    intro h; have := k.len; rw [h] at this; simp at this; omega
  have hall : (k.words.dropLast.all (· == 0) && k.words.getLast? == some 0) = true ↔ ∀ w ∈ k.words, w = 0 := by
    conv => rhs; rw [← List.dropLast_concat_getLast hne]
    rw [List.getLast?_eq_some_getLast hne]
    simp only [Bool.and_eq_true, List.all_eq_true, beq_iff_eq, Option.some.injEq, List.mem_append,
      List.mem_singleton]
    constructor
    · rintro ⟨a, b⟩ w (hw | hw)
      · exact a w hw
      · rw [hw]; exact b
    · intro h; exact ⟨fun w hw => h w (.inl hw), h _ (.inr rfl)⟩
  rw [hall]
  constructor
  · intro h i hi
    rw [lane_eq k i (by rw [k.len]; exact div_lt_of_lt h1 hi), h _ (List.getElem_mem _)]; simp
  · intro h w hmem
    obtain ⟨j, hj, rfl⟩ := List.mem_iff_getElem.1 hmem
    apply BitVec.eq_of_getLsbD_eq
    intro b hb
    have e1 : (j * wordBits n + b) / wordBits n = j := by
      rw [Nat.mul_comm, Nat.mul_add_div hw, Nat.div_eq_of_lt hb]; omega
    have e2 : (j * wordBits n + b) % wordBits n = b := by
      rw [Nat.mul_comm, Nat.mul_add_mod, Nat.mod_eq_of_lt hb]
    have : k.lane (j * wordBits n + b) = false := by
      by_cases hlt : j * wordBits n + b < n
      · exact h _ hlt
      · exact hk _ (by omega)
    rw [lane_eq k _ (by rw [e1]; exact hj)] at this
    simp only [e1, e2] at this
    simp [this]

theorem any_words_eq (k : BitMask n s) :
    (k.words.dropLast.any (· != 0) || k.words.getLast? != some 0) =
      !(k.words.dropLast.all (· == 0) && k.words.getLast? == some 0) := by
  simp only [Bool.not_and, List.not_all_eq_any_not]
  rfl

theorem all_iff (h1 : 1 ≤ n) (x : BitMask n s) (hx : s = true → x.Clean) :
    x.all = true ↔ ∀ i < n, x.lane i = true := by
  unfold all
  split
  · subst_vars; rw [head_ne_zero_one]
    exact ⟨fun h i hi => by rwa [show i = 0 by omega], fun h => h 0 (by omega)⟩
  · simp only
    rw [all_words_iff h1 _ (sanitized_clean h1 x hx)]
    exact forall_congr' fun i => imp_congr_right fun hi => by rw [lane_sanitized_lt h1 x hi]

theorem isNone_iff (h1 : 1 ≤ n) (x : BitMask n s) (hx : s = true → x.Clean) :
    x.isNone = true ↔ ∀ i < n, x.lane i = false := by
  unfold isNone
  split
  · subst_vars
    have := head_ne_zero_one x
    rw [bne, Bool.not_eq_eq_eq_not] at this
    rw [this]
    simp
    
  · simp only
    rw [none_words_iff h1 _ (sanitized_clean h1 x hx)]
    exact forall_congr' fun i => imp_congr_right fun hi => by rw [lane_sanitized_lt h1 x hi]

theorem any_eq (x : BitMask n s) : x.any = !x.isNone := by
  unfold any isNone
  split
  · rfl
  · exact any_words_eq _

/-- Bit `i` of a list of words. -/
def bitOf {w : Nat} (l : List (BitVec w)) (i : Nat) : Bool :=
  match l[i / w]? with
  | some x => x.getLsbD (i % w)
  | none => false

theorem count_words {w : Nat} (hw : 0 < w) (l : List (BitVec w)) :
    (l.map popcountWord).sum = (List.range (l.length * w)).countP (bitOf l) := by
  induction l with
  | nil => simp
  | cons a l ih =>
    simp only [List.map_cons, List.sum_cons, List.length_cons, Nat.succ_mul, ih]
    rw [Nat.add_comm (l.length * w) w, List.range_add, List.countP_append, List.countP_map]
    congr 1
    · unfold popcountWord
      apply List.countP_congr
      intro i hi
      have := List.mem_range.1 hi
      simp [bitOf, Nat.div_eq_of_lt this, Nat.mod_eq_of_lt this]
    · apply List.countP_congr
      intro i _
      simp [bitOf, Nat.add_div_left _ hw, Function.comp]

theorem lane_eq_bitOf (x : BitMask n s) (i : Nat) : x.lane i = bitOf x.words i := by
  unfold lane bitOf; cases x.words[i / wordBits n]? <;> rfl

theorem sum_popcount_eq (h1 : 1 ≤ n) (x : BitMask n s) (hx : x.Clean) :
    (x.words.map popcountWord).sum = (List.range n).countP x.lane := by
  rw [count_words (wordBits_pos n), x.len]
  obtain ⟨u, hu⟩ : ∃ u, arraySize n * wordBits n = n + u := ⟨_, (Nat.add_sub_cancel' (size_le h1)).symm⟩
  rw [hu, List.range_add, List.countP_append, List.countP_map]
  have : List.countP (bitOf x.words ∘ fun i => n + i) (List.range u) = 0 := by
    rw [List.countP_eq_zero]
    intro i _
    have := hx (n + i) (by omega)
    rw [lane_eq_bitOf] at this
    simpa using this
  rw [this, Nat.add_zero]
  exact List.countP_congr fun i _ => by rw [lane_eq_bitOf]

end BitMask
end StdSimd
