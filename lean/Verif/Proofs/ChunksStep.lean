import Verif.Proofs.ChunksArg
/-! One step of `_M_apply_per_chunk` for one argument. -/
namespace StdSimd.Chunks
open Abi
variable {V : Type}

/-- The argument refers to element `k` of an object of `n` elements. -/
structure At (t : Target) (T : Elem) (n k : Nat) (a : Arg V) : Prop where
  ok : a.elem.Ok
  big : 4 ≤ a.elem.size
  same : a.same = true → a.elem = T
  len : a.obj.length = sizeOf t a.elem (storage t a.elem n)
  dvd : cap t a.elem ∣ a.pos
  tags : a.tags = storage t a.elem (n - a.pos)
  off : a.pos + a.off = k
  lt : a.off < cap t a.elem

theorem At.off_zero {t : Target} {T : Elem} (hT : T.Ok) {n k : Nat} {a : Arg V} (h : At t T n k a)
    (hk : cap t T ∣ k) (hle : cap t a.elem ≤ cap t T) : a.off = 0 := by
  have h1 : cap t a.elem ∣ k := Nat.dvd_trans (pow_dvd_of_le (cap_pow h.ok) (cap_pow hT) hle) hk
  rw [← h.off] at h1
  exact Nat.eq_zero_of_dvd_of_lt ((Nat.dvd_add_right h.dvd).1 h1) h.lt

/-- The bytes `_M_extract_argument` copies are inside the object. -/
theorem fits {t : Target} (hc : t.Consistent) (h386 : t.i386 = false) {T U : Elem} (hT : T.Ok) (hU : U.Ok) (h4 : 4 ≤ U.size)
    {n k : Nat} (hk : cap t T ∣ k) (hkn : k < n) :
    k + sizeOf t U (storage t U (min (n - k) (cap t T))) ≤ sizeOf t U (storage t U n) := by
  have hc1 := cap_pos (t := t) hT
  have hc2 := cap_pos (t := t) hU
  obtain ⟨i, hi⟩ := cap_pow (t := t) hT
  rw [sizeOf_storage hc hU h4 (by omega), sizeOf_storage hc hU h4 (by omega)]
  obtain ⟨r1, r2, r3⟩ := roundUp_spec n hc2
  rcases Nat.lt_or_ge (cap t T) (cap t U) with hlt | hge
  · have hd := pow_dvd_of_le (cap_pow (t := t) hT) (cap_pow (t := t) hU) (by omega)
    rw [if_pos (by omega)]
    by_cases hsmall : n ≤ cap t T
    · have : k = 0 := Nat.eq_zero_of_dvd_of_lt hk (by omega)
      subst this
      rw [if_pos (by omega), Nat.sub_zero, Nat.min_eq_left hsmall]; omega
    · have hm : fullOf t U (min (n - k) (cap t T)) ≤ cap t T := by
        have := (fullOf_facts (t := t) hU h4 (k := min (n - k) (cap t T)) (by omega) (by omega)).2.2.2.2.2.2 h386 i (by omega)
        omega
      have hkc : k + cap t T ≤ if n ≤ cap t U then fullOf t U n else roundUp n (cap t U) := by
        split
        · rename_i h
          obtain ⟨f1, f2, f3, f4, f5, f6, f7⟩ := fullOf_facts (t := t) hU h4 (k := n) (by omega) h
          have := f6 h386 i (by omega)
          rw [Nat.pow_succ] at this
          exact dvd_add_le hk (pow_dvd_of_le ⟨i, hi⟩ f4 (by omega)) (by omega)
        · exact dvd_add_le hk (Nat.dvd_trans hd r1) (by omega)
      omega
  · have hd := pow_dvd_of_le (cap_pow (t := t) hU) (cap_pow (t := t) hT) (by omega)
    have hk2 := Nat.dvd_trans hd hk
    by_cases hn : n ≤ cap t U
    · have : k = 0 := Nat.eq_zero_of_dvd_of_lt hk2 (by omega)
      subst this
      rw [if_pos (by omega), if_pos (by omega), Nat.sub_zero, Nat.min_eq_left (by omega)]; omega
    · rw [if_neg hn]
      split
      · rename_i h
        have := (fullOf_facts (t := t) hU h4 (k := min (n - k) (cap t T)) (by omega) h).2.1
        have := dvd_add_le hk2 r1 (by omega)
        omega
      · obtain ⟨s1, s2, s3⟩ := roundUp_spec (min (n - k) (cap t T)) hc2
        rcases Nat.lt_or_ge (roundUp n (cap t U)) (k + roundUp (min (n - k) (cap t T)) (cap t U)) with h | h
        · have := dvd_add_le r1 (Nat.dvd_add hk2 s1) h
          omega
        · exact h

theorem splice_ext {obj o v : List V} {k m : Nat} (hv : v.length = m) (hk : k + m ≤ obj.length) 
    (h : ∀ i, o[i]? = if k ≤ i ∧ i < k + m then v[i - k]? else obj[i]?) :
    o = obj.take k ++ v ++ obj.drop (k + m) := by
  apply List.ext_getElem?
  intro i
  have hl : (obj.take k).length = k := by simp; omega
  rw [h, List.append_assoc, List.getElem?_append, hl]
  split
  · rw [if_neg (by omega), List.getElem?_append, if_pos (by omega)]
  · by_cases hi : i < k
    · rw [if_pos hi, List.getElem?_take_of_lt hi]
    · rw [if_neg hi, List.getElem?_append, if_neg (by omega), List.getElem?_drop]; congr 1; omega

/-- Extraction yields the elements of the chunk; assigning back replaces them. -/
theorem extract_spec {t : Target} (hc : t.Consistent) (h386 : t.i386 = false) {T : Elem} (hT : T.Ok) (hT4 : 4 ≤ T.size)
    {n k : Nat} (hk : cap t T ∣ k) (hkn : k < n) {a : Arg V} (h : At t T n k a) :
    ∃ p, extract t (storage t T (n - k)) (min (n - k) (cap t T)) a = some p ∧
      lanesOf t a.elem p.tags p.slots = (a.obj.drop k).take (min (n - k) (cap t T)) ∧
      ∀ v : List V, v.length = min (n - k) (cap t T) →
        assignFront t a { p with slots := setLanes t a.elem p.tags p.slots v }
          = some { a with obj := a.obj.take k ++ v ++ a.obj.drop (k + min (n - k) (cap t T)) } := by
  have hc1 := cap_pos (t := t) hT
  have hpos : a.pos < n := by have := h.off; omega
  have hfit := fits hc h386 hT h.ok h.big hk hkn
  generalize hm : min (n - k) (cap t T) = m at *
  have hm1 : 1 ≤ m := by omega
  have hms := le_sizeOf hc h.ok h.big hm1
  have hlen := h.len
  unfold extract
  rw [h.tags]
  obtain ⟨b, bs, e⟩ := storage_ne hc h.ok h.big (n := n - a.pos) (by omega)
  rw [e]
  simp only []
  by_cases hs : (a.same && decide (b :: bs = storage t T (n - k)) && decide (a.off = 0)) = true
  · rw [if_pos hs]
    simp only [Bool.and_eq_true, decide_eq_true_eq] at hs
    obtain ⟨⟨hsame, htags⟩, hoff⟩ := hs
    have hTe := h.same hsame
    have hpk : a.pos = k := by have := h.off; omega
    rw [storage_pick hc hT hT4 (by omega), hm] at htags
    obtain ⟨rfl, -⟩ := List.cons.inj htags
    rw [← hTe] at hm ⊢
    have hmc : m ≤ cap t a.elem := by omega
    have hsz := sizeOf_storage hc h.ok h.big hm1
    rw [if_pos hmc] at hsz
    rw [pick_full hc h.ok h.big hm1 hmc, ← hsz, hpk]
    refine ⟨_, rfl, ?_, fun v hv => ?_⟩
    · simp only [lanesOf, pick_size h.ok, List.take_take]
      rw [Nat.min_eq_left hms]
    · unfold assignFront
      simp only [if_true, hoff, setLanes, pick_size h.ok, hpk]
      rw [List.take_of_length_le (by omega)]
      have hvl : (v ++ List.drop m (List.take (sizeOf t a.elem (storage t a.elem m)) (List.drop k a.obj))).length
          = sizeOf t a.elem (storage t a.elem m) := by
        simp only [List.length_append, List.length_drop, List.length_take]; omega
      obtain ⟨o, e1, e2, e3⟩ := write_spec (obj := a.obj) (p := k)
        (v := v ++ List.drop m (List.take (sizeOf t a.elem (storage t a.elem m)) (List.drop k a.obj)))
        (by rw [hvl]; omega)
      rw [e1]
      simp only [Option.map_some]
      have htg : a.tags = pick t a.elem m :: bs := by rw [h.tags, e, hTe]
      rw [htg]
      congr 2
      apply splice_ext hv (by omega)
      intro i
      rw [e3, hvl]
      by_cases c1 : k ≤ i ∧ i < k + m
      · rw [if_pos (by omega), if_pos c1, List.getElem?_append, if_pos (by omega)]
      · rw [if_neg c1]
        split
        · rw [List.getElem?_append, if_neg (by omega), List.getElem?_drop, List.getElem?_take_of_lt (by omega),
            List.getElem?_drop]
          congr 1; omega
        · rfl
  · rw [if_neg hs, if_pos (by have := h.off; omega), h.off]
    refine ⟨_, rfl, ?_, fun v hv => ?_⟩
    · simp only []
      rw [lanesOf_storage hc h.ok h.big, List.take_take, Nat.min_eq_left hms]
    · unfold assignFront
      simp only [Bool.false_eq_true, if_false]
      rw [setLanes_storage hc h.ok h.big m _ v hv, h.tags]
      have hdiff : a.off ≠ 0 → min (n - a.pos) (cap t a.elem) ≠ min m (cap t a.elem) := by
        intro ho
        have hlt : ¬ cap t a.elem ≤ cap t T := fun hle => ho (h.off_zero hT hk hle)
        have := h.lt
        have := h.off
        have hd := pow_dvd_of_le (cap_pow (t := t) hT) (cap_pow (t := t) h.ok) (by omega)
        omega
      have hvl : (v ++ List.drop m (List.take (sizeOf t a.elem (storage t a.elem m)) (List.drop k a.obj))).length
          = sizeOf t a.elem (storage t a.elem m) := by
        simp only [List.length_append, List.length_drop, List.length_take]; omega
      obtain ⟨o, e1, e2, e3⟩ := assignTup_spec hc h.ok h.big m (n - a.pos) a.pos a.off
        (v ++ List.drop m (List.take (sizeOf t a.elem (storage t a.elem m)) (List.drop k a.obj))) a.obj hm1
        (by have := h.off; omega) hdiff (by omega) (by have := h.off; omega) (by
          intro j hj1 hj2
          rw [List.getElem?_append, if_neg (by omega), List.getElem?_drop, List.getElem?_take_of_lt (by omega),
            List.getElem?_drop, h.off]
          congr 1; omega)
      rw [e1]
      simp only [Option.map_some]
      congr 2
      apply splice_ext hv (by omega)
      intro i
      rw [e3, h.off]
      split
      · rw [List.getElem?_append, if_pos (by omega)]
      · rfl

/-- Skipping a full chunk. -/
theorem skip_spec {t : Target} (hc : t.Consistent) {T : Elem} (hT : T.Ok)
    {n k : Nat} (hk : cap t T ∣ k) (hkn : k + cap t T < n) {a : Arg V} (h : At t T n k a) :
    ∃ a', skip t (cap t T) a = some a' ∧ At t T n (k + cap t T) a' ∧ a'.obj = a.obj ∧ a'.writable = a.writable ∧
      a'.elem = a.elem := by
  have hc1 := cap_pos (t := t) hT
  have hc2 := cap_pos (t := t) h.ok
  have hoff := h.off
  have hlt := h.lt
  have hsec : n - a.pos > cap t a.elem → a.off + cap t T = cap t a.elem →
      ∃ a', second t a = some a' ∧ At t T n (k + cap t T) a' ∧ a'.obj = a.obj ∧ a'.writable = a.writable ∧ a'.elem = a.elem := by
    intro h1 h2
    unfold second
    rw [h.tags, storage_big hc h.ok h.big h1]
    refine ⟨_, rfl, ?_, rfl, rfl, rfl⟩
    rw [sndPos_storage hc h.ok h.big h1]
    refine ⟨h.ok, h.big, h.same, h.len, Nat.dvd_add h.dvd (Nat.dvd_refl _), ?_, ?_, ?_⟩
    · simp only []; congr 1; omega
    · simp only []; omega
    · simp only []; omega
  unfold skip
  rw [h.tags]
  have hhead : ∃ bs, storage t a.elem (n - a.pos) = pick t a.elem (min (n - a.pos) (cap t a.elem)) :: bs :=
    ⟨_, storage_pick hc h.ok h.big (by omega)⟩
  obtain ⟨bs, e⟩ := hhead
  rw [e]
  simp only [pick_size h.ok]
  rw [← e]
  rcases Nat.lt_trichotomy (cap t T) (cap t a.elem) with hl | he | hg
  · have hd := pow_dvd_of_le (cap_pow (t := t) hT) (cap_pow (t := t) h.ok) (by omega)
    have hb : cap t T ∣ a.pos + cap t a.elem := Nat.dvd_add (Nat.dvd_trans hd h.dvd) hd
    have := dvd_add_le hk hb (by omega)
    rcases Nat.lt_or_ge (k + cap t T) (a.pos + cap t a.elem) with h1 | h1
    · rw [if_neg (by omega), if_neg (by omega), if_pos (by omega)]
      refine ⟨_, rfl, ⟨h.ok, h.big, h.same, h.len, h.dvd, rfl, ?_, ?_⟩, rfl, rfl, rfl⟩
      · simp only []; omega
      · simp only []; omega
    · rw [if_neg (by omega), if_neg (by omega), if_neg (by omega), if_pos (by omega)]
      exact hsec (by omega) (by omega)
  · have h0 := h.off_zero hT hk (by omega)
    rw [if_pos (by omega)]
    exact hsec (by omega) (by omega)
  · have h0 := h.off_zero hT hk (by omega)
    obtain ⟨q, hq⟩ := pow_dvd_of_le (cap_pow (t := t) h.ok) (cap_pow (t := t) hT) (by omega)
    have hmin : min (n - a.pos) (cap t a.elem) = cap t a.elem := by omega
    rw [if_neg (by omega), hmin, if_pos ⟨hg, by rw [hq]; exact Nat.mul_mod_right _ _, h0⟩]
    rw [hq, popFront_spec hc h.ok h.big q _ _ (by omega)]
    refine ⟨_, rfl, ⟨h.ok, h.big, h.same, h.len, ?_, ?_, ?_, ?_⟩, rfl, rfl, rfl⟩
    · exact Nat.dvd_add h.dvd (Nat.dvd_mul_right _ _)
    · simp only []; congr 1; omega
    · simp only []; omega
    · exact hc2

end StdSimd.Chunks
