import Verif.Proofs.VMaskPop
namespace StdSimd.VMask
open BitMask

variable {w n full : Nat}

theorem ofBool_spec (full : Nat) (hf : 1 ≤ full) (b : Bool) : Rep 1 full (ofBool w full b) [b] := by
  apply rep_of (bs := [b]) (by simp [ofBool]) (by simp) hf
  intro i hi
  have : i = 0 := by omega
  subst this
  have : 0 < full := hf
  simp [ofBool, bit, this]

theorem signExtend_elem {w' : Nat} (hw : 0 < w) (b : Bool) : (elem w b).signExtend w' = elem w' b := by
  apply BitVec.eq_of_getLsbD_eq
  intro i hi
  rw [BitVec.getLsbD_signExtend, getLsbD_elem, getLsbD_elem, msb_elem hw]
  by_cases h : i < w <;> simp [h, hi]

theorem ofVector_spec {w' full' : Nat} (hw : 0 < w) {x : VMask w} {bs : List Bool} (hx : Rep n full x bs)
    (hn : n ≤ full') : Rep n full' (ofVector w' full' n x) bs := by
  unfold ofVector
  split
  · rename_i h
    obtain ⟨h1, h2⟩ := h
    subst h1
    have : full = full' := by rw [← h2, hx.len]
    subst this
    exact hx
  · apply rep_of (by simp) hx.blen hn
    intro i hi
    have hif : i < full' := by omega
    have := hx.getD hi
    simp [hif, hi, this, signExtend_elem hw]

theorem load_spec (hn : n ≤ full) (mem : Mem Bool) (base : Nat) (f : Nat → Bool)
    (hm : ∀ i < n, mem (base + i) = some (f i)) :
    ∃ r, load w n full mem base = some r ∧ Rep n full r ((List.range n).map f) := by
  refine ⟨((List.range n).map f).map (elem w) ++ List.replicate (full - n) 0#w, ?_, ?_⟩
  · unfold load
    rw [mapM_some _ f _ (by intro i hi; exact hm i (by simpa using hi))]
    rfl
  · apply rep_of (by simp; omega) (by simp) hn
    intro i hi
    simp [List.getElem?_append, hi, bit]

theorem store_spec (hw : 0 < w) {v : VMask w} {bs : List Bool} (hv : Rep n full v bs) (mem : Mem Bool) (base : Nat)
    (hm : ∀ i < n, (mem (base + i)).isSome) :
    ∃ mem', store n v mem base = some mem' ∧
      ∀ a, mem' a = if base ≤ a ∧ a - base < n then some (bit bs (a - base)) else mem a := by
  obtain ⟨mem', e, hs⟩ := foldlM_write (bit bs) (fun i => (v[i]?).map (fun x => x != 0#w)) base (List.range n) mem
    (fun i hi => by rw [hv.getD' (by simpa using hi)]; simp [elem_ne_zero hw])
    (fun i hi => hm i (by simpa using hi))
  refine ⟨mem', ?_, by simpa using hs⟩
  rw [← e]
  unfold store
  congr 1
  funext m i
  cases v[i]? <;> rfl

theorem mem_iter {bits : BitMask n true} (hc : bits.Clean) {k : BitVec 64} (hb : ∀ i, k.getLsbD i = bits.lane i)
    (h64 : n ≤ 64) (i : Nat) : i ∈ bitIteration k ↔ i < n ∧ bits.lane i = true := by
  rw [bitIteration_eq, List.mem_filter, hb]
  constructor
  · rintro ⟨_, h⟩
    refine ⟨?_, h⟩
    rcases Nat.lt_or_ge i n with h' | h'
    · exact h'
    · rw [hc i h'] at h; exact absurd h (by decide)
  · rintro ⟨h, h'⟩
    exact ⟨by simp; omega, h'⟩

theorem rep_foldl_set (hw : 0 < w) (f : Nat → Bool) (l : List Nat) (hl : ∀ i ∈ l, i < n) {x : VMask w} {bs : List Bool}
    (hx : Rep n full x bs) :
    Rep n full (l.foldl (fun r i => set r i (f i)) x) (l.foldl (fun b i => b.set i (f i)) bs) := by
  induction l generalizing x bs with
  | nil => exact hx
  | cons i l ih =>
    exact ih (fun j hj => hl j (by simp [hj])) (rep_set hw hx (hl i (by simp)) (f i))

theorem foldl_set_get (f : Nat → Bool) (l : List Nat) (bs : List Bool) (hl : ∀ i ∈ l, i < bs.length) :
    (l.foldl (fun b i => b.set i (f i)) bs).length = bs.length ∧
    ∀ j, bit (l.foldl (fun b i => b.set i (f i)) bs) j = if j ∈ l then f j else bit bs j := by
  induction l generalizing bs with
  | nil => simp
  | cons i l ih =>
    have hi := hl i (by simp)
    obtain ⟨h1, h2⟩ := ih (bs.set i (f i)) (fun j hj => by rw [List.length_set]; exact hl j (by simp [hj]))
    refine ⟨by rw [List.foldl_cons, h1, List.length_set], fun j => ?_⟩
    rw [List.foldl_cons, h2 j, bit_set _ hi]
    by_cases hij : i = j
    · subst hij; simp
    · have : j ≠ i := fun h => hij h.symm
      simp [hij, this]

theorem bit_ext {a b : List Bool} (h : a.length = b.length) (hb : ∀ i < a.length, bit a i = bit b i) : a = b := by
  apply List.ext_getElem h
  intro i h1 h2
  have := hb i h1
  rwa [bit_of_lt h1, bit_of_lt h2] at this

theorem bit_select {ks xs vs : List Bool} {i : Nat} (h : i < ks.length) (h' : i < xs.length) (h'' : i < vs.length) :
    bit (Spec.select ks xs vs) i = if bit ks i then bit xs i else bit vs i := by
  have hz : (xs.zip vs)[i]? = some (xs[i], vs[i]) := by simp [List.getElem?_eq_some_iff]; omega
  simp [bit, Spec.select, List.getElem?_zipWith, h, h', h'', hz]

/-- A masked load driven by the bits `ks`. -/
theorem maskedLoad_spec (hw : 0 < w) (h1 : 1 ≤ n) (h64 : n ≤ 64) {merge : VMask w} {vs : List Bool}
    (hv : Rep n full merge vs) (bits : BitMask n true) (hc : bits.Clean) (mem : Mem Bool) (base : Nat) (f : Nat → Bool)
    (hm : ∀ i < n, bits.lane i = true → mem (base + i) = some (f i)) :
    ∃ r, maskedLoad n merge bits mem base = some r ∧
      Rep n full r (Spec.select bits.lanes ((List.range n).map f) vs) := by
  obtain ⟨k, hk, hb⟩ := toULL_eq h1 h64 bits
  have hmem := mem_iter hc hb h64
  have hlt : ∀ i ∈ bitIteration k, i < n := fun i hi => ((hmem i).1 hi).1
  refine ⟨_, by
    unfold maskedLoad; rw [hk]
    exact foldlM_read (fun (r : VMask w) i b => set r i b) base (bitIteration k) mem f
      (fun i hi => hm i ((hmem i).1 hi).1 ((hmem i).1 hi).2) merge, ?_⟩
  have hrep := rep_foldl_set hw f (bitIteration k) hlt hv
  have hvl := hv.blen
  obtain ⟨e1, e2⟩ := foldl_set_get f (bitIteration k) vs (by rw [hvl]; exact hlt)
  have : (bitIteration k).foldl (fun b i => b.set i (f i)) vs = Spec.select bits.lanes ((List.range n).map f) vs := by
    apply bit_ext
    · rw [e1]; simp [Spec.select, BitMask.lanes, hvl]
    · intro i hi
      rw [e1, hvl] at hi
      rw [e2, bit_select (by simp [BitMask.lanes]; omega) (by simp; omega) (by omega)]
      have ebit : bit bits.lanes i = bits.lane i := by unfold bit; rw [lanes_getElem?, if_pos hi]; rfl
      have ef : bit ((List.range n).map f) i = f i := by simp [bit, hi]
      rw [ebit, ef]
      by_cases hl : bits.lane i = true
      · rw [if_pos ((hmem i).2 ⟨hi, hl⟩), if_pos hl]
      · rw [if_neg (fun h => hl ((hmem i).1 h).2), if_neg hl]
  rw [← this]; exact hrep

theorem maskedStore_spec (hw : 0 < w) (h1 : 1 ≤ n) (h64 : n ≤ 64) {v : VMask w} {vs : List Bool}
    (hv : Rep n full v vs) (bits : BitMask n true) (hc : bits.Clean) (mem : Mem Bool) (base : Nat)
    (hm : ∀ i < n, bits.lane i = true → (mem (base + i)).isSome) :
    ∃ mem', maskedStore n v mem base bits = some mem' ∧
      (∀ i < n, bits.lane i = true → mem' (base + i) = some (bit vs i)) ∧
      (∀ a, (¬ ∃ i < n, bits.lane i = true ∧ a = base + i) → mem' a = mem a) := by
  obtain ⟨k, hk, hb⟩ := toULL_eq h1 h64 bits
  have hmem := mem_iter hc hb h64
  obtain ⟨mem', e, hs⟩ := foldlM_write (bit vs) (fun i => (v[i]?).map (fun x => x != 0#w)) base (bitIteration k) mem
    (fun i hi => by rw [hv.getD' ((hmem i).1 hi).1]; simp [elem_ne_zero hw])
    (fun i hi => hm i ((hmem i).1 hi).1 ((hmem i).1 hi).2)
  refine ⟨mem', ?_, ?_, ?_⟩
  · rw [← e]
    unfold maskedStore
    rw [hk]
    simp only [Option.bind_eq_bind, Option.bind_some]
    congr 1
    funext m i
    cases v[i]? <;> rfl
  · intro i hi hki
    rw [hs, if_pos ⟨by omega, by rw [Nat.add_sub_cancel_left]; exact (hmem i).2 ⟨hi, hki⟩⟩, Nat.add_sub_cancel_left]
  · intro a ha
    rw [hs, if_neg]
    rintro ⟨h1, h2⟩
    exact ha ⟨a - base, ((hmem _).1 h2).1, ((hmem _).1 h2).2, by omega⟩

end StdSimd.VMask
