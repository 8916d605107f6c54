import Verif.Proofs.Native
namespace StdSimd.Native
open VMask (bit bit_of_lt bit_of_ge)
variable {α β : Type}

/-! ### which elements a plan touches -/

/-- The type sizes and register sizes of the code: `sizeof(_Up)` is a power of two dividing half of the largest
load/store size (sizes 1, 2, 4, 8 and 16, 32, 64). -/
def Xfer.Ok (c : Xfer) : Prop := 8 < c.up ∨ c.same = true ∨ (0 < c.up ∧ 0 < c.max ∧ 2 * c.up ∣ c.max)

theorem flatMap_range_blocks (q : Nat) : ∀ m, (List.range m).flatMap (fun i => List.range' (i * q) q) = List.range (m * q) := by
  intro m
  induction m with
  | zero => simp
  | succ m ih =>
    rw [List.range_succ, List.flatMap_append, ih]
    simp only [List.flatMap_cons, List.flatMap_nil, List.append_nil]
    rw [Nat.add_mul, Nat.one_mul, List.range_add, ← List.range'_eq_map_range]

theorem planIdx_singles (n : Nat) : planIdx ((List.range n).map (fun i => (i, 1))) = List.range n := by
  unfold planIdx
  rw [List.flatMap_map]
  have := flatMap_range_blocks 1 n
  simpa using this

theorem planIdx_blocks (m q : Nat) : planIdx ((List.range m).map (fun i => (i * q, q))) = List.range (m * q) := by
  unfold planIdx
  rw [List.flatMap_map]
  exact flatMap_range_blocks q m

theorem planIdx_loadPlan (c : Xfer) (hc : c.Ok) (n : Nat) (hn : 1 ≤ n) :
    planIdx (loadPlan c.up c.same c.max n) = List.range n := by
  have whole : planIdx [(0, n)] = List.range n := by simp [planIdx, List.range_eq_range']
  have key : ∀ M, 0 < M → c.up ∣ M → 0 < c.up → c.up * n % M = 0 →
      planIdx ((List.range (c.up * n / M)).map (fun i => (i * (n / (c.up * n / M)), n / (c.up * n / M)))) = List.range n := by
    intro M hM ⟨q, hq⟩ hu hmod
    subst hq
    have hq0 : 0 < q := Nat.pos_of_mul_pos_left hM
    obtain ⟨k, hk⟩ := Nat.dvd_of_mod_eq_zero hmod
    have hn' : n = k * q := by
      have : c.up * n = c.up * (k * q) := by rw [hk]; ac_rfl
      exact Nat.eq_of_mul_eq_mul_left hu this
    have hdiv : c.up * n / (c.up * q) = k := by rw [hk]; exact Nat.mul_div_cancel_left _ hM
    rw [hdiv, planIdx_blocks]
    have hk0 : 0 < k := by
      rcases Nat.eq_zero_or_pos k with h | h
      · subst h; omega
      · exact h
    rw [hn', Nat.mul_div_cancel_left _ hk0]
  unfold loadPlan
  split
  · exact planIdx_singles n
  split
  · exact whole
  rcases hc with h | h | ⟨h1, h2, h3⟩
  · omega
  · simp_all
  simp only []
  split
  · exact whole
  split
  · rename_i h; exact key c.max h2 (Nat.dvd_trans ⟨2, by omega⟩ h3) h1 h
  split
  · rename_i h
    obtain ⟨q, hq⟩ := h3
    have e : c.max / 2 = c.up * q := by
      rw [hq, show 2 * c.up * q = 2 * (c.up * q) by ac_rfl]; omega
    refine key (c.max / 2) (by omega) ⟨q, e⟩ h1 h.1
  · exact planIdx_singles n

theorem planIdx_append (a b : List (Nat × Nat)) : planIdx (a ++ b) = planIdx a ++ planIdx b := by
  simp [planIdx]

theorem planIdx_storePlan (c : Xfer) (hc : c.Ok) (n : Nat) :
    planIdx (storePlan c.up c.same c.max n) = List.range n := by
  have whole : planIdx [(0, n)] = List.range n := by simp [planIdx, List.range_eq_range']
  unfold storePlan
  split
  · exact planIdx_singles n
  split
  · exact whole
  rcases hc with h | h | ⟨h1, h2, q, hq⟩
  · omega
  · simp_all
  simp only []
  split
  · exact whole
  have hv : c.max / c.up = 2 * q := by
    rw [hq, show 2 * c.up * q = c.up * (2 * q) by ac_rfl]; exact Nat.mul_div_cancel_left _ h1
  have hq0 : 0 < q := by
    rcases Nat.eq_zero_or_pos q with h | h
    · subst h; omega
    · exact h
  rw [hv]
  have hle : n / (2 * q) * (2 * q) ≤ n := Nat.div_mul_le_self _ _
  rw [planIdx_append, planIdx_blocks]
  have hdm := Nat.div_add_mod n (2 * q)
  have hml := Nat.mod_lt n (show 0 < 2 * q by omega)
  have hcomm : 2 * q * (n / (2 * q)) = n / (2 * q) * (2 * q) := Nat.mul_comm _ _
  split
  · simp only [planIdx, List.flatMap_cons, List.flatMap_nil, List.append_nil]
    rw [List.range_eq_range', List.range_eq_range']
    have := List.range'_append_1 (s := 0) (m := n / (2 * q) * (2 * q)) (n := n - n / (2 * q) * (2 * q))
    rw [Nat.zero_add] at this
    rw [this]
    congr 1; omega
  · rename_i h
    have : n % (2 * q) = 0 := by
      unfold divRoundup at h
      by_cases h0 : n % (2 * q) = 0
      · exact h0
      · exfalso
        apply h
        have e : n + (2 * q - 1) = 2 * q * (n / (2 * q) + 1) + (n % (2 * q) - 1) := by
          rw [Nat.mul_add]; omega
        have e2 : (n + 2 * q - 1) / (2 * q) = n / (2 * q) + 1 := by
          rw [show n + 2 * q - 1 = n + (2 * q - 1) by omega, e, Nat.mul_add_div (by omega)]
          rw [Nat.div_eq_of_lt (a := n % (2 * q) - 1) (by omega)]
        omega
    have : n / (2 * q) * (2 * q) = n := by omega
    rw [this]; simp [planIdx]

/-! ### loads and stores -/

theorem load_spec (c : Xfer) (hc : c.Ok) (cvt : β → α) (zero : α) {g : Geo} (hg : g.Ok) (mem : Mem β) (base : Nat)
    (f : Nat → β) (hm : ∀ i < g.size, mem (base + i) = some (f i)) :
    ∃ r, load c cvt zero g mem base = some r ∧ r.length = g.full ∧ ∀ i < g.size, r[i]? = some (cvt (f i)) := by
  have hf := hg.size_le
  have h1 := hg.one_le
  have gen : ∃ r, (do
      let xs ← (planIdx (loadPlan c.up c.same c.max g.size)).mapM (fun i => mem.read (base + i))
      pure (xs.map cvt ++ List.replicate (g.full - g.size) zero) : Option (List α)) = some r ∧
      r.length = g.full ∧ ∀ i < g.size, r[i]? = some (cvt (f i)) := by
    rw [planIdx_loadPlan c hc _ h1, mapM_some (fun i => mem.read (base + i)) f _ (fun i hi => hm i (by simpa using hi))]
    refine ⟨_, rfl, by simp; omega, fun i hi => ?_⟩
    simp [List.getElem?_append, hi]
  cases g with
  | scalar =>
    have h0 := hm 0 (by simp)
    refine ⟨[cvt (f 0)], ?_, rfl, ?_⟩
    · unfold load Mem.read; rw [Nat.add_zero] at h0; simp only [h0]; rfl
    · intro i hi; simp at hi; subst hi; rfl
  | vec w n f => exact gen
  | bitmask n f => exact gen

/-- The memory after storing `val i` into the cells `base + i` for the lanes `i < n` with `sel i`. -/
def Stored (mem mem' : Mem β) (base n : Nat) (sel : Nat → Bool) (val : Nat → Option β) : Prop :=
  ∀ a, mem' a = if base ≤ a ∧ a < base + n ∧ sel (a - base) = true then val (a - base) else mem a

theorem store_spec (c : Xfer) (hc : c.Ok) (cvt : α → β) {g : Geo} (hg : g.Ok) (v : List α) (hv : v.length = g.full)
    (mem : Mem β) (base : Nat) (hm : ∀ i < g.size, (mem (base + i)).isSome) :
    ∃ mem', store c cvt g v mem base = some mem' ∧
      Stored mem mem' base g.size (fun _ => true) (fun i => (v[i]?).map cvt) := by
  have hf := hg.size_le
  have gen : ∃ mem', (planIdx (storePlan c.up c.same c.max g.size)).foldlM (fun (m : Mem β) i => do
      let x ← v[i]?
      m.write (base + i) (cvt x)) mem = some mem' ∧
      Stored mem mem' base g.size (fun _ => true) (fun i => (v[i]?).map cvt) := by
    rw [planIdx_storePlan c hc]
    rcases v with _ | ⟨v0, v'⟩
    · have := hg.one_le; simp at hv; omega
    generalize hvv : v0 :: v' = v at *
    obtain ⟨mem', e, hs⟩ := foldlM_write (fun i => cvt ((v[i]?).getD v0)) (fun i => (v[i]?).map cvt) base
      (List.range g.size) mem
      (fun i hi => by
        have : i < v.length := by simp at hi; omega
        simp [this])
      (fun i hi => hm i (by simpa using hi))
    refine ⟨mem', ?_, ?_⟩
    · rw [← e]
      congr 1
      funext m i
      cases v[i]? <;> rfl
    · intro a
      rw [hs a]
      by_cases h : base ≤ a ∧ a < base + g.size
      · have h2 : a - base < v.length := by omega
        rw [if_pos ⟨h.1, by simp; omega⟩, if_pos ⟨h.1, h.2, rfl⟩]
        simp [h2]
      · rw [if_neg (by simp; omega), if_neg (by simp; omega)]
  cases g with
  | scalar =>
    have h0 := hm 0 (by simp)
    obtain ⟨x, rfl⟩ := List.length_eq_one_iff.1 hv
    refine ⟨fun b => if b = base then some (cvt x) else mem b, ?_, ?_⟩
    · unfold store Mem.write; rw [Nat.add_zero] at h0; simp [h0]
    · intro a
      by_cases h : a = base
      · subst h; simp
      · simp [h]; omega
  | vec w n f => exact gen
  | bitmask n f => exact gen

/-! ### masked loads and stores -/

theorem mbit_lt {g : Geo} (hg : g.Ok) {k : MaskM g} (hk : MaskOk g k) {i : Nat} (h : mbit g k i = true) : i < g.size := by
  rcases Nat.lt_or_ge i g.size with h' | h'
  · exact h'
  · unfold mbit at h; rw [bit_of_ge (by rw [length_maskLanes hg k hk]; exact h')] at h; exact absurd h (by decide)

theorem lane_maskToBits {g : Geo} (hg : g.Ok) (k : MaskM g) (hk : MaskOk g k) (i : Nat) :
    (maskToBits g k).lane i = mbit g k i := by
  obtain ⟨h1, h2⟩ := maskToBits_spec hg k hk
  by_cases hi : i < g.size
  · have : (maskToBits g k).lanes[i]? = some ((maskToBits g k).lane i) := by
      rw [BitMask.lanes_getElem?, if_pos hi]
    rw [h1] at this
    unfold mbit bit; rw [this]; rfl
  · rw [h2 i (by omega)]
    unfold mbit; rw [bit_of_ge (by rw [length_maskLanes hg k hk]; omega)]

theorem rawBit_eq {g : Geo} (hg : g.Ok) (k : MaskM g) (hk : MaskOk g k) (hc : MaskClean g k) (i : Nat) :
    rawBit g k i = mbit g k i := by
  cases g with
  | scalar =>
    cases i with
    | zero => rfl
    | succ i => rfl
  | vec w n f =>
    have hr := VMask.Wf.rep hg.1 hg.2.2.2.1 hk
    change (((show VMask w from k)[i]?).getD 0#w).msb = bit (VMask.lanes n k) i
    by_cases hi : i < n
    · have := hr.getD hi
      exact (congrArg BitVec.msb this).trans (VMask.msb_elem hg.1 _)
    · rw [bit_of_ge (by rw [hr.blen]; omega)]
      have := hc i (by omega)
      exact (congrArg BitVec.msb this).trans (by simp)
  | bitmask n f =>
    exact ((KMask.rep_iff k).2 hc).get i

theorem elemBit_eq {g : Geo} (hg : g.Ok) (k : MaskM g) (hk : MaskOk g k) {i : Nat} (hi : i < g.size) :
    elemBit g k i = mbit g k i := by
  cases g with
  | scalar =>
    obtain rfl : i = 0 := by simpa using hi
    rfl
  | vec w n f =>
    have hr := VMask.Wf.rep hg.1 hg.2.2.2.1 hk
    have hw : 0 < w := hg.1
    change ((((show VMask w from k)[i]?).getD 0#w) != 0#w) = bit (VMask.lanes n k) i
    have := hr.getD hi
    refine (congrArg (fun a : BitVec w => a != 0#w) this).trans ?_
    cases bit (VMask.lanes n k) i
    · simp [VMask.elem]
    · have : BitVec.allOnes w ≠ 0#w := by
        intro h
        have := congrArg BitVec.msb h
        simp [BitVec.msb_eq_getLsbD_last] at this
        omega
      simpa [VMask.elem] using this
  | bitmask n f =>
    have hi' : i < n := hi
    simp [elemBit, mbit, bit, maskLanes, KMask.lanes, hi']

theorem touched_spec (p : MaskedPath) {g : Geo} (hg : g.Ok) (k : MaskM g) (hk : MaskOk g k)
    (hp : p = .raw → MaskClean g k) :
    ∃ idx, touched p g k = some idx ∧ ∀ i, i ∈ idx ↔ mbit g k i = true := by
  obtain ⟨h1, h2⟩ := maskToBits_spec hg k hk
  obtain ⟨v, hv, hb⟩ := BitMask.toULL_eq hg.one_le hg.le64 (maskToBits g k)
  have hb' : ∀ i, v.getLsbD i = mbit g k i := fun i => by rw [hb, lane_maskToBits hg k hk]
  have h64 := hg.le64
  cases p with
  | iter =>
    refine ⟨bitIteration v, by unfold touched; rw [hv]; rfl, fun i => ?_⟩
    rw [VMask.mem_iter h2 hb h64, lane_maskToBits hg k hk]
    exact ⟨fun h => h.2, fun h => ⟨mbit_lt hg hk h, h⟩⟩
  | bits =>
    refine ⟨_, by unfold touched; rw [hv]; rfl, fun i => ?_⟩
    rw [List.mem_filter, hb', List.mem_range]
    exact ⟨fun h => h.2, fun h => ⟨by have := mbit_lt hg hk h; omega, h⟩⟩
  | raw =>
    refine ⟨_, rfl, fun i => ?_⟩
    rw [List.mem_filter, rawBit_eq hg k hk (hp rfl), List.mem_range]
    refine ⟨fun h => h.2, fun h => ⟨?_, h⟩⟩
    have := mbit_lt hg hk h
    have hf := hg.size_le
    cases g with
    | scalar => simpa [rawCount] using this
    | vec w n f => simp [rawCount] at *; omega
    | bitmask n f => simp [rawCount] at *; have := KMask.le_kBits n; omega
  | elem =>
    refine ⟨_, rfl, fun i => ?_⟩
    rw [List.mem_filter, List.mem_range]
    refine ⟨fun h => by rw [← elemBit_eq hg k hk h.1]; exact h.2, fun h => ?_⟩
    have hi := mbit_lt hg hk h
    exact ⟨hi, by rw [elemBit_eq hg k hk hi]; exact h⟩

theorem foldl_set_get' (f : Nat → α) (l : List Nat) (r : List α) :
    (l.foldl (fun b i => set b i (f i)) r).length = r.length ∧
    ∀ j, (l.foldl (fun b i => set b i (f i)) r)[j]? = if j ∈ l ∧ j < r.length then some (f j) else r[j]? := by
  induction l generalizing r with
  | nil => simp
  | cons i l ih =>
    obtain ⟨h1, h2⟩ := ih (set r i (f i))
    have hl : (set r i (f i)).length = r.length := by simp [set]
    refine ⟨by rw [List.foldl_cons, h1, hl], fun j => ?_⟩
    rw [List.foldl_cons, h2 j, hl]
    by_cases hj : j < r.length
    · by_cases hjl : j ∈ l
      · simp [hjl, hj]
      · by_cases hij : i = j
        · subst hij; simp [hjl, hj, set]
        · have : j ≠ i := fun h => hij h.symm
          simp [hjl, hij, this, set]
    · simp [hj, set]

theorem maskedLoad_spec (p : MaskedPath) (cvt : β → α) {g : Geo} (hg : g.Ok) (k : MaskM g) (hk : MaskOk g k)
    (hp : p = .raw → MaskClean g k) (merge : List α) (hmerge : merge.length = g.full) (mem : Mem β) (base : Nat)
    (f : Nat → β) (hm : ∀ i < g.size, mbit g k i = true → mem (base + i) = some (f i)) :
    ∃ r, maskedLoad p cvt g merge k mem base = some r ∧ r.length = g.full ∧
      ∀ i < g.size, r[i]? = if mbit g k i then some (cvt (f i)) else merge[i]? := by
  have hf := hg.size_le
  have gen : ∃ r, (do
      let idx ← touched p g k
      idx.foldlM (fun (r : List α) i => do
        let x ← mem.read (base + i)
        pure (set r i (cvt x))) merge : Option (List α)) = some r ∧ r.length = g.full ∧
      ∀ i < g.size, r[i]? = if mbit g k i then some (cvt (f i)) else merge[i]? := by
    obtain ⟨idx, hi, hmem⟩ := touched_spec p hg k hk hp
    refine ⟨idx.foldl (fun r i => set r i (cvt (f i))) merge, ?_, ?_, ?_⟩
    · rw [hi]
      exact foldlM_read (fun r i x => set r i (cvt x)) base idx mem f (fun i hi' => by
        have := (hmem i).1 hi'
        exact hm i (mbit_lt hg hk this) this) merge
    · rw [(foldl_set_get' (fun i => cvt (f i)) idx merge).1, hmerge]
    · intro i hi'
      rw [(foldl_set_get' (fun i => cvt (f i)) idx merge).2 i, hmerge]
      by_cases hb : mbit g k i = true
      · rw [if_pos ⟨(hmem i).2 hb, by omega⟩, if_pos hb]
      · rw [if_neg (fun h => hb ((hmem i).1 h.1)), if_neg hb]
  cases g with
  | scalar =>
    obtain ⟨x, rfl⟩ := List.length_eq_one_iff.1 hmerge
    have h0 := hm 0 (by simp)
    change (mbit Geo.scalar k 0 = true → _) at h0
    have e : mbit Geo.scalar k 0 = (show Bool from k) := rfl
    rw [e, Nat.add_zero] at h0
    by_cases hkb : (show Bool from k) = true
    · refine ⟨[cvt (f 0)], ?_, rfl, ?_⟩
      · change (if (show Bool from k) then _ else _) = _
        rw [if_pos hkb, Mem.read, h0 hkb]; rfl
      · intro i hi; simp at hi; subst hi; rw [e, if_pos hkb]; rfl
    · refine ⟨[x], ?_, rfl, ?_⟩
      · change (if (show Bool from k) then _ else _) = _
        rw [if_neg hkb]
      · intro i hi; simp at hi; subst hi; rw [e, if_neg hkb]
  | vec w n f => exact gen
  | bitmask n f => exact gen

theorem maskedStore_spec (p : MaskedPath) (cvt : α → β) (junk : α) {g : Geo} (hg : g.Ok) (k : MaskM g) (hk : MaskOk g k)
    (hp : p = .raw → MaskClean g k) (v : List α) (hv : v.length = g.full) (mem : Mem β) (base : Nat)
    (hm : ∀ i < g.size, mbit g k i = true → (mem (base + i)).isSome) :
    ∃ mem', maskedStore p cvt junk g v mem base k = some mem' ∧
      Stored mem mem' base g.size (mbit g k) (fun i => (v[i]?).map cvt) := by
  have hf := hg.size_le
  have gen : ∃ mem', (do
      let idx ← touched p g k
      idx.foldlM (fun (m : Mem β) i => m.write (base + i) (cvt ((v[i]?).getD junk))) mem : Option (Mem β)) = some mem' ∧
      Stored mem mem' base g.size (mbit g k) (fun i => (v[i]?).map cvt) := by
    obtain ⟨idx, hi, hmem⟩ := touched_spec p hg k hk hp
    obtain ⟨mem', e, hs⟩ := foldlM_write (fun i => cvt ((v[i]?).getD junk)) (fun i => some (cvt ((v[i]?).getD junk))) base
      idx mem (fun i _ => rfl)
      (fun i hi => by
        have := (hmem i).1 hi
        exact hm i (mbit_lt hg hk this) this)
    refine ⟨mem', ?_, ?_⟩
    · rw [hi]; exact e
    · intro a
      rw [hs a]
      by_cases h : base ≤ a ∧ a < base + g.size ∧ mbit g k (a - base) = true
      · have h2 : a - base < v.length := by omega
        rw [if_pos ⟨h.1, (hmem _).2 h.2.2⟩, if_pos h]
        simp [h2]
      · rw [if_neg, if_neg h]
        rintro ⟨h1, h2⟩
        have := (hmem _).1 h2
        have h3 := mbit_lt hg hk this
        exact h ⟨h1, by omega, this⟩
  cases g with
  | scalar =>
    obtain ⟨x, rfl⟩ := List.length_eq_one_iff.1 hv
    have h0 := hm 0 (by simp)
    have e : mbit Geo.scalar k 0 = (show Bool from k) := rfl
    rw [e, Nat.add_zero] at h0
    by_cases hkb : (show Bool from k) = true
    · refine ⟨fun b => if b = base then some (cvt x) else mem b, ?_, ?_⟩
      · change (if (show Bool from k) then _ else _) = _
        rw [if_pos hkb]; simp [Mem.write, h0 hkb]
      · intro a
        show (if a = base then _ else _) = _
        by_cases h : a = base
        · subst h
          rw [if_pos rfl, if_pos ⟨Nat.le_refl _, by simp, by rw [Nat.sub_self, e]; exact hkb⟩]; simp
        · rw [if_neg h, if_neg]
          rintro ⟨h1, h2, _⟩
          simp at h2; omega
    · refine ⟨mem, ?_, ?_⟩
      · change (if (show Bool from k) then _ else _) = _
        rw [if_neg hkb]
      · intro a
        rw [if_neg]
        rintro ⟨h1, h2, h3⟩
        simp at h2
        have : a - base = 0 := by omega
        rw [this, e] at h3
        exact hkb h3
  | vec w n f => exact gen
  | bitmask n f => exact gen

end StdSimd.Native

namespace StdSimd.Native
open VMask (bit bit_of_lt bit_of_ge)
variable {α β : Type}

/-! ### where -/

/-- The branch is selected correctly. -/
def Truthful (g : Geo) (k : MaskM g) (h : Hint) : Prop :=
  (h = .noneOf → ∀ i < g.size, mbit g k i = false) ∧ (h = .allOf → ∀ i < g.size, mbit g k i = true)

theorem getLsbD_activeMask {n : Nat} (h : n ≤ 64) {i : Nat} (hi : i < n) : (activeMask n).getLsbD i = true := by
  have := KMask.le_kBits n
  unfold activeMask
  split
  · rw [BitVec.getLsbD_allOnes]; simp; omega
  · rw [BitVec.getLsbD_ushiftRight, BitVec.getLsbD_allOnes]; simp; omega

theorem hintOf_truthful (c : Bool) {g : Geo} (hg : g.Ok) (k : MaskM g) (hk : MaskOk g k) :
    Truthful g k (hintOf c g k) := by
  have hnone : constNoneOf g k = true → ∀ i < g.size, mbit g k i = false := by
    intro h i hi
    cases g with
    | scalar => exact absurd (show false = true from h) (by decide)
    | vec w n f =>
      have hr := VMask.Wf.rep hg.1 hg.2.2.2.1 hk
      simp at hi
      have h' := List.all_eq_true.1 h i (by simpa using hi)
      have h2 : ((show VMask w from k)[i]?).getD 0#w = 0#w := eq_of_beq h'
      rw [hr.getD hi] at h2
      have := VMask.elem_ne_zero hg.1 (bit (VMask.lanes n k) i)
      rw [h2] at this
      exact (by simpa using this.symm : bit (VMask.lanes n k) i = false)
    | bitmask n f =>
      simp at hi
      have h' : k &&& activeMask n = 0#_ := eq_of_beq h
      have h2 := congrArg (fun v => BitVec.getLsbD v i) h'
      simp only [BitVec.getLsbD_and, getLsbD_activeMask hg.2.2 hi, Bool.and_true, BitVec.getLsbD_zero] at h2
      change bit (KMask.lanes k) i = false
      rw [KMask.bit_lanes, h2]; rfl
  have hall : constAllOf g k = true → ∀ i < g.size, mbit g k i = true := by
    intro h i hi
    cases g with
    | scalar => exact absurd (show false = true from h) (by decide)
    | vec w n f =>
      have hr := VMask.Wf.rep hg.1 hg.2.2.2.1 hk
      simp at hi
      have h' := List.all_eq_true.1 h i (by simpa using hi)
      have h2 : ((show VMask w from k)[i]?).getD 0#w = BitVec.allOnes w := eq_of_beq h'
      rw [hr.getD hi] at h2
      have := VMask.msb_elem hg.1 (bit (VMask.lanes n k) i)
      rw [h2] at this
      have hm : (BitVec.allOnes w).msb = true := by
        have := hg.1
        rw [BitVec.msb_eq_getLsbD_last, BitVec.getLsbD_allOnes]; simp; omega
      rw [hm] at this
      exact this.symm
    | bitmask n f =>
      simp at hi
      have h' : k &&& activeMask n = activeMask n := eq_of_beq h
      have h2 := congrArg (fun v => BitVec.getLsbD v i) h'
      simp only [BitVec.getLsbD_and, getLsbD_activeMask hg.2.2 hi, Bool.and_true] at h2
      change bit (KMask.lanes k) i = true
      rw [KMask.bit_lanes, h2]; simpa using hi
  unfold hintOf
  constructor
  · intro h
    split at h
    · rename_i hc; exact hnone (by simp at hc; exact hc.2)
    · split at h <;> exact absurd h (by decide)
  · intro h
    split at h
    · exact absurd h (by decide)
    · split at h
      · rename_i hc; exact hall (by simp at hc; exact hc.2)
      · exact absurd h (by decide)

theorem maskedAssign_spec {g : Geo} (hg : g.Ok) (k : MaskM g) (hk : MaskOk g k) (h : Hint) (ht : Truthful g k h)
    (lhs rhs : List α) (hl : lhs.length = g.full) (hr : rhs.length = g.full) :
    (maskedAssign g h k lhs rhs).length = g.full ∧
    ∀ i < g.size, (maskedAssign g h k lhs rhs)[i]? = if mbit g k i then rhs[i]? else lhs[i]? := by
  cases h with
  | unknown => exact ⟨length_blend k hk _ _ hl hr, fun i hi => blend_get hg k hk _ _ hl hr hi⟩
  | noneOf => exact ⟨hl, fun i hi => by rw [ht.1 rfl i hi]; rfl⟩
  | allOf => exact ⟨hr, fun i hi => by rw [ht.2 rfl i hi]; rfl⟩

theorem length_broadcast (g : Geo) (x : α) : (broadcast g x).length = g.full := by simp [broadcast]
theorem broadcast_get {g : Geo} (hg : g.Ok) (x : α) {i : Nat} (hi : i < g.size) : (broadcast g x)[i]? = some x := by
  have := hg.size_le
  simp [broadcast, List.getElem?_replicate]; omega

theorem maskedAssignScalar_spec {g : Geo} (hg : g.Ok) (k : MaskM g) (hk : MaskOk g k) (h : Hint) (ht : Truthful g k h)
    (isZero : α → Bool) (zero : α) (lhs : List α) (hl : lhs.length = g.full) (rhs : α) (hz : isZero rhs = true → rhs = zero) :
    (maskedAssignScalar g h isZero zero k lhs rhs).length = g.full ∧
    ∀ i < g.size, (maskedAssignScalar g h isZero zero k lhs rhs)[i]? = if mbit g k i then some rhs else lhs[i]? := by
  have hb : ∀ x : α, (broadcast g x).length = g.full := length_broadcast g
  have gen : assignScalarBranches g h isZero zero k lhs rhs = maskedAssign g h k lhs (broadcast g rhs) := by
    cases h with
    | unknown =>
      simp only [maskedAssign, assignScalarBranches]
      split
      · rename_i h; rw [hz h]
      · rfl
    | noneOf => rfl
    | allOf => rfl
  have fin : (maskedAssign g h k lhs (broadcast g rhs)).length = g.full ∧
    ∀ i < g.size, (maskedAssign g h k lhs (broadcast g rhs))[i]? = if mbit g k i then some rhs else lhs[i]? := by
    obtain ⟨h1, h2⟩ := maskedAssign_spec hg k hk h ht lhs (broadcast g rhs) hl (hb _)
    refine ⟨h1, fun i hi => ?_⟩
    rw [h2 i hi, broadcast_get hg rhs hi]
  cases g with
  | scalar =>
    have e : mbit Geo.scalar k 0 = (show Bool from k) := rfl
    change (if (show Bool from k) then [rhs] else lhs).length = _ ∧ ∀ i < 1, (if (show Bool from k) then [rhs] else lhs)[i]? = _
    by_cases hkb : (show Bool from k) = true
    · rw [if_pos hkb]
      refine ⟨rfl, fun i hi => ?_⟩
      have : i = 0 := by omega
      subst this; rw [e, if_pos hkb]; rfl
    · rw [if_neg hkb]
      refine ⟨hl, fun i hi => ?_⟩
      have : i = 0 := by omega
      subst this; rw [e, if_neg hkb]
  | vec w n f => rw [← gen] at fin; exact fin
  | bitmask n f => rw [← gen] at fin; exact fin

theorem maskedAssignZero_get {w n f : Nat} (hw : 0 < w) (hf : n ≤ f) (k : VMask w) (hk : VMask.Wf n f k)
    (lhs : List (BitVec w)) (hl : lhs.length = f) {i : Nat} (hi : i < n) :
    (maskedAssignZero k lhs)[i]? = if bit (VMask.lanes n k) i then some 0#w else lhs[i]? := by
  have hr := VMask.Wf.rep hw hf hk
  have hz : i < lhs.length := by omega
  simp only [maskedAssignZero, List.getElem?_zipWith]
  rw [hr.getD' hi, List.getElem?_eq_getElem hz]
  cases bit (VMask.lanes n k) i <;> simp [VMask.elem]

/-- With an operation that is defined on the whole register. -/
theorem maskedCassign_spec {g : Geo} (hg : g.Ok) (k : MaskM g) (hk : MaskOk g k) (h : Hint) (ht : Truthful g k h)
    (lhs rhs : List α) (hl : lhs.length = g.full) (op : List α → List α → Option (List α)) (r : List α)
    (hop : op lhs rhs = some r) (hr : r.length = g.full) :
    ∃ s, maskedCassign g h k lhs rhs op = some s ∧ s.length = g.full ∧
      ∀ i < g.size, s[i]? = if mbit g k i then r[i]? else lhs[i]? := by
  have gen : ∃ s, (match h with
    | .noneOf => some lhs
    | .allOf => op lhs rhs
    | .unknown => do let r ← op lhs rhs; pure (blend g k lhs r) : Option (List α)) = some s ∧ s.length = g.full ∧
      ∀ i < g.size, s[i]? = if mbit g k i then r[i]? else lhs[i]? := by
    cases h with
    | unknown => exact ⟨_, by simp only [hop]; rfl, length_blend k hk _ _ hl hr, fun i hi => blend_get hg k hk _ _ hl hr hi⟩
    | noneOf => exact ⟨_, rfl, hl, fun i hi => by rw [ht.1 rfl i hi]; rfl⟩
    | allOf => exact ⟨_, hop, hr, fun i hi => by rw [ht.2 rfl i hi]; rfl⟩
  cases g with
  | scalar =>
    have e : mbit Geo.scalar k 0 = (show Bool from k) := rfl
    by_cases hkb : (show Bool from k) = true
    · refine ⟨r, ?_, hr, ?_⟩
      · change (if (show Bool from k) then _ else _) = _
        rw [if_pos hkb, hop]
      · intro i hi; simp at hi; subst hi; rw [e, if_pos hkb]
    · refine ⟨lhs, ?_, hl, ?_⟩
      · change (if (show Bool from k) then _ else _) = _
        rw [if_neg hkb]
      · intro i hi; simp at hi; subst hi; rw [e, if_neg hkb]
  | vec w n f => exact gen
  | bitmask n f => exact gen

theorem maskedUnary_eq (g : Geo) (h : Hint) (k : MaskM g) (v : List α) (op : List α → Option (List α)) :
    maskedUnary g h k v op = maskedCassign g h k v v (fun x _ => op x) := by
  cases g <;> rfl

/-! ### element-wise operations -/

theorem map1_total (f : α → β) (x : List α) : map1 (fun a => some (f a)) x = some (x.map f) :=
  mapM_some _ f x (fun _ _ => rfl)

theorem map2_total {γ : Type} (f : α → β → γ) (x : List α) (y : List β) :
    map2 (fun a b => some (f a b)) x y = some ((x.zip y).map (fun p => f p.1 p.2)) :=
  mapM_some _ (fun (p : α × β) => f p.1 p.2) _ (fun _ _ => rfl)

theorem map3_total (f : α → α → α → α) (x y z : List α) :
    map3 (fun a b c => some (f a b c)) x y z = some ((x.zip (y.zip z)).map (fun p => f p.1 p.2.1 p.2.2)) :=
  mapM_some _ (fun (p : α × α × α) => f p.1 p.2.1 p.2.2) _ (fun _ _ => rfl)

/-! ### generator -/

/-- In any lawful monad the calls are made for the lanes only, in order. -/
theorem generator_eq {m : Type → Type} [Monad m] [LawfulMonad m] {g : Geo} (hg : g.Ok) (zero : α) (gen : Nat → m α) :
    generator g zero gen = (do
      let xs ← (List.range g.size).mapM gen
      pure (xs ++ List.replicate (g.full - g.size) zero)) := by
  have hf := hg.size_le
  have key : (List.range g.full).mapM (fun i => if i < g.size then gen i else pure zero) = (do
      let xs ← (List.range g.size).mapM gen
      pure (xs ++ List.replicate (g.full - g.size) zero)) := by
    rw [show g.full = g.size + (g.full - g.size) by omega, List.range_add, List.mapM_append]
    have h1 : (List.range g.size).mapM (fun i => if i < g.size then gen i else pure zero) = (List.range g.size).mapM gen := by
      have : ∀ l : List Nat, (∀ i ∈ l, i < g.size) → l.mapM (fun i => if i < g.size then gen i else pure zero) = l.mapM gen := by
        intro l hl
        induction l with
        | nil => rfl
        | cons i l ih =>
          rw [List.mapM_cons, List.mapM_cons, if_pos (hl i (by simp)), ih (fun j hj => hl j (by simp [hj]))]
      exact this _ (fun i hi => by simpa using hi)
    have h2 : ∀ c, ((List.range c).map (g.size + ·)).mapM (fun i => if i < g.size then gen i else pure zero)
        = (pure (List.replicate c zero) : m (List α)) := by
      intro c
      have : ∀ l : List Nat, (∀ i ∈ l, g.size ≤ i) →
          l.mapM (fun i => if i < g.size then gen i else pure zero) = (pure (List.replicate l.length zero) : m (List α)) := by
        intro l hl
        induction l with
        | nil => rfl
        | cons i l ih =>
          rw [List.mapM_cons, if_neg (by have := hl i (by simp); omega), ih (fun j hj => hl j (by simp [hj]))]
          simp [List.replicate_succ]
      rw [this _ (by intro i hi; simp at hi; omega)]
      simp
    rw [h1, h2]
    simp
  cases g with
  | scalar =>
    change (do let x ← gen 0; pure [x]) = _
    simp [List.range_succ, List.mapM_cons]
  | vec w n f => exact key
  | bitmask n f => exact key

end StdSimd.Native
