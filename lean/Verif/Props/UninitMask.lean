import Verif.Model.UninitMask
import Verif.Props.NativeMasks
import Verif.Spec.Written
/-!
# Property theorems about masks that are default-initialised and assigned lane by lane  (C71)
-/
namespace StdSimd.Props
open StdSimd UninitMask BitMask Spec
open _root_.StdSimd.VMask (bit)

variable {n : Nat}

/-- What one assignment does, for a mask type with `_S_set` `set` and lanes `lane`. -/
private theorem assign_lane {M : Type} (set : M → Nat → Bool → M) (lane : M → Nat → Bool)
    (hset : ∀ (k : M) (i : Nat), i < n → ∀ b j, lane (set k i b) j = if i = j then b else lane k j) (ws : List (Nat × Bool))
    (hws : ∀ w ∈ ws, w.1 < n) (k : M) (j : Nat) :
    lane (assign set k ws) j = if ws.any (fun w => w.1 == j) then lastWritten ws j else lane k j := by
  induction ws generalizing k with
  | nil => rfl
  | cons w ws ih =>
    obtain ⟨i, b⟩ := w
    rw [show assign set k ((i, b) :: ws) = assign set (set k i b) ws from rfl, ih (fun w hw => hws w (by simp [hw])),
      hset k i (hws (i, b) (by simp))]
    by_cases h : ws.any (fun w => w.1 == j) = true
    · simp [h, lastWritten]
    · by_cases hij : i = j
      · simp [h, hij, lastWritten]
      · simp [h, hij]

private theorem any_written {ws : List (Nat × Bool)} (h : AllWritten n ws) {i : Nat} (hi : i < n) : ws.any (fun w => w.1 == i) = true := by
  obtain ⟨b, hb⟩ := h.2 i hi
  exact List.any_eq_true.2 ⟨_, hb, by simp⟩

private theorem any_not_written {ws : List (Nat × Bool)} (h : AllWritten n ws) {i : Nat} (hi : n ≤ i) : ws.any (fun w => w.1 == i) = false := by
  rw [← Bool.not_eq_true, List.any_eq_true]
  rintro ⟨w, hw, he⟩
  have := h.1 w hw
  simp at he
  omega

/-- C71. Reading the lanes of a `fixed_size` mask after every lane was assigned: the values assigned last, whatever the object contained before. -/
theorem C71_fixed_lanes (h1 : 1 ≤ n) (k : FixedMask.Member n) {ws : List (Nat × Bool)} (h : AllWritten n ws) :
    (assign FixedMask.set k ws).lanes = written n ws := by
  unfold BitMask.lanes written
  refine List.map_congr_left fun i hi => ?_
  rw [assign_lane (n := n) FixedMask.set BitMask.lane (fun k i hi b j => BitMask.lane_set h1 k hi b j) ws h.1, any_written h (List.mem_range.1 hi)]
  rfl

/-- C71 (partial). For a `fixed_size` mask whose number of lanes fills its words, every reduction agrees with the lanes that were assigned.  Missing: the
other sizes, where the bits above the lanes are never initialised, see `C71_fixed_wrong`. -/
theorem C71_fixed_partial (h1 : 1 ≤ n) (hu : n = 1 ∨ unusedBits n = 0) (k : FixedMask.Member n) {ws : List (Nat × Bool)} (h : AllWritten n ws) :
    (FixedMask.allOf (assign FixedMask.set k ws) = true ↔ allOf (written n ws)) ∧
    (FixedMask.anyOf (assign FixedMask.set k ws) = true ↔ anyOf (written n ws)) ∧
    (FixedMask.noneOf (assign FixedMask.set k ws) = true ↔ noneOf (written n ws)) ∧
    (FixedMask.someOf (assign FixedMask.set k ws) = true ↔ someOf (written n ws)) ∧
    FixedMask.popcount (assign FixedMask.set k ws) = popcount (written n ws) := by
  have hc : (assign FixedMask.set k ws).Clean := by
    intro i hi
    unfold lane
    rw [List.getElem?_eq_none]
    rw [BitMask.len]
    have hw := wordBits_pos n
    rw [Nat.le_div_iff_mul_le hw]
    rcases hu with rfl | hu
    · exact (show arraySize 1 * wordBits 1 = 1 by decide) ▸ hi
    · unfold unusedBits at hu
      unfold wordBits
      split at hu
      · subst_vars; exact (show arraySize 1 * 1 = 1 by decide) ▸ hi
      · rename_i h1'
        rw [if_neg h1', show arraySize n * (8 * wordBytes n) = arraySize n * wordBytes n * 8 by rw [Nat.mul_comm 8, Nat.mul_assoc]]
        omega
  have hl := C71_fixed_lanes h1 k h
  rw [← hl]
  exact ⟨C03_all_of h1 _ hc, C03_any_of h1 _ hc, C03_none_of h1 _ hc, C03_some_of h1 _ hc, C03_popcount h1 _ hc⟩

private theorem lane_of_all {x : BitMask n true} (h1 : 1 ≤ n) (hn : n ≠ 1) (h : x.all = true) : x.lane n = false := by
  unfold BitMask.all at h
  rw [if_neg hn] at h
  simp only [Bool.and_eq_true, beq_iff_eq] at h
  have hs : x.sanitized = x := by simp [sanitized]
  rw [hs] at h
  let y : BitMask n false := ⟨x.words, x.len⟩
  have hy : y.sanitized = x := by
    unfold sanitized
    simp only [Bool.false_eq_true, if_false, hn]
    split
    · congr 1
      show modifyLast (fun w => w &&& wordMask n) x.words = x.words
      unfold modifyLast
      obtain ⟨l, hl⟩ := List.getLast?_eq_some_iff.1 h.2
      apply List.ext_getElem?
      intro i
      rw [List.getElem?_modify, hl]
      by_cases hi : i = l.length
      · subst hi; simp
      · simp [show ¬ l.length = i by omega]
    · rfl
  have := lane_sanitized h1 y n
  rw [hy] at this
  simpa using this

private theorem lane_of_none {x : BitMask n true} (hn : n ≠ 1) (h : x.isNone = true) (i : Nat) : x.lane i = false := by
  unfold isNone at h
  rw [if_neg hn] at h
  simp only [Bool.and_eq_true, beq_iff_eq] at h
  have hs : x.sanitized = x := by simp [sanitized]
  rw [hs] at h
  obtain ⟨l, hl⟩ := List.getLast?_eq_some_iff.1 h.2
  have hz : ∀ w ∈ x.words, w = 0 := by
    intro w hw
    rw [hl] at hw h
    rcases List.mem_append.1 hw with hw | hw
    · have := h.1
      simp only [List.dropLast_concat, List.all_eq_true, beq_iff_eq] at this
      exact this w hw
    · simpa using hw
  unfold lane
  split
  · rename_i w hw
    rw [hz w (List.mem_of_getElem? hw)]
    simp
  · rfl

/-- C71, negation.  For every number of lanes that does not fill the words of the mask (2 to 7, 9 to 15, 17 to 31, ...): there is a content of the
uninitialised object for which, after *every* lane is assigned `true`, `all_of` is false, and after every lane is assigned `false`, `any_of` is true and
`none_of` false. -/
theorem C71_fixed_wrong (h1 : 1 ≤ n) (hu : 0 < unusedBits n) :
    ∃ k : FixedMask.Member n, ∀ ws, AllWritten n ws →
      FixedMask.allOf (assign FixedMask.set k ws) = false ∧ FixedMask.noneOf (assign FixedMask.set k ws) = false ∧
      FixedMask.anyOf (assign FixedMask.set k ws) = true := by
  have hn : n ≠ 1 := by rintro rfl; exact absurd hu (by decide)
  let k : FixedMask.Member n := ⟨List.replicate (arraySize n) (BitVec.allOnes _), by simp⟩
  have hk : k.lane n = true := by
    have hw := wordBits_pos n
    have hlt : n / wordBits n < arraySize n := by
      rw [Nat.div_lt_iff_lt_mul hw]
      unfold unusedBits at hu
      unfold wordBits
      rw [if_neg hn] at hu ⊢
      rw [show arraySize n * (8 * wordBytes n) = arraySize n * wordBytes n * 8 by rw [Nat.mul_comm 8, Nat.mul_assoc]]
      omega
    show (match (List.replicate (arraySize n) (BitVec.allOnes (wordBits n)))[n / wordBits n]? with
      | some w => w.getLsbD (n % wordBits n) | none => false) = true
    simp [hlt, Nat.mod_lt n hw]
  refine ⟨k, fun ws h => ?_⟩
  have hl : (assign FixedMask.set k ws).lane n = true := by
    rw [assign_lane (n := n) FixedMask.set BitMask.lane (fun k i hi b j => BitMask.lane_set h1 k hi b j) ws h.1, any_not_written h (Nat.le_refl n)]
    exact hk
  have hno : (assign FixedMask.set k ws).isNone = false := by
    rw [← Bool.not_eq_true]
    intro e
    rw [lane_of_none hn e] at hl
    exact absurd hl (by decide)
  refine ⟨?_, hno, ?_⟩
  · rw [← Bool.not_eq_true]
    intro e
    rw [lane_of_all h1 hn e] at hl
    exact absurd hl (by decide)
  · show BitMask.any _ = true
    rw [any_eq, hno]
    rfl

/-- C71. AVX-512 masks: all reductions mask the word, so they agree with the lanes that were assigned, whatever the object contained. -/
theorem C71_k (h1 : 1 ≤ n) (h64 : n ≤ 64) (wide : Bool) (hw : wide = true → n ≤ 8) (k : KMask n) {ws : List (Nat × Bool)} (h : AllWritten n ws) :
    (KMask.allOf wide (assign KMask.set k ws) = true ↔ allOf (written n ws)) ∧
    (KMask.anyOf (assign KMask.set k ws) = true ↔ anyOf (written n ws)) ∧
    (KMask.noneOf (assign KMask.set k ws) = true ↔ noneOf (written n ws)) ∧
    (KMask.someOf wide (assign KMask.set k ws) = true ↔ someOf (written n ws)) ∧
    KMask.popcount (assign KMask.set k ws) = popcount (written n ws) ∧
    (anyOf (written n ws) → IsFirstSet (written n ws) (KMask.findFirstSet (assign KMask.set k ws))) := by
  have hl : KMask.lanes (assign KMask.set k ws) = written n ws := by
    unfold KMask.lanes written
    refine List.map_congr_left fun i hi => ?_
    rw [assign_lane (n := n) _ (fun (k : KMask n) i => k.getLsbD i) (fun k i hi b j => KMask.getLsbD_set k hi b j) ws h.1,
      any_written h (List.mem_range.1 hi)]
    rfl
  rw [← hl]
  have := C31_k_reductions h1 h64 wide hw (assign KMask.set k ws)
  exact ⟨this.1, this.2.1, this.2.2.1, this.2.2.2.1, this.2.2.2.2, C31_k_find_first_set _⟩

/-- C71. Vector masks: after the assignments the object is a well-formed mask with the assigned lanes, whatever it contained (the elements above the lanes may
have any value, which is what every theorem on vector masks allows). -/
theorem C71_vec {w full : Nat} (hw : 0 < w) (hn : n ≤ full) (k : VMask w) (hk : k.length = full) {ws : List (Nat × Bool)} (h : AllWritten n ws) :
    VMask.Wf n full (assign VMask.set k ws) ∧ VMask.lanes n (assign VMask.set k ws) = written n ws := by
  have hlen : ∀ (ws : List (Nat × Bool)) (k : VMask w), (assign VMask.set k ws).length = k.length := by
    intro ws
    induction ws with
    | nil => intro k; rfl
    | cons a ws ih => intro k; rw [show assign VMask.set k (a :: ws) = assign VMask.set (VMask.set k a.1 a.2) ws from rfl, ih]; simp [VMask.set]
  have key : ∀ (ws : List (Nat × Bool)), (∀ a ∈ ws, a.1 < n) → ∀ (k : VMask w), k.length = full → ∀ j,
      (assign VMask.set k ws)[j]? = if ws.any (fun a => a.1 == j) then some (VMask.elem w (lastWritten ws j)) else k[j]? := by
    intro ws
    induction ws with
    | nil => intro _ k _ j; rfl
    | cons a ws ih =>
      obtain ⟨i, b⟩ := a
      intro hws k hk j
      have hi := hws (i, b) (by simp)
      rw [show assign VMask.set k ((i, b) :: ws) = assign VMask.set (VMask.set k i b) ws from rfl,
        ih (fun a ha => hws a (by simp [ha])) _ (by simp [VMask.set, hk])]
      by_cases hj : ws.any (fun a => a.1 == j) = true
      · simp [hj, lastWritten]
      · by_cases hij : i = j
        · subst hij
          have : i < k.length := by omega
          simp [hj, VMask.set, VMask.neg_ofBool hw, lastWritten, this]
        · simp [hj, VMask.set, hij]
  have hj : ∀ j < n, (assign VMask.set k ws)[j]? = some (VMask.elem w (lastWritten ws j)) := by
    intro j hj
    rw [key ws h.1 k hk, any_written h hj]; rfl
  constructor
  · refine ⟨by rw [hlen, hk], fun v hv => ?_⟩
    obtain ⟨j, hj'⟩ := List.mem_iff_getElem?.1 hv
    have hjn : j < n := by
      refine Nat.lt_of_not_le fun hc => ?_
      rw [List.getElem?_eq_none (by simp; omega)] at hj'
      exact absurd hj' (by simp)
    rw [List.getElem?_take_of_lt hjn, hj j hjn] at hj'
    have := Option.some.inj hj'
    rw [← this]
    unfold VMask.elem
    cases lastWritten ws j <;> simp
  · refine List.ext_getElem? fun i => ?_
    unfold VMask.lanes written
    by_cases hi : i < n
    · rw [List.getElem?_map, List.getElem?_take_of_lt hi, hj i hi]
      simp [hi, VMask.elem_ne_zero hw]
    · rw [List.getElem?_eq_none (by simp; omega), List.getElem?_eq_none (by simp; omega)]

/-- C71. Vector masks: the reductions (the generic implementation; those of x86 are `C31_x86_reductions`) agree with the assigned lanes. -/
theorem C71_vec_reductions {w full : Nat} (hw : 8 ≤ w) (h64 : n ≤ 64) (hn : n ≤ full) (k : VMask w) (hk : k.length = full) {ws : List (Nat × Bool)}
    (h : AllWritten n ws) :
    (VMask.allOf n (assign VMask.set k ws) = true ↔ allOf (written n ws)) ∧
    (VMask.anyOf n (assign VMask.set k ws) = true ↔ anyOf (written n ws)) ∧
    (VMask.noneOf n (assign VMask.set k ws) = true ↔ noneOf (written n ws)) ∧
    (VMask.someOf n (assign VMask.set k ws) = true ↔ someOf (written n ws)) ∧
    VMask.popcount n (assign VMask.set k ws) = (popcount (written n ws) : Int) := by
  obtain ⟨h2, h3⟩ := C71_vec (by omega) hn k hk h
  have ha := C31_vec_all_any_none (by omega) hn h2
  have hs := C31_vec_some_of hw h64 hn h2
  have hp := C31_vec_popcount hw h64 hn h2
  rw [h3] at ha hs hp
  exact ⟨ha.1, ha.2.1, ha.2.2, hs, hp⟩

/-- C71. `to_fixed_size(mask)`: reading the result gives the lanes of the argument. -/
theorem C71_to_fixed_size (h1 : 1 ≤ n) (junk : FixedMask.Member n) {sub : Nat → Option Bool} {bs : List Bool} (hl : bs.length = n)
    (hs : ∀ i < n, sub i = bs[i]?) :
    ∃ r, toFixedSize junk sub = some r ∧ r.lanes = bs ∧ r = assign FixedMask.set junk ((List.range n).map (fun i => (i, bit bs i))) := by
  have key : ∀ (l : List Nat), (∀ i ∈ l, i < n) → ∀ (r : FixedMask.Member n),
      l.foldlM (fun (r : FixedMask.Member n) (i : Nat) => do let b ← sub i; pure (FixedMask.set r i b)) r =
        some (assign FixedMask.set r (l.map (fun i => (i, bit bs i)))) := by
    intro l
    induction l with
    | nil => intro _ r; rfl
    | cons i l ih =>
      intro hl' r
      have hi := hl' i (by simp)
      rw [List.foldlM_cons, hs i hi, List.getElem?_eq_getElem (by omega)]
      show l.foldlM _ (FixedMask.set r i bs[i]) = _
      rw [ih (fun j hj => hl' j (by simp [hj]))]
      simp [assign, bit, List.getElem?_eq_getElem (show i < bs.length by omega)]
  refine ⟨_, key _ (fun i hi => List.mem_range.1 hi) junk, ?_, rfl⟩
  have hw : AllWritten n ((List.range n).map (fun i => (i, bit bs i))) :=
    ⟨by simp, fun i hi => ⟨bit bs i, List.mem_map.2 ⟨i, List.mem_range.2 hi, rfl⟩⟩⟩
  rw [C71_fixed_lanes h1 _ hw]
  refine List.ext_getElem? fun i => ?_
  unfold written
  by_cases hi : i < n
  · have hlast : ∀ (l : List Nat), i ∈ l → lastWritten (l.map (fun i => (i, bit bs i))) i = bit bs i := by
      intro l
      induction l with
      | nil => simp
      | cons j l ih =>
        intro hm
        simp only [List.map_cons, lastWritten]
        by_cases hil : i ∈ l
        · rw [if_pos (by simpa using hil), ih hil]
        · rw [if_neg (by simpa using hil)]
          rcases List.mem_cons.1 hm with rfl | hm
          · simp
          · exact absurd hm hil
    rw [List.getElem?_map, List.getElem?_range hi, Option.map_some, hlast _ (List.mem_range.2 hi)]
    simp [bit, List.getElem?_eq_getElem (show i < bs.length by omega)]
  · rw [List.getElem?_eq_none (by simp; omega), List.getElem?_eq_none (by omega)]

/-- C71, negation.  `to_fixed_size` declares its result without initialiser.  `to_fixed_size` of a mask with 4 lanes that are all set (`simd_mask<float>` on x86) can
return a mask for which `all_of` is false although every lane reads as `true`. -/
theorem C71_to_fixed_size_wrong :
    ∃ (junk r : FixedMask.Member 4), toFixedSize junk (fun i => [true, true, true, true][i]?) = some r ∧ r.lanes = [true, true, true, true] ∧
      FixedMask.allOf r = false ∧ FixedMask.popcount r ≠ 4 := by
  refine ⟨⟨[0xf0#8], rfl⟩, ⟨[0xff#8], rfl⟩, by rfl, by decide, by decide, by decide⟩

/-- C71, negation.  `find_last_set` of an AVX-512 mask of two lanes that were both assigned. -/
theorem C71_k_find_last_set_wrong :
    ∃ k : KMask 2, ¬ ∃ i : Nat, KMask.findLastSet (assign KMask.set k [(0, true), (1, false)]) = i ∧
      IsLastSet (written 2 [(0, true), (1, false)]) i := by
  refine ⟨0x80#8, ?_⟩
  rintro ⟨i, h, hi⟩
  have e : KMask.findLastSet (assign (KMask.set (n := 2)) (0x80#8 : KMask 2) [(0, true), (1, false)]) = 7 := by decide
  rw [e] at h
  have : i = 7 := by omega
  subst this
  exact absurd hi.1 (by decide)

example : AllWritten 3 [(1, false), (0, true), (1, true), (2, false)] ∧ written 3 [(1, false), (0, true), (1, true), (2, false)] = [true, true, false] := by
  refine ⟨⟨by decide, fun i hi => ?_⟩, by decide⟩
  have : i = 0 ∨ i = 1 ∨ i = 2 := by omega
  rcases this with rfl | rfl | rfl
  · exact ⟨true, by decide⟩
  · exact ⟨true, by decide⟩
  · exact ⟨false, by decide⟩
example : unusedBits 8 = 0 ∧ unusedBits 16 = 0 ∧ unusedBits 32 = 0 ∧ unusedBits 64 = 0 ∧ 0 < unusedBits 3 ∧ 0 < unusedBits 12 := by decide

end StdSimd.Props
