import Verif.Proofs.FixedMask
/-!
# Property theorems about bit masks and `fixed_size` masks  (C03, C04, C05, C06, C13m, C14m, C36)

`k.lanes` is the list of the `n` Booleans the user sees; `Clean` says that no bit at a position `≥ n` is
set.  Both are defined at the top of `Verif/Model/BitMask.lean`; the right-hand sides are `Spec.*`.
-/
namespace StdSimd.Props
open StdSimd BitMask

variable {n m : Nat} {s s' : Bool}

/-! ## C05: queries depend on the `n` lanes only -/

/-- C05. `all()` is the conjunction of the `n` lanes. For an unsanitised mask there is no hypothesis on the
unused bits; for a sanitised mask the promise `Clean` is assumed. -/
theorem C05_all (h1 : 1 ≤ n) (x : BitMask n s) (hx : s = true → x.Clean) :
    x.all = true ↔ Spec.allOf x.lanes := by
  rw [all_iff h1 x hx]
  simp only [Spec.allOf, lanes, List.mem_map, List.mem_range]
  exact ⟨fun h b ⟨i, hi, e⟩ => e ▸ h i hi, fun h i hi => h _ ⟨i, hi, rfl⟩⟩

/-- C05. `none()`. -/
theorem C05_none (h1 : 1 ≤ n) (x : BitMask n s) (hx : s = true → x.Clean) :
    x.isNone = true ↔ Spec.noneOf x.lanes := by
  rw [isNone_iff h1 x hx]
  simp only [Spec.noneOf, lanes, List.mem_map, List.mem_range]
  exact ⟨fun h b ⟨i, hi, e⟩ => e ▸ h i hi, fun h i hi => h _ ⟨i, hi, rfl⟩⟩

/-- C05. `any()`. -/
theorem C05_any (h1 : 1 ≤ n) (x : BitMask n s) (hx : s = true → x.Clean) :
    x.any = true ↔ Spec.anyOf x.lanes := by
  rw [any_eq, Bool.not_eq_true', ← Bool.not_eq_true, C05_none h1 x hx]
  simp [Spec.noneOf, Spec.anyOf]

/-- C05. `operator[]` returns the lane for every index in range. -/
theorem C05_subscript (h1 : 1 ≤ n) (x : BitMask n s) {i : Nat} (hi : i < n) :
    x.get i = x.lanes[i]? := by
  rw [get_eq h1 x hi, lanes_getElem?, if_pos hi]

/-- C05 (partial). `count()` is the number of set lanes *for sanitised masks* and for one-bit masks. Missing:
the unsanitised type, where the code is wrong, see `C05_count_unsanitised_wrong`. -/
theorem C05_count_partial (h1 : 1 ≤ n) (x : BitMask n s) (hx : x.Clean) (hs : s = true ∨ n = 1) :
    x.count = Spec.popcount x.lanes := by
  unfold count Spec.popcount
  rw [← popcount_lanes]
  split
  · exact sum_popcount_eq h1 x hx
  · rcases hs with hs | hs
    · subst hs; exact sum_popcount_eq h1 x hx
    · contradiction

/-- C05, negation. For the unsanitised type the code returns the result of `none()` instead of a count:
a two-lane mask with both lanes set counts 0, an empty one counts 1. -/
theorem C05_count_unsanitised_wrong :
    (∃ x : BitMask 2 false, Spec.popcount x.lanes = 2 ∧ x.count = 0) ∧
    (∃ x : BitMask 2 false, Spec.popcount x.lanes = 0 ∧ x.count = 1) :=
  ⟨⟨ofULL 2 false 3, by decide⟩, ⟨ofULL 2 false 0, by decide⟩⟩

/-- The exact value computed by the wrong branch. -/
theorem C05_count_unsanitised_value (h1 : 1 ≤ n) (hn : n ≠ 1) (x : BitMask n false) :
    (Spec.noneOf x.lanes → x.count = 1) ∧ (¬ Spec.noneOf x.lanes → x.count = 0) := by
  have hc : ∀ i, x.sanitized.lane i = (x.lane i && decide (i < n)) := lane_sanitized h1 x
  have key : x.sanitized.isNone = true ↔ Spec.noneOf x.lanes := by
    rw [C05_none h1 _ (fun _ => clean_sanitized h1 x)]
    have : x.sanitized.lanes = x.lanes := by
      unfold lanes; apply List.map_congr_left; intro i hi; rw [hc]; simp [List.mem_range.1 hi]
    rw [this]
  unfold count
  simp only [hn, if_false, Bool.false_eq_true]
  constructor
  · intro h; rw [key.2 h]; rfl
  · intro h
    have : x.sanitized.isNone = false := by rw [← Bool.not_eq_true, key]; exact h
    rw [this]; rfl

-- non-vacuity: a 70-lane unsanitised mask with garbage in the unused bits
example : (1 ≤ 70) ∧ (ofULL 70 false 0xffff).any = true ∧ (ofULL 70 false 0xffff).all = false := by decide
-- a 10-lane unsanitised mask whose unused bits are set: still "none"
example : (ofULL 10 false 0xfc00).isNone = true ∧ ¬ (ofULL 10 false 0xfc00).Clean :=
  ⟨by decide, fun h => absurd (h 10 (by omega)) (by decide)⟩
example : (ofULL 10 true 0x2a5).Clean ∧ (ofULL 10 true 0x2a5).count = 5 := by
  refine ⟨fun i hi => ?_, by decide⟩
  rw [lane_ofULL_single (by omega) (by omega)]
  have hlt : (0x2a5#64).toNat < 2 ^ i :=
    Nat.lt_of_lt_of_le (by decide : (0x2a5#64).toNat < 2 ^ 10) (Nat.pow_le_pow_right (by omega) hi)
  have : (0x2a5#64).getLsbD i = false := Nat.testBit_lt_two_pow hlt
  simp [this]

/-! ## C03: reductions of `fixed_size` masks -/

open FixedMask

/-- C03. `all_of`. -/
theorem C03_all_of (h1 : 1 ≤ n) (k : Member n) (hk : k.Clean) :
    FixedMask.allOf k = true ↔ Spec.allOf k.lanes := C05_all h1 k (fun _ => hk)
/-- C03. `any_of`. -/
theorem C03_any_of (h1 : 1 ≤ n) (k : Member n) (hk : k.Clean) :
    FixedMask.anyOf k = true ↔ Spec.anyOf k.lanes := C05_any h1 k (fun _ => hk)
/-- C03. `none_of`. -/
theorem C03_none_of (h1 : 1 ≤ n) (k : Member n) (hk : k.Clean) :
    FixedMask.noneOf k = true ↔ Spec.noneOf k.lanes := C05_none h1 k (fun _ => hk)

/-- C03. `some_of`. -/
theorem C03_some_of (h1 : 1 ≤ n) (k : Member n) (hk : k.Clean) :
    FixedMask.someOf k = true ↔ Spec.someOf k.lanes := by
  unfold FixedMask.someOf Spec.someOf
  split
  · subst_vars
    simp only [Bool.false_eq_true, false_iff, mem_lanes]
    rintro ⟨⟨i, hi, h⟩, ⟨j, hj, h'⟩⟩
    rw [show i = 0 by omega] at h
    rw [show j = 0 by omega, h] at h'
    exact Bool.noConfusion h'
  · rw [Bool.and_eq_true, C05_any h1 k (fun _ => hk), Bool.not_eq_true', ← Bool.not_eq_true,
      C05_all h1 k (fun _ => hk)]
    simp [Spec.anyOf, Spec.allOf]

/-- C03. `popcount`. -/
theorem C03_popcount (h1 : 1 ≤ n) (k : Member n) (hk : k.Clean) :
    FixedMask.popcount k = Spec.popcount k.lanes := C05_count_partial h1 k hk (.inl rfl)

/-- C03. `find_first_set` returns the least set lane whenever some lane is set. -/
theorem C03_find_first_set (h1 : 1 ≤ n) (h64 : n ≤ 64) (k : Member n) (hk : k.Clean)
    (hne : Spec.anyOf k.lanes) :
    ∃ i, FixedMask.findFirstSet k = some i ∧ Spec.IsFirstSet k.lanes i := by
  obtain ⟨v, hv, hb⟩ := toULL_eq h1 h64 k
  obtain ⟨b, hbm, rfl⟩ := hne
  obtain ⟨j, hj, hjt⟩ := (mem_lanes k true).1 hbm
  have hv0 : v ≠ 0 := by
    intro h; have := hb j; rw [h, hjt] at this; simp at this
  obtain ⟨c1, c2, c3⟩ := ctz_spec v hv0
  have hcn : ctz v < n := by
    rcases Nat.lt_or_ge (ctz v) n with h | h
    · exact h
    · rw [hb, hk _ h] at c2; exact absurd c2 (by decide)
  refine ⟨ctz v, by unfold FixedMask.findFirstSet; rw [hv]; rfl, ?_, ?_⟩
  · rw [lanes_getElem?, if_pos hcn, ← hb, c2]
  · intro j hj
    rw [lanes_getElem?, if_pos (by omega), ← hb, c3 j hj]

/-- C03. `find_last_set` returns the greatest set lane whenever some lane is set. -/
theorem C03_find_last_set (h1 : 1 ≤ n) (h64 : n ≤ 64) (k : Member n) (hk : k.Clean)
    (hne : Spec.anyOf k.lanes) :
    ∃ i : Nat, FixedMask.findLastSet k = some (i : Int) ∧ Spec.IsLastSet k.lanes i := by
  obtain ⟨v, hv, hb⟩ := toULL_eq h1 h64 k
  obtain ⟨b, hbm, rfl⟩ := hne
  obtain ⟨j, hj, hjt⟩ := (mem_lanes k true).1 hbm
  have hv0 : v ≠ 0 := by
    intro h; have := hb j; rw [h, hjt] at this; simp at this
  obtain ⟨i, e, c2, c3⟩ := bitWidth_spec v hv0
  have hin : i < n := by
    rcases Nat.lt_or_ge i n with h | h
    · exact h
    · rw [hb, hk _ h] at c2; exact absurd c2 (by decide)
  refine ⟨i, by unfold FixedMask.findLastSet; rw [hv]; simp [e], ?_, ?_⟩
  · rw [lanes_getElem?, if_pos hin, ← hb, c2]
  · intro j hj
    rw [lanes_getElem?]
    split
    · rw [← hb, c3 j hj]; simp
    · simp

-- non-vacuity: lanes 0,2,5,7,9 of ten
example : FixedMask.findFirstSet (ofULL 10 true 0x2a4) = some 2 ∧
    FixedMask.findLastSet (ofULL 10 true 0x2a4) = some 9 ∧
    Spec.anyOf (ofULL 10 true 0x2a4).lanes := by
  refine ⟨by decide, by decide, true, by decide, rfl⟩

/-- C03. The branch used in constant evaluation computes the same `all_of`. -/
theorem C03_all_of_const (h1 : 1 ≤ n) (k : Member n) :
    ∃ b, FixedMask.allOfConst k = some b ∧ (b = true ↔ Spec.allOf k.lanes) := by
  have key : ∀ (l : List Nat) (acc : Bool), (∀ i ∈ l, i < n) →
      ∃ b, l.foldlM (fun acc i => do let b ← k.get i; pure (acc && b)) acc = some b ∧
        (b = true ↔ acc = true ∧ ∀ i ∈ l, k.lane i = true) := by
    intro l
    induction l with
    | nil => intro acc _; exact ⟨acc, rfl, by simp⟩
    | cons i l ih =>
      intro acc h
      obtain ⟨b, e, hb⟩ := ih (acc && k.lane i) (fun j hj => h j (by simp [hj]))
      refine ⟨b, ?_, ?_⟩
      · rw [List.foldlM_cons, get_eq h1 k (h i (by simp))]; simpa using e
      · rw [hb]; simp [and_assoc]
  obtain ⟨b, e, hb⟩ := key (List.range n) true (by simp)
  refine ⟨b, e, ?_⟩
  rw [hb]
  simp [Spec.allOf, lanes]

/-- C03. The branch used in constant evaluation computes the same `any_of`. -/
theorem C03_any_of_const (h1 : 1 ≤ n) (k : Member n) :
    ∃ b, FixedMask.anyOfConst k = some b ∧ (b = true ↔ Spec.anyOf k.lanes) := by
  have key : ∀ (l : List Nat) (acc : Bool), (∀ i ∈ l, i < n) →
      ∃ b, l.foldlM (fun acc i => do let b ← k.get i; pure (acc || b)) acc = some b ∧
        (b = true ↔ acc = true ∨ ∃ i ∈ l, k.lane i = true) := by
    intro l
    induction l with
    | nil => intro acc _; exact ⟨acc, rfl, by simp⟩
    | cons i l ih =>
      intro acc h
      obtain ⟨b, e, hb⟩ := ih (acc || k.lane i) (fun j hj => h j (by simp [hj]))
      refine ⟨b, ?_, ?_⟩
      · rw [List.foldlM_cons, get_eq h1 k (h i (by simp))]; simpa using e
      · rw [hb]; simp [or_assoc]
  obtain ⟨b, e, hb⟩ := key (List.range n) false (by simp)
  refine ⟨b, e, ?_⟩
  rw [hb]
  simp [Spec.anyOf, lanes]

/-- C03. The branch used in constant evaluation computes the same `some_of` (neighbouring lanes differ
somewhere iff both values occur). -/
theorem C03_some_of_const (h1 : 1 ≤ n) (k : Member n) :
    ∃ b, FixedMask.someOfConst k = some b ∧ (b = true ↔ Spec.someOf k.lanes) := by
  have key : ∀ (l : List Nat) (acc : Bool), (∀ i ∈ l, i + 1 < n) →
      ∃ b, l.foldlM (fun acc i => do
          let a ← k.get (i + 1); let b ← k.get i; pure (acc || (a != b))) acc = some b ∧
        (b = true ↔ acc = true ∨ ∃ i ∈ l, k.lane (i + 1) ≠ k.lane i) := by
    intro l
    induction l with
    | nil => intro acc _; exact ⟨acc, rfl, by simp⟩
    | cons i l ih =>
      intro acc h
      have hi := h i (by simp)
      obtain ⟨b, e, hb⟩ := ih (acc || (k.lane (i + 1) != k.lane i)) (fun j hj => h j (by simp [hj]))
      refine ⟨b, ?_, ?_⟩
      · rw [List.foldlM_cons, get_eq h1 k hi, get_eq h1 k (show i < n by omega)]; simpa using e
      · rw [hb]; simp [or_assoc]
  obtain ⟨b, e, hb⟩ := key (List.range (n - 1)) false (by simp; omega)
  refine ⟨b, e, ?_⟩
  rw [hb]
  simp only [Bool.false_eq_true, false_or, List.mem_range, Spec.someOf, mem_lanes]
  constructor
  · rintro ⟨i, hi, hne⟩
    cases h1 : k.lane i with
    | true => exact ⟨⟨i, by omega, h1⟩, ⟨i + 1, by omega, by rw [h1] at hne; simpa using hne⟩⟩
    | false => exact ⟨⟨i + 1, by omega, by rw [h1] at hne; simpa using hne⟩, ⟨i, by omega, h1⟩⟩
  · rintro ⟨⟨i, hi, hit⟩, ⟨j, hj, hjf⟩⟩
    apply Classical.byContradiction
    intro hcon
    have hstep : ∀ q, q + 1 < n → k.lane (q + 1) = k.lane q := by
      intro q hq
      apply Classical.byContradiction
      intro h
      exact hcon ⟨q, by omega, h⟩
    have hconst : ∀ q, q < n → k.lane q = k.lane 0 := by
      intro q
      induction q with
      | zero => intro _; rfl
      | succ q ih => intro hq; rw [hstep q hq, ih (by omega)]
    rw [hconst i hi] at hit
    rw [hconst j hj, hit] at hjf
    exact absurd hjf (by decide)

-- non-vacuity: a clean ten-lane mask, lanes 2, 5, 7 and 9 set; every reduction of C03 applies to it
private theorem clean_2a4 : (ofULL 10 true 0x2a4).Clean := by
  intro i hi
  rw [lane_ofULL_single (by omega) (by omega)]
  have hlt : (0x2a4#64).toNat < 2 ^ i :=
    Nat.lt_of_lt_of_le (by decide : (0x2a4#64).toNat < 2 ^ 10) (Nat.pow_le_pow_right (by omega) hi)
  have : (0x2a4#64).getLsbD i = false := Nat.testBit_lt_two_pow hlt
  simp [this]
example : FixedMask.allOf (ofULL 10 true 0x2a4) = false ∧ ¬ Spec.allOf (ofULL 10 true 0x2a4).lanes :=
  ⟨by decide, fun h => absurd ((C03_all_of (by decide) _ clean_2a4).2 h) (by decide)⟩
example : FixedMask.anyOf (ofULL 10 true 0x2a4) = true ∧ Spec.anyOf (ofULL 10 true 0x2a4).lanes :=
  ⟨by decide, (C03_any_of (by decide) _ clean_2a4).1 (by decide)⟩
example : FixedMask.noneOf (ofULL 10 true 0x2a4) = false ∧ ¬ Spec.noneOf (ofULL 10 true 0x2a4).lanes :=
  ⟨by decide, fun h => absurd ((C03_none_of (by decide) _ clean_2a4).2 h) (by decide)⟩
example : FixedMask.someOf (ofULL 10 true 0x2a4) = true ∧ Spec.someOf (ofULL 10 true 0x2a4).lanes :=
  ⟨by decide, (C03_some_of (by decide) _ clean_2a4).1 (by decide)⟩
example : FixedMask.popcount (ofULL 10 true 0x2a4) = 4 ∧ Spec.popcount (ofULL 10 true 0x2a4).lanes = 4 :=
  ⟨by decide, (C03_popcount (by decide) _ clean_2a4) ▸ (by decide)⟩
example : FixedMask.allOfConst (ofULL 10 true 0x2a4) = some false ∧
    FixedMask.anyOfConst (ofULL 10 true 0x2a4) = some true ∧
    FixedMask.someOfConst (ofULL 10 true 0x2a4) = some true ∧
    FixedMask.someOfConst (ofULL 10 true 0x3ff) = some false := by decide

/-! ## C04: operators, and every history of operations -/

/-- A program building a mask from API operations. The leaves are broadcast masks and arbitrary given masks
(e.g. comparison results or loaded masks). -/
inductive MaskProg (n : Nat) where
  | given (k : Member n)
  | broadcast (b : Bool)
  | not (a : MaskProg n)
  | and (a b : MaskProg n)
  | or (a b : MaskProg n)
  | xor (a b : MaskProg n)
  | eq (a b : MaskProg n)
  | ne (a b : MaskProg n)
  | set (a : MaskProg n) (i : Fin n) (x : Bool)
  | whereAssign (k lhs rhs : MaskProg n)
  | whereAssignBool (k lhs : MaskProg n) (rhs : Bool)

/-- Execution on the implementation model. -/
def MaskProg.run : MaskProg n → Member n
  | given k => k
  | broadcast b => FixedMask.broadcast n b
  | not a => bitNot a.run
  | and a b => bitAnd a.run b.run
  | or a b => bitOr a.run b.run
  | xor a b => bitXor a.run b.run
  | eq a b => FixedMask.eq a.run b.run
  | ne a b => FixedMask.neq a.run b.run
  | set a i x => FixedMask.set a.run i x
  | whereAssign k l r => maskedAssign k.run l.run r.run
  | whereAssignBool k l r => maskedAssignBool k.run l.run r

/-- Execution on plain lists of Booleans. -/
def MaskProg.spec : MaskProg n → List Bool
  | given k => k.lanes
  | broadcast b => List.replicate n b
  | not a => a.spec.map (!·)
  | and a b => List.zipWith (· && ·) a.spec b.spec
  | or a b => List.zipWith (· || ·) a.spec b.spec
  | xor a b => List.zipWith (fun p q => p != q) a.spec b.spec
  | eq a b => List.zipWith (fun p q => p == q) a.spec b.spec
  | ne a b => List.zipWith (fun p q => p != q) a.spec b.spec
  | set a i x => a.spec.set i x
  | whereAssign k l r => Spec.select k.spec r.spec l.spec
  | whereAssignBool k l r => Spec.select k.spec (List.replicate n r) l.spec

/-- All given masks carry no phantom bits. -/
def MaskProg.GivenClean : MaskProg n → Prop
  | given k => k.Clean
  | broadcast _ => True
  | not a => a.GivenClean
  | and a b | or a b | xor a b | eq a b | ne a b => a.GivenClean ∧ b.GivenClean
  | set a _ _ => a.GivenClean
  | whereAssign k l r => k.GivenClean ∧ l.GivenClean ∧ r.GivenClean
  | whereAssignBool k l _ => k.GivenClean ∧ l.GivenClean

theorem MaskProg.length_spec (p : MaskProg n) : p.spec.length = n := by
  induction p <;> simp_all [MaskProg.spec, Spec.select]

/-- C04. Every mask program computes, lane by lane, the Boolean operations, and its result has no set bit
beyond lane `n - 1`. -/
theorem C04_mask_programs (h1 : 1 ≤ n) (p : MaskProg n) (hp : p.GivenClean) :
    p.run.Clean ∧ p.run.lanes = p.spec := by
  suffices h : p.run.Clean ∧ ∀ i (hi : i < n), p.run.lane i = p.spec[i]'(by rw [p.length_spec]; exact hi) from
    ⟨h.1, lanes_ext _ _ p.length_spec h.2⟩
  induction p with
  | given k => exact ⟨hp, fun i hi => by simp [MaskProg.run, MaskProg.spec, lanes]⟩
  | broadcast b =>
    cases b with
    | false => exact ⟨fun i _ => lane_zero i, fun i hi => by simp [MaskProg.run, MaskProg.spec, FixedMask.broadcast, lane_zero]⟩
    | true =>
      exact ⟨clean_not h1 _ (fun i _ => lane_zero i), fun i hi => by
        simp [MaskProg.run, MaskProg.spec, FixedMask.broadcast, lane_not h1 _ hi, lane_zero]⟩
  | not a iha =>
    have ⟨ca, la⟩ := iha hp
    exact ⟨clean_not h1 _ ca, fun i hi => by simp [MaskProg.run, MaskProg.spec, bitNot, lane_not h1 _ hi, la i hi]⟩
  | and a b iha ihb =>
    have ⟨ca, la⟩ := iha hp.1
    have ⟨cb, lb⟩ := ihb hp.2
    exact ⟨fun i hi => by simp [MaskProg.run, bitAnd, lane_and, ca i hi],
      fun i hi => by simp [MaskProg.run, MaskProg.spec, bitAnd, lane_and, la i hi, lb i hi]⟩
  | or a b iha ihb =>
    have ⟨ca, la⟩ := iha hp.1
    have ⟨cb, lb⟩ := ihb hp.2
    exact ⟨fun i hi => by simp [MaskProg.run, bitOr, lane_or, ca i hi, cb i hi],
      fun i hi => by simp [MaskProg.run, MaskProg.spec, bitOr, lane_or, la i hi, lb i hi]⟩
  | xor a b iha ihb =>
    have ⟨ca, la⟩ := iha hp.1
    have ⟨cb, lb⟩ := ihb hp.2
    exact ⟨fun i hi => by simp [MaskProg.run, bitXor, lane_xor, ca i hi, cb i hi],
      fun i hi => by simp [MaskProg.run, MaskProg.spec, bitXor, lane_xor, la i hi, lb i hi]⟩
  | ne a b iha ihb =>
    have ⟨ca, la⟩ := iha hp.1
    have ⟨cb, lb⟩ := ihb hp.2
    exact ⟨fun i hi => by simp [MaskProg.run, neq, bitXor, lane_xor, ca i hi, cb i hi],
      fun i hi => by simp [MaskProg.run, MaskProg.spec, neq, bitXor, lane_xor, la i hi, lb i hi]⟩
  | eq a b iha ihb =>
    have ⟨ca, la⟩ := iha hp.1
    have ⟨cb, lb⟩ := ihb hp.2
    refine ⟨clean_not h1 _ (fun i hi => by simp [neq, bitXor, lane_xor, ca i hi, cb i hi]), fun i hi => ?_⟩
    simp only [MaskProg.run, MaskProg.spec, FixedMask.eq, bitNot, lane_not h1 _ hi, neq, bitXor, lane_xor,
      la i hi, lb i hi, List.getElem_zipWith]
    cases a.spec[i]'(by rw [a.length_spec]; exact hi) <;> cases b.spec[i]'(by rw [b.length_spec]; exact hi) <;> rfl
  | set a j x iha =>
    have ⟨ca, la⟩ := iha hp
    refine ⟨clean_set h1 _ ca j.isLt x, fun i hi => ?_⟩
    simp [MaskProg.run, MaskProg.spec, FixedMask.set, lane_set h1 _ j.isLt, List.getElem_set, la i hi]
  | whereAssign k l r ihk ihl ihr =>
    have ⟨ck, lk⟩ := ihk hp.1
    have ⟨cl, ll⟩ := ihl hp.2.1
    have ⟨cr, lr⟩ := ihr hp.2.2
    refine ⟨fun i hi => ?_, fun i hi => ?_⟩
    · simp [MaskProg.run, maskedAssign, lane_or, lane_and, cl i hi, cr i hi]
    · simp only [MaskProg.run, MaskProg.spec, maskedAssign, lane_or, lane_and, lane_not h1 _ hi, lk i hi, ll i hi,
        lr i hi, Spec.select, List.getElem_zipWith, List.getElem_zip]
      cases k.spec[i]'(by rw [k.length_spec]; exact hi) <;> simp
  | whereAssignBool k l r ihk ihl =>
    have ⟨ck, lk⟩ := ihk hp.1
    have ⟨cl, ll⟩ := ihl hp.2
    cases r with
    | true =>
      refine ⟨fun i hi => ?_, fun i hi => ?_⟩
      · simp [MaskProg.run, maskedAssignBool, lane_or, cl i hi, ck i hi]
      · simp only [MaskProg.run, MaskProg.spec, maskedAssignBool, lane_or, lk i hi, ll i hi, if_true, Spec.select,
          List.getElem_zipWith, List.getElem_zip, List.getElem_replicate]
        cases k.spec[i]'(by rw [k.length_spec]; exact hi) <;> simp
    | false =>
      refine ⟨fun i hi => ?_, fun i hi => ?_⟩
      · simp [MaskProg.run, maskedAssignBool, lane_and, cl i hi]
      · simp only [MaskProg.run, MaskProg.spec, maskedAssignBool, lane_and, lane_not h1 _ hi, lk i hi, ll i hi,
          if_false, Spec.select, List.getElem_zipWith, List.getElem_zip, List.getElem_replicate, Bool.false_eq_true]
        cases k.spec[i]'(by rw [k.length_spec]; exact hi) <;> simp

-- non-vacuity: a program without given masks meets the hypothesis, and computes something non-trivial
example : (MaskProg.whereAssign (.set (.broadcast false) (2 : Fin 9) true) (.broadcast false)
    (.not (.broadcast false)) : MaskProg 9).GivenClean ∧
    (MaskProg.whereAssign (.set (.broadcast false) (2 : Fin 9) true) (.broadcast false)
    (.not (.broadcast false)) : MaskProg 9).run.lanes =
      [false, false, true, false, false, false, false, false, false] := by
  constructor
  · simp [MaskProg.GivenClean]
  · decide

/-- C03+C04 combined: the reductions applied to the result of any mask program agree with the reductions of
the Boolean list. -/
theorem C04_reductions_of_programs (h1 : 1 ≤ n) (p : MaskProg n) (hp : p.GivenClean) :
    (FixedMask.allOf p.run = true ↔ Spec.allOf p.spec) ∧ (FixedMask.anyOf p.run = true ↔ Spec.anyOf p.spec) ∧
    (FixedMask.noneOf p.run = true ↔ Spec.noneOf p.spec) ∧ (FixedMask.someOf p.run = true ↔ Spec.someOf p.spec) ∧
    FixedMask.popcount p.run = Spec.popcount p.spec := by
  obtain ⟨hc, hl⟩ := C04_mask_programs h1 p hp
  rw [← hl]
  exact ⟨C03_all_of h1 _ hc, C03_any_of h1 _ hc, C03_none_of h1 _ hc, C03_some_of h1 _ hc, C03_popcount h1 _ hc⟩

/-! ## C06: append and extract -/

/-- C06. `_M_prepend`: the lanes of the result are the low part followed by the high part; a sanitised high
part gives a result without phantom bits; the low part may be unsanitised. -/
theorem C06_prepend (hn : 1 ≤ n) (hm : 1 ≤ m) (h : n + m ≤ 64) (x : BitMask n s) (l : BitMask m s')
    (hl : s' = true → l.Clean) :
    ∃ r, x.prepend l = some r ∧ r.lanes = l.lanes ++ x.lanes ∧ (x.Clean → r.Clean) := by
  obtain ⟨r, hr, h1, _⟩ := lane_prepend hn hm h x l
  refine ⟨r, hr, ?_, fun hx => clean_prepend hn hm h x l hx hl r hr⟩
  apply lanes_ext
  · intro i hi
    have hge := wordBits_ge (n := n + m) (by omega) h
    by_cases him : i < m
    · rw [h1 i him, List.getElem_append_left (by simpa using him), lanes_getElem]
    · rw [lane_prepend_ge hn hm h x l hl r hr (by omega) (by omega),
        List.getElem_append_right (by simpa using him), lanes_getElem]
      simp
  · simp; omega

/-- C06. `_M_extract<drop, new>`: the lanes of the result are the lanes `drop .. drop+new-1`; if the result
type is marked sanitised then it has no phantom bits. -/
theorem C06_extract (h1 : 1 ≤ n) (x : BitMask n s) (hx : s = true → x.Clean) {drop new : Nat}
    (hnew : 1 ≤ new) (hfit : drop + new ≤ n) (h64 : drop + new ≤ 64) :
    ∃ r, x.extract drop new = some r ∧ r.lanes = (x.lanes.drop drop).take new ∧
      (extractSan n s drop new = true → r.Clean) := by
  obtain ⟨r, hr, hl, hc⟩ := extract_spec h1 x hx (show drop < n by omega) hnew h64
  refine ⟨r, hr, ?_, hc⟩
  apply lanes_ext
  · intro i hi
    rw [hl i hi (by omega)]
    simp [lanes_getElem]
  · simp; omega

/-- C06. Splitting and re-appending restores the mask. -/
theorem C06_split_append (x : BitMask n true) (hx : x.Clean) {d : Nat} (hd : 1 ≤ d) (hdn : d < n)
    (h64 : n ≤ 64) :
    ∃ lo hi r, x.extract 0 d = some lo ∧ x.extract d (n - d) = some hi ∧ hi.prepend lo = some r ∧
      r.lanes = x.lanes := by
  obtain ⟨lo, e1, l1, c1⟩ := C06_extract (show 1 ≤ n by omega) x (fun _ => hx) hd (show 0 + d ≤ n by omega) (by omega)
  obtain ⟨hi, e2, l2, c2⟩ := C06_extract (show 1 ≤ n by omega) x (fun _ => hx) (drop := d) (new := n - d)
    (by omega) (by omega) (by omega)
  obtain ⟨r, e3, l3, _⟩ := C06_prepend (n := n - d) (m := d) (by omega) hd (by omega) hi lo c1
  refine ⟨lo, hi, r, e1, e2, e3, ?_⟩
  rw [l3, l1, l2]
  have : (x.lanes.drop d).take (n - d) = x.lanes.drop d := by
    apply List.take_of_length_le; simp
  rw [this, List.drop_zero, List.take_append_drop]

example : (extractSan 32 false 8 24 = true) ∧ (extractSan 12 false 4 4 = false) ∧ (extractSan 12 true 4 8 = true) := by
  decide
example : ∃ r, (ofULL 12 true 0xabc).extract 4 8 = some r ∧ r.lanes = [true, true, false, true, false, true, false, true] :=
  ⟨_, rfl, by decide⟩

/-! ## C36: iteration over the set lanes -/

/-- C36. `_S_bit_iteration` calls its functor exactly with the indices of the set bits, each once, in
increasing order (termination is part of the definition of `bitIteration`). -/
theorem C36_bit_iteration {w : Nat} (k : BitVec w) :
    bitIteration k = (List.range w).filter (fun i => k.getLsbD i) := bitIteration_eq k

/-- C36, for a `fixed_size` mask: the visited indices are the set lanes. -/
theorem C36_mask_iteration (h1 : 1 ≤ n) (h64 : n ≤ 64) (k : Member n) (hk : k.Clean) :
    ∃ v, k.toULL = some v ∧ bitIteration v = Spec.setLanes k.lanes := by
  obtain ⟨v, hv, hb⟩ := toULL_eq h1 h64 k
  refine ⟨v, hv, ?_⟩
  rw [bitIteration_eq]
  unfold Spec.setLanes
  obtain ⟨d, hd⟩ : ∃ d, 64 = n + d := ⟨64 - n, by omega⟩
  have hsplit : (List.range 64).filter (fun i => v.getLsbD i) = (List.range n).filter (fun i => v.getLsbD i) := by
    have hr : List.range 64 = List.range n ++ (List.range d).map (n + ·) := by rw [hd, List.range_add]
    rw [hr, List.filter_append]
    have : ((List.range d).map (n + ·)).filter (fun i => v.getLsbD i) = [] := by
      rw [List.filter_eq_nil_iff]
      intro a ha
      obtain ⟨b, _, rfl⟩ := List.mem_map.1 ha
      rw [hb, hk _ (by omega)]; simp
    rw [this, List.append_nil]
  rw [hsplit, length_lanes]
  apply List.filter_congr
  intro i hi
  rw [lanes_getElem?, if_pos (List.mem_range.1 hi), hb]
  cases k.lane i <;> simp

example : bitIteration (0b1010010#32) = [1, 4, 6] := by
  rw [C36_bit_iteration]; decide

/-! ## C13 / C14 for masks: masked load and store of a bool array -/

/-- C13 for masks. `where(mask, merge).copy_from(mem)` on a fixed_size mask: defined as soon as the *selected*
elements are mapped; the result takes the loaded value exactly in the selected lanes, keeps the others and has
no phantom bits. -/
theorem C13_mask_masked_load (h1 : 1 ≤ n) (h64 : n ≤ 64) (merge mask : Member n) (hmerge : merge.Clean)
    (hmask : mask.Clean) (mem : Mem Bool) (base : Nat) (f : Nat → Bool)
    (hmem : ∀ i < n, mask.lane i = true → mem (base + i) = some (f i)) :
    ∃ r, maskedLoad merge mask mem base = some r ∧ r.Clean ∧
      r.lanes = Spec.select mask.lanes ((List.range n).map f) merge.lanes := by
  obtain ⟨v, hv, hb⟩ := toULL_eq h1 h64 mask
  have hmem' : ∀ i ∈ bitIteration v, i < n ∧ mask.lane i = true := by
    intro i hi
    rw [bitIteration_eq, List.mem_filter, hb] at hi
    refine ⟨?_, hi.2⟩
    rcases Nat.lt_or_ge i n with h | h
    · exact h
    · have := hmask i h; rw [this] at hi; exact absurd hi.2 (by decide)
  have hfold : ∀ (l : List Nat) (r : Member n), (∀ i ∈ l, i < n) → r.Clean →
      (l.foldl (fun r i => r.set i (f i)) r).Clean ∧
      ∀ j, (l.foldl (fun r i => r.set i (f i)) r).lane j = if j ∈ l then f j else r.lane j := by
    intro l
    induction l with
    | nil => intro r _ hr; exact ⟨hr, by simp⟩
    | cons i l ih =>
      intro r hl hr
      have hi := hl i (by simp)
      obtain ⟨c, e⟩ := ih (r.set i (f i)) (fun j hj => hl j (by simp [hj])) (clean_set h1 r hr hi _)
      refine ⟨c, fun j => ?_⟩
      rw [List.foldl_cons, e j, lane_set h1 r hi]
      by_cases hij : i = j
      · subst hij; simp
      · by_cases hjl : j ∈ l
        · simp [hjl]
        · simp [hjl, hij, Ne.symm hij]
  obtain ⟨c, e⟩ := hfold (bitIteration v) merge (fun i hi => (hmem' i hi).1) hmerge
  refine ⟨_, ?_, c, ?_⟩
  · unfold maskedLoad
    rw [hv]
    exact foldlM_read (fun (r : Member n) i b => r.set i b) base _ mem f
      (fun i hi => hmem i (hmem' i hi).1 (hmem' i hi).2) merge
  · apply lanes_ext
    · intro i hi
      rw [e i]
      have : i ∈ bitIteration v ↔ mask.lane i = true := by
        rw [bitIteration_eq, List.mem_filter, hb]; simp; omega
      simp only [Spec.select, List.getElem_zipWith, List.getElem_zip, lanes_getElem, List.getElem_map,
        List.getElem_range, this]
    · simp [Spec.select]

/-- C14 for masks. `where(k, v).copy_to(mem)` on a fixed_size mask writes exactly the selected elements and
leaves every other cell of the whole memory unchanged. -/
theorem C14_mask_masked_store (h1 : 1 ≤ n) (h64 : n ≤ 64) (v k : Member n) (hk : k.Clean) (mem : Mem Bool)
    (base : Nat) (hmem : ∀ i < n, k.lane i = true → (mem (base + i)).isSome) :
    ∃ mem', maskedStore v mem base k = some mem' ∧
      (∀ i < n, k.lane i = true → mem' (base + i) = some (v.lane i)) ∧
      (∀ a, (¬ ∃ i < n, k.lane i = true ∧ a = base + i) → mem' a = mem a) := by
  obtain ⟨w, hv, hb⟩ := toULL_eq h1 h64 k
  have hin : ∀ i, i ∈ bitIteration w ↔ i < n ∧ k.lane i = true := by
    intro i
    rw [bitIteration_eq, List.mem_filter, hb]
    constructor
    · rintro ⟨_, h⟩
      refine ⟨?_, h⟩
      rcases Nat.lt_or_ge i n with h' | h'
      · exact h'
      · rw [hk i h'] at h; exact absurd h (by decide)
    · rintro ⟨h, h'⟩
      exact ⟨by simp; omega, h'⟩
  obtain ⟨mem', e, hs⟩ := foldlM_write v.lane (fun i => v.get i) base (bitIteration w) mem
    (fun i hi => get_eq h1 v ((hin i).1 hi).1) (fun i hi => hmem i ((hin i).1 hi).1 ((hin i).1 hi).2)
  refine ⟨mem', by unfold maskedStore; rw [hv]; exact e, ?_, ?_⟩
  · intro i hi hki
    rw [hs, if_pos ⟨by omega, by rw [Nat.add_sub_cancel_left]; exact (hin i).2 ⟨hi, hki⟩⟩, Nat.add_sub_cancel_left]
  · intro a ha
    rw [hs, if_neg]
    rintro ⟨h1, h2⟩
    exact ha ⟨a - base, ((hin _).1 h2).1, ((hin _).1 h2).2, by omega⟩

-- non-vacuity: only lanes 1 and 3 of a 5-lane mask are selected; only cells 101 and 103 are mapped, and the
-- load is defined
example : ∃ r, maskedLoad (FixedMask.broadcast 5 true) (ofULL 5 true 0b01010)
    (fun a => if a = 101 ∨ a = 103 then some false else none) 100 = some r ∧
    r.lanes = [true, false, true, false, true] := by
  have hc : (ofULL 5 true 0b01010).Clean := by
    intro i hi
    rw [lane_ofULL_single (by omega) (by omega)]
    have hlt : (0b01010#64).toNat < 2 ^ i :=
      Nat.lt_of_lt_of_le (by decide : (0b01010#64).toNat < 2 ^ 5) (Nat.pow_le_pow_right (by omega) hi)
    have : (0b01010#64).getLsbD i = false := Nat.testBit_lt_two_pow hlt
    simp [this]
  have hm : (FixedMask.broadcast 5 true).Clean :=
    (C04_mask_programs (by omega) (MaskProg.broadcast true : MaskProg 5) trivial).1
  obtain ⟨r, e, _, l⟩ := C13_mask_masked_load (n := 5) (by omega) (by omega) (FixedMask.broadcast 5 true)
    (ofULL 5 true 0b01010) hm hc (fun a => if a = 101 ∨ a = 103 then some false else none) 100 (fun _ => false)
    (by decide)
  exact ⟨r, e, by rw [l]; decide⟩

-- the store: cells 101 and 103 change, cell 100 and 102 are not even mapped
example : ∃ mem', maskedStore (FixedMask.broadcast 5 true) (fun a => if a = 101 ∨ a = 103 then some false else none)
    100 (ofULL 5 true 0b01010) = some mem' ∧ mem' 101 = some true ∧ mem' 100 = none := by
  have hc : (ofULL 5 true 0b01010).Clean := by
    intro i hi
    rw [lane_ofULL_single (by omega) (by omega)]
    have hlt : (0b01010#64).toNat < 2 ^ i :=
      Nat.lt_of_lt_of_le (by decide : (0b01010#64).toNat < 2 ^ 5) (Nat.pow_le_pow_right (by omega) hi)
    have : (0b01010#64).getLsbD i = false := Nat.testBit_lt_two_pow hlt
    simp [this]
  obtain ⟨mem', e, h1, h2⟩ := C14_mask_masked_store (n := 5) (by omega) (by omega) (FixedMask.broadcast 5 true)
    (ofULL 5 true 0b01010) hc (fun a => if a = 101 ∨ a = 103 then some false else none) 100 (by decide)
  exact ⟨mem', e, (h1 1 (by omega) (by decide)).trans (by decide),
    (h2 100 (by rintro ⟨i, hi, hl, he⟩; have : i = 0 := by omega
                subst this; exact absurd hl (by decide))).trans (by decide)⟩

end StdSimd.Props
