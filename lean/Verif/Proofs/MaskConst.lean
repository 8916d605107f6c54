import Verif.Model.MaskConst
import Verif.Proofs.VMaskPop
namespace StdSimd.MaskConst
open VMask (bit)

/-- `sub` reads the lanes `bs`. -/
def Reads (sub : Nat → Option Bool) (bs : List Bool) : Prop := ∀ i, i < bs.length → sub i = bs[i]?

variable {sub : Nat → Option Bool} {bs : List Bool}

theorem Reads.eq (h : Reads sub bs) {i : Nat} (hi : i < bs.length) : sub i = some (bit bs i) := by
  rw [h i hi]; simp [bit, hi]

theorem allLoop_eq (h : Reads sub bs) (l : List Nat) (hl : ∀ i ∈ l, i < bs.length) :
    allLoop sub l = some (l.all (bit bs)) := by
  induction l with
  | nil => rfl
  | cons i l ih =>
    unfold allLoop
    rw [h.eq (hl i (by simp)), ih (fun j hj => hl j (by simp [hj]))]
    cases hb : bit bs i <;> simp [hb]

theorem anyLoop_eq (h : Reads sub bs) (l : List Nat) (hl : ∀ i ∈ l, i < bs.length) :
    anyLoop sub l = some (l.any (bit bs)) := by
  induction l with
  | nil => rfl
  | cons i l ih =>
    unfold anyLoop
    rw [h.eq (hl i (by simp)), ih (fun j hj => hl j (by simp [hj]))]
    cases hb : bit bs i <;> simp [hb]

theorem noneLoop_eq (h : Reads sub bs) (l : List Nat) (hl : ∀ i ∈ l, i < bs.length) :
    noneLoop sub l = some (!l.any (bit bs)) := by
  induction l with
  | nil => rfl
  | cons i l ih =>
    unfold noneLoop
    rw [h.eq (hl i (by simp)), ih (fun j hj => hl j (by simp [hj]))]
    cases hb : bit bs i <;> simp [hb]

theorem someLoop_eq (h : Reads sub bs) (l : List Nat) (hl : ∀ i ∈ l, i < bs.length) :
    someLoop sub l = some (l.any (fun i => bit bs i != bit bs (i - 1))) := by
  induction l with
  | nil => rfl
  | cons i l ih =>
    have hi := hl i (by simp)
    unfold someLoop
    rw [h.eq hi, h.eq (show i - 1 < bs.length by omega), ih (fun j hj => hl j (by simp [hj]))]
    cases hb : bit bs i <;> cases hc : bit bs (i - 1) <;> simp [hb, hc]

theorem allOf_eq (h : Reads sub bs) : ∃ r, allOf bs.length sub = some r ∧ (r = true ↔ Spec.allOf bs) := by
  refine ⟨_, allLoop_eq h _ (by simp), ?_⟩
  rw [VMask.allOf_iff_bit]; simp

theorem anyOf_eq (h : Reads sub bs) : ∃ r, anyOf bs.length sub = some r ∧ (r = true ↔ Spec.anyOf bs) := by
  refine ⟨_, anyLoop_eq h _ (by simp), ?_⟩
  rw [VMask.anyOf_iff_not_noneOf, VMask.noneOf_iff_bit]; simp

theorem noneOf_eq (h : Reads sub bs) : ∃ r, noneOf bs.length sub = some r ∧ (r = true ↔ Spec.noneOf bs) := by
  refine ⟨_, noneLoop_eq h _ (by simp), ?_⟩
  rw [VMask.noneOf_iff_bit]; simp

theorem neighbours (bs : List Bool) :
    (∀ i, 1 ≤ i → i < bs.length → bit bs i = bit bs (i - 1)) ↔ (∀ i, i < bs.length → bit bs i = bit bs 0) := by
  constructor
  · intro h i
    induction i with
    | zero => intro _; rfl
    | succ i ih => intro hi; rw [h (i + 1) (by omega) hi]; exact ih (by omega)
  · intro h i h1 hi
    rw [h i hi, h (i - 1) (by omega)]

theorem mem_iff_bit (b : Bool) (bs : List Bool) : b ∈ bs ↔ ∃ i, i < bs.length ∧ bit bs i = b := by
  rw [List.mem_iff_getElem]
  constructor
  · rintro ⟨i, hi, e⟩; exact ⟨i, hi, by rw [VMask.bit_of_lt hi, e]⟩
  · rintro ⟨i, hi, e⟩; exact ⟨i, hi, by rw [← e, VMask.bit_of_lt hi]⟩

theorem someOf_eq (h : Reads sub bs) : ∃ r, someOf bs.length sub = some r ∧ (r = true ↔ Spec.someOf bs) := by
  have hmem : ∀ i, i ∈ (List.range bs.length).drop 1 ↔ 1 ≤ i ∧ i < bs.length := by
    intro i
    rw [List.mem_iff_getElem?]
    simp only [List.getElem?_drop]
    constructor
    · rintro ⟨j, hj⟩
      rw [List.getElem?_eq_some_iff] at hj
      obtain ⟨h1, h2⟩ := hj
      simp at h1 h2; omega
    · rintro ⟨h1, h2⟩
      exact ⟨i - 1, by rw [List.getElem?_eq_some_iff]; exact ⟨by simp; omega, by simp; omega⟩⟩
  refine ⟨_, someLoop_eq h _ (fun i hi => ((hmem i).1 hi).2), ?_⟩
  rw [List.any_eq_true]
  constructor
  · rintro ⟨i, hi, hne⟩
    have hi := (hmem i).1 hi
    have hne : bit bs i ≠ bit bs (i - 1) := by simpa using hne
    have m1 : bit bs i ∈ bs := (mem_iff_bit _ _).2 ⟨i, hi.2, rfl⟩
    have m2 : bit bs (i - 1) ∈ bs := (mem_iff_bit _ _).2 ⟨i - 1, by omega, rfl⟩
    revert hne m1 m2
    cases bit bs i <;> cases bit bs (i - 1) <;> simp [Spec.someOf] <;> intro a b <;> exact ⟨by assumption, by assumption⟩
  · rintro ⟨ht, hf⟩
    obtain ⟨i, hi, ei⟩ := (mem_iff_bit _ _).1 ht
    obtain ⟨j, hj, ej⟩ := (mem_iff_bit _ _).1 hf
    refine Classical.byContradiction fun hcon => ?_
    have hall : ∀ i, 1 ≤ i → i < bs.length → bit bs i = bit bs (i - 1) := by
      intro k h1 h2
      refine Classical.byContradiction fun hne => hcon ⟨k, (hmem k).2 ⟨h1, h2⟩, by simpa using hne⟩
    have := (neighbours bs).1 hall
    have e := (this i hi).trans (this j hj).symm
    rw [ei, ej] at e; exact absurd e (by decide)

theorem range_map_bit (bs : List Bool) : (List.range bs.length).map (bit bs) = bs := by
  apply List.ext_getElem
  · simp
  · intro i h1 h2; simp [VMask.bit_of_lt h2]

theorem popcount_eq (h : Reads sub bs) : popcount bs.length sub = some (Spec.popcount bs) := by
  unfold popcount
  rw [mapM_some sub (bit bs) _ (by intro i hi; exact h.eq (by simpa using hi)), range_map_bit]
  simp only [Option.bind_eq_bind, Option.bind_some, Option.pure_def, Option.some.injEq]
  clear h
  unfold Spec.popcount
  induction bs with
  | nil => rfl
  | cons b bs ih =>
    rw [List.map_cons, List.foldr_cons, ih, List.count_cons]
    cases b <;> simp; omega

theorem foldl_min_le (l : List Nat) (a : Nat) : l.foldl min a ≤ a ∧ ∀ x ∈ l, l.foldl min a ≤ x := by
  induction l generalizing a with
  | nil => simp
  | cons x l ih =>
    have ⟨h1, h2⟩ := ih (min a x)
    rw [List.foldl_cons]
    refine ⟨by omega, fun y hy => ?_⟩
    rcases List.mem_cons.1 hy with rfl | hy
    · omega
    · exact h2 y hy

theorem foldl_min_mem (l : List Nat) (a : Nat) : l.foldl min a = a ∨ l.foldl min a ∈ l := by
  induction l generalizing a with
  | nil => simp
  | cons x l ih =>
    rw [List.foldl_cons]
    rcases ih (min a x) with h | h
    · rcases Nat.le_total a x with h' | h'
      · left; rw [h]; omega
      · right; rw [h, Nat.min_eq_right h']; simp
    · right; simp [h]

theorem foldl_max_ge (l : List Int) (a : Int) : a ≤ l.foldl max a ∧ ∀ x ∈ l, x ≤ l.foldl max a := by
  induction l generalizing a with
  | nil => simp
  | cons x l ih =>
    have ⟨h1, h2⟩ := ih (max a x)
    rw [List.foldl_cons]
    refine ⟨by omega, fun y hy => ?_⟩
    rcases List.mem_cons.1 hy with rfl | hy
    · omega
    · exact h2 y hy

theorem foldl_max_mem (l : List Int) (a : Int) : l.foldl max a = a ∨ l.foldl max a ∈ l := by
  induction l generalizing a with
  | nil => simp
  | cons x l ih =>
    rw [List.foldl_cons]
    rcases ih (max a x) with h | h
    · rcases Int.le_total x a with h' | h'
      · left; rw [h]; omega
      · right; rw [h, Int.max_eq_right h']; simp
    · right; simp [h]

theorem findFirstSet_eq (h : Reads sub bs) :
    (Spec.anyOf bs → ∃ i, findFirstSet bs.length sub = some i ∧ Spec.IsFirstSet bs i) ∧
    (¬ Spec.anyOf bs → findFirstSet bs.length sub = none) := by
  have hm := mapM_some (fun i => (sub i).map (fun b => if b then i else bs.length))
    (fun i => if bit bs i then i else bs.length) (List.range bs.length)
    (by intro i hi; rw [h.eq (by simpa using hi)]; rfl)
  have hle := foldl_min_le ((List.range bs.length).map (fun i => if bit bs i then i else bs.length)) bs.length
  have hmem := foldl_min_mem ((List.range bs.length).map (fun i => if bit bs i then i else bs.length)) bs.length
  unfold findFirstSet
  rw [hm]
  simp only [Option.bind_eq_bind, Option.bind_some]
  generalize ((List.range bs.length).map (fun i => if bit bs i then i else bs.length)).foldl min bs.length = m at *
  have hle2 : ∀ i < bs.length, bit bs i = true → m ≤ i := by
    intro i hi hb
    have := hle.2 i (by rw [List.mem_map]; exact ⟨i, by simpa using hi, by simp [hb]⟩)
    exact this
  have hm2 : m = bs.length ∨ (m < bs.length ∧ bit bs m = true) := by
    rcases hmem with e | e
    · exact Or.inl e
    · rw [List.mem_map] at e
      obtain ⟨j, hj, ej⟩ := e
      cases hb : bit bs j
      · rw [hb] at ej; simp at ej; left; exact ej.symm
      · rw [hb] at ej; simp at ej; subst ej; right; exact ⟨by simpa using hj, hb⟩
  have hany : Spec.anyOf bs ↔ ∃ i, i < bs.length ∧ bit bs i = true := by
    unfold Spec.anyOf
    rw [← mem_iff_bit]
    exact ⟨fun ⟨b, h1, h2⟩ => h2 ▸ h1, fun h => ⟨true, h, rfl⟩⟩
  constructor
  · intro ha
    obtain ⟨i, hi, hb⟩ := hany.1 ha
    have := hle2 i hi hb
    have hm3 : m < bs.length ∧ bit bs m = true := by
      rcases hm2 with e | e
      · omega
      · exact e
    refine ⟨m, by rw [if_neg (by omega)]; rfl, ?_, ?_⟩
    · have := hm3.2; rw [VMask.bit_of_lt hm3.1] at this; rw [List.getElem?_eq_getElem hm3.1, this]
    · intro j hj
      have hjl : j < bs.length := by omega
      rw [List.getElem?_eq_getElem hjl, ← VMask.bit_of_lt hjl]
      cases hb : bit bs j
      · rfl
      · have := hle2 j hjl hb; omega
  · intro ha
    have : m = bs.length := by
      rcases hm2 with e | e
      · exact e
      · exact absurd (hany.2 ⟨m, e⟩) ha
    rw [if_pos (by omega)]

theorem findLastSet_eq (h : Reads sub bs) :
    (Spec.anyOf bs → ∃ i : Nat, findLastSet bs.length sub = some (i : Int) ∧ Spec.IsLastSet bs i) ∧
    (¬ Spec.anyOf bs → findLastSet bs.length sub = none) := by
  have hm := mapM_some (fun i => (sub i).map (fun b => if b then (i : Int) else -1))
    (fun i => if bit bs i then (i : Int) else -1) (List.range bs.length)
    (by intro i hi; rw [h.eq (by simpa using hi)]; rfl)
  have hle := foldl_max_ge ((List.range bs.length).map (fun i => if bit bs i then (i : Int) else -1)) (-1)
  have hmem := foldl_max_mem ((List.range bs.length).map (fun i => if bit bs i then (i : Int) else -1)) (-1)
  unfold findLastSet
  rw [hm]
  simp only [Option.bind_eq_bind, Option.bind_some]
  generalize ((List.range bs.length).map (fun i => if bit bs i then (i : Int) else -1)).foldl max (-1) = m at *
  have hle2 : ∀ i < bs.length, bit bs i = true → (i : Int) ≤ m := by
    intro i hi hb
    exact hle.2 i (by rw [List.mem_map]; exact ⟨i, by simpa using hi, by simp [hb]⟩)
  have hm2 : m = -1 ∨ (∃ k : Nat, m = k ∧ k < bs.length ∧ bit bs k = true) := by
    rcases hmem with e | e
    · exact Or.inl e
    · rw [List.mem_map] at e
      obtain ⟨j, hj, ej⟩ := e
      cases hb : bit bs j
      · rw [hb] at ej; simp at ej; left; exact ej.symm
      · rw [hb] at ej; simp at ej; right; exact ⟨j, ej.symm, by simpa using hj, hb⟩
  have hany : Spec.anyOf bs ↔ ∃ i, i < bs.length ∧ bit bs i = true := by
    unfold Spec.anyOf
    rw [← mem_iff_bit]
    exact ⟨fun ⟨b, h1, h2⟩ => h2 ▸ h1, fun h => ⟨true, h, rfl⟩⟩
  constructor
  · intro ha
    obtain ⟨i, hi, hb⟩ := hany.1 ha
    have := hle2 i hi hb
    obtain ⟨k, hk, hkl, hkb⟩ : ∃ k : Nat, m = k ∧ k < bs.length ∧ bit bs k = true := by
      rcases hm2 with e | e
      · omega
      · exact e
    refine ⟨k, by rw [if_neg (by omega), hk]; rfl, ?_, ?_⟩
    · rw [VMask.bit_of_lt hkl] at hkb; rw [List.getElem?_eq_getElem hkl, hkb]
    · intro j hj
      rcases Nat.lt_or_ge j bs.length with hjl | hjl
      · rw [List.getElem?_eq_getElem hjl, ← VMask.bit_of_lt hjl]
        intro hb
        have hb : bit bs j = true := by simpa using hb
        have := hle2 j hjl hb; omega
      · rw [List.getElem?_eq_none hjl]; simp
  · intro ha
    have : m = -1 := by
      rcases hm2 with e | ⟨k, _, e⟩
      · exact e
      · exact absurd (hany.2 ⟨k, e⟩) ha
    rw [if_pos (by omega)]

end StdSimd.MaskConst
