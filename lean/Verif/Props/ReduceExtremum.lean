import Verif.Props.ReduceFloat
import Verif.Proofs.Compare
/-!
# Property theorems about `hmin` and `hmax` of objects of any arithmetic type (C18)

The elements are bit patterns of an integer or floating-point type `K`; `rel` is `<=` for `hmin` and `>=` for `hmax`.  `op` is the operation on
elements: it returns one of its operands, and unless one is a NaN the lesser (greater) of them.  `min` and `max` of the library are such
operations (`C18_operations`).
-/
namespace StdSimd.Props
open StdSimd Tuple Native Reduce Spec
variable {t : Abi.Target} {T : Abi.Elem} {n : Nat} {g : Geo} {K : Spec.Kind}

/-- `op` returns one of its operands, and unless one is a NaN the lesser (`rel` is `<=`) or greater (`>=`). -/
def Selects (K : Spec.Kind) (rel : Spec.Kind.Rel) (op : K.Bits → K.Bits → K.Bits) : Prop :=
  ∀ x y, (op x y = x ∨ op x y = y) ∧ (K.value x ≠ none → K.value y ≠ none → K.holds rel (op x y) x ∧ K.holds rel (op x y) y)

/-- The elements of `min` and `max` of vectors of every ABI. -/
theorem C18_operations (K : Spec.Kind) (g : Geo) : Selects K .le (Compare.elemMin K g) ∧ Selects K .ge (Compare.elemMax K g) :=
  ⟨fun a b => Compare.elemMin_least K g a b, fun a b => Compare.elemMax_greatest K g a b⟩

theorem holds_num {rel : Spec.Kind.Rel} {x y : K.Bits} {a b : WithBot (WithTop ℚ)} (hx : K.value x = some a) (hy : K.value y = some b) :
    K.holds rel x y = rel.ofNumbers a b := by unfold Spec.Kind.holds; rw [hx, hy]

theorem holds_refl {rel : Spec.Kind.Rel} (hrel : rel = .le ∨ rel = .ge) {x : K.Bits} (h : K.value x ≠ none) : K.holds rel x x = true := by
  obtain ⟨a, ha⟩ := Compare.value_of_ne h
  rw [holds_num ha ha]
  rcases hrel with rfl | rfl <;> simp [Spec.Kind.Rel.ofNumbers]

theorem holds_trans {rel : Spec.Kind.Rel} (hrel : rel = .le ∨ rel = .ge) {x y z : K.Bits} (hx : K.value x ≠ none) (hy : K.value y ≠ none)
    (hz : K.value z ≠ none) (h1 : K.holds rel x y = true) (h2 : K.holds rel y z = true) : K.holds rel x z = true := by
  obtain ⟨a, ha⟩ := Compare.value_of_ne hx
  obtain ⟨b, hb⟩ := Compare.value_of_ne hy
  obtain ⟨c, hc⟩ := Compare.value_of_ne hz
  rw [holds_num ha hb] at h1
  rw [holds_num hb hc] at h2
  rw [holds_num ha hc]
  rcases hrel with rfl | rfl
  · simp only [Spec.Kind.Rel.ofNumbers, decide_eq_true_eq] at *; exact h1.trans h2
  · simp only [Spec.Kind.Rel.ofNumbers, decide_eq_true_eq, ge_iff_le] at *; exact h2.trans h1

theorem holds_antisymm {rel : Spec.Kind.Rel} (hrel : rel = .le ∨ rel = .ge) {x y : K.Bits} (hx : K.value x ≠ none) (hy : K.value y ≠ none)
    (h1 : K.holds rel x y = true) (h2 : K.holds rel y x = true) : K.value x = K.value y := by
  obtain ⟨a, ha⟩ := Compare.value_of_ne hx
  obtain ⟨b, hb⟩ := Compare.value_of_ne hy
  rw [holds_num ha hb] at h1
  rw [holds_num hb ha] at h2
  rw [ha, hb]
  rcases hrel with rfl | rfl
  · simp only [Spec.Kind.Rel.ofNumbers, decide_eq_true_eq] at h1 h2; rw [le_antisymm h1 h2]
  · simp only [Spec.Kind.Rel.ofNumbers, decide_eq_true_eq, ge_iff_le] at h1 h2; rw [le_antisymm h2 h1]

theorem holds_congr {rel : Spec.Kind.Rel} {x y z : K.Bits} (h : K.value x = K.value y) : K.holds rel x z = K.holds rel y z := by
  unfold Spec.Kind.holds; rw [h]

/-- An expression in numbers with such an operation is one of the numbers, the least or greatest. -/
theorem combines_selects {rel : Spec.Kind.Rel} (hrel : rel = .le ∨ rel = .ge) {op : K.Bits → K.Bits → K.Bits} (hop : Selects K rel op)
    {l : List K.Bits} {r : K.Bits} (h : Spec.Combines op l r) (hn : ∀ x ∈ l, K.value x ≠ none) : r ∈ l ∧ ∀ x ∈ l, K.holds rel r x = true := by
  obtain ⟨e, p, rfl⟩ := h
  have key : ∀ e : Spec.Tree K.Bits, (∀ x ∈ e.leaves, K.value x ≠ none) →
      e.eval op ∈ e.leaves ∧ ∀ x ∈ e.leaves, K.holds rel (e.eval op) x = true := by
    intro e
    induction e with
    | leaf a =>
      intro h
      refine ⟨by simp [Spec.Tree.leaves, Spec.Tree.eval], fun x hx => ?_⟩
      have hx' : x = a := by simpa [Spec.Tree.leaves] using hx
      subst hx'
      exact holds_refl hrel (h _ hx)
    | node l r ihl ihr =>
      intro h
      simp only [Spec.Tree.leaves, List.mem_append] at h ⊢
      obtain ⟨ml, al⟩ := ihl (fun x hx => h x (Or.inl hx))
      obtain ⟨mr, ar⟩ := ihr (fun x hx => h x (Or.inr hx))
      have nl := h _ (Or.inl ml)
      have nr := h _ (Or.inr mr)
      obtain ⟨h1, h2⟩ := hop (l.eval op) (r.eval op)
      obtain ⟨h3, h4⟩ := h2 nl nr
      have hm : op (l.eval op) (r.eval op) ∈ l.leaves ∨ op (l.eval op) (r.eval op) ∈ r.leaves := by
        rcases h1 with e | e <;> rw [e]
        · exact Or.inl ml
        · exact Or.inr mr
      have hv := h _ hm
      refine ⟨hm, fun x hx => ?_⟩
      show K.holds rel (op (l.eval op) (r.eval op)) x = true
      rcases hx with hx | hx
      · exact holds_trans hrel hv nl (h x (Or.inl hx)) h3 (al x hx)
      · exact holds_trans hrel hv nr (h x (Or.inr hx)) h4 (ar x hx)
  obtain ⟨h1, h2⟩ := key e (fun x hx => hn x (p.mem_iff.1 hx))
  exact ⟨p.mem_iff.1 h1, fun x hx => h2 x (p.mem_iff.2 hx)⟩

/-- C18. `hmin(v)`, `hmax(v)` of a `fixed_size` object without NaNs is one of the lanes, and not greater (less) than any lane. -/
theorem C18_numbers {rel : Spec.Kind.Rel} (hrel : rel = .le ∨ rel = .ge) {op : K.Bits → K.Bits → K.Bits} (hop : Selects K rel op)
    (ht : t.Consistent) (hT : T.Ok) (h1 : 1 ≤ n) (zero one : K.Bits) (c : Bool) {x : Tup K.Bits} (hx : Wf (regs t T n) x)
    (hn : ∀ a ∈ lanes (regs t T n) x, K.value a ≠ none) :
    ∃ r, reduceFixed t .other op zero one T.size c (regs t T n) x = some r ∧ r ∈ lanes (regs t T n) x ∧
      ∀ a ∈ lanes (regs t T n) x, K.holds rel r a = true := by
  obtain ⟨r, h2, h3⟩ := C16_each_lane_once ht hT h1 op zero one c hx
  exact ⟨r, h2, combines_selects hrel hop h3 hn⟩

/-- C18 for native ABIs. -/
theorem C18_native_numbers {rel : Spec.Kind.Rel} (hrel : rel = .le ∨ rel = .ge) {op : K.Bits → K.Bits → K.Bits} (hop : Selects K rel op)
    (hg : g.Ok) {s : Nat} (hr : Regular t s g) (zero one : K.Bits) {x : List K.Bits} (hx : x.length = g.full)
    (hn : ∀ a ∈ x.take g.size, K.value a ≠ none) :
    ∃ r, reduceGeo t .other op zero one s g x = some r ∧ r ∈ x.take g.size ∧ ∀ a ∈ x.take g.size, K.holds rel r a = true := by
  obtain ⟨r, h2, h3⟩ := C16_native_each_lane_once hg hr op zero one hx
  exact ⟨r, h2, combines_selects hrel hop h3 hn⟩

/-- What the extremum of the lanes with `ident` in place of the lanes that are not selected says about the selected lanes. -/
theorem masked_extremum {rel : Spec.Kind.Rel} (hrel : rel = .le ∨ rel = .ge) {k : List Bool} {v : List K.Bits} {ident r : K.Bits}
    (hkv : k.length = v.length) (hn : ∀ a ∈ Spec.selected k v, K.value a ≠ none) (hi : K.value ident ≠ none)
    (h1 : r ∈ Spec.select k v (List.replicate k.length ident))
    (h2 : ∀ a ∈ Spec.select k v (List.replicate k.length ident), K.holds rel r a = true) :
    (((∃ a ∈ Spec.selected k v, K.holds rel a ident = true) ∨ Spec.allOf k) →
      (∃ a ∈ Spec.selected k v, K.value r = K.value a) ∧ ∀ a ∈ Spec.selected k v, K.holds rel r a = true) ∧
    (false ∈ k → (∀ a ∈ Spec.selected k v, K.holds rel a ident = false) → r = ident) := by
  have hsel : ∀ a ∈ Spec.selected k v, K.holds rel r a = true := fun a ha => h2 a ((mem_select hkv).2 (Or.inl ha))
  refine ⟨fun hc => ⟨?_, hsel⟩, fun hf hall => ?_⟩
  · rcases (mem_select hkv).1 h1 with h | ⟨rfl, i, hi'⟩
    · exact ⟨r, h, rfl⟩
    · rcases hc with ⟨a, ha, hle⟩ | hall
      · exact ⟨a, ha, (holds_antisymm hrel (hn a ha) hi hle (hsel a ha)).symm⟩
      · have := hall false (List.mem_iff_getElem?.2 ⟨i, hi'⟩)
        cases this
  · rcases (mem_select hkv).1 h1 with h | ⟨rfl, _⟩
    · obtain ⟨i, hi'⟩ := List.mem_iff_getElem?.1 hf
      have := h2 ident ((mem_select hkv).2 (Or.inr ⟨rfl, i, hi'⟩))
      rw [hall r h] at this; cases this
    · rfl

/-- The lanes of the temporary are numbers. -/
theorem masked_numbers {k : List Bool} {v : List K.Bits} {ident : K.Bits}
    (hkv : k.length = v.length) (hn : ∀ a ∈ Spec.selected k v, K.value a ≠ none) (hi : K.value ident ≠ none) :
    ∀ a ∈ Spec.select k v (List.replicate k.length ident), K.value a ≠ none := by
  intro a ha
  rcases (mem_select hkv).1 ha with h | ⟨rfl, _⟩
  · exact hn a h
  · exact hi

/-- C18 (partial). `hmin(where(k, v))`, `hmax(where(k, v))`, `fixed_size`: the least (greatest) selected value if some selected lane is not beyond
`ident`, the largest (lowest) finite value, or if all lanes are selected.
Missing: every selected lane is infinite and some lane is not selected; then the code is wrong, see `C18_masked_infinite`. -/
theorem C18_masked_numbers_partial {rel : Spec.Kind.Rel} (hrel : rel = .le ∨ rel = .ge) {op : K.Bits → K.Bits → K.Bits} (hop : Selects K rel op)
    (ht : t.Consistent) (hT : T.Ok) (h1 : 1 ≤ n) (h64 : n ≤ 64) (zero one ident : K.Bits) (hi : K.value ident ≠ none) (c : Bool) (ch : Nat → Bool)
    (k : BitMask n true) (hk : k.Clean) {v : Tup K.Bits} (hv : Wf (regs t T n) v)
    (hn : ∀ a ∈ Spec.selected k.lanes (lanes (regs t T n) v), K.value a ≠ none)
    (hc : (∃ a ∈ Spec.selected k.lanes (lanes (regs t T n) v), K.holds rel a ident = true) ∨ Spec.allOf k.lanes) :
    ∃ r, maskedHFixed t op zero one T.size c ch (regs t T n) k v ident = some r ∧
      (∃ a ∈ Spec.selected k.lanes (lanes (regs t T n) v), K.value r = K.value a) ∧
      ∀ a ∈ Spec.selected k.lanes (lanes (regs t T n) v), K.holds rel r a = true := by
  have hlen := C01_size ht hT h1 hv
  have hkl : k.lanes.length = n := by simp [BitMask.lanes]
  obtain ⟨hb1, hb2⟩ := C01_broadcast ht hT h1 ident
  obtain ⟨w, e1, w1, l1⟩ := C15_assign ht hT h1 h64 ch k hk hb1 hv
  have l2 : lanes (regs t T n) w = Spec.select k.lanes (lanes (regs t T n) v) (List.replicate k.lanes.length ident) := by
    rw [l1, hb2, hkl]
  obtain ⟨r, h2, h3, h4⟩ := C18_numbers hrel hop ht hT h1 zero one c w1 (by rw [l2]; exact masked_numbers (by omega) hn hi)
  rw [l2] at h3 h4
  exact ⟨r, by unfold maskedHFixed; rw [e1]; exact h2, (masked_extremum hrel (by omega) hn hi h3 h4).1 hc⟩

/-- C18, negation: whenever some lane is not selected and every selected lane is beyond `ident` (for `hmin` of floating-point lanes: `+∞`), the result
is `ident`, which no selected lane equals. -/
theorem C18_masked_infinite {rel : Spec.Kind.Rel} (hrel : rel = .le ∨ rel = .ge) {op : K.Bits → K.Bits → K.Bits} (hop : Selects K rel op)
    (ht : t.Consistent) (hT : T.Ok) (h1 : 1 ≤ n) (h64 : n ≤ 64) (zero one ident : K.Bits) (hi : K.value ident ≠ none) (c : Bool) (ch : Nat → Bool)
    (k : BitMask n true) (hk : k.Clean) {v : Tup K.Bits} (hv : Wf (regs t T n) v)
    (hn : ∀ a ∈ Spec.selected k.lanes (lanes (regs t T n) v), K.value a ≠ none) (hf : false ∈ k.lanes)
    (hall : ∀ a ∈ Spec.selected k.lanes (lanes (regs t T n) v), K.holds rel a ident = false) :
    maskedHFixed t op zero one T.size c ch (regs t T n) k v ident = some ident ∧
      ∀ a ∈ Spec.selected k.lanes (lanes (regs t T n) v), K.value a ≠ K.value ident := by
  have hlen := C01_size ht hT h1 hv
  have hkl : k.lanes.length = n := by simp [BitMask.lanes]
  obtain ⟨hb1, hb2⟩ := C01_broadcast ht hT h1 ident
  obtain ⟨w, e1, w1, l1⟩ := C15_assign ht hT h1 h64 ch k hk hb1 hv
  have l2 : lanes (regs t T n) w = Spec.select k.lanes (lanes (regs t T n) v) (List.replicate k.lanes.length ident) := by
    rw [l1, hb2, hkl]
  obtain ⟨r, h2, h3, h4⟩ := C18_numbers hrel hop ht hT h1 zero one c w1 (by rw [l2]; exact masked_numbers (by omega) hn hi)
  rw [l2] at h3 h4
  have := (masked_extremum hrel (by omega) hn hi h3 h4).2 hf hall
  subst this
  refine ⟨by unfold maskedHFixed; rw [e1]; exact h2, fun a ha h => ?_⟩
  have h5 := hall a ha
  rw [holds_congr h, holds_refl hrel hi] at h5
  cases h5

/-- C18 (partial) for native ABIs.  Missing: as `C18_masked_numbers_partial`. -/
theorem C18_native_masked_numbers_partial {rel : Spec.Kind.Rel} (hrel : rel = .le ∨ rel = .ge) {op : K.Bits → K.Bits → K.Bits}
    (hop : Selects K rel op) (hg : g.Ok) {s : Nat} (hr : Regular t s g) (zero one ident : K.Bits) (hi : K.value ident ≠ none) (c : Bool)
    (k : MaskM g) (hk : MaskOk g k) {v : List K.Bits} (hv : v.length = g.full)
    (hn : ∀ a ∈ Spec.selected (maskLanes g k) (v.take g.size), K.value a ≠ none)
    (hc : (∃ a ∈ Spec.selected (maskLanes g k) (v.take g.size), K.holds rel a ident = true) ∨ Spec.allOf (maskLanes g k)) :
    ∃ r, maskedHGeo t op zero one s c g k v ident = some r ∧
      (∃ a ∈ Spec.selected (maskLanes g k) (v.take g.size), K.value r = K.value a) ∧
      ∀ a ∈ Spec.selected (maskLanes g k) (v.take g.size), K.holds rel r a = true := by
  have hsz := hg.size_le
  have hkl := length_maskLanes hg k hk
  have hkv : (maskLanes g k).length = (v.take g.size).length := by rw [List.length_take]; omega
  have hb : (Native.broadcast g ident).length = g.full := length_broadcast g ident
  obtain ⟨l1, l2⟩ := C15_native_assign hg c k hk (Native.broadcast g ident) v hb hv
  have hbt : (Native.broadcast g ident).take g.size = List.replicate (maskLanes g k).length ident := by
    rw [hkl]; simp [Native.broadcast]; omega
  rw [hbt] at l2
  obtain ⟨r, h2, h3, h4⟩ := C18_native_numbers hrel hop hg hr zero one l1 (by rw [l2]; exact masked_numbers hkv hn hi)
  rw [l2] at h3 h4
  exact ⟨r, h2, (masked_extremum hrel hkv hn hi h3 h4).1 hc⟩

/-- C18, negation for native ABIs: the result is `ident` whenever some lane is not selected and every selected lane is beyond `ident`. -/
theorem C18_native_masked_infinite {rel : Spec.Kind.Rel} (hrel : rel = .le ∨ rel = .ge) {op : K.Bits → K.Bits → K.Bits}
    (hop : Selects K rel op) (hg : g.Ok) {s : Nat} (hr : Regular t s g) (zero one ident : K.Bits) (hi : K.value ident ≠ none) (c : Bool)
    (k : MaskM g) (hk : MaskOk g k) {v : List K.Bits} (hv : v.length = g.full)
    (hn : ∀ a ∈ Spec.selected (maskLanes g k) (v.take g.size), K.value a ≠ none) (hf : false ∈ maskLanes g k)
    (hall : ∀ a ∈ Spec.selected (maskLanes g k) (v.take g.size), K.holds rel a ident = false) :
    maskedHGeo t op zero one s c g k v ident = some ident ∧
      ∀ a ∈ Spec.selected (maskLanes g k) (v.take g.size), K.value a ≠ K.value ident := by
  have hsz := hg.size_le
  have hkl := length_maskLanes hg k hk
  have hkv : (maskLanes g k).length = (v.take g.size).length := by rw [List.length_take]; omega
  have hb : (Native.broadcast g ident).length = g.full := length_broadcast g ident
  obtain ⟨l1, l2⟩ := C15_native_assign hg c k hk (Native.broadcast g ident) v hb hv
  have hbt : (Native.broadcast g ident).take g.size = List.replicate (maskLanes g k).length ident := by
    rw [hkl]; simp [Native.broadcast]; omega
  rw [hbt] at l2
  obtain ⟨r, h2, h3, h4⟩ := C18_native_numbers hrel hop hg hr zero one l1 (by rw [l2]; exact masked_numbers hkv hn hi)
  rw [l2] at h3 h4
  have := (masked_extremum hrel hkv hn hi h3 h4).2 hf hall
  subst this
  refine ⟨h2, fun a ha h => ?_⟩
  have h5 := hall a ha
  rw [holds_congr h, holds_refl hrel hi] at h5
  cases h5

/-- `float`. -/
abbrev F32 : Spec.Kind := .float ⟨8, 23⟩

theorem number_of_not_nan {x : BitVec 32} (h : ¬(⟨8, 23⟩ : Spec.Fmt).isNaN x) : F32.value x ≠ none := by
  show (⟨8, 23⟩ : Spec.Fmt).value x ≠ none
  unfold Spec.Fmt.value
  rw [if_neg h]
  split <;> simp

theorem value_infinity : F32.value 0x7f800000#32 = some ((⊤ : WithTop ℚ) : WithBot (WithTop ℚ)) := by
  show (⟨8, 23⟩ : Spec.Fmt).value 0x7f800000#32 = _
  unfold Spec.Fmt.value
  rw [if_neg (by decide +kernel), if_pos (by decide +kernel), if_neg (by decide +kernel)]

theorem value_finite {x : BitVec 32} (h : (⟨8, 23⟩ : Spec.Fmt).isFinite x) :
    ∃ q : ℚ, F32.value x = some ((q : WithTop ℚ) : WithBot (WithTop ℚ)) :=
  ⟨_, Reduce.value_fin (f := ⟨8, 23⟩) (by decide) h⟩

theorem two_infinities (a : BitVec 32) (h : a ∈ [0x7f800000#32, 0x7f800000#32]) : a = 0x7f800000#32 := by simpa using h
theorem three_numbers (a : BitVec 32) (h : a ∈ [0xbf800000#32, 0x7f800000#32, 0x40000000#32]) :
    a = 0xbf800000#32 ∨ a = 0x7f800000#32 ∨ a = 0x40000000#32 := by simpa using h
theorem mask_ok (n : Nat) (l : List (BitVec 32)) (h1 : l.length = 4) (h2 : ∀ v ∈ l, v = 0#32 ∨ v = BitVec.allOnes 32) :
    MaskOk (.vec 32 n 4) l := ⟨h1, fun v hv => h2 v (List.mem_of_mem_take hv)⟩

/-- C18, negation with `float` values: `hmin(where(k, v))` of a vector of 3 lanes, of which two are selected and both are +infinity, is the largest
finite number `0x7f7fffff`. -/
theorem C18_float_infinity (c : Bool) :
    maskedHGeo {} (Compare.elemMin F32 (.vec 32 3 4)) 0#32 0x3f800000#32 4 c (.vec 32 3 4) [-1#32, -1#32, 0#32, 0#32]
      [0x7f800000#32, 0x7f800000#32, 0x40400000#32, 0#32] 0x7f7fffff#32 = some 0x7f7fffff#32 ∧
    Spec.selected (maskLanes (.vec 32 3 4) [-1#32, -1#32, 0#32, 0#32]) [0x7f800000#32, 0x7f800000#32, 0x40400000#32]
      = [0x7f800000#32, 0x7f800000#32] := by
  have hs : Spec.selected (maskLanes (.vec 32 3 4) [-1#32, -1#32, 0#32, 0#32])
      ([0x7f800000#32, 0x7f800000#32, 0x40400000#32, 0#32].take 3) = [0x7f800000#32, 0x7f800000#32] := by rfl
  exact ⟨(C18_native_masked_infinite (K := F32) (t := {}) (g := .vec 32 3 4) (Or.inl rfl) (C18_operations F32 (.vec 32 3 4)).1 (by decide) (s := 4)
      (Or.inr ⟨by simp [SizeOk], by decide, by decide +kernel⟩) 0#32 0x3f800000#32 0x7f7fffff#32 (number_of_not_nan (by decide +kernel)) c
      [-1#32, -1#32, 0#32, 0#32] (mask_ok 3 _ rfl (by simp)) (v := [0x7f800000#32, 0x7f800000#32, 0x40400000#32, 0#32]) rfl
      (by intro a ha
          have ha'' := two_infinities a ha
          subst ha''
          exact number_of_not_nan (by decide +kernel))
      (by decide +kernel)
      (by intro a ha
          have ha'' := two_infinities a ha
          subst ha''
          obtain ⟨q, hq⟩ := value_finite (x := 0x7f7fffff#32) (by decide +kernel)
          rw [holds_num value_infinity hq]
          simp [Spec.Kind.Rel.ofNumbers])).1, hs⟩

/-- Concrete case: the greatest of `-1`, `+∞`, `2`, `3` of which the last is not selected is `+∞`, the lowest finite value in the unselected lane. -/
example (c : Bool) : ∃ r, maskedHGeo {} (Compare.elemMax F32 (.vec 32 4 4)) 0#32 0x3f800000#32 4 c (.vec 32 4 4) [-1#32, -1#32, -1#32, 0#32]
      [0xbf800000#32, 0x7f800000#32, 0x40000000#32, 0x40400000#32] 0xff7fffff#32 = some r ∧
      (∃ a ∈ [0xbf800000#32, 0x7f800000#32, 0x40000000#32], F32.value r = F32.value a) ∧
      ∀ a ∈ [0xbf800000#32, 0x7f800000#32, 0x40000000#32], F32.holds .ge r a = true :=
  C18_native_masked_numbers_partial (K := F32) (t := {}) (g := .vec 32 4 4) (Or.inr rfl) (C18_operations F32 (.vec 32 4 4)).2 (by decide) (s := 4)
      (Or.inr ⟨by simp [SizeOk], by decide, by decide +kernel⟩) 0#32 0x3f800000#32 0xff7fffff#32 (number_of_not_nan (by decide +kernel)) c
      [-1#32, -1#32, -1#32, 0#32] (mask_ok 4 _ rfl (by simp)) (v := [0xbf800000#32, 0x7f800000#32, 0x40000000#32, 0x40400000#32]) rfl
      (by intro a ha
          have ha'' := three_numbers a ha
          rcases ha'' with rfl | rfl | rfl <;> exact number_of_not_nan (by decide +kernel))
      (Or.inl ⟨0x7f800000#32, by
        show 0x7f800000#32 ∈ [0xbf800000#32, 0x7f800000#32, 0x40000000#32]; simp, by
          obtain ⟨q, hq⟩ := value_finite (x := 0xff7fffff#32) (by decide +kernel)
          rw [holds_num value_infinity hq]
          simp [Spec.Kind.Rel.ofNumbers]⟩)

end StdSimd.Props
