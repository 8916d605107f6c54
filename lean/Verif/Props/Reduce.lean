import Verif.Props.FixedSize
import Verif.Props.NativeValues
import Verif.Proofs.ReduceFixed
/-!
# Property theorems about reductions (C16-C18)

`kd` says whether the library sees `std::plus<>`, `std::multiplies<>` or another operation; for the first two it fills
padding with 0 or 1.  `c`, `ch` say which masks the compiler knows.
-/
namespace StdSimd.Props
open StdSimd Tuple Native Reduce
variable {α : Type} {t : Abi.Target} {T : Abi.Elem} {n : Nat} {g : Geo}

/-- C16. Every operation other than `plus<>` and `multiplies<>`: all lanes are combined, each exactly once, no padding
element is used; for every operation, associative or not. -/
theorem C16_each_lane_once (ht : t.Consistent) (hT : T.Ok) (h1 : 1 ≤ n) (f : α → α → α) (zero one : α) (c : Bool) {x : Tup α}
    (hx : Wf (regs t T n) x) :
    ∃ r, reduceFixed t .other f zero one T.size c (regs t T n) x = some r ∧ Spec.Combines f (lanes (regs t T n) x) r := by
  obtain ⟨r, m, h2, h3, h4⟩ := reduceFixed_spec t .other f zero one T.size c _ (regs t T n) x rfl (regs_facts ht hT h1).1
    (regs_good ht hT h1) hx
  rw [h4 rfl] at h3
  exact ⟨r, h2, by simpa using h3⟩

/-- C16 (partial). `reduce(v, op)` is the fold over all lanes, for every associative and commutative operation of which, for
`plus<>`, 0 is a neutral element and, for `multiplies<>`, 1 is.  Missing: `plus<>` on floating-point zeros, where the code
is wrong, see `C16_negative_zero`.  Floating-point sums and products, which are not associative: `Props/ReduceFloat`. -/
theorem C16_reduce_partial (ht : t.Consistent) (hT : T.Ok) (h1 : 1 ≤ n) (kd : Kind) (f : α → α → α)
    (ha : ∀ a b c, f (f a b) c = f a (f b c)) (hc : ∀ a b, f a b = f b a) (zero one : α)
    (h0 : kd = .plus → ∀ a, f a zero = a) (h1' : kd = .multiplies → ∀ a, f a one = a) (c : Bool) {x : Tup α}
    (hx : Wf (regs t T n) x) :
    reduceFixed t kd f zero one T.size c (regs t T n) x = Spec.foldOf f (lanes (regs t T n) x) := by
  obtain ⟨r, m, h2, h3, h4⟩ := reduceFixed_spec t kd f zero one T.size c _ (regs t T n) x rfl (regs_facts ht hT h1).1
    (regs_good ht hT h1) hx
  have hl : lanes (regs t T n) x ≠ [] := by
    intro h
    have := C01_size ht hT h1 hx
    rw [h] at this; simp at this; omega
  have h5 := h3.fold ha hc
  rw [h2, ← h5]
  cases kd with
  | other => rw [h4 rfl]; simp
  | plus => exact foldOf_pad f (h0 rfl) _ hl m
  | multiplies => exact foldOf_pad f (h1' rfl) _ hl m

-- non-vacuity: 27 floats with AVX-512F (16 + 11 lanes); the reduction of [0, .., 26] with `+`
example : reduceFixed { sse := true, sse2 := true, avx := true, avx2 := true, avx512f := true, x86_64 := true } .plus (· + ·) (0 : Nat) 1 4
    false [.bitmask 16 16, .bitmask 11 16] [List.range 16, (List.range 16).map (· + 16)] = some 351 := by
  decide +kernel

/-- The registers that remain after one step of the reduction are those of a `fixed_size` object with that number of
elements (so the recursive call is well-typed), except on i386. -/
theorem C16_combine_layout (ht : t.Consistent) (hT : T.Ok) (h386 : t.i386 = false) (n : Nat) :
    evens (Abi.storage t T n) = Abi.storage t T ((evens (Abi.storage t T n)).map (Abi.size T)).sum :=
  storage_evens ht hT h386 n

/-- C16 for native ABIs, every operation other than `plus<>` and `multiplies<>`. -/
theorem C16_native_each_lane_once (hg : g.Ok) {s : Nat} (hr : Regular t s g) (f : α → α → α) (zero one : α) {x : List α}
    (hx : x.length = g.full) :
    ∃ r, reduceGeo t .other f zero one s g x = some r ∧ Spec.Combines f (x.take g.size) r := by
  obtain ⟨r, m, h2, h3, h4⟩ := reduceGeo_spec t .other f zero one s hg hr x hx
  rw [h4 rfl] at h3
  exact ⟨r, h2, by simpa using h3⟩

theorem take_ne_nil (hg : g.Ok) {x : List α} (hx : x.length = g.full) : x.take g.size ≠ [] := by
  intro h
  have h1 := congrArg List.length h
  have := hg.size_le
  have := hg.one_le
  rw [List.length_take, List.length_nil] at h1
  omega

/-- C16 (partial) for native ABIs. -/
theorem C16_native_reduce_partial (hg : g.Ok) {s : Nat} (hr : Regular t s g) (kd : Kind) (f : α → α → α)
    (ha : ∀ a b c, f (f a b) c = f a (f b c)) (hc : ∀ a b, f a b = f b a) (zero one : α)
    (h0 : kd = .plus → ∀ a, f a zero = a) (h1' : kd = .multiplies → ∀ a, f a one = a) {x : List α} (hx : x.length = g.full) :
    reduceGeo t kd f zero one s g x = Spec.foldOf f (x.take g.size) := by
  obtain ⟨r, m, h2, h3, h4⟩ := reduceGeo_spec t kd f zero one s hg hr x hx
  have h5 := h3.fold ha hc
  rw [h2, ← h5]
  cases kd with
  | other => rw [h4 rfl]; simp
  | plus => exact foldOf_pad f (h0 rfl) _ (take_ne_nil hg hx) m
  | multiplies => exact foldOf_pad f (h1' rfl) _ (take_ne_nil hg hx) m

-- non-vacuity: 11 floats in a 16-lane AVX-512 register
example : Geo.Ok (.bitmask 11 16) ∧ Regular {} 4 (.bitmask 11 16) :=
  ⟨by decide, Or.inr ⟨by simp [SizeOk], by decide, by decide +kernel⟩⟩

/-- C16 for NEON registers without padding: all lanes are combined, each exactly once. -/
theorem C16_neon (f : α → α → α) (zero : α) (s : Nat) {k : Nat} {x : List α} (hx : x.length = 2 ^ k) :
    ∃ r, reduceNeon f zero s (2 ^ k) x = some r ∧ Spec.Combines f x r :=
  reduceNeon_spec f zero s k (2 ^ k) x rfl hx

/-- C16, negation: `reduce(v)` with `plus<>` of five `float` lanes in an 8-lane register, all lanes -0.0: the sum is -0.0
but the code returns +0.0, because the padding is filled with +0.0.  Model of the signed zeros: `true` is -0.0, `false`
is +0.0; their sum is -0.0 only if both are. -/
theorem C16_negative_zero :
    let t : Abi.Target := { sse := true, sse2 := true, avx := true, avx2 := true, x86_64 := true }
    t.Consistent ∧ Abi.deduce t ⟨4, true⟩ 5 = some (.builtin 20) ∧ Geo.ofTag t ⟨4, true⟩ (.builtin 20) = .vec 32 5 8 ∧
    reduceGeo t .plus (fun a b => a && b) false true 4 (.vec 32 5 8) [true, true, true, true, true, false, false, false]
      = some false ∧
    Spec.foldOf (fun a b => a && b) [true, true, true, true, true] = some true := by
  refine ⟨?_, by decide +kernel, by decide +kernel, by decide +kernel, by decide⟩
  constructor <;> decide

/-! ## C17 -/

/-- A mask that is not all-false has a selected lane. -/
theorem isNone_false {k : BitMask n true} (h1 : 1 ≤ n) (hk : k.Clean) (h : k.isNone = false) : ∃ i < n, k.lane i = true := by
  by_contra hn
  have h3 : k.isNone = true := (BitMask.isNone_iff h1 k (fun _ => hk)).2 (fun i hi => by
    cases hb : k.lane i with
    | false => rfl
    | true => exact absurd ⟨i, hi, hb⟩ hn)
  rw [h] at h3; exact absurd h3 (by decide)

theorem selected_none {k : List Bool} {v : List α} (h : ∀ i : Nat, k[i]? ≠ some true) : Spec.selected k v = [] := by
  apply List.eq_nil_iff_forall_not_mem.2
  intro x hx
  obtain ⟨i, hi, _⟩ := mem_selected.1 hx
  exact h i hi

/-- C17 (partial). `reduce(where(k, v), e, op)` is the fold over the selected lanes, `e` when there is none, for every
associative and commutative operation with neutral element `e`; for `plus<>` 0 must be neutral, for `multiplies<>` 1.
Missing: sums of floating-point zeros, as for `C16_reduce_partial`.  Floating point: `Props/ReduceFloat`. -/
theorem C17_masked_reduce_partial (ht : t.Consistent) (hT : T.Ok) (h1 : 1 ≤ n) (h64 : n ≤ 64) (kd : Kind) (f : α → α → α)
    (ha : ∀ a b c, f (f a b) c = f a (f b c)) (hc : ∀ a b, f a b = f b a) (zero one e : α) (he : ∀ a, f a e = a)
    (h0 : kd = .plus → ∀ a, f a zero = a) (h1' : kd = .multiplies → ∀ a, f a one = a) (c : Bool) (ch : Nat → Bool)
    (k : BitMask n true) (hk : k.Clean) {v : Tup α} (hv : Wf (regs t T n) v) :
    maskedReduceFixed t kd f zero one T.size c ch (regs t T n) k v e
      = some ((Spec.selected k.lanes (lanes (regs t T n) v)).foldl f e) := by
  have hlen := C01_size ht hT h1 hv
  have hkl : k.lanes.length = n := by simp [BitMask.lanes]
  unfold maskedReduceFixed
  by_cases hn : k.isNone = true
  · rw [if_pos hn, selected_none]
    · rfl
    · intro i hi
      by_cases hin : i < n
      · have := (BitMask.isNone_iff h1 k (fun _ => hk)).1 hn i hin
        simp [BitMask.lanes, hin, this] at hi
      · rw [List.getElem?_eq_none (by omega)] at hi; cases hi
  · rw [if_neg hn]
    obtain ⟨hb1, hb2⟩ := C01_broadcast ht hT h1 e
    obtain ⟨r, e1, w1, l1⟩ := C15_assign ht hT h1 h64 ch k hk hb1 hv
    rw [e1]
    show reduceFixed t kd f zero one T.size c (regs t T n) r = _
    rw [C16_reduce_partial ht hT h1 kd f ha hc zero one h0 h1' c w1, l1, hb2]
    have hne : Spec.select k.lanes (lanes (regs t T n) v) (List.replicate n e) ≠ [] := by
      intro h
      have := congrArg List.length h
      simp [Spec.select, hkl, hlen] at this
      omega
    rw [foldOf_ident f (fun a => by rw [hc, he]) hne]
    have := foldl_selected f he k.lanes (lanes (regs t T n) v) e (by omega)
    rw [hkl] at this
    rw [this]

theorem noneOfGeo_spec (hg : g.Ok) (k : MaskM g) (hk : MaskOk g k) : noneOfGeo g k = true ↔ Spec.noneOf (maskLanes g k) := by
  cases g with
  | scalar => cases (show Bool from k) <;> simp [noneOfGeo, maskLanes, Spec.noneOf]
  | vec w n f => exact VMask.noneOf_spec hg.1 (VMask.Wf.rep hg.1 hg.2.2.2.1 hk)
  | bitmask n f => exact KMask.noneOf_spec hg.2.2 k

/-- C17 (partial) for native ABIs. -/
theorem C17_native_masked_reduce_partial (hg : g.Ok) {s : Nat} (hr : Regular t s g) (kd : Kind) (f : α → α → α)
    (ha : ∀ a b c, f (f a b) c = f a (f b c)) (hc : ∀ a b, f a b = f b a) (zero one e : α) (he : ∀ a, f a e = a)
    (h0 : kd = .plus → ∀ a, f a zero = a) (h1' : kd = .multiplies → ∀ a, f a one = a) (c : Bool)
    (k : MaskM g) (hk : MaskOk g k) {v : List α} (hv : v.length = g.full) :
    maskedReduceGeo t kd f zero one s c g k v e = some ((Spec.selected (maskLanes g k) (v.take g.size)).foldl f e) := by
  have hsz := hg.size_le
  have h1 := hg.one_le
  have hkl := length_maskLanes hg k hk
  unfold maskedReduceGeo
  by_cases hn : noneOfGeo g k = true
  · rw [if_pos hn, selected_none]
    · rfl
    · intro i hi
      have h2 := (noneOfGeo_spec hg k hk).1 hn
      exact absurd (h2 true (List.mem_iff_getElem?.2 ⟨i, hi⟩)) (by decide)
  · rw [if_neg hn]
    have hb : (Native.broadcast g e).length = g.full := length_broadcast g e
    obtain ⟨l1, l2⟩ := C15_native_assign hg c k hk (Native.broadcast g e) v hb hv
    rw [C16_native_reduce_partial hg hr kd f ha hc zero one h0 h1' l1, l2]
    have hbt : (Native.broadcast g e).take g.size = List.replicate (maskLanes g k).length e := by
      rw [hkl]; simp [Native.broadcast]; omega
    rw [hbt]
    have hne : Spec.select (maskLanes g k) (v.take g.size) (List.replicate (maskLanes g k).length e) ≠ [] := by
      intro h
      have := congrArg List.length h
      simp only [Spec.select, List.length_zipWith, List.length_zip, List.length_take, List.length_replicate, List.length_nil] at this
      omega
    rw [foldOf_ident f (fun a => by rw [hc, he]) hne, foldl_selected f he _ _ e (by simp; omega)]

-- non-vacuity: 3 of 11 lanes selected
example : maskedReduceGeo {} .other max 0 0 4 false (.bitmask 11 16) (0b10010001000#16) ((List.range 16).map (· + 1)) 0
    = some 11 := by decide +kernel

/-! ## C18 -/

/-- C18. `hmin(v)`, `hmax(v)` return the minimum (maximum) of all lanes: `le` is `≤` or `≥` and `f` is any function that
returns the lesser (greater) of its operands. -/
theorem C18_extremum (ht : t.Consistent) (hT : T.Ok) (h1 : 1 ≤ n) (le : α → α → Prop) (f : α → α → α) (hf : Spec.Picks le f)
    (htr : ∀ a b c, le a b → le b c → le a c) (hrefl : ∀ a, le a a) (zero one : α) (c : Bool) {x : Tup α}
    (hx : Wf (regs t T n) x) :
    ∃ r, reduceFixed t .other f zero one T.size c (regs t T n) x = some r ∧ Spec.IsExtremum le (lanes (regs t T n) x) r := by
  obtain ⟨r, h2, h3⟩ := C16_each_lane_once ht hT h1 f zero one c hx
  exact ⟨r, h2, h3.extremum hf htr hrefl⟩

/-- C18 for native ABIs. -/
theorem C18_native_extremum (hg : g.Ok) {s : Nat} (hr : Regular t s g) (le : α → α → Prop) (f : α → α → α) (hf : Spec.Picks le f)
    (htr : ∀ a b c, le a b → le b c → le a c) (hrefl : ∀ a, le a a) (zero one : α) {x : List α} (hx : x.length = g.full) :
    ∃ r, reduceGeo t .other f zero one s g x = some r ∧ Spec.IsExtremum le (x.take g.size) r := by
  obtain ⟨r, h2, h3⟩ := C16_native_each_lane_once hg hr f zero one hx
  exact ⟨r, h2, h3.extremum hf htr hrefl⟩

/-- C18 (partial). `hmin(where(k, v))`, `hmax(where(k, v))` return the extremum of the selected lanes, provided that some
selected lane is not beyond `ident` (the largest or smallest finite value): always so for integers when a lane is
selected.  Missing: all selected lanes infinite, where the code is wrong, see `C18_infinity`.  Floating-point types with
their NaNs: `Props/ReduceExtremum`. -/
theorem C18_masked_extremum_partial (ht : t.Consistent) (hT : T.Ok) (h1 : 1 ≤ n) (h64 : n ≤ 64) (le : α → α → Prop) (f : α → α → α)
    (hf : Spec.Picks le f) (htr : ∀ a b c, le a b → le b c → le a c) (hrefl : ∀ a, le a a) (zero one ident : α)
    (c : Bool) (ch : Nat → Bool) (k : BitMask n true) (hk : k.Clean) {v : Tup α} (hv : Wf (regs t T n) v)
    (hex : ∃ x ∈ Spec.selected k.lanes (lanes (regs t T n) v), le x ident)
    (hanti : ∀ x, le x ident → le ident x → x = ident) :
    ∃ r, maskedHFixed t f zero one T.size c ch (regs t T n) k v ident = some r ∧
      Spec.IsExtremum le (Spec.selected k.lanes (lanes (regs t T n) v)) r := by
  have hlen := C01_size ht hT h1 hv
  have hkl : k.lanes.length = n := by simp [BitMask.lanes]
  obtain ⟨hb1, hb2⟩ := C01_broadcast ht hT h1 ident
  obtain ⟨r, e1, w1, l1⟩ := C15_assign ht hT h1 h64 ch k hk hb1 hv
  obtain ⟨m, h2, h3⟩ := C18_extremum ht hT h1 le f hf htr hrefl zero one c w1
  refine ⟨m, by unfold maskedHFixed; rw [e1]; exact h2, ?_⟩
  rw [l1, hb2] at h3
  have h4 : Spec.IsExtremum le (Spec.select k.lanes (lanes (regs t T n) v) (List.replicate k.lanes.length ident)) m := by
    rw [hkl]; exact h3
  exact extremum_selected (by omega) hex hanti h4

/-- C18 (partial) for native ABIs. -/
theorem C18_native_masked_extremum_partial (hg : g.Ok) {s : Nat} (hr : Regular t s g) (le : α → α → Prop) (f : α → α → α)
    (hf : Spec.Picks le f) (htr : ∀ a b c, le a b → le b c → le a c) (hrefl : ∀ a, le a a) (zero one ident : α) (c : Bool)
    (k : MaskM g) (hk : MaskOk g k) {v : List α} (hv : v.length = g.full)
    (hex : ∃ x ∈ Spec.selected (maskLanes g k) (v.take g.size), le x ident)
    (hanti : ∀ x, le x ident → le ident x → x = ident) :
    ∃ r, maskedHGeo t f zero one s c g k v ident = some r ∧
      Spec.IsExtremum le (Spec.selected (maskLanes g k) (v.take g.size)) r := by
  have hsz := hg.size_le
  have hkl := length_maskLanes hg k hk
  have hb : (Native.broadcast g ident).length = g.full := length_broadcast g ident
  obtain ⟨l1, l2⟩ := C15_native_assign hg c k hk (Native.broadcast g ident) v hb hv
  obtain ⟨m, h2, h3⟩ := C18_native_extremum hg hr le f hf htr hrefl zero one l1
  refine ⟨m, h2, ?_⟩
  have hbt : (Native.broadcast g ident).take g.size = List.replicate (maskLanes g k).length ident := by
    rw [hkl]; simp [Native.broadcast]; omega
  rw [l2, hbt] at h3
  exact extremum_selected (by simp; omega) hex hanti h3

-- non-vacuity: `_Minimum` on integers picks the lesser operand; `int8_t`, where `ident` is 127
example : Spec.Picks (fun a b : Int => a ≤ b) (fun a b => if a < b then a else b) := by
  intro a b
  by_cases h : a < b
  · simp only [h, if_true, true_or, Int.le_refl, true_and]; omega
  · simp only [h, if_false, or_true, Int.le_refl, true_and, and_true]; omega

example : maskedHGeo {} (fun a b : Int => if a < b then a else b) 0 1 4 false (.bitmask 3 4) (0b110#8) [1, 5, 3, 0] 127 = some 3 := by
  decide +kernel

/-- C18, negation: `hmin(where(k, v))` of two `float` lanes, both selected and both +infinity, returns the largest finite
value.  Model of the values: `none` is +infinity, `some x` a finite value; `some 100` stands for the largest one. -/
theorem C18_infinity :
    let lt : Option Nat → Option Nat → Bool := fun a b => match a, b with
      | some a, some b => decide (a < b)
      | some _, .none => true
      | .none, _ => false
    maskedHGeo {} (fun a b => if lt a b then a else b) (some 0) (some 1) 4 false (.vec 32 3 4) [-1#32, -1#32, 0#32, 0#32]
      [.none, .none, some 3, some 0] (some 100) = some (some 100) ∧
    Spec.selected (VMask.lanes 3 [-1#32, -1#32, 0#32, 0#32]) [Option.none, .none, some 3] = [.none, (.none : Option Nat)] :=
  ⟨by decide +kernel, by decide +kernel⟩

end StdSimd.Props
