import Verif.Proofs.Compare
/-!
# Property theorems about comparison operators, `min`, `max`, `minmax`, `clamp`  (C37, C38)

`K` is the element type: an integer type of any signedness and width or a floating-point type of any format.  Objects are native registers of any
geometry `g` or the tuples of registers of a `fixed_size` object; `c` says which code the compiler and target select.
-/
namespace StdSimd.Props
open StdSimd Spec Native Compare Kind
variable {K : Kind} {g : Geo} {t : Abi.Target} {T : Abi.Elem} {n : Nat}

/-! ## C38 -/

/-- C38 for native objects: each of `==`, `!=`, `<`, `<=`, `>`, `>=` gives in each lane the relation of the values of the elements. -/
theorem C38_native (hg : g.Ok) (c : Ctx K) (r : Rel) (x y : List K.Bits) (hx : x.length = g.full) (hy : y.length = g.full) :
    ∃ m, Compare.operator K c r g x y = some m ∧ MaskOk g m ∧
      maskLanes g m = List.zipWith (K.holds r) (x.take g.size) (y.take g.size) := operator_spec K c r hg x y hx hy

/-- C38 for `fixed_size` objects. -/
theorem C38_fixed (ht : t.Consistent) (hT : T.Ok) (h1 : 1 ≤ n) (h64 : n ≤ 64) (c : Geo → Ctx K) (r : Rel) {x y : Tuple.Tup K.Bits}
    (hx : Tuple.Wf (Tuple.regs t T n) x) (hy : Tuple.Wf (Tuple.regs t T n) y) :
    ∃ b, fixedOperator K c r (Tuple.regs t T n) x y = some b ∧ b.Clean ∧
      b.lanes = List.zipWith (K.holds r) (Tuple.lanes (Tuple.regs t T n) x) (Tuple.lanes (Tuple.regs t T n) y) := by
  obtain ⟨hne, hok, htot, _⟩ := Tuple.regs_facts ht hT h1
  exact fixedOperator_spec K c r _ hne hok (by omega) x y hx hy

/-- C38, a lane with a NaN operand: `!=` is true, the other five are false. -/
theorem C38_nan (hg : g.Ok) (c : Ctx K) (r : Rel) (x y : List K.Bits) (hx : x.length = g.full) (hy : y.length = g.full)
    {i : Nat} (hi : i < g.size) {a b : K.Bits} (ha : x[i]? = some a) (hb : y[i]? = some b) (hn : K.value a = none ∨ K.value b = none) :
    ∃ m, Compare.operator K c r g x y = some m ∧ (maskLanes g m)[i]? = some (decide (r = .ne)) := by
  obtain ⟨m, e, _, hl⟩ := operator_spec K c r hg x y hx hy
  refine ⟨m, e, ?_⟩
  rw [hl, List.getElem?_zipWith, List.getElem?_take_of_lt hi, List.getElem?_take_of_lt hi, ha, hb]
  simp only [holds]
  rcases hn with h | h <;> rw [h]
  cases K.value a <;> rfl

/-- C38: the operators are consistent with each other: `x > y` is `y < x`, `x >= y` is `y <= x`, and `x != y` is the negation of `x == y`, in each
lane of each object; `x < y` and `x >= y` are complementary in the lanes without NaN. -/
theorem C38_relations (a b : K.Bits) :
    K.holds .gt a b = K.holds .lt b a ∧ K.holds .ge a b = K.holds .le b a ∧ K.holds .ne a b = !K.holds .eq a b ∧
      (K.value a ≠ none → K.value b ≠ none → K.holds .ge a b = !K.holds .lt a b) := by
  refine ⟨(holds_swap K a b).1, (holds_swap K a b).2, ?_, ?_⟩
  · unfold holds; cases K.value a <;> cases K.value b <;> simp [Rel.ofNumbers]
  · intro ha hb
    obtain ⟨u, hu⟩ := value_of_ne ha
    obtain ⟨v, hv⟩ := value_of_ne hb
    simp only [holds, hu, hv, Rel.ofNumbers, ge_iff_le]
    apply Bool.eq_iff_iff.2; simp

private abbrev b32 : Fmt := ⟨8, 23⟩
private abbrev i8 : Kind := .int true 8

-- non-vacuity: three signed bytes in a register of four, AVX-512 integers; the padding does not matter
example : (Geo.bitmask 3 4).Ok ∧
    (Compare.operator i8 ⟨true, false, [], []⟩ .gt (.bitmask 3 4) [0xff#8, 5#8, 7#8, 9#8] [1#8, 0xfb#8, 7#8, 0#8]).map (maskLanes (.bitmask 3 4))
      = some [false, true, false] := ⟨by decide, by decide⟩
example : b32.value 0x7fc00000#32 = none ∧ (Kind.float b32).value 0x7fc00000#32 = none := by
  constructor
  · unfold Fmt.value; exact if_pos (by decide)
  · unfold Kind.value Fmt.value; exact if_pos (by decide)
-- an 8-byte vector of two floats compared in a 16-byte register with unspecified upper half
example : ∃ m, Compare.operator (.float b32) ⟨true, false, [1#32, 2#32], [3#32, 4#32]⟩ .ge (.vec 32 2 2)
      [0x7fc00000#32, 0#32] [0#32, 0x80000000#32] = some m ∧ (maskLanes (.vec 32 2 2) m)[0]? = some false := by
  obtain ⟨m, e, h⟩ := C38_nan (K := .float b32) (g := .vec 32 2 2) (by decide) ⟨true, false, [1#32, 2#32], [3#32, 4#32]⟩ .ge
    [0x7fc00000#32, 0#32] [0#32, 0x80000000#32] rfl rfl (i := 0) (by decide) rfl rfl
    (Or.inl (by unfold Kind.value Fmt.value; exact if_pos (by decide)))
  exact ⟨m, e, h⟩

/-! ## C37 -/

/-- C37, `min` of native objects: each lane is one of the operands' elements, and not greater than either unless one is a NaN. -/
theorem C37_min (hg : g.Ok) (x y : List K.Bits) (hx : x.length = g.full) (hy : y.length = g.full) :
    ∃ r, Compare.min K g x y = some r ∧ r.length = g.full ∧
      ∀ i < g.size, ∃ a b c, x[i]? = some a ∧ y[i]? = some b ∧ r[i]? = some c ∧ K.Least a b c := by
  obtain ⟨r, e, rfl⟩ := map2_get (elemMin K g) x y
  have := hg.size_le
  refine ⟨_, e, by simp [hx, hy], fun i hi => ?_⟩
  have ha := List.getElem?_eq_getElem (l := x) (i := i) (by omega)
  have hb := List.getElem?_eq_getElem (l := y) (i := i) (by omega)
  exact ⟨_, _, _, ha, hb, by rw [List.getElem?_zipWith, ha, hb], elemMin_least K g _ _⟩

/-- C37, `max` of native objects. -/
theorem C37_max (hg : g.Ok) (x y : List K.Bits) (hx : x.length = g.full) (hy : y.length = g.full) :
    ∃ r, Compare.max K g x y = some r ∧ r.length = g.full ∧
      ∀ i < g.size, ∃ a b c, x[i]? = some a ∧ y[i]? = some b ∧ r[i]? = some c ∧ K.Greatest a b c := by
  obtain ⟨r, e, rfl⟩ := map2_get (elemMax K g) x y
  have := hg.size_le
  refine ⟨_, e, by simp [hx, hy], fun i hi => ?_⟩
  have ha := List.getElem?_eq_getElem (l := x) (i := i) (by omega)
  have hb := List.getElem?_eq_getElem (l := y) (i := i) (by omega)
  exact ⟨_, _, _, ha, hb, by rw [List.getElem?_zipWith, ha, hb], elemMax_greatest K g _ _⟩

/-- C37, `minmax` of native vectors (it is not available for the scalar ABI): the pair; both operands' elements occur in it. -/
theorem C37_minmax (hg : g.Ok) (hs : g ≠ .scalar) (x y : List K.Bits) (hx : x.length = g.full) (hy : y.length = g.full) :
    ∃ lo hi, Compare.minmax K g x y = some (lo, hi) ∧ lo.length = g.full ∧ hi.length = g.full ∧
      ∀ i < g.size, ∃ a b c d, x[i]? = some a ∧ y[i]? = some b ∧ lo[i]? = some c ∧ hi[i]? = some d ∧
        K.Least a b c ∧ K.Greatest a b d ∧ ((c = a ∧ d = b) ∨ (c = b ∧ d = a)) := by
  obtain ⟨r, e, hr⟩ := map2_get (vecMin K) x y
  obtain ⟨s, e', hs'⟩ := map2_get (fun a b => if elem K .less a b then b else a) x y
  have := hg.size_le
  refine ⟨r, s, ?_, by simp [hr, hx, hy], by simp [hs', hx, hy], fun i hi => ?_⟩
  · cases g with
    | scalar => exact absurd rfl hs
    | vec w n f => exact (show (map2 (fun a b => some (if elem K .less a b then a else b)) x y).bind _ = _ by rw [show map2 (fun a b => some (if elem K .less a b then a else b)) x y = some r from e, Option.bind_some, e']; rfl)
    | bitmask n f => exact (show (map2 (fun a b => some (if elem K .less a b then a else b)) x y).bind _ = _ by rw [show map2 (fun a b => some (if elem K .less a b then a else b)) x y = some r from e, Option.bind_some, e']; rfl)
  · have ha := List.getElem?_eq_getElem (l := x) (i := i) (by omega)
    have hb := List.getElem?_eq_getElem (l := y) (i := i) (by omega)
    refine ⟨_, _, _, _, ha, hb, by rw [hr, List.getElem?_zipWith, ha, hb], by rw [hs', List.getElem?_zipWith, ha, hb], ?_, ?_, ?_⟩
    · exact elemMin_least K (.vec 8 1 1) _ _
    · exact elemMax_greatest K .scalar _ _
    · unfold vecMin; split <;> simp

/-- C37, `clamp` of native objects: in every lane where `lo <= hi` and `v` is not a NaN the result is `v` limited to the range. -/
theorem C37_clamp (hg : g.Ok) (v lo hi : List K.Bits) (hv : v.length = g.full) (hlo : lo.length = g.full) (hhi : hi.length = g.full) :
    ∃ r, Compare.clamp K g v lo hi = some r ∧ r.length = g.full ∧
      ∀ i < g.size, ∃ a b c d, v[i]? = some a ∧ lo[i]? = some b ∧ hi[i]? = some c ∧ r[i]? = some d ∧
        (K.holds .le b c → K.value a ≠ none → K.Clamped a b c d) := by
  obtain ⟨m, e, rfl⟩ := map2_get (elemMax K g) lo v
  obtain ⟨r, e', rfl⟩ := map2_get (elemMin K g) hi (List.zipWith (elemMax K g) lo v)
  have := hg.size_le
  refine ⟨List.zipWith (elemMin K g) hi (List.zipWith (elemMax K g) lo v), ?_, by simp only [List.length_zipWith, hhi, hlo, hv, Nat.min_self],
    fun i hi' => ?_⟩
  · unfold Compare.clamp Compare.max Compare.min; rw [e]; exact e'
  · have ha := List.getElem?_eq_getElem (l := v) (i := i) (by omega)
    have hb := List.getElem?_eq_getElem (l := lo) (i := i) (by omega)
    have hc := List.getElem?_eq_getElem (l := hi) (i := i) (by omega)
    refine ⟨_, _, _, _, ha, hb, hc, by rw [List.getElem?_zipWith, List.getElem?_zipWith, ha, hb, hc], ?_⟩
    exact fun h1 h2 => elemClamp_clamped K g _ _ _ h1 h2

/-- C37, `clamp` of native vectors: wherever `lo <= hi` the result is exactly `std::clamp(v, lo, hi)`, also for NaN and zeros of either sign. -/
theorem C37_clamp_exact (hg : g.Ok) (hs : g ≠ .scalar) (v lo hi : List K.Bits) (hv : v.length = g.full) (hlo : lo.length = g.full)
    (hhi : hi.length = g.full) :
    ∃ r, Compare.clamp K g v lo hi = some r ∧ r.length = g.full ∧
      ∀ i < g.size, ∃ a b c d, v[i]? = some a ∧ lo[i]? = some b ∧ hi[i]? = some c ∧ r[i]? = some d ∧
        (K.holds .le b c → d = K.stdClamp a b c) := by
  obtain ⟨m, e, rfl⟩ := map2_get (elemMax K g) lo v
  obtain ⟨r, e', rfl⟩ := map2_get (elemMin K g) hi (List.zipWith (elemMax K g) lo v)
  have := hg.size_le
  refine ⟨List.zipWith (elemMin K g) hi (List.zipWith (elemMax K g) lo v), ?_, by simp only [List.length_zipWith, hhi, hlo, hv, Nat.min_self],
    fun i hi' => ?_⟩
  · unfold Compare.clamp Compare.max Compare.min; rw [e]; exact e'
  · have ha := List.getElem?_eq_getElem (l := v) (i := i) (by omega)
    have hb := List.getElem?_eq_getElem (l := lo) (i := i) (by omega)
    have hc := List.getElem?_eq_getElem (l := hi) (i := i) (by omega)
    refine ⟨_, _, _, _, ha, hb, hc, by rw [List.getElem?_zipWith, List.getElem?_zipWith, ha, hb, hc], fun h => ?_⟩
    rw [← vecClamp_eq K _ _ _ h]
    cases g with
    | scalar => exact absurd rfl hs
    | vec w n f => rfl
    | bitmask n f => rfl

/-- C37, `min` and `max` of `fixed_size` objects. -/
theorem C37_fixed_min_max (ht : t.Consistent) (hT : T.Ok) (h1 : 1 ≤ n) {x y : Tuple.Tup K.Bits}
    (hx : Tuple.Wf (Tuple.regs t T n) x) (hy : Tuple.Wf (Tuple.regs t T n) y) :
    ∃ r s, fixedMin K (Tuple.regs t T n) x y = some r ∧ fixedMax K (Tuple.regs t T n) x y = some s ∧
      Tuple.Wf (Tuple.regs t T n) r ∧ Tuple.Wf (Tuple.regs t T n) s ∧
      ∀ i < n, ∃ a b c d, (Tuple.lanes (Tuple.regs t T n) x)[i]? = some a ∧ (Tuple.lanes (Tuple.regs t T n) y)[i]? = some b ∧
        (Tuple.lanes (Tuple.regs t T n) r)[i]? = some c ∧ (Tuple.lanes (Tuple.regs t T n) s)[i]? = some d ∧
        K.Least a b c ∧ K.Greatest a b d := by
  obtain ⟨hne, hok, htot, _⟩ := Tuple.regs_facts ht hT h1
  obtain ⟨r, e, hw, hl⟩ := perChunk_spec (elemMin K) _ hne hok x y hx hy
  obtain ⟨s, e', hw', hl'⟩ := perChunk_spec (elemMax K) _ hne hok x y hx hy
  refine ⟨r, s, e, e', hw, hw', fun i hi => ?_⟩
  obtain ⟨a, ha⟩ := get_lanes hok hx (i := i) (by omega)
  obtain ⟨b, hb⟩ := get_lanes hok hy (i := i) (by omega)
  have hlg := length_laneGeo (Tuple.regs t T n)
  have hg := List.getElem?_eq_getElem (l := laneGeo (Tuple.regs t T n)) (i := i) (by omega)
  exact ⟨a, b, _, _, ha, hb, hl i _ a b hg ha hb, hl' i _ a b hg ha hb, elemMin_least K _ _ _, elemMax_greatest K _ _ _⟩

/-- C37, `clamp` of `fixed_size` objects. -/
theorem C37_fixed_clamp (ht : t.Consistent) (hT : T.Ok) (h1 : 1 ≤ n) {v lo hi : Tuple.Tup K.Bits}
    (hv : Tuple.Wf (Tuple.regs t T n) v) (hlo : Tuple.Wf (Tuple.regs t T n) lo) (hhi : Tuple.Wf (Tuple.regs t T n) hi) :
    ∃ r, fixedClamp K (Tuple.regs t T n) v lo hi = some r ∧ Tuple.Wf (Tuple.regs t T n) r ∧
      ∀ i < n, ∃ a b c d, (Tuple.lanes (Tuple.regs t T n) v)[i]? = some a ∧ (Tuple.lanes (Tuple.regs t T n) lo)[i]? = some b ∧
        (Tuple.lanes (Tuple.regs t T n) hi)[i]? = some c ∧ (Tuple.lanes (Tuple.regs t T n) r)[i]? = some d ∧
        (K.holds .le b c → K.value a ≠ none → K.Clamped a b c d) := by
  obtain ⟨hne, hok, htot, _⟩ := Tuple.regs_facts ht hT h1
  obtain ⟨m, e, hw, hl⟩ := perChunk_spec (elemMax K) _ hne hok lo v hlo hv
  obtain ⟨r, e', hw', hl'⟩ := perChunk_spec (elemMin K) _ hne hok hi m hhi hw
  refine ⟨r, ?_, hw', fun i hi' => ?_⟩
  · unfold fixedClamp fixedMax Compare.max; rw [e]; exact e'
  · obtain ⟨a, ha⟩ := get_lanes hok hv (i := i) (by omega)
    obtain ⟨b, hb⟩ := get_lanes hok hlo (i := i) (by omega)
    obtain ⟨c, hc⟩ := get_lanes hok hhi (i := i) (by omega)
    have hlg := length_laneGeo (Tuple.regs t T n)
    have hg := List.getElem?_eq_getElem (l := laneGeo (Tuple.regs t T n)) (i := i) (by omega)
    exact ⟨a, b, c, _, ha, hb, hc, hl' i _ c _ hg hc (hl i _ b a hg hb ha), fun h1 h2 => elemClamp_clamped K _ _ _ _ h1 h2⟩

/-- C37 for integers: `min`, `max` and `clamp` of the elements are exactly the functions of the standard library, whatever the ABI. -/
theorem C37_int_exact (s : Bool) (w : Nat) (g : Geo) (x y v lo hi : (Kind.int s w).Bits) :
    elemMin (.int s w) g x y = (Kind.int s w).stdMin x y ∧ elemMax (.int s w) g x y = (Kind.int s w).stdMax x y ∧
      ((Kind.int s w).holds .le lo hi → elemMin (.int s w) g hi (elemMax (.int s w) g lo v) = (Kind.int s w).stdClamp v lo hi) := by
  have key : ∀ a b : (Kind.int s w).Bits, elem (.int s w) .less a b = decide (Spec.value s a < Spec.value s b) := by
    intro a b; rw [elem_spec]; simp only [holds, Kind.value, Op.rel, Rel.ofNumbers, cast_lt]
  have key' : ∀ a b : (Kind.int s w).Bits, (Kind.int s w).holds .lt a b = decide (Spec.value s a < Spec.value s b) := by
    intro a b; simp only [holds, Kind.value, Rel.ofNumbers, cast_lt]
  have tie : ∀ a b : (Kind.int s w).Bits, ¬ Spec.value s a < Spec.value s b → ¬ Spec.value s b < Spec.value s a → a = b :=
    fun a b h1 h2 => (value_inj s a b).1 (by omega)
  have hmin : ∀ a b, elemMin (.int s w) g a b = (Kind.int s w).stdMin a b := by
    intro a b
    cases g <;> simp only [elemMin, scalarMin, vecMin, stdMin, key, key', decide_eq_true_eq] <;> split <;> split <;>
      first | rfl | omega | (apply tie <;> assumption) | (symm; apply tie <;> assumption)
  have hmax : ∀ a b, elemMax (.int s w) g a b = (Kind.int s w).stdMax a b := by
    intro a b
    cases g <;> simp only [elemMax, scalarMax, vecMax, stdMax, key, key', decide_eq_true_eq] <;> split <;> split <;>
      first | rfl | omega | (apply tie <;> assumption) | (symm; apply tie <;> assumption)
  refine ⟨hmin x y, hmax x y, fun h => ?_⟩
  rw [hmin, hmax]
  simp only [holds, Kind.value, Rel.ofNumbers, cast_le, decide_eq_true_eq] at h
  simp only [stdMin, stdMax, stdClamp, key', decide_eq_true_eq]
  by_cases h1 : Spec.value s lo < Spec.value s v
  · rw [if_pos h1, if_neg (by omega : ¬ Spec.value s v < Spec.value s lo)]
    by_cases h2 : Spec.value s v < Spec.value s hi
    · rw [if_pos h2, if_neg (by omega)]
    · rw [if_neg h2]
      split
      · rfl
      · apply tie <;> omega
  · rw [if_neg h1]
    by_cases h2 : Spec.value s lo < Spec.value s hi
    · rw [if_pos h2]
      split
      · rfl
      · rw [if_neg (by omega)]; apply tie <;> omega
    · rw [if_neg h2]
      have : lo = hi := tie _ _ (by omega) (by omega)
      split
      · exact this.symm
      · rw [if_neg (by omega)]; apply tie <;> omega

/-- Values used below: `0.f` and `-0.f` compare equal, `NaN` is not a number. -/
private theorem vals : (Kind.float b32).value 0#32 = some 0 ∧ (Kind.float b32).value 0x80000000#32 = some 0 ∧
    (Kind.float b32).value 0x7fc00000#32 = none := by
  refine ⟨?_, ?_, ?_⟩
  · change b32.value 0#32 = some 0
    unfold Fmt.value
    rw [if_neg (by decide), if_neg (by decide)]
    unfold Fmt.ratValue; rw [show b32.significand 0#32 = 0 by decide]; simp
  · change b32.value 0x80000000#32 = some 0
    unfold Fmt.value
    rw [if_neg (by decide), if_neg (by decide)]
    unfold Fmt.ratValue; rw [show b32.significand 0x80000000#32 = 0 by decide]; simp
  · unfold Kind.value Fmt.value; exact if_pos (by decide)

private theorem ties {z m q : K.Bits} {a} (h0 : K.value z = some a) (h1 : K.value m = some a) (h2 : K.value q = none) :
    Compare.min K (.vec 32 2 2) [z, q] [m, z] = some [m, z] ∧ Compare.min K .scalar [z] [m] = some [z] ∧
    Compare.min K .scalar [q] [z] = some [q] ∧ K.stdMin z m = z := by
  have l1 : elem K .less z m = false := by rw [elem_spec]; simp [holds, h0, h1, Op.rel, Rel.ofNumbers]
  have l2 : elem K .less m z = false := by rw [elem_spec]; simp [holds, h0, h1, Op.rel, Rel.ofNumbers]
  have l3 : elem K .less q z = false := by rw [elem_spec]; simp [holds, h0, h2, Op.rel]
  have l4 : elem K .less z q = false := by rw [elem_spec]; simp [holds, h0, h2, Op.rel]
  refine ⟨?_, ?_, ?_, ?_⟩
  · simp [Compare.min, map2, elemMin, vecMin, l1, l3, List.mapM_cons]
  · simp [Compare.min, map2, elemMin, scalarMin, l2, List.mapM_cons]
  · simp [Compare.min, map2, elemMin, scalarMin, l4, List.mapM_cons]
  · unfold stdMin
    rw [if_neg]; simp [holds, h0, h1, Rel.ofNumbers]

private theorem clampNan {z q : K.Bits} {a} (h0 : K.value z = some a) (h2 : K.value q = none) :
    Compare.clamp K .scalar [q] [z] [z] = some [z] ∧ Compare.clamp K (.vec 32 1 1) [q] [z] [z] = some [q] ∧ K.stdClamp q z z = q := by
  have l3 : elem K .less q z = false := by rw [elem_spec]; simp [holds, h0, h2, Op.rel]
  have l4 : elem K .less z q = false := by rw [elem_spec]; simp [holds, h0, h2, Op.rel]
  refine ⟨?_, ?_, ?_⟩
  · simp [Compare.clamp, Compare.max, Compare.min, map2, elemMin, elemMax, scalarMin, scalarMax, l4, List.mapM_cons]
  · simp [Compare.clamp, Compare.max, Compare.min, map2, elemMin, elemMax, vecMin, vecMax, l3, l4, List.mapM_cons]
  · unfold stdClamp; rw [if_neg, if_neg] <;> simp [holds, h0, h2]

/-- C37, the ABI shows: `min` of equivalent floats of different representation returns the second operand for vectors and the first (like
`std::min`) for scalars; `min` with a NaN first operand returns the second operand for vectors, the NaN for scalars; so `fixed_size` objects whose
last elements are scalars treat lanes differently. -/
theorem C37_min_ties :
    Compare.min (.float b32) (.vec 32 2 2) [0#32, 0x7fc00000#32] [0x80000000#32, 0#32] = some [0x80000000#32, 0#32] ∧
    Compare.min (.float b32) .scalar [0#32] [0x80000000#32] = some [0#32] ∧
    Compare.min (.float b32) .scalar [0x7fc00000#32] [0#32] = some [0x7fc00000#32] ∧
    (Kind.float b32).stdMin 0#32 0x80000000#32 = 0#32 := by
  exact ties vals.1 vals.2.1 vals.2.2

/-- C37, deviation of the scalar ABI: `clamp(NaN, 0, 0)` is `0`, while `std::clamp` and the vector ABIs return the NaN. -/
theorem C37_scalar_clamp_nan :
    Compare.clamp (.float b32) .scalar [0x7fc00000#32] [0#32] [0#32] = some [0#32] ∧
    Compare.clamp (.float b32) (.vec 32 1 1) [0x7fc00000#32] [0#32] [0#32] = some [0x7fc00000#32] ∧
    (Kind.float b32).stdClamp 0x7fc00000#32 0#32 0#32 = 0x7fc00000#32 := by
  exact clampNan vals.1 vals.2.2

-- non-vacuity: clamp of three signed bytes in a register of four; the third lane has lo > hi
example : Compare.clamp i8 (.vec 8 3 4) [0x80#8, 5#8, 1#8, 0#8] [0xfe#8, 0xfe#8, 9#8, 0#8] [3#8, 3#8, 3#8, 0#8]
      = some [0xfe#8, 3#8, 3#8, 0#8] ∧ i8.holds .le 0xfe#8 3#8 = true ∧ i8.holds .le 9#8 3#8 = false := by
  refine ⟨rfl, ?_, ?_⟩ <;> simp only [holds, Kind.value, Rel.ofNumbers, cast_le] <;> decide
example : Compare.minmax i8 (.vec 8 3 4) [0x80#8, 5#8, 1#8, 0#8] [0xfe#8, 0xfe#8, 9#8, 0#8]
      = some ([0x80#8, 0xfe#8, 1#8, 0#8], [0xfe#8, 5#8, 9#8, 0#8]) := rfl

end StdSimd.Props
