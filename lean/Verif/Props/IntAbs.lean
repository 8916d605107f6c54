import Verif.Proofs.IntAbs
import Verif.Proofs.Align
import Verif.Props.Compare
import Verif.Props.FixedSize
/-!
# C61: `abs` and `signbit` of integers

The element type is a signed integer type (for `signbit`: any integer type) of `w` bits.
-/
namespace StdSimd.Props
open Abi Spec Native Tuple IntAbs

variable {w : Nat}

/-- Every vector ABI that is valid on some target meets the requirement of the theorems below. -/
theorem IntAbs_fits {t : Target} (hc : t.Consistent) {T : Elem} (hT : T.Ok) (hs : T.size ∈ [1, 2, 4, 8]) (n : Nat) : ∀ g ∈ regs t T n, Fits (8 * T.size) g := by
  intro g hg
  obtain ⟨a, ha, rfl⟩ := List.mem_map.1 hg
  refine ⟨by simp at hs; omega, ?_⟩
  intro h8
  rcases Align.storage_cases hc hT n ha with rfl | ⟨_, k2, _⟩
  · left; rfl
  · right
    have h := ofTag_ok hT (storage_valid hc hT n a ha) (storage_native t T n a ha)
    have := h.1.size_le
    omega

/-- C61. `abs(x)`, `fabs(x)`: every element whose magnitude the type can represent becomes its magnitude. -/
theorem C61_abs {g : Geo} (hg : g.Ok) (hf : Fits w g) (c : Ctx w) {x : List (BitVec w)} (hx : x.length = g.full)
    (hm : ∀ a ∈ x.take g.size, a ≠ BitVec.intMin w) :
    ∃ r, abs c g x = some r ∧ r.length = g.full ∧ (r.take g.size).map BitVec.toInt = (x.take g.size).map (fun a => |a.toInt|) := by
  refine ⟨x.map pabs, abs_spec hf c hx ?_, by simpa using hx, ?_⟩
  · rintro rfl a ha
    apply hm
    rwa [List.take_of_length_le (by rw [hx]; exact Nat.le_refl 1)]
  · rw [← List.map_take, List.map_map]
    apply List.map_congr_left
    intro a ha
    exact toInt_pabs (by rcases hf.1 with h | h | h | h <;> omega) (hm a ha)

/-- C61. The smallest value of the type, whose magnitude is not representable, stays as it is in a vector and does not disturb the other elements. -/
theorem C61_min {g : Geo} (hs : g ≠ .scalar) (hf : Fits w g) (c : Ctx w) {x : List (BitVec w)} (hx : x.length = g.full) :
    ∃ r, abs c g x = some r ∧ r.length = g.full ∧ ∀ (i : Nat) (a : BitVec w), x[i]? = some a →
      ∃ b, r[i]? = some b ∧ (a ≠ BitVec.intMin w → b.toInt = |a.toInt|) ∧ (a = BitVec.intMin w → b = a) := by
  refine ⟨x.map pabs, abs_vec hf hs c hx, by simpa using hx, ?_⟩
  intro i a ha
  refine ⟨pabs a, by simp [ha], fun h => toInt_pabs (by rcases hf.1 with h | h | h | h <;> omega) h, ?_⟩
  rintro rfl; exact pabs_min

/-- C61 for `fixed_size` objects. -/
theorem C61_fixed {t : Target} (hc : t.Consistent) {T : Elem} (hT : T.Ok) (hs : T.size ∈ [1, 2, 4, 8]) {n : Nat} (h1 : 1 ≤ n) (c : Geo → Ctx (8 * T.size))
    {x : Tup (BitVec (8 * T.size))} (hx : Wf (regs t T n) x) (hm : ∀ a ∈ lanes (regs t T n) x, a ≠ BitVec.intMin _) :
    ∃ r, fixedAbs c (regs t T n) x = some r ∧ Wf (regs t T n) r ∧
      (lanes (regs t T n) r).map BitVec.toInt = (lanes (regs t T n) x).map (fun a => |a.toInt|) := by
  obtain ⟨hne, hok, htot, _⟩ := regs_facts hc hT h1
  unfold fixedAbs
  rw [applyPerChunk1_eq _ _ 0]
  obtain ⟨r, e, hw, hl⟩ := forEach1_spec (fun g _ (xx : List (BitVec (8 * T.size))) => abs (c g) g xx) (fun _ a => a ≠ BitVec.intMin _)
    (fun _ => pabs) n (regs t T n) 0 x hne hok hx (by omega)
    (fun g hg off x _ hx hP => by
      refine ⟨x.map pabs, abs_spec (IntAbs_fits hc hT hs n g hg) (c g) hx ?_, by simp [hx], fun i _ => by simp⟩
      rintro rfl a ha
      obtain ⟨i, hi⟩ := List.getElem?_of_mem ha
      have : i < x.length := by
        by_contra h; rw [List.getElem?_eq_none (by omega)] at hi; cases hi
      rw [hx] at this
      exact hP i a this hi)
    (fun i a ha => hm a (List.mem_of_getElem? ha))
  refine ⟨r, e, hw, ?_⟩
  have : lanes (regs t T n) r = (lanes (regs t T n) x).map pabs := List.ext_getElem? (fun i => by rw [hl, List.getElem?_map])
  rw [this, List.map_map]
  apply List.map_congr_left
  intro a ha
  exact toInt_pabs (by simp at hs; omega) (hm a ha)

/-- Comparing with zero. -/
theorem holds_zero (a : BitVec w) : Kind.holds (.int true w) .lt a (0 : BitVec w) = decide (Spec.value true a < 0) := by
  have h0 : Spec.value true (0 : BitVec w) = 0 := BitVec.toInt_zero
  show decide ((((Spec.value true a : ℚ) : WithTop ℚ) : WithBot (WithTop ℚ)) < (((Spec.value true (0 : BitVec w) : ℚ) : WithTop ℚ) : WithBot (WithTop ℚ))) = _
  rw [h0]
  congr 1
  rw [WithBot.coe_lt_coe, WithTop.coe_lt_coe]
  norm_num

theorem zipWith_replicate {α β γ : Type} (f : α → β → γ) (xs : List α) (z : β) (n : Nat) (h : xs.length = n) :
    List.zipWith f xs (List.replicate n z) = xs.map (fun a => f a z) := by
  subst h
  induction xs with
  | nil => rfl
  | cons a xs ih => rw [List.length_cons, List.replicate_succ, List.zipWith_cons_cons, ih, List.map_cons]

theorem zipWith_zero (xs : List (BitVec w)) (n : Nat) (h : xs.length = n) :
    List.zipWith (Kind.holds (.int true w) .lt) xs (List.replicate n (0 : BitVec w)) = xs.map (fun a => decide (Spec.value true a < 0)) :=
  (zipWith_replicate (Kind.holds (.int true w) .lt) xs (0 : BitVec w) n h).trans (List.map_congr_left (fun a _ => holds_zero a))

/-- C61. `signbit(x)` of integers: the elements with a negative value. -/
theorem C61_signbit {g : Geo} (hg : g.Ok) (s : Bool) (c : Compare.Ctx (.int s w)) {x : List (BitVec w)} (hx : x.length = g.full) :
    ∃ m, signbit s c g x = some m ∧ MaskOk g m ∧ maskLanes g m = (x.take g.size).map (fun a => decide (Spec.value s a < 0)) := by
  have hle := hg.size_le
  have hlen : (x.take g.size).length = g.size := by rw [List.length_take, hx]; omega
  unfold signbit
  cases s with
  | true =>
    have hb : (Native.broadcast g (0 : BitVec w)).length = g.full := List.length_replicate ..
    obtain ⟨m, e, hm, hl⟩ := C38_native (K := .int true w) hg c .lt x (Native.broadcast g (0 : BitVec w)) hx hb
    refine ⟨m, e, hm, hl.trans ?_⟩
    have ht : (Native.broadcast g (0 : BitVec w)).take g.size = List.replicate g.size 0 := by
      unfold Native.broadcast
      rw [List.take_replicate, Nat.min_eq_left hle]
    refine (congrArg (List.zipWith (Kind.holds (.int true w) .lt) (x.take g.size)) ht).trans ?_
    exact zipWith_zero _ _ hlen
  | false =>
    have h0 : (x.take g.size).map (fun a => decide (Spec.value false a < 0)) = List.replicate g.size false := by
      rw [List.eq_replicate_iff]
      refine ⟨by rw [List.length_map, List.length_take, hx]; omega, ?_⟩
      intro b hb
      obtain ⟨a, _, rfl⟩ := List.mem_map.1 hb
      simp [Spec.value]
    rw [h0]
    refine ⟨zeroMask g, rfl, ?_, ?_⟩
    · cases g with
      | scalar => trivial
      | vec v n f =>
        refine ⟨by simp [zeroMask], ?_⟩
        intro v hv
        left
        exact List.eq_of_mem_replicate (List.mem_of_mem_take hv)
      | bitmask n f => trivial
    · cases g with
      | scalar => rfl
      | vec v n f => simp [maskLanes, VMask.lanes, zeroMask, Geo.size]; exact hle
      | bitmask n f =>
        simp only [maskLanes, KMask.lanes, zeroMask, Geo.size]
        rw [List.eq_replicate_iff]
        simp

/-- C61. `signbit` of `fixed_size` objects. -/
theorem C61_signbit_fixed {t : Target} (hc : t.Consistent) {T : Elem} (hT : T.Ok) {n : Nat} (h1 : 1 ≤ n) (h64 : n ≤ 64) (s : Bool)
    (c : Geo → Compare.Ctx (.int s w)) {x : Tup (BitVec w)} (hx : Wf (regs t T n) x) :
    ∃ b, fixedSignbit s c (regs t T n) x = some b ∧ b.Clean ∧ b.lanes = (lanes (regs t T n) x).map (fun a => decide (Spec.value s a < 0)) := by
  obtain ⟨hne, hok, htot, _⟩ := regs_facts hc hT h1
  have hl : (lanes (regs t T n) x).length = n := by rw [length_lanes hok hx, htot]
  unfold fixedSignbit
  cases s with
  | true =>
    obtain ⟨hw, hb⟩ := C01_broadcast hc hT h1 (0 : BitVec w)
    obtain ⟨b, e, hcl, h⟩ := C38_fixed (K := .int true w) hc hT h1 h64 c .lt hx hw
    refine ⟨b, e, hcl, h.trans ?_⟩
    exact (congrArg (List.zipWith (Kind.holds (.int true w) .lt) (lanes (regs t T n) x)) hb).trans (zipWith_zero _ _ hl)
  | false =>
    refine ⟨_, rfl, ?_, ?_⟩
    · intro i _; exact BitMask.lane_zero i
    · unfold BitMask.lanes
      have h1 : (List.range (total (regs t T n))).map (BitMask.zero (total (regs t T n)) true).lane = List.replicate n false := by
        rw [List.eq_replicate_iff, htot]
        refine ⟨by simp, ?_⟩
        intro b hb
        obtain ⟨a, _, rfl⟩ := List.mem_map.1 hb
        exact BitMask.lane_zero a
      rw [h1]
      symm
      rw [List.eq_replicate_iff]
      refine ⟨by rw [List.length_map, hl], ?_⟩
      intro b hb
      obtain ⟨a, _, rfl⟩ := List.mem_map.1 hb
      simp [Spec.value]

/-- Bytes in a vector of 8 bytes, with the workaround and without: -5 becomes 5, -128 stays. -/
example : abs (w := 8) ⟨32, true, List.replicate 8 200#8⟩ (.vec 8 8 8) [251#8, 5, 128, 0, 255, 1, 2, 3] = some [5, 5, 128, 0, 1, 1, 2, 3] ∧
    abs (w := 8) ⟨32, false, []⟩ (.vec 8 8 8) [251#8, 5, 128, 0, 255, 1, 2, 3] = some [5, 5, 128, 0, 1, 1, 2, 3] := by decide

/-- The scalar ABI computes with `int`: -128 is a defined argument for `signed char`, the smallest `int` is not. -/
example : abs (w := 8) ⟨32, true, []⟩ .scalar [128#8] = some [128] ∧ abs (w := 32) ⟨32, true, []⟩ .scalar [0x80000000#32] = none := by decide

theorem exFits : Fits 8 (.vec 8 8 8) := ⟨.inl rfl, fun h => absurd h (by decide)⟩

/-- The hypotheses of `C61_abs`, `C61_fixed` and `C61_signbit` are met. -/
example : ∃ r, abs (w := 8) ⟨32, true, List.replicate 8 200#8⟩ (.vec 8 8 8) [251#8, 5, 129, 0, 255, 1, 2, 3] = some r ∧
    (r.take 8).map BitVec.toInt = [5, 5, 127, 0, 1, 1, 2, 3] := by
  obtain ⟨r, e, _, h⟩ := C61_abs (g := .vec 8 8 8) (by decide) exFits ⟨32, true, List.replicate 8 200#8⟩
    (x := [251#8, 5, 129, 0, 255, 1, 2, 3]) rfl (by decide)
  exact ⟨r, e, h.trans (by decide)⟩

example : ∃ r, fixedAbs (w := 32) (fun _ => ⟨32, false, []⟩) (regs exAvx2 ⟨4, false⟩ 3) [[1#32, -2, -3, 0x80000000]] = some r ∧
    (lanes (regs exAvx2 ⟨4, false⟩ 3) r).map BitVec.toInt = [1, 2, 3] := by
  have hr : regs exAvx2 ⟨4, false⟩ 3 = [.vec 32 3 4] := by
    unfold regs
    rw [Abi.storage_pos (by decide), show (3 - Abi.size ⟨4, false⟩ (Abi.bestAbi exAvx2 ⟨4, false⟩ 3)) = 0 by decide +kernel, Abi.storage_zero]
    decide +kernel
  obtain ⟨r, e, _, h⟩ := C61_fixed exAvx2_ok (T := ⟨4, false⟩) (by decide) (by decide) (n := 3) (by decide) (fun _ => ⟨32, false, []⟩)
    (x := [[1#32, -2, -3, 0x80000000]]) (by rw [hr]; exact ⟨rfl, trivial⟩)
    (by
      rw [hr]; intro a ha
      have : a ∈ [1#32, -2, -3] := ha
      simp only [List.mem_cons, List.not_mem_nil, or_false] at this
      rcases this with rfl | rfl | rfl <;> decide)
  exact ⟨r, e, h.trans (by rw [hr]; decide)⟩

example : ∃ m, signbit (w := 8) true ⟨true, false, [], []⟩ (.vec 8 3 4) [255#8, 0, 127, 9] = some m ∧
    maskLanes (.vec 8 3 4) m = [true, false, false] := by
  obtain ⟨m, e, _, h⟩ := C61_signbit (g := .vec 8 3 4) (by decide) true ⟨true, false, [], []⟩ (x := [255#8, 0, 127, 9]) rfl
  exact ⟨m, e, h.trans (by decide)⟩

end StdSimd.Props
