import Verif.Proofs.FixedSize
/-!
# Property theorems about native `simd` objects  (C01, C02, C11-C15)

`g : Geo` is the register geometry: scalar, vector with vector masks, vector with bit masks, each with any number of
lanes `g.size` and any number of elements `g.full ≥ g.size` in the register.  A value is the list of the `g.full`
elements of the register, `v.take g.size` are its lanes; a mask `k` has lanes `maskLanes g k`.  `MaskOk` is the invariant
of mask objects: vector-mask lanes are all-zeros or all-ones; padding is arbitrary.
-/
namespace StdSimd.Props
open StdSimd Tuple Native
variable {α β : Type} {g : Geo}

/-- C01 for native registers: element-wise operations act lane-wise. -/
theorem C01_native_binary (f : α → α → α) (x y : List α) (hx : x.length = g.full) (hy : y.length = g.full) :
    ∃ r, map2 (fun a b => some (f a b)) x y = some r ∧ r.length = g.full ∧
      r.take g.size = List.zipWith f (x.take g.size) (y.take g.size) := by
  refine ⟨_, map2_total f x y, by simp [hx, hy], ?_⟩
  apply List.ext_getElem?
  intro i
  by_cases hi : i < g.size
  · simp only [List.getElem?_take_of_lt hi, List.getElem?_map, List.zip, List.getElem?_zipWith]
    cases x[i]? <;> cases y[i]? <;> rfl
  · rw [List.getElem?_eq_none (by simp; omega), List.getElem?_eq_none (by simp; omega)]

/-- C02/C32 for native registers: a comparison gives the lane-wise mask. -/
theorem C02_native_compare (hg : g.Ok) (p : α → α → Bool) (x y : List α) (hx : x.length = g.full) (hy : y.length = g.full) :
    ∃ k, Native.cmp p g x y = some k ∧ MaskOk g k ∧
      maskLanes g k = List.zipWith p (x.take g.size) (y.take g.size) := cmp_spec p hg x y hx hy

/-- C10 for native registers: `gen` is called for the lanes only, once each, in order; padding becomes zero. -/
theorem C10_native_generator {m : Type → Type} [Monad m] [LawfulMonad m] (hg : g.Ok) (zero : α) (gen : Nat → m α) :
    Native.generator g zero gen = (do
      let xs ← (List.range g.size).mapM gen
      pure (xs ++ List.replicate (g.full - g.size) zero)) := generator_eq hg zero gen

/-! ## loads and stores -/

/-- C11 for native registers. -/
theorem C11_native_load (hg : g.Ok) (t : Abi.Target) {U : Abi.Elem} (hU : U.Ok) (same : Bool) (cvt : β → α) (zero : α)
    (mem : Mem β) (base : Nat) (f : Nat → β) (hm : ∀ i < g.size, mem (base + i) = some (f i)) :
    ∃ r, Native.load (Xfer.of t U same) cvt zero g mem base = some r ∧ r.length = g.full ∧
      r.take g.size = (List.range g.size).map (fun i => cvt (f i)) := by
  obtain ⟨r, e, hl, hr⟩ := load_spec _ (Xfer.of_ok t hU same) cvt zero hg mem base f hm
  have := hg.size_le
  refine ⟨r, e, hl, List.ext_getElem? (fun i => ?_)⟩
  by_cases hi : i < g.size
  · rw [List.getElem?_take_of_lt hi, hr i hi]; simp [hi]
  · rw [List.getElem?_eq_none (by simp; omega), List.getElem?_eq_none (by simp; omega)]

/-- C12 for native registers. -/
theorem C12_native_store (hg : g.Ok) (t : Abi.Target) {U : Abi.Elem} (hU : U.Ok) (same : Bool) (cvt : α → β) (v : List α)
    (hv : v.length = g.full) (mem : Mem β) (base : Nat) (hm : ∀ i < g.size, (mem (base + i)).isSome) :
    ∃ mem', Native.store (Xfer.of t U same) cvt g v mem base = some mem' ∧
      (∀ i < g.size, mem' (base + i) = ((v.take g.size)[i]?).map cvt) ∧
      (∀ a, (a < base ∨ base + g.size ≤ a) → mem' a = mem a) := by
  obtain ⟨mem', e, hs⟩ := store_spec _ (Xfer.of_ok t hU same) cvt hg v hv mem base hm
  refine ⟨mem', e, fun i hi => ?_, fun a ha => ?_⟩
  · rw [hs, if_pos ⟨by omega, by omega, rfl⟩, Nat.add_sub_cancel_left, List.getElem?_take_of_lt hi]
  · rw [hs, if_neg (by omega)]

/-! ## masked loads and stores -/

theorem mbit_iff (hg : g.Ok) (k : MaskM g) (hk : MaskOk g k) {i : Nat} (hi : i < g.size) :
    (maskLanes g k)[i]? = some true ↔ mbit g k i = true := by
  have := length_maskLanes hg k hk
  unfold mbit VMask.bit
  rw [List.getElem?_eq_getElem (by omega)]; simp

theorem native_select (hg : g.Ok) (k : MaskM g) (hk : MaskOk g k) {x v r : List α} (hx : x.length = g.size)
    (hv : v.length = g.full) (hr : r.length = g.full)
    (h : ∀ i < g.size, r[i]? = if mbit g k i then x[i]? else v[i]?) :
    r.take g.size = Spec.select (maskLanes g k) x (v.take g.size) := by
  have hl := length_maskLanes hg k hk
  have := hg.size_le
  apply select_ext
  · omega
  · simp; omega
  · simp; omega
  · intro i hi
    rw [hl] at hi
    rw [List.getElem?_take_of_lt hi, List.getElem?_take_of_lt hi, h i hi]
    simp only [mbit_iff hg k hk hi]

/-- C13 for native registers, on the code paths that sanitise the mask (`iter`: bit iteration, `bits`: AVX-512 masked
loads, `elem`: the element loop of NEON), for every mask. -/
theorem C13_native_masked_load (hg : g.Ok) (p : MaskedPath) (hp : p ≠ .raw) (cvt : β → α) (k : MaskM g) (hk : MaskOk g k)
    (v : List α) (hv : v.length = g.full) (mem : Mem β) (base : Nat) (f : Nat → β)
    (hm : ∀ i < g.size, (maskLanes g k)[i]? = some true → mem (base + i) = some (f i)) :
    ∃ r, Native.maskedLoad p cvt g v k mem base = some r ∧ r.length = g.full ∧
      r.take g.size = Spec.select (maskLanes g k) ((List.range g.size).map (fun i => cvt (f i))) (v.take g.size) := by
  obtain ⟨r, e, hl, hr⟩ := maskedLoad_spec p cvt hg k hk (fun h => absurd h hp) v hv mem base f
    (fun i hi hb => hm i hi ((mbit_iff hg k hk hi).2 hb))
  refine ⟨r, e, hl, native_select hg k hk (by simp) hv hl (fun i hi => ?_)⟩
  rw [hr i hi]; simp [hi]

/-- C13 (partial) for native registers on the AVX paths that use the mask register as it is, for masks without set
padding elements. Missing: masks with set padding, see `C13_native_avx_load_out_of_bounds`. -/
theorem C13_native_masked_load_raw_partial (hg : g.Ok) (cvt : β → α) (k : MaskM g) (hk : MaskOk g k) (hc : MaskClean g k)
    (v : List α) (hv : v.length = g.full) (mem : Mem β) (base : Nat) (f : Nat → β)
    (hm : ∀ i < g.size, (maskLanes g k)[i]? = some true → mem (base + i) = some (f i)) :
    ∃ r, Native.maskedLoad .raw cvt g v k mem base = some r ∧ r.length = g.full ∧
      r.take g.size = Spec.select (maskLanes g k) ((List.range g.size).map (fun i => cvt (f i))) (v.take g.size) := by
  obtain ⟨r, e, hl, hr⟩ := maskedLoad_spec .raw cvt hg k hk (fun _ => hc) v hv mem base f
    (fun i hi hb => hm i hi ((mbit_iff hg k hk hi).2 hb))
  refine ⟨r, e, hl, native_select hg k hk (by simp) hv hl (fun i hi => ?_)⟩
  rw [hr i hi]; simp [hi]

/-- C13 for the AVX masked load (`vmaskmov`, then `(~k & merge) | loaded`) of registers without padding: only the selected
elements are read, the others keep their value. -/
theorem C13_native_avx_load {w n : Nat} (hw : 0 < w) (k : VMask w) (hk : VMask.Wf n n k) (v : List (BitVec w)) (hv : v.length = n)
    (mem : Mem (BitVec w)) (base : Nat) (f : Nat → BitVec w)
    (hm : ∀ i < n, (VMask.lanes n k)[i]? = some true → mem (base + i) = some (f i)) :
    Native.maskLoadAvx v k mem base = some (Spec.select (VMask.lanes n k) ((List.range n).map f) v) := by
  have hr := VMask.Wf.rep hw (Nat.le_refl n) hk
  have hb := hr.blen
  have hkl := hr.len
  have hld : (List.range k.length).mapM (fun i => if ((k[i]?).getD 0#w).msb then mem.read (base + i) else some 0#w) =
      some ((List.range n).map (fun i => if VMask.bit (VMask.lanes n k) i then f i else 0#w)) := by
    rw [hkl]
    apply mapM_some
    intro i hi
    have hi : i < n := by simpa using hi
    have h1 := hr.get i hi
    have h2 : (VMask.lanes n k)[i]? = some (VMask.bit (VMask.lanes n k) i) := by
      unfold VMask.bit; rw [List.getElem?_eq_getElem (by omega)]; rfl
    rw [h1, h2]
    cases hbit : VMask.bit (VMask.lanes n k) i with
    | true =>
      rw [hbit] at h2
      have h3 : (BitVec.allOnes w).msb = true := by simp [BitVec.msb_eq_getLsbD_last]; omega
      simpa [VMask.elem, h3, Mem.read] using hm i hi h2
    | false => simp [VMask.elem]
  unfold Native.maskLoadAvx
  rw [hld]
  simp only [Option.bind_eq_bind, Option.bind_some, Option.pure_def, Option.some.injEq]
  apply List.ext_getElem?
  intro i
  by_cases hi : i < n
  · have h1 := hr.get i hi
    have h2 : (VMask.lanes n k)[i]? = some (VMask.bit (VMask.lanes n k) i) := by
      unfold VMask.bit; rw [List.getElem?_eq_getElem (by omega)]; rfl
    obtain ⟨a, ha⟩ : ∃ a, v[i]? = some a := ⟨v[i], List.getElem?_eq_getElem (by omega)⟩
    rw [h2] at h1
    have h3 : (((List.range n).map f).zip v)[i]? = some (f i, a) := by
      rw [List.getElem?_zip_eq_some]; simp [hi, ha]
    simp only [Spec.select, List.getElem?_zipWith, List.getElem?_map, List.getElem?_range hi, h1, h2, h3, ha]
    cases hbb : VMask.bit (VMask.lanes n k) i <;> simp [VMask.elem, hbb]
  · simp [Spec.select]
    rw [List.getElem?_eq_none, List.getElem?_eq_none] <;> simp <;> omega

-- non-vacuity: two of four elements are loaded, the other two are not mapped
example : Native.maskLoadAvx [5#8, 6#8, 7#8, 8#8] [-1#8, 0#8, -1#8, 0#8] (fun a => if a % 2 = 0 then some 9#8 else none) 0
    = some [9#8, 6#8, 9#8, 8#8] := by decide

/-- C13, negation for native partial vectors with AVX: `x`, `y` 3-element `float` vectors loaded from arrays (so their
padding element is zero); `where(x == y, v).copy_from(mem)` reads the fourth element of `mem`, because the comparison sets
the padding element of the mask: undefined when only the three elements of the array are mapped. -/
theorem C13_native_avx_load_out_of_bounds :
    ∃ k, Native.cmp (fun a b : Nat => a == b) (.vec 32 3 4) [1, 2, 3, 0] [1, 2, 9, 0] = some k ∧
      maskLanes (.vec 32 3 4) k = [true, true, false] ∧
      Native.maskedLoad .raw (fun b : Nat => b) (.vec 32 3 4) [5, 6, 7, 0] k (fun a => if a < 3 then some a else none) 0 = none :=
  ⟨_, rfl, by decide, by decide⟩

-- NEON: a set padding element does no harm
example : Native.maskedLoad .elem (fun b : Nat => b) (.vec 32 3 4) [5, 6, 7, 0] [-1#32, 0#32, -1#32, -1#32]
    (fun a => if a = 0 ∨ a = 2 then some (10 + a) else none) 0 = some [10, 6, 12, 0] := by decide

/-- C14 for native registers, on the code paths that sanitise the mask or test its elements, for every mask. -/
theorem C14_native_masked_store (hg : g.Ok) (p : MaskedPath) (hp : p ≠ .raw) (cvt : α → β) (junk : α) (k : MaskM g)
    (hk : MaskOk g k) (v : List α) (hv : v.length = g.full) (mem : Mem β) (base : Nat)
    (hm : ∀ i < g.size, (maskLanes g k)[i]? = some true → (mem (base + i)).isSome) :
    ∃ mem', Native.maskedStore p cvt junk g v mem base k = some mem' ∧
      (∀ i < g.size, (maskLanes g k)[i]? = some true → mem' (base + i) = ((v.take g.size)[i]?).map cvt) ∧
      (∀ a, (¬ ∃ i < g.size, (maskLanes g k)[i]? = some true ∧ a = base + i) → mem' a = mem a) := by
  obtain ⟨mem', e, hs⟩ := maskedStore_spec p cvt junk hg k hk (fun h => absurd h hp) v hv mem base
    (fun i hi hb => hm i hi ((mbit_iff hg k hk hi).2 hb))
  refine ⟨mem', e, fun i hi hb => ?_, fun a ha => ?_⟩
  · rw [hs, if_pos ⟨by omega, by omega, by rw [Nat.add_sub_cancel_left]; exact (mbit_iff hg k hk hi).1 hb⟩,
      Nat.add_sub_cancel_left, List.getElem?_take_of_lt hi]
  · rw [hs, if_neg]
    rintro ⟨h1, h2, h3⟩
    exact ha ⟨a - base, by omega, (mbit_iff hg k hk (by omega)).2 h3, by omega⟩

/-- C14 (partial) for native registers on the paths that use the mask register as it is, for masks without set padding
elements or phantom bits. Missing: other masks, see `C14_native_raw_store_out_of_bounds`. -/
theorem C14_native_masked_store_raw_partial (hg : g.Ok) (cvt : α → β) (junk : α) (k : MaskM g)
    (hk : MaskOk g k) (hc : MaskClean g k) (v : List α) (hv : v.length = g.full) (mem : Mem β) (base : Nat)
    (hm : ∀ i < g.size, (maskLanes g k)[i]? = some true → (mem (base + i)).isSome) :
    ∃ mem', Native.maskedStore .raw cvt junk g v mem base k = some mem' ∧
      (∀ i < g.size, (maskLanes g k)[i]? = some true → mem' (base + i) = ((v.take g.size)[i]?).map cvt) ∧
      (∀ a, (¬ ∃ i < g.size, (maskLanes g k)[i]? = some true ∧ a = base + i) → mem' a = mem a) := by
  obtain ⟨mem', e, hs⟩ := maskedStore_spec .raw cvt junk hg k hk (fun _ => hc) v hv mem base
    (fun i hi hb => hm i hi ((mbit_iff hg k hk hi).2 hb))
  refine ⟨mem', e, fun i hi hb => ?_, fun a ha => ?_⟩
  · rw [hs, if_pos ⟨by omega, by omega, by rw [Nat.add_sub_cancel_left]; exact (mbit_iff hg k hk hi).1 hb⟩,
      Nat.add_sub_cancel_left, List.getElem?_take_of_lt hi]
  · rw [hs, if_neg]
    rintro ⟨h1, h2, h3⟩
    exact ha ⟨a - base, by omega, (mbit_iff hg k hk (by omega)).2 h3, by omega⟩

/-- C14, negation. (1) 3-element vectors with AVX: `where(x == y, v).copy_to(mem)` with `x`, `y` loaded from arrays writes the
fourth element of `mem`. (2) 4-lane integer vectors with AVX-512: `where(x != y, v).copy_to(mem)` writes `mem[4]`. -/
theorem C14_native_raw_store_out_of_bounds :
    (∃ k, Native.cmp (fun a b : Nat => a == b) (.vec 32 3 4) [1, 2, 3, 0] [1, 2, 9, 0] = some k ∧
      (Native.maskedStore .raw (fun a : Nat => a) 0 (.vec 32 3 4) [5, 6, 7, 8] (fun _ => some 0) 0 k).map (fun m => m 3)
        = some (some 8)) ∧
    (∃ k, Native.cmpNe (.bitmask 4 4) [1, 2, 3, 4] [1, 2, 9, 4] = some k ∧
      Native.maskedStore .raw (fun a : Nat => a) 0 (.bitmask 4 4) [5, 6, 7, 8] (fun a => if a < 4 then some 0 else none) 0 k = none) :=
  ⟨⟨_, rfl, by decide⟩, ⟨_, rfl, by decide⟩⟩

/-! ## where expressions -/

/-- C15 for native registers: `where(k, v) = x`, whether or not the compiler knows the mask. -/
theorem C15_native_assign (hg : g.Ok) (c : Bool) (k : MaskM g) (hk : MaskOk g k) (v x : List α) (hv : v.length = g.full)
    (hx : x.length = g.full) :
    (Native.maskedAssign g (hintOf c g k) k v x).length = g.full ∧
    (Native.maskedAssign g (hintOf c g k) k v x).take g.size = Spec.select (maskLanes g k) (x.take g.size) (v.take g.size) := by
  obtain ⟨h1, h2⟩ := maskedAssign_spec hg k hk _ (hintOf_truthful c hg k hk) v x hv hx
  have := hg.size_le
  refine ⟨h1, native_select hg k hk (by simp; omega) hv h1 (fun i hi => ?_)⟩
  rw [h2 i hi, List.getElem?_take_of_lt hi]

/-- C15: the three ways in which `where(k, v) = x` is computed with a vector mask (conditional expression, `blendv`
instruction, bit operations) agree on every lane; so does `~k & v` with assigning zero. -/
theorem C15_blend_forms {w n f : Nat} (hw : 0 < w) (hw64 : w ≤ 64) (h1 : 1 ≤ n) (hf : n ≤ f) (h64 : n ≤ 64) (k : VMask w)
    (hk : VMask.Wf n f k) (a b : List (BitVec w)) (ha : a.length = f) (hb : b.length = f) {i : Nat} (hi : i < n) :
    (blendv k a b)[i]? = (blend (.vec w n f) k a b)[i]? ∧ (blendLogic k a b)[i]? = (blend (.vec w n f) k a b)[i]? ∧
    (maskedAssignZero k a)[i]? = (blend (.vec w n f) k a (List.replicate f 0#w))[i]? := by
  have hg : (Geo.vec w n f).Ok := ⟨hw, hw64, h1, hf, h64⟩
  refine ⟨?_, ?_, ?_⟩
  · rw [blendv_get hw hf k hk a b ha hb hi, blend_get hg k hk a b ha hb hi]; rfl
  · rw [blendLogic_get hw hf k hk a b ha hb hi, blend_get hg k hk a b ha hb hi]; rfl
  · rw [maskedAssignZero_get hw hf k hk a ha hi, blend_get hg k hk a _ ha (by simp) hi]
    have hif : i < f := by omega
    simp only [List.getElem?_replicate, if_pos hif]
    rfl

/-- C15 (partial) for native registers: `where(k, v) = a` for a scalar, if the all-zero pattern is the only value equal to
zero. Missing: `-0.0`, see `C15_assign_negative_zero`. -/
theorem C15_native_assign_scalar_partial (hg : g.Ok) (c : Bool) (isZero : α → Bool) (zero : α) (k : MaskM g) (hk : MaskOk g k)
    (v : List α) (hv : v.length = g.full) (a : α) (hz : isZero a = true → a = zero) :
    (Native.maskedAssignScalar g (hintOf c g k) isZero zero k v a).length = g.full ∧
    (Native.maskedAssignScalar g (hintOf c g k) isZero zero k v a).take g.size =
      Spec.select (maskLanes g k) (List.replicate g.size a) (v.take g.size) := by
  obtain ⟨h1, h2⟩ := maskedAssignScalar_spec hg k hk _ (hintOf_truthful c hg k hk) isZero zero v hv a hz
  refine ⟨h1, native_select hg k hk (by simp) hv h1 (fun i hi => ?_)⟩
  rw [h2 i hi, List.getElem?_replicate, if_pos hi]

/-- C15, negation: `where(k, v) = -0.0f` with the value known to the compiler assigns `+0.0f`: on two `float` lanes of which
the first is selected, the result has bit pattern 0 instead of `0x80000000` in lane 0.  (`isZero` is `== 0` on `float`
bit patterns.) -/
theorem C15_assign_negative_zero :
    ∃ k : VMask 32, VMask.Wf 2 2 k ∧ VMask.lanes 2 k = [true, false] ∧
      Native.maskedAssignScalar (.vec 32 2 2) .unknown (fun b : BitVec 32 => b <<< 1 == 0#32) 0#32 k
        [0x3f800000#32, 0x40000000#32] 0x80000000#32 = [0#32, 0x40000000#32] :=
  ⟨[-1#32, 0#32], ⟨rfl, by simp⟩, by decide, by decide +kernel⟩

/-- C15 (partial) for native registers: `where(k, v) op= x` with an operation defined for all operands. Missing: see
`C15_division_in_unselected_lane`. -/
theorem C15_native_compound_partial (hg : g.Ok) (c : Bool) (f : α → α → α) (k : MaskM g) (hk : MaskOk g k) (v x : List α)
    (hv : v.length = g.full) (hx : x.length = g.full) :
    ∃ r, Native.maskedCassign g (hintOf c g k) k v x (map2 (fun a b => some (f a b))) = some r ∧ r.length = g.full ∧
      r.take g.size = Spec.select (maskLanes g k) (List.zipWith f (v.take g.size) (x.take g.size)) (v.take g.size) := by
  obtain ⟨r, e, h1, h2⟩ := maskedCassign_spec hg k hk _ (hintOf_truthful c hg k hk) v x hv (map2 (fun a b => some (f a b))) _
    (map2_total f v x) (by simp [hv, hx])
  have := hg.size_le
  refine ⟨r, e, h1, native_select hg k hk (by simp; omega) hv h1 (fun i hi => ?_)⟩
  rw [h2 i hi]
  have ha := List.getElem?_eq_getElem (l := v) (i := i) (by omega)
  have hb := List.getElem?_eq_getElem (l := x) (i := i) (by omega)
  simp only [List.getElem?_map, List.zip, List.getElem?_zipWith, List.getElem?_take_of_lt hi, ha, hb]
  rfl

/-- C15 for native registers: unary operators through `where`. -/
theorem C15_native_unary (hg : g.Ok) (c : Bool) (f : α → α) (k : MaskM g) (hk : MaskOk g k) (v : List α)
    (hv : v.length = g.full) :
    ∃ r, Native.maskedUnary g (hintOf c g k) k v (map1 (fun a => some (f a))) = some r ∧ r.length = g.full ∧
      r.take g.size = Spec.select (maskLanes g k) ((v.take g.size).map f) (v.take g.size) := by
  obtain ⟨r, e, h1, h2⟩ := maskedCassign_spec hg k hk _ (hintOf_truthful c hg k hk) v v hv (fun x _ => map1 (fun a => some (f a)) x) _
    (map1_total f v) (by simp [hv])
  have := hg.size_le
  refine ⟨r, by rw [maskedUnary_eq]; exact e, h1, native_select hg k hk (by simp; omega) hv h1 (fun i hi => ?_)⟩
  rw [h2 i hi, List.getElem?_map, List.getElem?_map, List.getElem?_take_of_lt hi]

/-- C15, negation: `where(y != 0, x) /= y` on two `int` lanes, `y = {0, 2}`.  Lane 0 is not selected and the division of
lane 1 is defined, yet the operation is undefined, because the code divides all lanes before it blends. -/
theorem C15_division_in_unselected_lane :
    ∃ k : VMask 32, VMask.Wf 2 2 k ∧ VMask.lanes 2 k = [false, true] ∧
      Native.maskedCassign (.vec 32 2 2) .unknown k [8, 8] [0, 2]
        (map2 (fun a b : Int => if b = 0 then none else some (a.tdiv b))) = none :=
  ⟨[0#32, -1#32], ⟨rfl, by simp⟩, by decide, by decide⟩

/-! ## non-vacuity: a partial register with arbitrary padding in value and mask -/

example : (Geo.vec 32 3 4).Ok ∧ MaskOk (.vec 32 3 4) ([-1#32, 0#32, -1#32, 7#32] : VMask 32) ∧
    (Native.maskedAssign (.vec 32 3 4) (hintOf false (.vec 32 3 4) ([-1#32, 0#32, -1#32, 7#32] : VMask 32))
      ([-1#32, 0#32, -1#32, 7#32] : VMask 32) [1, 2, 3, 4] [5, 6, 7, 8]).take 3 = [5, 2, 7] :=
  ⟨by decide, ⟨rfl, by simp⟩, by decide⟩
example : MaskOk (.bitmask 3 4) 0xfd#8 ∧ maskLanes (.bitmask 3 4) 0xfd#8 = [true, false, true] ∧ ¬ MaskClean (.bitmask 3 4) 0xfd#8 ∧
    (Native.maskedAssign (.bitmask 3 4) .unknown 0xfd#8 [1, 2, 3, 4] [5, 6, 7, 8]).take 3 = [5, 2, 7] := by
  refine ⟨trivial, by decide, ?_, by decide⟩
  intro h; exact absurd (h 7 (by decide)) (by decide)
example : ∃ mem', Native.maskedStore .bits (fun a : Nat => a) 0 (.bitmask 3 4) [5, 6, 7, 8]
    (fun a => if a = 12 then some 0 else none) 10 0xfc#8 = some mem' ∧ mem' 12 = some 7 := by
  obtain ⟨m, e, h, _⟩ := C14_native_masked_store (g := .bitmask 3 4) (by decide) .bits (by decide) (fun a : Nat => a) 0
    0xfc#8 trivial [5, 6, 7, 8] rfl (fun a => if a = 12 then some 0 else none) 10 (by decide)
  exact ⟨m, e, h 2 (by decide) (by decide)⟩

end StdSimd.Props
