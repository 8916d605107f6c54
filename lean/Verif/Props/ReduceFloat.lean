import Verif.Props.Reduce
import Verif.Props.Masks
import Verif.Proofs.ReduceFloat
/-!
# Property theorems about sums and products of floating-point vectors (C16, C17)

Floating-point addition and multiplication are not associative, and the library fills padding with 0 or 1 before it sums or
multiplies.  Still every lane is used exactly once: the result has the value of an expression whose operands are the lanes, each once.
Equal values (`f.value`) means the same number or infinity, or both NaN; what is left open is only the sign of a zero
(`C16_negative_zero`) and which NaN.  `f` is any IEEE format, `env` any rounding direction.
-/
namespace StdSimd.Props
open StdSimd Tuple Native Reduce
variable {t : Abi.Target} {T : Abi.Elem} {n : Nat} {g : Geo} {f : Spec.Fmt}

/-- What the reductions compute for any operation, `plus<>` and `multiplies<>` included: an expression in the lanes, each once, and in copies of
the value that fills padding. -/
theorem C16_operands {α : Type} (ht : t.Consistent) (hT : T.Ok) (h1 : 1 ≤ n) (kd : Kind) (op : α → α → α) (zero one : α) (c : Bool)
    {x : Tup α} (hx : Wf (regs t T n) x) :
    ∃ r m, reduceFixed t kd op zero one T.size c (regs t T n) x = some r ∧
      Spec.Combines op (lanes (regs t T n) x ++ List.replicate m (if kd = .multiplies then one else zero)) r ∧ (kd = .other → m = 0) := by
  obtain ⟨r, m, h2, h3, h4⟩ := reduceFixed_spec t kd op zero one T.size c _ (regs t T n) x rfl (regs_facts ht hT h1).1
    (regs_good ht hT h1) hx
  exact ⟨r, m, h2, by cases kd <;> exact h3, h4⟩

theorem lanes_ne_nil {α : Type} (ht : t.Consistent) (hT : T.Ok) (h1 : 1 ≤ n) {x : Tup α} (hx : Wf (regs t T n) x) :
    lanes (regs t T n) x ≠ [] := by
  intro h
  have := C01_size ht hT h1 hx
  rw [h] at this; simp at this; omega

/-- C16. `reduce(v)` of a floating-point `fixed_size` object: the value of a sum of the lanes, each exactly once. -/
theorem C16_float_sum (ht : t.Consistent) (hT : T.Ok) (h1 : 1 ≤ n) (hf : f.Ok) (env : f.Env) (one : f.Bits) (c : Bool) {x : Tup f.Bits}
    (hx : Wf (regs t T n) x) :
    ∃ r s, reduceFixed t .plus (Spec.Fmt.add env) 0#f.width one T.size c (regs t T n) x = some r ∧
      Spec.Combines (Spec.Fmt.add env) (lanes (regs t T n) x) s ∧ f.value r = f.value s := by
  obtain ⟨r, m, h2, h3, _⟩ := C16_operands ht hT h1 .plus (Spec.Fmt.add env) 0#f.width one c hx
  obtain ⟨s, h4, h5⟩ := prune (neutral_add env hf (isZero_zero f)) (lanes_ne_nil ht hT h1 hx)
    (fun a ha => by rw [List.eq_of_mem_replicate ha]; rfl) h3
  exact ⟨r, s, h2, h4, h5⟩

/-- C16. `reduce(v, std::multiplies<>())`: the value of a product of the lanes, each exactly once. -/
theorem C16_float_product (ht : t.Consistent) (hT : T.Ok) (h1 : 1 ≤ n) (hf : f.Ok) (env : f.Env) (zero one : f.Bits)
    (hone : f.isFinite one ∧ f.ratValue one = 1) (c : Bool) {x : Tup f.Bits} (hx : Wf (regs t T n) x) :
    ∃ r s, reduceFixed t .multiplies (Spec.Fmt.mul env) zero one T.size c (regs t T n) x = some r ∧
      Spec.Combines (Spec.Fmt.mul env) (lanes (regs t T n) x) s ∧ f.value r = f.value s := by
  obtain ⟨r, m, h2, h3, _⟩ := C16_operands ht hT h1 .multiplies (Spec.Fmt.mul env) zero one c hx
  obtain ⟨s, h4, h5⟩ := prune (neutral_mul env hf hone.1 hone.2) (lanes_ne_nil ht hT h1 hx)
    (fun a ha => by rw [List.eq_of_mem_replicate ha]; rfl) h3
  exact ⟨r, s, h2, h4, h5⟩

/-- C16 for native ABIs: the sum. -/
theorem C16_native_float_sum (hg : g.Ok) {s : Nat} (hr : Regular t s g) (hf : f.Ok) (env : f.Env) (one : f.Bits) {x : List f.Bits}
    (hx : x.length = g.full) :
    ∃ r q, reduceGeo t .plus (Spec.Fmt.add env) 0#f.width one s g x = some r ∧
      Spec.Combines (Spec.Fmt.add env) (x.take g.size) q ∧ f.value r = f.value q := by
  obtain ⟨r, m, h2, h3, _⟩ := reduceGeo_spec t .plus (Spec.Fmt.add env) 0#f.width one s hg hr x hx
  obtain ⟨q, h4, h5⟩ := prune (neutral_add env hf (isZero_zero f)) (take_ne_nil hg hx)
    (fun a ha => by rw [List.eq_of_mem_replicate ha]; rfl) h3
  exact ⟨r, q, h2, h4, h5⟩

/-- C16 for native ABIs: the product. -/
theorem C16_native_float_product (hg : g.Ok) {s : Nat} (hr : Regular t s g) (hf : f.Ok) (env : f.Env) (zero one : f.Bits)
    (hone : f.isFinite one ∧ f.ratValue one = 1) {x : List f.Bits} (hx : x.length = g.full) :
    ∃ r q, reduceGeo t .multiplies (Spec.Fmt.mul env) zero one s g x = some r ∧
      Spec.Combines (Spec.Fmt.mul env) (x.take g.size) q ∧ f.value r = f.value q := by
  obtain ⟨r, m, h2, h3, _⟩ := reduceGeo_spec t .multiplies (Spec.Fmt.mul env) zero one s hg hr x hx
  obtain ⟨q, h4, h5⟩ := prune (neutral_mul env hf hone.1 hone.2) (take_ne_nil hg hx)
    (fun a ha => by rw [List.eq_of_mem_replicate ha]; rfl) h3
  exact ⟨r, q, h2, h4, h5⟩

/-- 1 in binary32. -/
theorem one32 : (⟨8, 23⟩ : Spec.Fmt).isFinite 0x3f800000#32 ∧ (⟨8, 23⟩ : Spec.Fmt).ratValue 0x3f800000#32 = 1 := by
  refine ⟨by decide +kernel, ?_⟩
  have h1 : (⟨8, 23⟩ : Spec.Fmt).sign 0x3f800000#32 = false := by decide +kernel
  have h2 : (⟨8, 23⟩ : Spec.Fmt).significand 0x3f800000#32 = 2 ^ 23 := by decide +kernel
  have h3 : (⟨8, 23⟩ : Spec.Fmt).expo 0x3f800000#32 = 127 := by decide +kernel
  unfold Spec.Fmt.ratValue
  rw [h1, h2, h3]
  norm_num [Spec.Fmt.bias]

-- non-vacuity: five floats in the 8-lane registers of AVX; 27 floats with AVX-512F in the registers of 16 and 11 lanes
example (env : (⟨8, 23⟩ : Spec.Fmt).Env) :
    ∃ r q, reduceGeo { sse := true, sse2 := true, avx := true, avx2 := true, x86_64 := true } .plus (Spec.Fmt.add env) 0#32 0x3f800000#32 4 (.vec 32 5 8)
        [0x80000000#32, 1#32, 0x7f800000#32, 0x3f800000#32, 0xbf800000#32, 7#32, 7#32, 7#32] = some r ∧
      Spec.Combines (Spec.Fmt.add env) [0x80000000#32, 1#32, 0x7f800000#32, 0x3f800000#32, 0xbf800000#32] q ∧
      (⟨8, 23⟩ : Spec.Fmt).value r = (⟨8, 23⟩ : Spec.Fmt).value q :=
  C16_native_float_sum (f := ⟨8, 23⟩) (g := .vec 32 5 8) (by decide) (Or.inr ⟨by simp [SizeOk], by decide, by decide +kernel⟩) (by decide) env _
    (x := [0x80000000#32, 1#32, 0x7f800000#32, 0x3f800000#32, 0xbf800000#32, 7#32, 7#32, 7#32]) rfl

example (env : (⟨8, 23⟩ : Spec.Fmt).Env) (x : Tup (BitVec 32))
    (hx : Wf (regs { sse := true, sse2 := true, avx := true, avx2 := true, avx512f := true, x86_64 := true } ⟨4, true⟩ 27) x) :
    ∃ r q, reduceFixed { sse := true, sse2 := true, avx := true, avx2 := true, avx512f := true, x86_64 := true } .multiplies (Spec.Fmt.mul env)
        0#32 0x3f800000#32 4 false (regs { sse := true, sse2 := true, avx := true, avx2 := true, avx512f := true, x86_64 := true } ⟨4, true⟩ 27) x
        = some r ∧
      Spec.Combines (Spec.Fmt.mul env)
        (lanes (regs { sse := true, sse2 := true, avx := true, avx2 := true, avx512f := true, x86_64 := true } ⟨4, true⟩ 27) x) q ∧
      (⟨8, 23⟩ : Spec.Fmt).value r = (⟨8, 23⟩ : Spec.Fmt).value q :=
  C16_float_product (f := ⟨8, 23⟩) (T := ⟨4, true⟩) (by constructor <;> decide) (by decide) (by decide) (by decide) env _ _ one32 false hx

/-- A masked reduction of the selected lanes: the parts of the vector that are not selected hold `e`. -/
theorem masked_prune {α : Type} {op : α → α → α} {R : α → α → Prop} {u : α} (hR : Neutral op R u) {k : List Bool} {v : List α} {e r : α}
    (hkv : k.length = v.length) (he : R e u) {p : List α} (hp : ∀ x ∈ p, R x u) (hsel : Spec.selected k v ≠ [])
    (h : Spec.Combines op (Spec.select k v (List.replicate k.length e) ++ p) r) : ∃ s, Spec.Combines op (Spec.selected k v) s ∧ R r s := by
  obtain ⟨j, hj⟩ := select_perm e k v hkv
  have h2 := h.perm (hj.append_right p)
  rw [List.append_assoc] at h2
  refine prune hR hsel (fun x hx => ?_) h2
  rcases List.mem_append.1 hx with hx | hx
  · rw [List.eq_of_mem_replicate hx]; exact he
  · exact hp x hx

theorem selected_ne_nil {n : Nat} {α : Type} {k : BitMask n true} {v : List α} (hv : v.length = n) (h1 : 1 ≤ n) (hk : k.Clean)
    (h : ¬ k.isNone = true) : Spec.selected k.lanes v ≠ [] := by
  obtain ⟨i, hi, hb⟩ := isNone_false h1 hk (by simpa using h)
  intro hn
  have : v[i]'(by omega) ∈ Spec.selected k.lanes v := mem_selected.2 ⟨i, by simp [BitMask.lanes, hi, hb], by simp [hv, hi]⟩
  rw [hn] at this; cases this

theorem masked_float {op : f.Bits → f.Bits → f.Bits} {kd : Kind} {u zero one e : f.Bits}
    (hN : Neutral op (fun x y => f.value x = f.value y) u) (hu : (if kd = .multiplies then one else zero) = u) (he : f.value e = f.value u)
    (ht : t.Consistent) (hT : T.Ok) (h1 : 1 ≤ n) (h64 : n ≤ 64) (c : Bool) (ch : Nat → Bool) (k : BitMask n true) (hk : k.Clean)
    {v : Tup f.Bits} (hv : Wf (regs t T n) v) :
    ∃ r, maskedReduceFixed t kd op zero one T.size c ch (regs t T n) k v e = some r ∧
      (Spec.noneOf k.lanes → r = e) ∧
      (Spec.anyOf k.lanes → ∃ s, Spec.Combines op (Spec.selected k.lanes (lanes (regs t T n) v)) s ∧ f.value r = f.value s) := by
  have hlen := C01_size ht hT h1 hv
  have hkl : k.lanes.length = n := by simp [BitMask.lanes]
  have hnone := C05_none h1 k (fun _ => hk)
  unfold maskedReduceFixed
  by_cases hn : k.isNone = true
  · rw [if_pos hn]
    refine ⟨e, rfl, fun _ => rfl, fun ⟨b, hb, hb'⟩ => ?_⟩
    have := hnone.1 hn b hb
    rw [hb'] at this; cases this
  · rw [if_neg hn]
    obtain ⟨hb1, hb2⟩ := C01_broadcast ht hT h1 e
    obtain ⟨w, e1, w1, l1⟩ := C15_assign ht hT h1 h64 ch k hk hb1 hv
    rw [e1]
    obtain ⟨r, m, h2, h3, _⟩ := C16_operands ht hT h1 kd op zero one c w1
    refine ⟨r, h2, fun h => absurd (hnone.2 h) hn, fun _ => ?_⟩
    rw [l1, hb2, hu] at h3
    have h4 : List.replicate n e = List.replicate k.lanes.length e := by rw [hkl]
    rw [h4] at h3
    exact masked_prune hN (by rw [hkl, hlen]) he (fun a ha => by rw [List.eq_of_mem_replicate ha])
      (selected_ne_nil hlen h1 hk hn) h3

/-- C17. `reduce(where(k, v), e, std::plus<>())`, `e` a zero: the value of a sum of the selected lanes, each exactly once; `e` if no lane is selected. -/
theorem C17_float_sum (ht : t.Consistent) (hT : T.Ok) (h1 : 1 ≤ n) (h64 : n ≤ 64) (hf : f.Ok) (env : f.Env) (one e : f.Bits) (he : f.isZero e)
    (c : Bool) (ch : Nat → Bool) (k : BitMask n true) (hk : k.Clean) {v : Tup f.Bits} (hv : Wf (regs t T n) v) :
    ∃ r, maskedReduceFixed t .plus (Spec.Fmt.add env) 0#f.width one T.size c ch (regs t T n) k v e = some r ∧
      (Spec.noneOf k.lanes → r = e) ∧
      (Spec.anyOf k.lanes → ∃ s, Spec.Combines (Spec.Fmt.add env) (Spec.selected k.lanes (lanes (regs t T n) v)) s ∧ f.value r = f.value s) :=
  masked_float (neutral_add env hf (isZero_zero f)) rfl
    (by
      obtain ⟨a1, a2⟩ := zero_finite hf he
      obtain ⟨b1, b2⟩ := zero_finite hf (isZero_zero f)
      rw [value_fin hf a1, value_fin hf b1, a2, b2]) ht hT h1 h64 c ch k hk hv

/-- C17. `reduce(where(k, v), 1, std::multiplies<>())`: the value of a product of the selected lanes, each exactly once; 1 if no lane is selected. -/
theorem C17_float_product (ht : t.Consistent) (hT : T.Ok) (h1 : 1 ≤ n) (h64 : n ≤ 64) (hf : f.Ok) (env : f.Env) (zero one : f.Bits)
    (hone : f.isFinite one ∧ f.ratValue one = 1) (c : Bool) (ch : Nat → Bool) (k : BitMask n true) (hk : k.Clean) {v : Tup f.Bits}
    (hv : Wf (regs t T n) v) :
    ∃ r, maskedReduceFixed t .multiplies (Spec.Fmt.mul env) zero one T.size c ch (regs t T n) k v one = some r ∧
      (Spec.noneOf k.lanes → r = one) ∧
      (Spec.anyOf k.lanes → ∃ s, Spec.Combines (Spec.Fmt.mul env) (Spec.selected k.lanes (lanes (regs t T n) v)) s ∧ f.value r = f.value s) :=
  masked_float (neutral_mul env hf hone.1 hone.2) rfl rfl ht hT h1 h64 c ch k hk hv

theorem masked_float_native {op : f.Bits → f.Bits → f.Bits} {kd : Kind} {u zero one e : f.Bits}
    (hN : Neutral op (fun x y => f.value x = f.value y) u) (hu : unit zero one kd = u) (he : f.value e = f.value u)
    (hg : g.Ok) {s : Nat} (hr : Regular t s g) (c : Bool) (k : MaskM g) (hk : MaskOk g k) {v : List f.Bits} (hv : v.length = g.full) :
    ∃ r, maskedReduceGeo t kd op zero one s c g k v e = some r ∧
      (Spec.noneOf (maskLanes g k) → r = e) ∧
      (Spec.anyOf (maskLanes g k) → ∃ q, Spec.Combines op (Spec.selected (maskLanes g k) (v.take g.size)) q ∧ f.value r = f.value q) := by
  have hsz := hg.size_le
  have h1 := hg.one_le
  have hkl := length_maskLanes hg k hk
  have hvl : (v.take g.size).length = g.size := by rw [List.length_take]; omega
  have hnone := noneOfGeo_spec hg k hk
  unfold maskedReduceGeo
  by_cases hn : noneOfGeo g k = true
  · rw [if_pos hn]
    refine ⟨e, rfl, fun _ => rfl, fun ⟨b, hb, hb'⟩ => ?_⟩
    have := hnone.1 hn b hb
    rw [hb'] at this; cases this
  · rw [if_neg hn]
    have hb : (Native.broadcast g e).length = g.full := length_broadcast g e
    obtain ⟨l1, l2⟩ := C15_native_assign hg c k hk (Native.broadcast g e) v hb hv
    obtain ⟨r, m, h2, h3, _⟩ := reduceGeo_spec t kd op zero one s hg hr _ l1
    refine ⟨r, h2, fun h => absurd (hnone.2 h) hn, fun ⟨b, hb, hb'⟩ => ?_⟩
    have hbt : (Native.broadcast g e).take g.size = List.replicate (maskLanes g k).length e := by
      rw [hkl]; simp [Native.broadcast]; omega
    rw [l2, hbt, hu] at h3
    refine masked_prune hN (by rw [hkl, hvl]) he (fun a ha => by rw [List.eq_of_mem_replicate ha]) ?_ h3
    intro hnil
    obtain ⟨i, hi⟩ := List.mem_iff_getElem?.1 hb
    have hlt : i < g.size := by
      have := (List.getElem?_eq_some_iff.1 hi).1; omega
    have : (v.take g.size)[i]'(by omega) ∈ Spec.selected (maskLanes g k) (v.take g.size) :=
      mem_selected.2 ⟨i, by rw [hi, hb'], List.getElem?_eq_getElem _⟩
    rw [hnil] at this; cases this

/-- C17 for native ABIs: the sum of the selected lanes. -/
theorem C17_native_float_sum (hg : g.Ok) {s : Nat} (hr : Regular t s g) (hf : f.Ok) (env : f.Env) (one e : f.Bits) (he : f.isZero e) (c : Bool)
    (k : MaskM g) (hk : MaskOk g k) {v : List f.Bits} (hv : v.length = g.full) :
    ∃ r, maskedReduceGeo t .plus (Spec.Fmt.add env) 0#f.width one s c g k v e = some r ∧
      (Spec.noneOf (maskLanes g k) → r = e) ∧
      (Spec.anyOf (maskLanes g k) → ∃ q, Spec.Combines (Spec.Fmt.add env) (Spec.selected (maskLanes g k) (v.take g.size)) q ∧
        f.value r = f.value q) :=
  masked_float_native (neutral_add env hf (isZero_zero f)) rfl
    (by
      obtain ⟨a1, a2⟩ := zero_finite hf he
      obtain ⟨b1, b2⟩ := zero_finite hf (isZero_zero f)
      rw [value_fin hf a1, value_fin hf b1, a2, b2]) hg hr c k hk hv

/-- C17 for native ABIs: the product of the selected lanes. -/
theorem C17_native_float_product (hg : g.Ok) {s : Nat} (hr : Regular t s g) (hf : f.Ok) (env : f.Env) (zero one : f.Bits)
    (hone : f.isFinite one ∧ f.ratValue one = 1) (c : Bool) (k : MaskM g) (hk : MaskOk g k) {v : List f.Bits} (hv : v.length = g.full) :
    ∃ r, maskedReduceGeo t .multiplies (Spec.Fmt.mul env) zero one s c g k v one = some r ∧
      (Spec.noneOf (maskLanes g k) → r = one) ∧
      (Spec.anyOf (maskLanes g k) → ∃ q, Spec.Combines (Spec.Fmt.mul env) (Spec.selected (maskLanes g k) (v.take g.size)) q ∧
        f.value r = f.value q) :=
  masked_float_native (neutral_mul env hf hone.1 hone.2) rfl rfl hg hr c k hk hv

-- non-vacuity: three of eleven lanes of a 16-lane register are selected
example (env : (⟨8, 23⟩ : Spec.Fmt).Env) (v : List (BitVec 32)) (hv : v.length = 16) :
    ∃ q, Spec.Combines (Spec.Fmt.add env) (Spec.selected (maskLanes (.bitmask 11 16) (0b10010001000#16)) (v.take 11)) q ∧
      ((maskedReduceGeo {} .plus (Spec.Fmt.add env) 0#32 0#32 4 false (.bitmask 11 16) (0b10010001000#16) v 0x80000000#32).map
        (⟨8, 23⟩ : Spec.Fmt).value) = some ((⟨8, 23⟩ : Spec.Fmt).value q) := by
  obtain ⟨r, h1, _, h2⟩ := C17_native_float_sum (f := ⟨8, 23⟩) (t := {}) (g := .bitmask 11 16) (by decide) (s := 4)
    (Or.inr ⟨by simp [SizeOk], by decide, by decide +kernel⟩) (by decide) env 0#32 0x80000000#32 (by decide +kernel) false
    (0b10010001000#16 : BitVec 16) trivial hv
  obtain ⟨q, h3, h4⟩ := h2 ⟨true, by decide +kernel, rfl⟩
  exact ⟨q, h3, (congrArg (Option.map (⟨8, 23⟩ : Spec.Fmt).value) h1).trans (congrArg some h4)⟩

end StdSimd.Props
