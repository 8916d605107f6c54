import Verif.Proofs.MaskSplit
/-!
# Property theorems about `split` and `concat` (C19, C20)

Model: `Model/Split` (values), `Model/MaskSplit` (masks).  `Split.HasAbi t T a x` says that `x` consists of the registers of a
`simd<T, a>` on target `t`, with arbitrary contents, padding included.  A result of the model is `.ok` (a value), `.ill` (the
program does not compile) or `.ub` (a read outside the object or a false alignment promise).
-/
namespace StdSimd.Props
open Abi Split

/-- The alignment of a `simd<T, a>` object (simd_builtin.h:814, simd_scalar.h:100, simd_fixed_size.h:1216). -/
def objAlign (t : Target) (T : Elem) : Tag → Nat
  | .fixed n => bitCeil (n * T.size)
  | a => T.size * fullSize t T a

private theorem fixed_alignOf {t : Target} {T : Elem} {a : Tag} {x : Obj} (hx : HasAbi t T a x)
    (hf : a.isFixed = false) : alignOf T.size false x = objAlign t T a := by
  have hh : ∀ p : Nat × Nat, shapeOf x = [p] → alignOf T.size false x = T.size * p.2 := by
    intro p hp
    match x, hp with
    | [m], hp =>
      simp only [shapeOf, List.map_cons, List.map_nil, List.cons.injEq, and_true] at hp
      subst hp; simp [alignOf]
  unfold HasAbi at hx
  cases a with
  | fixed n => simp [Tag.isFixed] at hf
  | scalar => exact hh _ hx
  | builtin b => exact hh _ hx
  | btmsk b => exact hh _ hx

private theorem one_member {t : Target} {T : Elem} {a : Tag} {x : Obj} (hx : HasAbi t T a x) (hf : a.isFixed = false) :
    ∃ m : Member, x = [m] ∧ m.n = Abi.size T a ∧ m.full = fullSize t T a := by
  have hh : ∀ p : Nat × Nat, shapeOf x = [p] → ∃ m : Member, x = [m] ∧ m.n = p.1 ∧ m.full = p.2 := by
    intro p hp
    match x, hp with
    | [m], hp =>
      simp only [shapeOf, List.map_cons, List.map_nil, List.cons.injEq, and_true] at hp
      subst hp; exact ⟨m, rfl, rfl, rfl⟩
  unfold HasAbi at hx
  cases a with
  | fixed n => simp [Tag.isFixed] at hf
  | scalar => exact hh _ hx
  | builtin b => exact hh _ hx
  | btmsk b => exact hh _ hx

/-! ## C19 and C20: `split<Sizes...>(simd)` -/

/-- C19, C20. `split<Sizes...>(v)` for an object of any valid ABI on any target and any list of positive sizes: there is never a
read outside the object nor a false alignment promise, and if the call compiles it returns the consecutive lane ranges of `v`.
`addr` gives the address of the object, and for fixed_size objects of the remainders the function copies while it recurses;
each is aligned as its type demands.  `junk` is what undefined register halves hold, `cp` tells at which level the compiler
knows the value of the object. -/
theorem C19_split_sizes {t : Target} (hc : t.Consistent) {T : Elem} (hT : T.Ok) {a : Tag} (hv : valid t T a = true) {x : Obj}
    (hx : HasAbi t T a x) (cp : List Nat → Bool) (addr : List Nat → Nat) (junk : MaskVec.Reg) (sizes : List Nat)
    (hpos : ∀ n ∈ sizes, 0 < n) (hsum : sizes.sum = Abi.size T a) (hobj : addr sizes % objAlign t T a = 0)
    (hrest : a.isFixed = true → ∀ l, addr l % objAlign t T (.fixed l.sum) = 0) :
    splitSizes t T cp addr junk a.isFixed sizes x = .ill ∨
      splitSizes t T cp addr junk a.isFixed sizes x = .ok (Spec.split sizes (lanes T.size x)) := by
  obtain ⟨g1, g2, g3, g4⟩ := hasAbi_good hc hT hv hx
  refine splitSizes_is t T cp addr junk a.isFixed (fun l => ?_) sizes x g1 g3 ⟨fun h => ?_, ?_⟩ hpos
  · cases h : a.isFixed
    · exact Or.inr rfl
    · exact Or.inl (hrest h l)
  · rw [h]; exact g4 h
  · cases h : a.isFixed
    · rw [fixed_alignOf hx h]; exact hobj
    · have := hrest h sizes
      simp only [alignOf, if_true, g2, ← hsum]; exact this

/-- C19, C20. For objects of a native or scalar ABI the call always compiles: `split<Sizes...>(v)` returns the consecutive lane
ranges of `v`. -/
theorem C19_split_sizes_native {t : Target} (hc : t.Consistent) {T : Elem} (hT : T.Ok) {a : Tag} (hv : valid t T a = true)
    (hf : a.isFixed = false) {x : Obj} (hx : HasAbi t T a x) (cp : List Nat → Bool) (addr : List Nat → Nat) (junk : MaskVec.Reg)
    (sizes : List Nat) (hpos : ∀ n ∈ sizes, 0 < n) (hsum : sizes.sum = Abi.size T a) (hobj : addr sizes % objAlign t T a = 0) :
    splitSizes t T cp addr junk false sizes x = .ok (Spec.split sizes (lanes T.size x)) := by
  have h := C19_split_sizes hc hT hv hx cp addr junk sizes hpos hsum hobj (by simp [hf])
  rw [hf] at h
  refine h.resolve_left ?_
  obtain ⟨m, rfl, m1, m2⟩ := one_member hx hf
  have hn : ∀ n, a ≠ .fixed n := by intro n e; subst e; simp [Tag.isFixed] at hf
  refine splitSizes_noill t T cp addr junk ?_ ?_ ?_ ?_ hpos
  · rw [m2]; exact canShift hc hT hv hn
  · rw [m1, m2]; exact size_le_full hT hv hn
  · have := (hasAbi_good hc hT hv hx).2.2.1; simpa [Split.size] using this
  · rw [hsum, m1]

/-! ## C19 and C20: `split<V>(simd)` -/

/-- C19, C20 (partial). `split<V>(v)`, `k` the number of lanes of `V`, `kind` the kind of its ABI: never a read outside the object
nor a false alignment promise, and if the call compiles it returns the consecutive groups of `k` lanes.
Missing: fixed_size arguments split into scalar simds of a type whose size is not a power of two (`C20_split_i386_false_promise`). -/
theorem C19_split_parts_partial {t : Target} (hc : t.Consistent) {T : Elem} (hT : T.Ok) {a : Tag} (hv : valid t T a = true) {x : Obj}
    (hx : HasAbi t T a x) (cp : Bool) (addr : Nat) (junk : MaskVec.Reg) (kind : Kind) (k : Nat) (hk : 0 < k)
    (hsc : kind = .scalar → k = 1) (hobj : addr % objAlign t T a = 0)
    (hpow : a.isFixed = true → kind = .scalar → T.size ≠ 12) :
    splitV t T cp addr junk a.isFixed kind k x = .ill ∨
      splitV t T cp addr junk a.isFixed kind k x =
        .ok (Spec.split (List.replicate (Abi.size T a / k) k) (lanes T.size x)) := by
  obtain ⟨g1, g2, g3, g4⟩ := hasAbi_good hc hT hv hx
  rw [← g2]
  by_cases h12 : T.size = 12 ∧ kind = .scalar
  · -- not a fixed_size object: the alignment of scalar parts plays no role
    have hf : a.isFixed = false := by
      cases h : a.isFixed
      · rfl
      · exact absurd h12.1 (hpow h h12.2)
    have hsz : a = .scalar := by
      cases a with
      | scalar => rfl
      | fixed n => simp [Tag.isFixed] at hf
      | builtin b =>
        exfalso
        have h1 := elem_pos hT
        rw [valid_builtin h1] at hv
        have : vecSizeof t T ≠ T.size := by
          intro h
          have : b / T.size ≤ T.size / T.size := Nat.div_le_div_right (by omega)
          rw [Nat.div_self h1] at this; omega
        have := (vec_cases hT this).1
        rw [h12.1] at this; simp at this
      | btmsk b =>
        exfalso
        have h1 := elem_pos hT
        rw [valid_btmsk h1] at hv
        have := (vec_cases (t := t) hT (by omega)).1
        rw [h12.1] at this; simp at this
    subst hsz
    have hk1 := hsc h12.2
    subst hk1
    obtain ⟨m, rfl, m1, m2⟩ := one_member hx rfl
    have m1' : m.n = 1 := m1
    right
    have hl : lanes T.size [m] = [MaskVec.elem T.size m.reg 0] := by simp [lanes, mlanes, m1']
    simp [splitV, Split.size, m1', Spec.split, hl]
  · refine splitV_is t T cp addr junk a.isFixed kind k x g1 hk hsc g3 (fun h => ?_) (fun h => ?_)
    · cases a with
      | fixed n => rw [g2]; exact hobj
      | _ => simp [Tag.isFixed] at h
    · unfold Elem.Ok at hT
      simp only [List.mem_cons, List.not_mem_nil, or_false] at hT
      rcases hT with e | e | e | e | e | e
      · exact ⟨0, e⟩
      · exact ⟨1, e⟩
      · exact ⟨2, e⟩
      · exact ⟨3, e⟩
      · exact absurd ⟨e, h⟩ h12
      · exact ⟨4, e⟩

/-- C19, C20. For objects of a native or scalar ABI the call always compiles when the sizes fit. -/
theorem C19_split_parts_native {t : Target} (hc : t.Consistent) {T : Elem} (hT : T.Ok) {a : Tag} (hv : valid t T a = true)
    (hf : a.isFixed = false) {x : Obj} (hx : HasAbi t T a x) (cp : Bool) (addr : Nat) (junk : MaskVec.Reg) (kind : Kind) (k : Nat)
    (hk : 0 < k) (hsc : kind = .scalar → k = 1) (hdiv : k ∣ Abi.size T a) (hobj : addr % objAlign t T a = 0) :
    splitV t T cp addr junk false kind k x = .ok (Spec.split (List.replicate (Abi.size T a / k) k) (lanes T.size x)) := by
  have h := C19_split_parts_partial hc hT hv hx cp addr junk kind k hk hsc hobj (by simp [hf])
  rw [hf] at h
  refine h.resolve_left ?_
  obtain ⟨m, rfl, m1, m2⟩ := one_member hx hf
  have hn : ∀ n, a ≠ .fixed n := by intro n e; subst e; simp [Tag.isFixed] at hf
  refine splitV_noill t T cp addr junk kind k ?_ ?_ ?_ ?_
  · rw [m2]; exact canShift hc hT hv hn
  · rw [m1, m2]; exact size_le_full hT hv hn
  · have := (hasAbi_good hc hT hv hx).2.2.1; simpa [Split.size] using this
  · rw [m1]; exact (Nat.div_mul_cancel hdiv).symm

/-! ## C19: `concat` -/

/-- C19. `concat(vs...)` of objects of any valid ABIs is the concatenation of their lanes; nothing is written outside the result,
whose type is the `simd` of the deduced ABI `r`. -/
theorem C19_concat {t : Target} (hc : t.Consistent) {T : Elem} (hT : T.Ok) (cp : Bool) (xs : List (Tag × Obj)) (hne : xs ≠ [])
    (hx : ∀ p ∈ xs, valid t T p.1 = true ∧ HasAbi t T p.1 p.2) {r : Tag} (hr : valid t T r = true)
    (hsize : Abi.size T r = (xs.map (fun p => Abi.size T p.1)).sum) :
    concat T.size cp (shapeFor t T r) (xs.map Prod.snd) = .ok ((xs.map (fun p => lanes T.size p.2)).flatten) := by
  have hres : ∃ y : Obj, HasAbi t T r y := by
    refine ⟨(shapeFor t T r).map (fun p => ⟨p.1, p.2, MaskVec.zero⟩), ?_⟩
    simp [HasAbi, shapeOf, Function.comp_def]
  obtain ⟨y, hy⟩ := hres
  obtain ⟨y1, y2, _, _⟩ := hasAbi_good hc hT hr hy
  have := concat_spec T.size cp (shapeFor t T r) (xs.map Prod.snd) (by simpa using hne) (by
    intro x hx'
    obtain ⟨p, hp, rfl⟩ := List.mem_map.1 hx'
    exact (hasAbi_good hc hT (hx p hp).1 (hx p hp).2).1.contig) (by
    rw [← hy, ← contig_iff]; exact y1.contig) (by
    rw [← hy, ← size_shape, y2, hsize, List.map_map]
    congr 1
    apply List.map_congr_left
    intro p hp
    exact ((hasAbi_good hc hT (hx p hp).1 (hx p hp).2).2.1).symm)
  rw [this, List.map_map]; rfl

/-- C19. `concat(array<V, n>)` (simd.h:3977-3983) is `concat` of its elements in order. -/
theorem C19_concat_array {t : Target} (hc : t.Consistent) {T : Elem} (hT : T.Ok) (cp : Bool) {a : Tag} (ha : valid t T a = true)
    (xs : List Obj) (hne : xs ≠ []) (hx : ∀ x ∈ xs, HasAbi t T a x) {r : Tag} (hr : valid t T r = true)
    (hsize : Abi.size T r = xs.length * Abi.size T a) :
    concat T.size cp (shapeFor t T r) xs = .ok ((xs.map (lanes T.size)).flatten) := by
  have := C19_concat hc hT cp (xs.map (fun x => (a, x))) (by simpa using hne) (by
    intro p hp
    obtain ⟨x, hx', rfl⟩ := List.mem_map.1 hp
    exact ⟨ha, hx x hx'⟩) hr (by
    rw [hsize, List.map_map]
    clear hne hx hsize
    induction xs with
    | nil => simp
    | cons x xs ih => simp only [List.map_cons, List.sum_cons, List.length_cons, Function.comp] at ih ⊢; rw [← ih, Nat.add_mul]; omega)
  simpa [List.map_map, Function.comp_def] using this

/-! ## C19: round trips -/

/-- C19. The parts of a split, concatenated, are the lanes of the object. -/
theorem C19_concat_split {α : Type} : ∀ (sizes : List Nat) (v : List α), sizes.sum = v.length → (Spec.split sizes v).flatten = v
  | [], v, h => by
    have : v = [] := List.eq_nil_of_length_eq_zero h.symm
    rw [this]; rfl
  | n :: ns, v, h => by
    rw [Spec.split, List.flatten_cons, C19_concat_split ns (v.drop n) (by rw [List.length_drop, ← h, List.sum_cons]; omega), List.take_append_drop]

/-- C19. Splitting a concatenation at the sizes of the parts returns the parts. -/
theorem C19_split_concat {α : Type} : ∀ (vs : List (List α)), Spec.split (vs.map List.length) vs.flatten = vs
  | [] => rfl
  | v :: vs => by simp [Spec.split, C19_split_concat vs]

/-- C19. `split<Sizes...>(concat(vs...)) == vs` through the library functions, for a result type of a native ABI: any object with
the lanes `concat` returns is split into the lanes of the arguments. -/
theorem C19_split_of_concat {t : Target} (hc : t.Consistent) {T : Elem} (hT : T.Ok) (cp : Bool) (xs : List (Tag × Obj)) (hne : xs ≠ [])
    (hx : ∀ p ∈ xs, valid t T p.1 = true ∧ HasAbi t T p.1 p.2) {r : Tag} (hr : valid t T r = true) (hf : r.isFixed = false)
    (hsize : Abi.size T r = (xs.map (fun p => Abi.size T p.1)).sum) {y : Obj} (hy : HasAbi t T r y)
    (hval : concat T.size cp (shapeFor t T r) (xs.map Prod.snd) = .ok (lanes T.size y))
    (cp' : List Nat → Bool) (addr : List Nat → Nat) (junk : MaskVec.Reg)
    (hobj : ∀ l, addr l % objAlign t T r = 0) :
    splitSizes t T cp' addr junk false (xs.map (fun p => Abi.size T p.1)) y = .ok (xs.map (fun p => lanes T.size p.2)) := by
  rw [C19_concat hc hT cp xs hne hx hr hsize] at hval
  have hval' := Res.ok.inj hval
  have hlen : xs.map (fun p => Abi.size T p.1) = (xs.map (fun p => lanes T.size p.2)).map List.length := by
    rw [List.map_map]
    apply List.map_congr_left
    intro p hp
    obtain ⟨g1, g2, _, _⟩ := hasAbi_good hc hT (hx p hp).1 (hx p hp).2
    show _ = (lanes T.size p.2).length
    rw [lanes_eq T.size g1.contig, view_length, g2]
  rw [C19_split_sizes_native hc hT hr hf hy cp' addr junk _ (by
    intro n hn
    obtain ⟨p, hp, rfl⟩ := List.mem_map.1 hn
    obtain ⟨_, g2, g3, _⟩ := hasAbi_good hc hT (hx p hp).1 (hx p hp).2
    omega) hsize.symm (hobj _), ← hval', hlen, C19_split_concat]

/-! ## C19: masks -/

/-- C19 (partial). `split<M>(mask)` for masks of any valid ABIs: the parts are the consecutive groups of lanes, and they are valid
mask objects.
Missing: masks with padding in a 32-byte vector register split into two (`C19_split_mask_partial_avx_wrong`). -/
theorem C19_split_mask_partial {t : Target} {T : Elem} (hT : T.Ok) {a b : Tag} (ha : valid t T a = true) (hb : valid t T b = true)
    {parts : Nat} (hs : Abi.size T a = parts * Abi.size T b) (hp : ¬ (MaskSplit.PartialAvx t T a ∧ parts = 2))
    (x : MaskSplit.Data (MaskSplit.mabi t T a)) (hx : MaskSplit.MOk _ x) :
    ∃ r, MaskSplit.split (MaskSplit.mabi t T a) (MaskSplit.mabi t T b) x = some r ∧ (∀ k ∈ r, MaskSplit.MOk _ k) ∧
      r.map (MaskSplit.lanes _) = Spec.split (List.replicate parts (Abi.size T b)) (MaskSplit.lanes _ x) :=
  MaskSplit.split_abi hT ha hb hs hp x hx

private def avxT : Target := { sse := true, sse2 := true, avx := true, x86_64 := true }
private def flt : Elem := ⟨4, true⟩

private theorem lane3_ok : ∀ v ∈ ([0, 0, 0, -1, 0, 0, 0, 0] : List (BitVec 32)).take 6, v = 0#32 ∨ v = BitVec.allOnes 32 := by
  intro v hv
  simp only [List.take_succ_cons, List.take_zero, List.mem_cons, List.not_mem_nil, or_false] at hv
  rcases hv with h | h | h | h | h | h <;> subst h <;> decide

/-- C19, negation. A mask of 6 floats in a 32-byte register with only lane 3 set, split into two masks of 3 lanes: the register is
cut in the middle (after element 4), so the parts hold lanes 0-2 and lanes 4, 5 and a padding element.  Lane 3 is lost. -/
theorem C19_split_mask_partial_avx_wrong :
    let x : VMask 32 := [0, 0, 0, -1, 0, 0, 0, 0]
    avxT.Consistent ∧ valid avxT flt (.builtin 24) = true ∧ valid avxT flt (.builtin 12) = true ∧
      MaskSplit.MOk (MaskSplit.mabi avxT flt (.builtin 24)) x ∧
      MaskSplit.lanes (MaskSplit.mabi avxT flt (.builtin 24)) x = [false, false, false, true, false, false] ∧
      ∃ p q, MaskSplit.split (MaskSplit.mabi avxT flt (.builtin 24)) (MaskSplit.mabi avxT flt (.builtin 12)) x = some [p, q] ∧
        MaskSplit.lanes (MaskSplit.mabi avxT flt (.builtin 12)) p = [false, false, false] ∧
        MaskSplit.lanes (MaskSplit.mabi avxT flt (.builtin 12)) q = [false, false, false] := by
  refine ⟨by constructor <;> decide, by decide, by decide, ⟨rfl, ?_⟩, by decide, [0, 0, 0, -1], [0, 0, 0, 0], rfl, by decide, by decide⟩
  exact lane3_ok

/-! ## C20 -/

/-- C20. The alignment the load of a part promises divides the address of the part: object at `addr` with the power-of-two
alignment `base`, part at element `off`, elements of `s` bytes.  Missing: the loads that do not use this expression, `C20_split_i386_false_promise`. -/
theorem C20_promise_partial {s base off addr : Nat} (hb : ∃ e, base = 2 ^ e) (ha : addr % base = 0) :
    (addr + s * off) % overAlign s base off = 0 := overAlign_spec hb ha

/-- C20. The promise is the largest power of two that divides the offset of the part and the alignment of the object, so it is
not useless: it is positive, and all of `base` when the part starts at a multiple of it. -/
theorem C20_promise_pos {s base off : Nat} (hb : ∃ e, base = 2 ^ e) :
    0 < overAlign s base off ∧ (off * s % base = 0 → overAlign s base off = base) := by
  obtain ⟨e, rfl⟩ := hb
  have hp : 0 < 2 ^ e := Nat.pow_pos (by omega)
  have hlt : off * s % 2 ^ e < 2 ^ e := Nat.mod_lt _ hp
  constructor
  · unfold overAlign
    dsimp only
    split <;> omega
  · intro h
    unfold overAlign
    dsimp only
    rw [h, Nat.sub_zero]
    have hz : (2 ^ e - 1) &&& 2 ^ e = 0 := by
      rw [Nat.and_comm, Nat.and_two_pow_sub_one_eq_mod, Nat.mod_self]
    rw [hz, Nat.zero_xor, if_neg (by omega)]

private def i386T : Target := { sse := true, sse2 := true, i386 := true }
private def ld12 : Elem := ⟨12, true⟩
private def m12 (b : BitVec 8) : Member := ⟨1, 1, fun _ => b⟩

/-- C20, negation. i386, where `long double` has 12 bytes: `split<simd<long double, scalar>>` of a `fixed_size<2>` object, stored
with the alignment of its type (32), promises 16-byte alignment for the element at offset 12. -/
theorem C20_split_i386_false_promise :
    i386T.Consistent ∧ valid i386T ld12 (.fixed 2) = true ∧ HasAbi i386T ld12 (.fixed 2) [m12 1, m12 2] ∧
      objAlign i386T ld12 (.fixed 2) = 32 ∧
      splitV i386T ld12 false 32 MaskVec.zero true .scalar 1 [m12 1, m12 2] = .ub := by
  refine ⟨by constructor <;> decide, by decide, by decide +kernel, by decide, by decide⟩

/-! ## examples: the hypotheses are met -/

private def avx512T : Target :=
  { sse := true, sse2 := true, avx := true, avx2 := true, avx512f := true, avx512bw := true, avx512vl := true, x86_64 := true }
private def ramp : MaskVec.Reg := fun j => BitVec.ofNat 8 (j / 4)

-- 6 floats in one 32-byte register, split 2+1+3
example : splitSizes avxT flt (fun _ => false) (fun _ => 64) MaskVec.zero false [2, 1, 3] [⟨6, 8, ramp⟩] =
    .ok (Spec.split [2, 1, 3] (lanes 4 [⟨6, 8, ramp⟩])) :=
  C19_split_sizes_native (a := .builtin 24) (by constructor <;> decide) (by decide) (by decide) rfl (by decide) _ _ _ _ (by decide)
    (by decide) (by decide)
example : (lanes 4 [⟨6, 8, ramp⟩]).map BitVec.toNat = [0, 0x01010101, 0x02020202, 0x03030303, 0x04040404, 0x05050505] := by decide +kernel

-- fixed_size<12>: three registers of four floats (SSE), all branches compile
private def sseT : Target := { sse := true, sse2 := true, x86_64 := true }
private def fix12 : Obj := [⟨4, 4, ramp⟩, ⟨4, 4, fun j => ramp j + 4⟩, ⟨4, 4, fun j => ramp j + 8⟩]
example : HasAbi sseT flt (.fixed 12) fix12 := by decide +kernel
example : splitSizes sseT flt (fun _ => false) (fun _ => 64) MaskVec.zero true [4, 4, 4] fix12 = .ok (Spec.split [4, 4, 4] (lanes 4 fix12)) := by
  decide +kernel
example : splitSizes sseT flt (fun _ => false) (fun _ => 64) MaskVec.zero true [2, 3, 7] fix12 = .ok (Spec.split [2, 3, 7] (lanes 4 fix12)) := by
  decide +kernel
example : splitV sseT flt false 64 MaskVec.zero true .native 4 fix12 = .ok (Spec.split [4, 4, 4] (lanes 4 fix12)) := by
  decide +kernel
example : splitV sseT flt false 64 MaskVec.zero true .scalar 1 fix12 = .ok (Spec.split (List.replicate 12 1) (lanes 4 fix12)) := by
  decide +kernel

-- concat of a native and a scalar object into fixed_size
example : concat 4 false (shapeFor sseT flt (.fixed 5)) [[⟨4, 4, ramp⟩], [⟨1, 1, fun _ => 9⟩]] =
    .ok (lanes 4 [⟨4, 4, ramp⟩] ++ lanes 4 [⟨1, 1, fun _ => 9⟩]) := by
  have := C19_concat (t := sseT) (T := flt) (by constructor <;> decide) (by decide) false
    [(.builtin 16, [⟨4, 4, ramp⟩]), (.scalar, [⟨1, 1, fun _ => 9⟩])] (by simp) (by
      intro p hp
      simp only [List.mem_cons, List.not_mem_nil, or_false] at hp
      rcases hp with rfl | rfl
      · exact ⟨by decide, by decide⟩
      · exact ⟨by decide, by decide⟩) (r := .fixed 5) (by decide) (by decide)
  exact this.trans (by simp [flt])

-- a mask of 8 floats (32 bytes, no padding) in two, a fixed_size mask in three
example : ∃ r, MaskSplit.split (MaskSplit.mabi avxT flt (.builtin 32)) (MaskSplit.mabi avxT flt (.builtin 16))
      ([0, -1, 0, -1, 0, 0, 0, -1] : VMask 32) = some r ∧
    r.map (MaskSplit.lanes _) = [[false, true, false, true], [false, false, false, true]] := ⟨[[0, -1, 0, -1], [0, 0, 0, -1]], rfl, by decide⟩
example : ¬ (MaskSplit.PartialAvx avxT flt (.builtin 32) ∧ 2 = 2) := fun h => absurd h.1.2.2 (by decide)
example : ¬ (MaskSplit.PartialAvx avxT flt (.fixed 6) ∧ 2 = 2) := fun h => h.1
example : overAlign 4 32 6 = 8 ∧ overAlign 4 32 5 = 4 ∧ overAlign 12 16 1 = 4 := by decide

end StdSimd.Props
