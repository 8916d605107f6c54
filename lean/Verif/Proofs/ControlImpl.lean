import Verif.Proofs.Control
import Verif.Proofs.SimdFixed
import Verif.Proofs.SimdNative
import Verif.Props.NativeMasks
import Verif.Props.Reduce
/-!
# The reductions and subscripts of `fixed_size` and of native ABIs
-/
namespace StdSimd.SimdClass
open Spec Spec.Program Spec.Control Native

variable {K : Kind} {β : Type}

/-- The functions of a mask implementation class do on `k` what the documentation says about the booleans `l`. -/
structure FnsOk {M : Type} (F : MaskFns M) (k : M) (l : List Bool) (lastOk : Prop) : Prop where
  all : F.allOf k = true ↔ Spec.allOf l
  any : F.anyOf k = true ↔ Spec.anyOf l
  none : F.noneOf k = true ↔ Spec.noneOf l
  some : F.someOf k = true ↔ Spec.someOf l
  pop : F.popcount k = Option.some (Spec.popcount l : Int)
  first : Spec.anyOf l → ∃ i : Nat, F.first k = Option.some (i : Int) ∧ Spec.IsFirstSet l i
  last : lastOk → Spec.anyOf l → ∃ i : Nat, F.last k = Option.some (i : Int) ∧ Spec.IsLastSet l i

theorem all_id {l : List Bool} {r : Bool} (h : r = true ↔ Spec.allOf l) : r = l.all id := by
  rw [Bool.eq_iff_iff, h]; simp [Spec.allOf]
theorem any_id {l : List Bool} {r : Bool} (h : r = true ↔ Spec.anyOf l) : r = l.any id := by
  rw [Bool.eq_iff_iff, h]; simp [Spec.anyOf]
theorem none_id {l : List Bool} {r : Bool} (h : r = true ↔ Spec.noneOf l) : r = !l.any id := by
  rw [Bool.eq_iff_iff, h]; simp [Spec.noneOf]
theorem some_id {l : List Bool} {r : Bool} (h : r = true ↔ Spec.someOf l) : r = (l.any id && !l.all id) := by
  rw [Bool.eq_iff_iff, h]; simp [Spec.someOf]

theorem any_of_setLanes {l : List Bool} {i : Nat} (h : i ∈ Spec.setLanes l) : Spec.anyOf l := by
  simp only [Spec.setLanes, List.mem_filter, decide_eq_true_eq] at h
  exact ⟨true, List.mem_of_getElem? h.2, rfl⟩

theorem first_unique {l : List Bool} {i j : Nat} (h : (Spec.setLanes l).head? = some i) (hj : Spec.IsFirstSet l j) : j = i := by
  unfold Spec.setLanes at h
  obtain ⟨hj1, hj2⟩ := hj
  have hjl : j < l.length := by
    by_contra hc
    rw [List.getElem?_eq_none (by omega)] at hj1; cases hj1
  have hmem := List.mem_of_mem_head? (Option.mem_def.2 h)
  simp only [List.mem_filter, decide_eq_true_eq] at hmem
  have hle : j ≤ i := by
    by_contra hc
    have := hj2 i (by omega)
    rw [hmem.2] at this; cases this
  have hs : ((List.range l.length).filter fun i => decide (l[i]? = some true)).Pairwise (· < ·) := List.Pairwise.filter _ List.pairwise_lt_range
  have hjm : j ∈ (List.range l.length).filter fun i => decide (l[i]? = some true) :=
    List.mem_filter.2 ⟨List.mem_range.2 hjl, by simpa using hj1⟩
  revert h hs hjm
  cases (List.range l.length).filter fun i => decide (l[i]? = some true) with
  | nil => intro h; cases h
  | cons a r =>
    intro h hs hjm
    obtain rfl := Option.some.inj h
    rcases List.mem_cons.1 hjm with rfl | hjm
    · rfl
    · have := (List.pairwise_cons.1 hs).1 j hjm; omega

theorem last_unique {l : List Bool} {i j : Nat} (h : (Spec.setLanes l).getLast? = some i) (hj : Spec.IsLastSet l j) : j = i := by
  unfold Spec.setLanes at h
  obtain ⟨hj1, hj2⟩ := hj
  have hjl : j < l.length := by
    by_contra hc
    rw [List.getElem?_eq_none (by omega)] at hj1; cases hj1
  have hmem := List.mem_of_getLast? h
  simp only [List.mem_filter, decide_eq_true_eq] at hmem
  have hle : i ≤ j := by
    by_contra hc
    exact hj2 i (by omega) hmem.2
  have hs : ((List.range l.length).filter fun i => decide (l[i]? = some true)).Pairwise (· < ·) := List.Pairwise.filter _ List.pairwise_lt_range
  have hjm : j ∈ (List.range l.length).filter fun i => decide (l[i]? = some true) :=
    List.mem_filter.2 ⟨List.mem_range.2 hjl, by simpa using hj1⟩
  obtain ⟨r, hr⟩ := List.getLast?_eq_some_iff.1 h
  rw [hr] at hs hjm
  rcases List.mem_append.1 hjm with hjm | hjm
  · have := (List.pairwise_append.1 hs).2.2 j hjm i (by simp); omega
  · simpa using hjm

section
variable {I : Impl K β} {A : Arith K} {lastOk : Prop} {VR : I.V → (Nat → K.Bits) → Prop} {MR : I.M → (Nat → Bool) → Prop} {R : RedImpl I}

theorem reads (hget : ∀ {k b i}, MR k b → i < I.size → R.mget k i = some (b i)) {k : I.M} {b : Nat → Bool} (hk : MR k b) :
    MaskConst.Reads (fun i => R.sub k (i : Nat)) ((List.range I.size).map b) := by
  intro i hi
  have hi : i < I.size := by simpa using hi
  unfold RedImpl.sub
  dsimp only
  rw [if_neg (by omega), if_neg (by simpa using hi), Int.toNat_natCast, hget hk hi]
  simp [hi]

/-- Both branches of the free functions. -/
theorem redCorrect (hF : ∀ {k b}, MR k b → FnsOk R.fns k ((List.range I.size).map b) lastOk)
    (hget : ∀ {k b i}, MR k b → i < I.size → R.mget k i = some (b i))
    (get : ∀ {x f i}, VR x f → i < I.size → R.get x i = some (f i))
    (reduce : ∀ {o x f}, o.Ok A → VR x f → R.reduce o x = Spec.foldOf (o.fn A) ((List.range I.size).map f))
    (whereReduce : ∀ {o k b x f ident}, o.Ok A → (∀ a, o.fn A a ident = a) → MR k b → VR x f →
      R.whereReduce o k x ident =
        some ((Spec.selected ((List.range I.size).map b) ((List.range I.size).map f)).foldl (o.fn A) ident)) :
    RedCorrect R A lastOk VR MR := by
  have hlen : ∀ b : Nat → Bool, ((List.range I.size).map b).length = I.size := fun b => by simp
  refine ⟨fun {k b} hk => ?_, fun {k b} hk => ?_, fun {k b} hk => ?_, fun {k b} hk => ?_, fun {k b} hk => ?_, fun {k b i} hk h => ?_,
    fun hl {k b i} hk h => ?_, hget, get, reduce, whereReduce⟩
  all_goals
    have hc := Props.C31_constprop (reads hget hk)
    rw [hlen] at hc
    obtain ⟨⟨r1, e1, s1⟩, ⟨r2, e2, s2⟩, ⟨r3, e3, s3⟩, ⟨r4, e4, s4⟩, e5, s6, s7⟩ := hc
    have hf := hF hk
  · unfold RedImpl.allOf
    split
    · rw [e1, all_id s1]
    · rw [all_id hf.all]
  · unfold RedImpl.anyOf
    split
    · rw [e2, any_id s2]
    · rw [any_id hf.any]
  · unfold RedImpl.noneOf
    split
    · rw [e3, none_id s3]
    · rw [none_id hf.none]
  · unfold RedImpl.someOf
    split
    · rw [e4, some_id s4]
    · rw [some_id hf.some]
  · unfold RedImpl.popcount
    split
    · rw [e5]; rfl
    · exact hf.pop
  · have ha := any_of_setLanes (List.mem_of_mem_head? (Option.mem_def.2 h))
    unfold RedImpl.first
    split
    · obtain ⟨j, e, hj⟩ := s6 ha
      rw [e, first_unique h hj]; rfl
    · obtain ⟨j, e, hj⟩ := hf.first ha
      rw [e, first_unique h hj]
  · have ha := any_of_setLanes (List.mem_of_getLast? h)
    unfold RedImpl.last
    split
    · obtain ⟨j, e, hj⟩ := s7 ha
      rw [e, last_unique h hj]
    · obtain ⟨j, e, hj⟩ := hf.last hl ha
      rw [e, last_unique h hj]

end

theorem ok_plus {A : Arith K} {o : ROp K} (h : o.Ok A) : redKind o = .plus → ∀ a, o.fn A a 0#K.width = a := by
  cases o with
  | plus => intro _; exact h.2.2
  | multiplies => intro h; cases h
  | other f => intro h; cases h
theorem ok_mul {A : Arith K} {o : ROp K} (h : o.Ok A) : redKind o = .multiplies → ∀ a, o.fn A a A.one = a := by
  cases o with
  | plus => intro h; cases h
  | multiplies => intro _; exact h.2.2
  | other f => intro h; cases h

/-! ## fixed_size -/

theorem FM.lanes_eq {n : Nat} {k : BitMask n true} {b : Nat → Bool} (h : FM n k b) : k.lanes = (List.range n).map b := by
  apply list_eq_map (by simp [BitMask.lanes])
  intro i hi
  simp [BitMask.lanes, hi, h.2 i hi]

theorem FV.lanes_eq {t : Abi.Target} {T : Abi.Elem} {n : Nat} (ht : t.Consistent) (hT : T.Ok) (h1 : 1 ≤ n) {x : Tuple.Tup K.Bits}
    {f : Nat → K.Bits} (h : FV (Tuple.regs t T n) n x f) : Tuple.lanes (Tuple.regs t T n) x = (List.range n).map f :=
  list_eq_map (Props.C01_size ht hT h1 h.1) h.2

theorem fixed_red {t : Abi.Target} {T : Abi.Elem} {n : Nat} (ht : t.Consistent) (hT : T.Ok) (h1 : 1 ≤ n) (h64 : n ≤ 64) (C : Cfg K β)
    (A : Arith K) (c : Bool) (isConst : BitMask n true → Bool) :
    RedCorrect (fixedRed C t T.size A c (Tuple.regs t T n) n isConst) A True (FV (Tuple.regs t T n) n) (FM n) := by
  obtain ⟨hne, hok, htot, _⟩ := Tuple.regs_facts ht hT h1
  refine redCorrect (fun {k b} hk => ?_) (fun {k b i} hk hi => ?_) (fun {x f i} hx hi => ?_) (fun {o x f} ho hx => ?_)
    (fun {o k b x f ident} ho hid hk hx => ?_)
  · change FnsOk (fixedFns n) k ((List.range n).map b) True
    rw [← FM.lanes_eq hk]
    exact { all := Props.C03_all_of h1 k hk.1, any := Props.C03_any_of h1 k hk.1, none := Props.C03_none_of h1 k hk.1,
            some := Props.C03_some_of h1 k hk.1, pop := congrArg (fun m : Nat => some (m : Int)) (Props.C03_popcount h1 k hk.1),
            first := fun hne => by
              obtain ⟨i, e, h⟩ := Props.C03_find_first_set h1 h64 k hk.1 hne
              exact ⟨i, by change (FixedMask.findFirstSet k).map _ = _; rw [e]; rfl, h⟩,
            last := fun _ hne => Props.C03_find_last_set h1 h64 k hk.1 hne }
  · have hi : i < n := hi
    change BitMask.get (n := n) (s := true) k i = _
    rw [Props.C05_subscript h1 k hi, FM.lanes_eq hk]; simp [hi]
  · have hi : i < n := hi
    exact (Tuple.get_eq hok hx.1 (by omega)).trans (hx.2 i hi)
  · have := Props.C16_reduce_partial ht hT h1 (redKind o) (o.fn A) ho.1 ho.2.1 0#K.width A.one (ok_plus ho) (ok_mul ho) c hx.1
    rw [FV.lanes_eq ht hT h1 hx] at this
    exact this
  · have := Props.C17_masked_reduce_partial ht hT h1 h64 (redKind o) (o.fn A) ho.1 ho.2.1 0#K.width A.one ident hid (ok_plus ho) (ok_mul ho) c
      C.c k hk.1 hx.1
    rw [FV.lanes_eq ht hT h1 hx, FM.lanes_eq hk] at this
    exact this

/-! ## Native ABIs -/

/-- The branches of `_MaskImplX86` for masks of `n` elements of `w` bits in registers of `full` elements: 16-byte registers without SSE4.1, `movemask`
of bytes for up to 32 elements, and which `popcount`. -/
def VecPath.Fits (w n full : Nat) : VecPath → Prop
  | .generic => 8 ≤ w ∧ w ≤ 64
  | .x86 sse41 popcnt _ _ isInt =>
    8 ∣ w ∧ 0 < w ∧ 2 ≤ n ∧ (isInt = true → n ≤ 32) ∧ (sse41 = false → full * w ≤ 128) ∧ (popcnt = true → full * w ≤ 256) ∧
      (popcnt = false → (w = 64 ∧ n = 2 ∧ full = 2) ∨ (w = 64 ∧ n ≠ 2 ∧ full = 4) ∨ (w = 32 ∧ full ≤ 4) ∨ (w = 16 ∧ full ≤ 8) ∨
        (w = 8 ∧ full ≤ 16))

/-- For a native ABI; `wide` is whether masks of 8 bits have their own `ktest` and `kortest`. -/
def FnsFit (p : VecPath) (wide : Bool) : Geo → Prop
  | .scalar => True
  | .vec w n f => p.Fits w n f
  | .bitmask n _ => wide = true → n ≤ 8

/-- Masks whose `find_last_set` does not see unused bits. -/
def LastOk (g : Geo) : Prop := ∀ n f, g = .bitmask n f → Exact g

theorem x86Popcount_spec {w n full : Nat} (hn : n ≤ full) (hf : (w = 64 ∧ n = 2 ∧ full = 2) ∨ (w = 64 ∧ n ≠ 2 ∧ full = 4) ∨
    (w = 32 ∧ full ≤ 4) ∨ (w = 16 ∧ full ≤ 8) ∨ (w = 8 ∧ full ≤ 16)) {k : VMask w} (hk : VMask.Wf n full k) :
    x86Popcount n full k = some (Spec.popcount (VMask.lanes n k) : Int) := by
  rcases hf with ⟨rfl, rfl, rfl⟩ | ⟨rfl, h2, rfl⟩ | ⟨rfl, h⟩ | ⟨rfl, h⟩ | ⟨rfl, h⟩
  · simp only [x86Popcount, if_true]
    rw [Props.C31_x86_popcount_8x2 hk]
  · simp only [x86Popcount, if_neg h2]
    rw [Props.C31_x86_popcount_8x4 hn hk]
  · simp only [x86Popcount, if_pos (show n ≤ 4 by omega)]
    rw [Props.C31_x86_popcount_4x4 hn h hk]
  · simp only [x86Popcount, if_pos (show n ≤ 8 by omega)]
    rw [Props.C31_x86_popcount_2x8 hn h hk]
  · simp only [x86Popcount, if_pos (show n ≤ 16 by omega)]
    rw [Props.C31_x86_popcount_1x16 hn h hk]

theorem vecFns_ok {p : VecPath} {w n full : Nat} (hp : p.Fits w n full) (hw64 : w ≤ 64) (h1 : 1 ≤ n) (hn : n ≤ full) (h64 : n ≤ 64) {k : VMask w}
    (hk : VMask.Wf n full k) : FnsOk (vecFns p w n full) k (VMask.lanes n k) True := by
  cases p with
  | generic =>
    have hw : 8 ≤ w := hp.1
    obtain ⟨e1, e2, e3⟩ := Props.C31_vec_all_any_none (by omega) hn hk
    exact { all := e1, any := e2, none := e3, some := Props.C31_vec_some_of hw h64 hn hk,
            pop := congrArg some (Props.C31_vec_popcount hw h64 hn hk),
            first := fun hne => by
              obtain ⟨⟨i, e, h⟩, _⟩ := Props.C31_vec_find (by omega) hw64 h1 h64 hn hk hne
              exact ⟨i, by simp only [vecFns, e]; rfl, h⟩,
            last := fun _ hne => (Props.C31_vec_find (by omega) hw64 h1 h64 hn hk hne).2 }
  | x86 sse41 popcnt fp so isInt =>
    obtain ⟨h8, hw, h2, h32, hsse, hpc, hnp⟩ := hp
    obtain ⟨e1, e2, e3, e4⟩ := Props.C31_x86_reductions h8 hw hn sse41 fp so hsse hk
    refine { all := e1, any := e2, none := e3, some := e4, pop := ?_, first := fun hne => ?_, last := fun _ hne => ?_ }
    · cases popcnt with
      | true => exact congrArg (fun m : Nat => some (m : Int)) (Props.C31_x86_popcount_popcnt h8 hw hn fp (hpc rfl) hk)
      | false => exact x86Popcount_spec hn (hnp rfl) hk
    · obtain ⟨⟨i, e, h⟩, _⟩ := Props.C31_x86_find hw h2 h64 hn isInt h32 hk hne
      exact ⟨i, by simp only [vecFns, e]; rfl, h⟩
    · exact (Props.C31_x86_find hw h2 h64 hn isInt h32 hk hne).2

theorem scalarFns_ok (k : Bool) : FnsOk scalarFns k [k] True where
  all := by simp [scalarFns, Spec.allOf]
  any := by simp [scalarFns, Spec.anyOf]
  none := by simp [scalarFns, Spec.noneOf]
  some := by cases k <;> simp [scalarFns, Spec.someOf]
  pop := by cases k <;> rfl
  first h := ⟨0, rfl, by obtain ⟨b, hb, rfl⟩ := h; simp at hb; subst hb; exact ⟨rfl, fun j hj => by omega⟩⟩
  last _ h := ⟨0, rfl, by
    obtain ⟨b, hb, rfl⟩ := h; simp at hb; subst hb
    exact ⟨rfl, fun j hj => by rw [List.getElem?_eq_none (by simp; omega)]; simp⟩⟩

theorem kFns_ok {wide : Bool} {n : Nat} (h1 : 1 ≤ n) (h64 : n ≤ 64) (hw : wide = true → n ≤ 8) (k : KMask n) {lastOk : Prop} (hl : lastOk → k.Clean) :
    FnsOk (kFns wide n) k (KMask.lanes k) lastOk := by
  obtain ⟨e1, e2, e3, e4, e5⟩ := Props.C31_k_reductions h1 h64 wide hw k
  exact { all := e1, any := e2, none := e3, some := e4, pop := congrArg (fun m : Nat => some (m : Int)) e5,
          first := fun hne => ⟨_, rfl, Props.C31_k_find_first_set k hne⟩,
          last := fun h hne => by
            obtain ⟨i, e, hi⟩ := Props.C31_k_find_last_set_partial k (hl h) hne
            exact ⟨i, congrArg some e, hi⟩ }

theorem FnsOk.mono {M : Type} {F : MaskFns M} {k : M} {l : List Bool} {P Q : Prop} (h : FnsOk F k l P) (hq : Q → P) : FnsOk F k l Q :=
  { h with last := fun q => h.last (hq q) }

theorem nativeFns_ok {g : Geo} {p : VecPath} {wide : Bool} (hg : g.Ok) (hf : FnsFit p wide g) (k : MaskM g) (hk : MaskOk g k) :
    FnsOk (nativeFns p wide g) k (maskLanes g k) (LastOk g) := by
  cases g with
  | scalar => exact (scalarFns_ok k).mono fun _ => trivial
  | vec w n f =>
    obtain ⟨h0, h1, h2, h3, h4⟩ := hg
    exact (vecFns_ok hf h1 h2 h3 h4 hk).mono fun _ => trivial
  | bitmask n f =>
    have hg' := hg
    obtain ⟨h0, h1, h2⟩ := hg
    exact kFns_ok (by omega) h2 hf k fun hl => clean_of_exact hg' (hl n f rfl) k hk

theorem NM.lanes_eq {g : Geo} (hg : g.Ok) {k : MaskM g} {b : Nat → Bool} (h : NM g k b) : maskLanes g k = (List.range g.size).map b := by
  have hl := length_maskLanes hg k h.1
  apply list_eq_map hl
  intro i hi
  rw [← h.2 i hi]
  unfold mbit VMask.bit
  rw [List.getElem?_eq_getElem (by omega)]; rfl

theorem NV.lanes_eq {g : Geo} (hg : g.Ok) {x : List K.Bits} {f : Nat → K.Bits} (h : NV g x f) : x.take g.size = (List.range g.size).map f := by
  have := hg.size_le
  apply list_eq_map (by rw [List.length_take, h.1]; omega)
  intro i hi
  rw [List.getElem?_take_of_lt hi, h.2 i hi]

theorem nmGet_eq {g : Geo} (hg : g.Ok) (k : MaskM g) (hk : MaskOk g k) {i : Nat} (hi : i < g.size) : nmGet g k i = (maskLanes g k)[i]? := by
  cases g with
  | scalar =>
    have : i = 0 := by simp at hi; omega
    subst this; rfl
  | vec w n f =>
    have hi : i < n := hi
    change (_ : Option Bool) = (VMask.lanes n k)[i]?
    simp only [VMask.lanes, List.getElem?_map, List.getElem?_take_of_lt hi]
    rfl
  | bitmask n f =>
    have hi : i < n := hi
    change some (BitVec.getLsbD (w := kBits n) k i) = (KMask.lanes k)[i]?
    rw [KMask.lanes_getElem?, if_pos hi]

theorem native_red {g : Geo} (hg : g.Ok) {t : Abi.Target} {s : Nat} (hr : Reduce.Regular t s g) {p : VecPath} {wide : Bool} (hf : FnsFit p wide g)
    (C : Cfg K β) (A : Arith K) (isConst : MaskM g → Bool) :
    RedCorrect (nativeRed C t s A p wide g isConst) A (LastOk g) (NV g) (NM g) := by
  refine redCorrect (fun {k b} hk => ?_) (fun {k b i} hk hi => ?_) (fun {x f i} hx hi => hx.2 i hi) (fun {o x f} ho hx => ?_)
    (fun {o k b x f ident} ho hid hk hx => ?_)
  · have := nativeFns_ok hg hf k hk.1
    rw [NM.lanes_eq hg hk] at this
    exact this
  · have hi : i < g.size := hi
    change nmGet g k i = _
    rw [nmGet_eq hg k hk.1 hi, NM.lanes_eq hg hk]; simp [hi]
  · have := Props.C16_native_reduce_partial hg hr (redKind o) (o.fn A) ho.1 ho.2.1 0#K.width A.one (ok_plus ho) (ok_mul ho) hx.1
    rw [NV.lanes_eq hg hx] at this
    exact this
  · have := Props.C17_native_masked_reduce_partial hg hr (redKind o) (o.fn A) ho.1 ho.2.1 0#K.width A.one ident hid (ok_plus ho) (ok_mul ho)
      (C.c 0) k hk.1 hx.1
    rw [NV.lanes_eq hg hx, NM.lanes_eq hg hk] at this
    exact this

end StdSimd.SimdClass
