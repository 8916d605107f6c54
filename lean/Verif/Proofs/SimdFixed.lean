import Verif.Proofs.SimdClass
import Verif.Props.FixedSize
import Verif.Props.Masks
/-!
# `_SimdImplFixedSize` is a correct implementation class, if the native implementation is one on each register
-/
namespace StdSimd.SimdClass
open Spec Spec.Program Native Tuple

variable {K : Kind} {β : Type}

/-- The functions of the native implementation do with the elements of a register what the functions of the element type do. -/
structure ImplementsFn (R : RegFuns K) (E : Funs K) (g : Geo) : Prop where
  f1 : ∀ o (x : List K.Bits) (r : Nat → K.Bits), x.length = g.full → (∀ i < g.size, ∃ a, x[i]? = some a ∧ E.f1 o a = some (r i)) →
    ∃ z, R.f1 o g x = some z ∧ z.length = g.full ∧ ∀ i < g.size, z[i]? = some (r i)
  f2 : ∀ o (x y : List K.Bits) (r : Nat → K.Bits), x.length = g.full → y.length = g.full →
    (∀ i < g.size, ∃ a b, x[i]? = some a ∧ y[i]? = some b ∧ E.f2 o a b = some (r i)) →
    ∃ z, R.f2 o g x y = some z ∧ z.length = g.full ∧ ∀ i < g.size, z[i]? = some (r i)
  f3 : ∀ o (x y z : List K.Bits) (r : Nat → K.Bits), x.length = g.full → y.length = g.full → z.length = g.full →
    (∀ i < g.size, ∃ a b c, x[i]? = some a ∧ y[i]? = some b ∧ z[i]? = some c ∧ E.f3 o a b c = some (r i)) →
    ∃ w, R.f3 o g x y z = some w ∧ w.length = g.full ∧ ∀ i < g.size, w[i]? = some (r i)
  t1 : ∀ o p (x : List K.Bits), E.t1 o = some p → x.length = g.full →
    ∃ k, R.t1 o g x = some k ∧ MaskOk g k ∧ maskLanes g k = (x.take g.size).map p
  t2 : ∀ o p (x y : List K.Bits), E.t2 o = some p → x.length = g.full → y.length = g.full →
    ∃ k, R.t2 o g x y = some k ∧ MaskOk g k ∧ maskLanes g k = List.zipWith p (x.take g.size) (y.take g.size)

/-- Element types without functions. -/
theorem ImplementsFn.empty (R : RegFuns K) {g : Geo} (hg : g.Ok) : ImplementsFn R {} g where
  f1 o x r hx h := by obtain ⟨_, _, e⟩ := h 0 hg.one_le; exact absurd e (by simp)
  f2 o x y r hx hy h := by obtain ⟨_, _, _, _, e⟩ := h 0 hg.one_le; exact absurd e (by simp)
  f3 o x y z r hx hy hz h := by obtain ⟨_, _, _, _, _, _, e⟩ := h 0 hg.one_le; exact absurd e (by simp)
  t1 o p x h := absurd h (by simp)
  t2 o p x y h := absurd h (by simp)

/-- The native implementation does with the elements of a register what the operators of the element type do, whatever the padding is. -/
structure Implements (R : RegImpl K) (E : Program.Elem K) (g : Geo) : Prop where
  un : ∀ o (x : List K.Bits) (r : Nat → K.Bits), x.length = g.full → (∀ i < g.size, ∃ a, x[i]? = some a ∧ E.un o a = some (r i)) →
    ∃ z, R.un o g x = some z ∧ z.length = g.full ∧ ∀ i < g.size, z[i]? = some (r i)
  bin : ∀ o (x y : List K.Bits) (r : Nat → K.Bits), x.length = g.full → y.length = g.full →
    (∀ i < g.size, ∃ a b, x[i]? = some a ∧ y[i]? = some b ∧ E.bin o a b = some (r i)) →
    ∃ z, R.bin o g x y = some z ∧ z.length = g.full ∧ ∀ i < g.size, z[i]? = some (r i)
  shift : ∀ l (x : List K.Bits) s (r : Nat → K.Bits), x.length = g.full → s < E.width →
    (∀ i < g.size, ∃ a, x[i]? = some a ∧ E.shift l a s = some (r i)) →
    ∃ z, R.shift l g x s = some z ∧ z.length = g.full ∧ ∀ i < g.size, z[i]? = some (r i)
  fn : ImplementsFn R.fn E.fn g

/-- The elements of a `fixed_size` object. -/
def FV (gs : List Geo) (n : Nat) (x : Tup K.Bits) (f : Nat → K.Bits) : Prop :=
  Wf gs x ∧ ∀ i < n, (lanes gs x)[i]? = some (f i)

/-- The elements of a `fixed_size` mask. -/
def FM (n : Nat) (k : BitMask n true) (b : Nat → Bool) : Prop := k.Clean ∧ ∀ i < n, k.lane i = b i

section
variable {gs : List Geo} {n : Nat} (hne : gs ≠ []) (hok : Oks gs) (htot : total gs = n)
include hne hok htot

theorem FV.each1 {x : Tup K.Bits} {f r : Nat → K.Bits} (hx : FV gs n x f) (F : Geo → Nat → List K.Bits → Option (List K.Bits))
    (e : K.Bits → Nat → K.Bits → Prop) (he : ∀ i < n, e (f i) i (r i))
    (hF : ∀ g ∈ gs, ∀ off (y : List K.Bits) (q : Nat → K.Bits), off + g.size ≤ n → y.length = g.full →
      (∀ i < g.size, ∃ a, y[i]? = some a ∧ e a (off + i) (q i)) →
      ∃ z, F g off y = some z ∧ z.length = g.full ∧ ∀ i < g.size, z[i]? = some (q i)) :
    ∃ z, forEach1 F gs 0 x = some z ∧ FV gs n z r := by
  obtain ⟨hw, hl⟩ := hx
  obtain ⟨z, hz, hzw, hzl⟩ := forEach1_spec F (fun i a => e a i (r i)) (fun i _ => r i) n gs 0 x hne hok hw (by omega)
    (fun g hg off y hoff hy hP => by
      have hsz := (hok g hg).size_le
      have hy' : ∀ i < g.size, ∃ a, y[i]? = some a := fun i hi => ⟨_, List.getElem?_eq_getElem (by omega)⟩
      obtain ⟨z, h1, h2, h3⟩ := hF g hg off y (fun i => r (off + i)) hoff hy (fun i hi => by
        obtain ⟨a, ha⟩ := hy' i hi
        exact ⟨a, ha, hP i a hi ha⟩)
      exact ⟨z, h1, h2, fun i hi => by rw [h3 i hi]; obtain ⟨a, ha⟩ := hy' i hi; rw [ha]; rfl⟩)
    (fun i a ha => by
      rw [Nat.zero_add]
      have hi : i < n := by
        have := length_lanes hok hw
        have := (List.getElem?_eq_some_iff.1 ha).1
        omega
      rw [hl i hi] at ha
      rw [← Option.some.inj ha]
      exact he i hi)
  refine ⟨z, hz, hzw, fun i hi => ?_⟩
  rw [hzl i, hl i hi, Nat.zero_add]; rfl

theorem FV.each2 {x y : Tup K.Bits} {f h r : Nat → K.Bits} (hx : FV gs n x f) (hy : FV gs n y h)
    (F : Geo → Nat → List K.Bits → List K.Bits → Option (List K.Bits))
    (e : K.Bits → K.Bits → Nat → K.Bits → Prop) (he : ∀ i < n, e (f i) (h i) i (r i))
    (hF : ∀ g ∈ gs, ∀ off (y z : List K.Bits) (q : Nat → K.Bits), off + g.size ≤ n → y.length = g.full → z.length = g.full →
      (∀ i < g.size, ∃ a b, y[i]? = some a ∧ z[i]? = some b ∧ e a b (off + i) (q i)) →
      ∃ w, F g off y z = some w ∧ w.length = g.full ∧ ∀ i < g.size, w[i]? = some (q i)) :
    ∃ z, forEach2 F gs 0 x y = some z ∧ FV gs n z r := by
  obtain ⟨hw, hl⟩ := hx
  obtain ⟨hw', hl'⟩ := hy
  obtain ⟨z, hz, hzw, hzl⟩ := forEach2_spec F (fun i a b => e a b i (r i)) (fun i _ _ => r i) n gs 0 x y hne hok hw hw' (by omega)
    (fun g hg off y z hoff hy hz hP => by
      have hsz := (hok g hg).size_le
      obtain ⟨w, h1, h2, h3⟩ := hF g hg off y z (fun i => r (off + i)) hoff hy hz (fun i hi => by
        have ha := List.getElem?_eq_getElem (l := y) (i := i) (by omega)
        have hb := List.getElem?_eq_getElem (l := z) (i := i) (by omega)
        exact ⟨_, _, ha, hb, hP i _ _ hi ha hb⟩)
      exact ⟨w, h1, h2, fun i hi _ _ _ _ => h3 i hi⟩)
    (fun i a b ha hb => by
      rw [Nat.zero_add]
      have hi : i < n := by
        have := length_lanes hok hw
        have := (List.getElem?_eq_some_iff.1 ha).1
        omega
      rw [hl i hi] at ha
      rw [hl' i hi] at hb
      rw [← Option.some.inj ha, ← Option.some.inj hb]
      exact he i hi)
  refine ⟨z, hz, hzw, fun i hi => ?_⟩
  rw [hzl i _ _ (hl i hi) (hl' i hi), Nat.zero_add]

theorem FV.each3 {x y z : Tup K.Bits} {f h k r : Nat → K.Bits} (hx : FV gs n x f) (hy : FV gs n y h) (hz : FV gs n z k)
    (F : Geo → List K.Bits → List K.Bits → List K.Bits → Option (List K.Bits))
    (e : K.Bits → K.Bits → K.Bits → K.Bits → Prop) (he : ∀ i < n, e (f i) (h i) (k i) (r i))
    (hF : ∀ g ∈ gs, ∀ (x y z : List K.Bits) (q : Nat → K.Bits), x.length = g.full → y.length = g.full → z.length = g.full →
      (∀ i < g.size, ∃ a b c, x[i]? = some a ∧ y[i]? = some b ∧ z[i]? = some c ∧ e a b c (q i)) →
      ∃ w, F g x y z = some w ∧ w.length = g.full ∧ ∀ i < g.size, w[i]? = some (q i)) :
    ∃ w, applyPerChunk3 F gs x y z = some w ∧ FV gs n w r := by
  obtain ⟨hw, hl⟩ := hx
  obtain ⟨hw', hl'⟩ := hy
  obtain ⟨hw'', hl''⟩ := hz
  rw [applyPerChunk3_eq F (fun g xx (p : List (K.Bits × K.Bits)) => F g xx (p.map (·.1)) (p.map (·.2))) gs x y z hw' hw''
    (fun g _ x y z hy hz => by rw [(unzip_eq (by omega)).1, (unzip_eq (by omega)).2]), applyPerChunk2_eq _ _ 0]
  obtain ⟨w, hz, hzw, hzl⟩ := forEach2_spec (fun g _ xx (p : List (K.Bits × K.Bits)) => F g xx (p.map (·.1)) (p.map (·.2)))
    (fun i a p => e a p.1 p.2 (r i)) (fun i _ _ => r i) n gs 0 x (zipT y z) hne hok hw (wf_zipT hw' hw'') (by omega)
    (fun g hg off y z hoff hy hz hP => by
      have hsz := (hok g hg).size_le
      obtain ⟨w, h1, h2, h3⟩ := hF g hg y (z.map (·.1)) (z.map (·.2)) (fun i => r (off + i)) hy (by simpa using hz) (by simpa using hz)
        (fun i hi => by
          have ha := List.getElem?_eq_getElem (l := y) (i := i) (by omega)
          have hb := List.getElem?_eq_getElem (l := z) (i := i) (by omega)
          exact ⟨_, _, _, ha, by rw [List.getElem?_map, hb]; rfl, by rw [List.getElem?_map, hb]; rfl, hP i _ _ hi ha hb⟩)
      exact ⟨w, h1, h2, fun i hi _ _ _ _ => h3 i hi⟩)
    (fun i a p ha hb => by
      rw [Nat.zero_add]
      have hi : i < n := by
        have := length_lanes hok hw
        have := (List.getElem?_eq_some_iff.1 ha).1
        omega
      rw [hl i hi] at ha
      rw [lanes_zipT hok hw' hw'', List.zip, List.getElem?_zipWith, hl' i hi, hl'' i hi] at hb
      rw [← Option.some.inj ha, ← Option.some.inj hb]
      exact he i hi)
  refine ⟨w, hz, hzw, fun i hi => ?_⟩
  rw [hzl i _ (h i, k i) (hl i hi) (by rw [lanes_zipT hok hw' hw'', List.zip, List.getElem?_zipWith, hl' i hi, hl'' i hi]), Nat.zero_add]

end

theorem sameWidth_spec {m n : Nat} (h : m = n) (k : BitMask m true) :
    ∃ k', sameWidth (n := n) k = some k' ∧ (k.Clean → k'.Clean) ∧ ∀ i, k'.lane i = k.lane i := by
  subst h
  exact ⟨k, by simp [sameWidth], id, fun _ => rfl⟩

theorem lanes_lane {n : Nat} {s : Bool} {k : BitMask n s} {l : List Bool} (h : k.lanes = l) {i : Nat} (hi : i < n) : l[i]? = some (k.lane i) := by
  rw [← h, BitMask.lanes_getElem?, if_pos hi]

theorem mapM_Id {α : Type} (l : List Nat) (f : Nat → α) : (l.mapM (m := Id) fun i => f i) = l.map f := by
  induction l with
  | nil => rfl
  | cons a l ih => rw [List.mapM_cons, List.map_cons, ← ih]; rfl

theorem FM.get {n : Nat} {k : BitMask n true} {b : Nat → Bool} (h : FM n k b) {i : Nat} (hi : i < n) : k.lanes[i]? = some (b i) := by
  rw [BitMask.lanes_getElem?, if_pos hi, h.2 i hi]

theorem select_get {α : Type} {k : List Bool} {x v : List α} {i : Nat} {b : Bool} {a c : α} (hk : k[i]? = some b) (hx : x[i]? = some a)
    (hv : v[i]? = some c) : (Spec.select k x v)[i]? = some (if b then a else c) := by
  simp only [Spec.select, List.getElem?_zipWith, List.zip, hk, hx, hv]

section
variable {n : Nat} (h1 : 1 ≤ n) {k x y : BitMask n true} {s f g : Nat → Bool}
include h1

theorem FM.broadcast (b : Bool) : FM n (FixedMask.broadcast n b) (fun _ => b) := by
  cases b with
  | false => exact ⟨fun i _ => BitMask.lane_zero i, fun i hi => BitMask.lane_zero i⟩
  | true =>
    exact ⟨BitMask.clean_not h1 _ (fun i _ => BitMask.lane_zero i), fun i hi => by
      simp [FixedMask.broadcast, BitMask.lane_not h1 _ hi, BitMask.lane_zero]⟩

theorem FM.not (hx : FM n x f) : FM n (FixedMask.bitNot x) (fun i => !f i) :=
  ⟨BitMask.clean_not h1 _ hx.1, fun i hi => by rw [FixedMask.bitNot, BitMask.lane_not h1 _ hi, hx.2 i hi]⟩

theorem FM.set (b : Bool) {i : Nat} (hi : i < n) (hx : FM n x f) : FM n (FixedMask.set x i b) (upd f i b) := by
  refine ⟨BitMask.clean_set h1 _ hx.1 hi b, fun j hj => ?_⟩
  rw [FixedMask.set, BitMask.lane_set h1 _ hi, upd]
  by_cases e : i = j
  · rw [if_pos e, if_pos e.symm]
  · rw [if_neg e, if_neg (fun h => e h.symm), hx.2 j hj]

theorem FM.maskedAssign (hk : FM n k s) (hx : FM n x f) (hy : FM n y g) :
    FM n (FixedMask.maskedAssign k x y) (fun i => if s i then g i else f i) := by
  refine ⟨fun i hi => ?_, fun i hi => ?_⟩
  · simp [FixedMask.maskedAssign, BitMask.lane_or, BitMask.lane_and, hx.1 i hi, hy.1 i hi]
  · rw [FixedMask.maskedAssign, BitMask.lane_or, BitMask.lane_and, BitMask.lane_and, BitMask.lane_not h1 _ hi, hk.2 i hi, hx.2 i hi, hy.2 i hi]
    dsimp only
    cases s i <;> simp
end

section
variable {n : Nat} {x y : BitMask n true} {f g : Nat → Bool}

theorem FM.and (hx : FM n x f) (hy : FM n y g) : FM n (FixedMask.bitAnd x y) (fun i => MOp.eval .and (f i) (g i)) :=
  ⟨fun i hi => by simp [FixedMask.bitAnd, BitMask.lane_and, hx.1 i hi],
    fun i hi => by rw [FixedMask.bitAnd, BitMask.lane_and, hx.2 i hi, hy.2 i hi]; rfl⟩

theorem FM.or (hx : FM n x f) (hy : FM n y g) : FM n (FixedMask.bitOr x y) (fun i => MOp.eval .or (f i) (g i)) :=
  ⟨fun i hi => by simp [FixedMask.bitOr, BitMask.lane_or, hx.1 i hi, hy.1 i hi],
    fun i hi => by rw [FixedMask.bitOr, BitMask.lane_or, hx.2 i hi, hy.2 i hi]; rfl⟩

theorem FM.xor (hx : FM n x f) (hy : FM n y g) : FM n (FixedMask.bitXor x y) (fun i => MOp.eval .xor (f i) (g i)) :=
  ⟨fun i hi => by simp [FixedMask.bitXor, BitMask.lane_xor, hx.1 i hi, hy.1 i hi],
    fun i hi => by
      rw [FixedMask.bitXor, BitMask.lane_xor, hx.2 i hi, hy.2 i hi]
      dsimp only
      cases f i <;> cases g i <;> rfl⟩
end

theorem fixed_correct {t : Abi.Target} {T : Abi.Elem} {n : Nat} (ht : t.Consistent) (hT : T.Ok) (h1 : 1 ≤ n) (h64 : n ≤ 64)
    {E : Program.Elem K} (C : Cfg K β) (hR : ∀ g ∈ regs t T n, Implements C.R E g) {U : Abi.Elem} (hU : U.Ok) (same : Bool)
    (hX : C.xfer = Xfer.of t U same) :
    Correct (fixedImpl C (regs t T n) n) E C.ld C.st (FV (regs t T n) n) (FM n) := by
  obtain ⟨hne, hok, htot, _⟩ := regs_facts ht hT h1
  refine
  { pos := h1
    vcongr := fun h e => ⟨h.1, fun i hi => by rw [h.2 i hi, e i hi]⟩
    mcongr := fun h e => ⟨h.1, fun i hi => by rw [h.2 i hi, e i hi]⟩
    broadcast := fun a => ?_
    generator := fun f => ?_
    un := fun {o x f r} hx h => ?_
    bin := fun {o x y f g r} hx hy h => ?_
    shift := fun {l x s f r} hx hs h => ?_
    f1 := fun {o x f r} hx h => ?_
    f2 := fun {o x y f g r} hx hy h => ?_
    f3 := fun {o x y z f g h r} hx hy hz e => ?_
    t1 := fun {o p x f} hp hx => ?_
    t2 := fun {o p x y f g} hp hx hy => ?_
    cmp := fun {o x y f g} hx hy => ?_
    negate := fun {x f} hx => ?_
    maskedAssign := fun {k v x b f g} hk hv hx => ?_
    maskedCassign := fun {o k v x b f g h} ho1 ho2 hk hv hx he => ?_
    maskedUnary := fun {inc k v b f h} hk hv he => ?_
    set := fun {x f i} a hi hx => ?_
    load := fun {mem b c} hm => ?_
    store := fun {x f mem b} hx hm => ?_
    maskedLoad := fun {x f k s mem b c} hx hk hm => ?_
    maskedStore := fun {x f k s mem b} hx hk hm => ?_
    mbroadcast := fun b => ?_
    mnot := fun {x f} hx => ?_
    mbin := fun {o x y f g} hx hy => ?_
    mset := fun {x f i} b hi hx => ?_
    mmaskedAssign := fun {k x y s f g} hk hx hy => ?_ }
  · obtain ⟨hw, hl⟩ := Props.C01_broadcast ht hT h1 a
    exact ⟨hw, fun i hi => by
      change (lanes _ (Tuple.broadcast _ a))[i]? = _
      rw [hl, List.getElem?_replicate, if_pos hi]⟩
  · obtain ⟨F, hF, hg⟩ := Props.C10_generator ht hT h1 (0#K.width)
    have e := hg Id (fun i => f i)
    have e2 : ((List.range n).mapM (m := Id) fun i => f i) = (List.range n).map f := by
      exact mapM_Id _ f
    obtain ⟨hw, hl⟩ := hF ((List.range n).map f) (by simp)
    have e3 : (fixedImpl C (regs t T n) n).generator f = F ((List.range n).map f) := by
      change Tuple.generator (m := Id) (regs t T n) 0#K.width (fun i => f i) = _
      rw [e, e2]; rfl
    rw [e3]
    exact ⟨hw, fun i hi => by rw [hl]; simp [hi]⟩
  · have key : ∃ z, forEach1 (fun g _ xx => C.R.un o g xx) (regs t T n) 0 x = some z ∧ FV (regs t T n) n z r :=
      hx.each1 hne hok htot _ (fun a _ q => E.un o a = some q) h (fun g hg off y q _ hy hq => (hR g hg).un o y q hy hq)
    cases o
    · obtain ⟨z, hz, hv⟩ := key
      exact ⟨z, (applyPerChunk1_eq _ _ 0 _).trans hz, hv⟩
    · obtain ⟨z, hz, hv⟩ := key
      exact ⟨z, (applyPerChunk1_eq _ _ 0 _).trans hz, hv⟩
    · exact key
    · exact key
  · obtain ⟨z, hz, hv⟩ := hx.each2 hne hok htot hy (r := r) (fun g _ xx yy => C.R.bin o g xx yy) (fun a b _ q => E.bin o a b = some q) h
      (fun g hg off y z q _ hy hz hq => (hR g hg).bin o y z q hy hz hq)
    exact ⟨z, (applyPerChunk2_eq _ _ 0 _ _).trans hz, hv⟩
  · obtain ⟨z, hz, hv⟩ := hx.each1 hne hok htot (r := r) (fun g _ xx => C.R.shift l g xx s) (fun a _ q => E.shift l a s = some q) h
      (fun g hg off y q _ hy hq => (hR g hg).shift l y s q hy hs hq)
    exact ⟨z, (applyPerChunk1_eq _ _ 0 _).trans hz, hv⟩
  · obtain ⟨z, hz, hv⟩ := hx.each1 hne hok htot (r := r) (fun g _ xx => C.R.fn.f1 o g xx) (fun a _ q => E.fn.f1 o a = some q) h
      (fun g hg off y q _ hy hq => (hR g hg).fn.f1 o y q hy hq)
    exact ⟨z, (applyPerChunk1_eq _ _ 0 _).trans hz, hv⟩
  · obtain ⟨z, hz, hv⟩ := hx.each2 hne hok htot hy (r := r) (fun g _ xx yy => C.R.fn.f2 o g xx yy) (fun a b _ q => E.fn.f2 o a b = some q) h
      (fun g hg off y z q _ hy hz hq => (hR g hg).fn.f2 o y z q hy hz hq)
    exact ⟨z, (applyPerChunk2_eq _ _ 0 _ _).trans hz, hv⟩
  · exact FV.each3 hne hok htot hx hy hz (fun g xx yy zz => C.R.fn.f3 o g xx yy zz) (fun a b c q => E.fn.f3 o a b c = some q) e
      (fun g hg x y z q hx hy hz hq => (hR g hg).fn.f3 o x y z q hx hy hz hq)
  · obtain ⟨k, hk, hc, hl⟩ := test1_spec (fun g xx => C.R.fn.t1 o g xx) p (regs t T n) x hne hok (by omega) hx.1
      (fun g hg xx h1 => (hR g hg).fn.t1 o p xx hp h1)
    obtain ⟨k', e1, e2, e3⟩ := sameWidth_spec htot k
    refine ⟨k', (congrArg (· >>= sameWidth) hk).trans e1, e2 hc, fun i hi => ?_⟩
    have := lanes_lane hl (i := i) (by omega)
    rw [List.getElem?_map, hx.2 i hi] at this
    rw [e3, ← Option.some.inj this]
  · obtain ⟨k, hk, hc, hl⟩ := test2_spec (fun g xx yy => C.R.fn.t2 o g xx yy) p (regs t T n) x y hne hok
      (by omega) hx.1 hy.1 (fun g hg xx yy h1 h2 => (hR g hg).fn.t2 o p xx yy hp h1 h2)
    obtain ⟨k', e1, e2, e3⟩ := sameWidth_spec htot k
    refine ⟨k', (congrArg (· >>= sameWidth) hk).trans e1, e2 hc, fun i hi => ?_⟩
    have := lanes_lane hl (i := i) (by omega)
    rw [List.getElem?_zipWith, hx.2 i hi, hy.2 i hi] at this
    rw [e3, ← Option.some.inj this]
  · obtain ⟨k, hk, hc, hl⟩ := test2_spec (fun g xx yy => Compare.compare K (C.ctx g) o g xx yy) (K.holds o.rel) (regs t T n) x y hne hok
      (by omega) hx.1 hy.1 (fun g hg xx yy h1 h2 => Compare.compare_spec K (C.ctx g) o (hok g hg) xx yy h1 h2)
    obtain ⟨k', e1, e2, e3⟩ := sameWidth_spec htot k
    refine ⟨k', (congrArg (· >>= sameWidth) hk).trans e1, e2 hc, fun i hi => ?_⟩
    have := lanes_lane hl (i := i) (by omega)
    rw [List.getElem?_zipWith, hx.2 i hi, hy.2 i hi] at this
    rw [e3, ← Option.some.inj this]
  · obtain ⟨k, hk, hc, hl⟩ := negate_spec (isZero (K := K)) (regs t T n) x hne hok (by omega) hx.1
    obtain ⟨k', e1, e2, e3⟩ := sameWidth_spec htot k
    refine ⟨k', (congrArg (· >>= sameWidth) hk).trans e1, e2 hc, fun i hi => ?_⟩
    have := lanes_lane hl (i := i) (by omega)
    rw [List.getElem?_map, hx.2 i hi] at this
    rw [e3, ← Option.some.inj this]
    exact Compare.elem_spec K .equal _ _
  · obtain ⟨r, hr, hw, hl⟩ := Props.C15_assign ht hT h1 h64 C.c k hk.1 hv.1 hx.1
    refine ⟨r, hr, hw, fun i hi => ?_⟩
    rw [hl]
    exact select_get (hk.get hi) (hx.2 i hi) (hv.2 i hi)
  · have ho : ∀ g x y, regBin C.R (whereOp o) g x y = C.R.bin o g x y := fun g x y => by cases o <;> rfl
    refine hv.each2 hne hok htot hx (fun g off (l r : List K.Bits) => do
      let k ← makeMask g off k
      Native.maskedCassign g (hintOf (C.c off) g k) k l r (regBin C.R (whereOp o) g))
      (fun a c i q => ∃ d, E.bin o a c = some d ∧ q = if k.lane i then d else a) (fun i hi => ⟨h i, he i hi, by rw [hk.2 i hi]⟩) ?_
    intro g hg off v x q hoff hv hx hq
    have hgo := hok g hg
    have hsz := hgo.size_le
    obtain ⟨kk, hk1, hk2, _, hk4⟩ := makeMask_spec k hk.1 hgo off hoff h64
    obtain ⟨d, hd⟩ := choice (n := g.size) (p := fun i => (v[i]?).bind fun a => (x[i]?).bind fun b => E.bin o a b)
      (fun i hi => by obtain ⟨a, b, ha, hb, d, hd, _⟩ := hq i hi; simp [ha, hb, hd]) 0#K.width
    obtain ⟨w, hw1, hw2, hw3⟩ := (hR g hg).bin o v x d hv hx (fun i hi => by
      obtain ⟨a, b, ha, hb, _⟩ := hq i hi
      have := hd i hi
      simp only [ha, hb, Option.bind_some] at this
      exact ⟨a, b, ha, hb, this⟩)
    obtain ⟨s, h0, h2, h3⟩ := maskedCassign_spec hgo kk hk2 _ (hintOf_truthful (C.c off) hgo kk hk2) v x hv
      (regBin C.R (whereOp o) g) w (by rw [ho]; exact hw1) hw2
    refine ⟨s, by rw [hk1]; exact h0, h2, fun i hi => ?_⟩
    obtain ⟨a, b, ha, hb, e, he, hqe⟩ := hq i hi
    have hdi := hd i hi
    simp only [ha, hb, Option.bind_some, he] at hdi
    rw [h3 i hi, hk4 i hi, hw3 i hi, ha, hqe, ← Option.some.inj hdi]
    cases k.lane (off + i) <;> rfl
  · have ho : ∀ g x, regUn C.R (if inc then .increment else .decrement) g x = C.R.un (stepOp inc) g x := fun g x => by cases inc <;> rfl
    refine hv.each1 hne hok htot (fun g off (l : List K.Bits) => do
      let k ← makeMask g off k
      Native.maskedUnary g (hintOf (C.c off) g k) k l (regUn C.R (if inc then .increment else .decrement) g))
      (fun a i q => ∃ d, E.un (stepOp inc) a = some d ∧ q = if k.lane i then d else a) (fun i hi => ⟨h i, he i hi, by rw [hk.2 i hi]⟩) ?_
    intro g hg off v q hoff hv hq
    have hgo := hok g hg
    have hsz := hgo.size_le
    obtain ⟨kk, hk1, hk2, _, hk4⟩ := makeMask_spec k hk.1 hgo off hoff h64
    obtain ⟨d, hd⟩ := choice (n := g.size) (p := fun i => (v[i]?).bind fun a => E.un (stepOp inc) a)
      (fun i hi => by obtain ⟨a, ha, d, hd, _⟩ := hq i hi; simp [ha, hd]) 0#K.width
    obtain ⟨w, hw1, hw2, hw3⟩ := (hR g hg).un (stepOp inc) v d hv (fun i hi => by
      obtain ⟨a, ha, _⟩ := hq i hi
      have := hd i hi
      simp only [ha, Option.bind_some] at this
      exact ⟨a, ha, this⟩)
    obtain ⟨s, h0, h2, h3⟩ := maskedCassign_spec hgo kk hk2 _ (hintOf_truthful (C.c off) hgo kk hk2) v v hv
      (fun x _ => regUn C.R (if inc then .increment else .decrement) g x) w (by rw [ho]; exact hw1) hw2
    refine ⟨s, by rw [hk1]; rw [← h0, ← maskedUnary_eq]; rfl, h2, fun i hi => ?_⟩
    obtain ⟨a, ha, e, he, hqe⟩ := hq i hi
    have hdi := hd i hi
    simp only [ha, Option.bind_some, he] at hdi
    rw [h3 i hi, hk4 i hi, hw3 i hi, ha, hqe, ← Option.some.inj hdi]
    cases k.lane (off + i) <;> rfl
  · obtain ⟨hw, hl, _⟩ := Props.C09_write ht hT h1 hx.1 hi a
    refine ⟨hw, fun j hj => ?_⟩
    have hlen := length_lanes hok hx.1
    change (lanes (regs t T n) (Tuple.set (regs t T n) x i a))[j]? = _
    rw [hl, List.getElem?_set]
    unfold upd
    by_cases e : j = i
    · subst e; rw [if_pos rfl, if_pos rfl, if_pos (by omega)]
    · rw [if_neg (fun h => e h.symm), if_neg e, hx.2 j hj]
  · obtain ⟨r, hr, hw, hl⟩ := Props.C11_load (α := K.Bits) ht hT h1 hU same C.ld 0#K.width mem b c hm
    rw [← hX] at hr
    refine ⟨r, hr, hw, fun i hi => ?_⟩
    rw [hl]
    simp [show i < n from hi]
  · obtain ⟨m, hr, hl, hf⟩ := Props.C12_store ht hT h1 hU same C.st hx.1 mem b hm
    rw [← hX] at hr
    refine ⟨m, hr, fun i hi => ?_, hf⟩
    rw [hl i hi, hx.2 i hi]; rfl
  · obtain ⟨r, hr, hw, hl⟩ := Props.C13_masked_load ht hT h1 h64 C.path C.ld hx.1 k hk.1 mem b c (fun i hi h => hm i hi (by
      rw [lanes_get_iff k hi, hk.2 i hi] at h; exact h))
    refine ⟨r, hr, hw, fun i hi => ?_⟩
    rw [hl]
    exact select_get (hk.get hi) (by simp [show i < n from hi]) (hx.2 i hi)
  · obtain ⟨m, hr, hl, hf⟩ := Props.C14_masked_store ht hT h1 h64 C.path C.st C.junk hx.1 k hk.1 mem b (fun i hi h => hm i hi (by
      rw [lanes_get_iff k hi, hk.2 i hi] at h; exact h))
    refine ⟨m, hr, fun i hi => ?_, fun a ha => hf a ?_⟩
    · cases e : s i
      · rw [hf _ (by
          rintro ⟨j, hj, h2, h3⟩
          have : i = j := by omega
          subst this
          rw [lanes_get_iff k hi, hk.2 i hi, e] at h2
          exact absurd h2 (by simp))]
        rfl
      · rw [hl i hi (by rw [lanes_get_iff k hi, hk.2 i hi, e]), hx.2 i hi]; rfl
    · rintro ⟨j, hj, _, h3⟩
      have : (fixedImpl C (regs t T n) n).size = n := rfl
      omega
  · exact FM.broadcast h1 b
  · exact FM.not h1 hx
  · cases o
    · exact FM.and hx hy
    · exact FM.or hx hy
    · exact FM.xor hx hy
  · exact FM.set h1 b hi hx
  · exact FM.maskedAssign h1 hk hx hy

end StdSimd.SimdClass
