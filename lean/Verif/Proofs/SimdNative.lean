import Verif.Model.SimdNative
import Verif.Proofs.SimdFixed
import Verif.Props.NativeMasks
import Verif.Props.NativeValues
/-!
# The native implementation classes are correct, if the functions on registers are
-/
namespace StdSimd.SimdClass
open Spec Spec.Program Native

variable {K : Kind} {β : Type} {g : Geo}

/-- The elements of a native object; nothing is known about the padding. -/
def NV (g : Geo) (x : List K.Bits) (f : Nat → K.Bits) : Prop := x.length = g.full ∧ ∀ i < g.size, x[i]? = some (f i)

/-- The elements of a native mask; nothing is known about the padding. -/
def NM (g : Geo) (k : MaskM g) (b : Nat → Bool) : Prop := MaskOk g k ∧ ∀ i < g.size, mbit g k i = b i

theorem mbit_vec {w n f : Nat} (k : VMask w) (i : Nat) : mbit (.vec w n f) k i = VMask.bit (VMask.lanes n k) i := rfl
theorem mbit_k {n f : Nat} (k : KMask n) {i : Nat} (hi : i < (Geo.bitmask n f).size) : mbit (.bitmask n f) k i = k.getLsbD i := by
  change VMask.bit (KMask.lanes k) i = _
  rw [KMask.bit_lanes]; simp [show i < n from hi]
theorem mbit_scalar (k : Bool) {i : Nat} (hi : i < Geo.scalar.size) : mbit .scalar k i = k := by
  have : i = 0 := by simp at hi; omega
  subst this; rfl

theorem clean_of_exact (hg : g.Ok) (he : Exact g) (k : MaskM g) (hk : MaskOk g k) : MaskClean g k := by
  cases g with
  | scalar => trivial
  | vec w n f =>
    intro i hi
    have hl := VMask.Wf.len hk
    have he' : n = f := he
    rw [List.getElem?_eq_none (by omega)]; rfl
  | bitmask n f =>
    intro i hi
    have he' : n = kBits n := he
    exact BitVec.getLsbD_of_ge _ _ (by omega)

theorem NM.broadcast (hg : g.Ok) (b : Bool) : NM g (nmBroadcast g b) (fun _ => b) := by
  cases g with
  | scalar => exact ⟨trivial, fun i hi => mbit_scalar b hi⟩
  | vec w n f =>
    obtain ⟨h1, h2⟩ := Props.C41_vec_broadcast (w := w) hg.1 hg.2.2.2.1 b
    refine ⟨h1, fun i hi => ?_⟩
    change VMask.bit (VMask.lanes n (VMask.broadcast w n f b)) i = b
    rw [h2, KMask.bit_replicate]; simp [show i < n from hi]
  | bitmask n f =>
    have h1 : 2 ≤ n := hg.1
    obtain ⟨_, h2⟩ := Props.C41_k_broadcast (n := n) (by omega) hg.2.2 b
    refine ⟨trivial, fun i hi => ?_⟩
    change VMask.bit (KMask.lanes (KMask.broadcast n b)) i = b
    rw [h2, KMask.bit_replicate]; simp [show i < n from hi]

theorem NM.not (hg : g.Ok) {x : MaskM g} {f : Nat → Bool} (hx : NM g x f) : NM g (nmNot g x) (fun i => !f i) := by
  cases g with
  | scalar =>
    refine ⟨trivial, fun i hi => ?_⟩
    have := hx.2 i hi
    rw [mbit_scalar _ hi] at this
    change mbit .scalar (!(show Bool from x)) i = _
    rw [mbit_scalar _ hi]
    exact congrArg Bool.not this
  | vec w n f' =>
    obtain ⟨h1, h2⟩ := Props.C41_vec_not hg.1 hg.2.2.2.1 (x := x) hx.1
    have hl := length_maskLanes hg x hx.1
    refine ⟨h1, fun i hi => ?_⟩
    change VMask.bit (VMask.lanes n (VMask.not n f' x)) i = _
    rw [h2, KMask.bit_map _ _ (by rw [show (VMask.lanes n x).length = n from hl]; exact hi)]
    exact congrArg Bool.not (hx.2 i hi)
  | bitmask n f' =>
    refine ⟨trivial, fun i hi => ?_⟩
    change mbit (.bitmask n f') (KMask.not x) i = _
    rw [mbit_k _ hi, KMask.getLsbD_not hg.2.2]
    have := hx.2 i hi
    rw [mbit_k _ hi] at this
    simp [show i < n from hi, this]

theorem NM.bin (hg : g.Ok) {x y : MaskM g} {f h : Nat → Bool} (o : MOp) (hx : NM g x f) (hy : NM g y h) :
    NM g (nmBin o g x y) (fun i => o.eval (f i) (h i)) := by
  cases g with
  | scalar =>
    refine ⟨trivial, fun i hi => ?_⟩
    have h1 := hx.2 i hi
    have h2 := hy.2 i hi
    rw [mbit_scalar _ hi] at h1 h2
    rw [mbit_scalar _ hi]
    dsimp only
    rw [← h1, ← h2]
    cases o
    · rfl
    · rfl
    · have key : ∀ a b : Bool, (a != b) = MOp.eval .xor a b := by decide
      exact key x y
  | vec w n f' =>
    have hl := length_maskLanes hg x hx.1
    have hl' := length_maskLanes hg y hy.1
    have hl : (VMask.lanes n x).length = n := hl
    have hl' : (VMask.lanes n y).length = n := hl'
    have hxb : ∀ i < n, VMask.bit (VMask.lanes n x) i = f i := hx.2
    have hyb : ∀ i < n, VMask.bit (VMask.lanes n y) i = h i := hy.2
    cases o
    · obtain ⟨h1, h2⟩ := Props.C41_vec_and hg.1 hg.2.2.2.1 (x := x) (y := y) hx.1 hy.1
      refine ⟨h1, fun i hi => ?_⟩
      have hi : i < n := hi
      change VMask.bit (VMask.lanes n (VMask.and x y)) i = _
      rw [h2, KMask.bit_zipWith _ _ _ (by omega) (by omega), hxb i hi, hyb i hi]; rfl
    · obtain ⟨h1, h2⟩ := Props.C41_vec_or hg.1 hg.2.2.2.1 (x := x) (y := y) hx.1 hy.1
      refine ⟨h1, fun i hi => ?_⟩
      have hi : i < n := hi
      change VMask.bit (VMask.lanes n (VMask.or x y)) i = _
      rw [h2, KMask.bit_zipWith _ _ _ (by omega) (by omega), hxb i hi, hyb i hi]; rfl
    · obtain ⟨h1, h2⟩ := Props.C41_vec_xor hg.1 hg.2.2.2.1 (x := x) (y := y) hx.1 hy.1
      refine ⟨h1, fun i hi => ?_⟩
      have hi : i < n := hi
      change VMask.bit (VMask.lanes n (VMask.xor x y)) i = _
      rw [h2, KMask.bit_zipWith _ _ _ (by omega) (by omega), hxb i hi, hyb i hi]
      dsimp only
      cases f i <;> cases h i <;> rfl
  | bitmask n f' =>
    refine ⟨trivial, fun i hi => ?_⟩
    have h1 := hx.2 i hi
    have h2 := hy.2 i hi
    rw [mbit_k _ hi] at h1 h2
    cases o
    · change mbit (.bitmask n f') (KMask.and x y) i = _
      rw [mbit_k _ hi, KMask.and, BitVec.getLsbD_and, h1, h2]; rfl
    · change mbit (.bitmask n f') (KMask.or x y) i = _
      rw [mbit_k _ hi, KMask.or, BitVec.getLsbD_or, h1, h2]; rfl
    · change mbit (.bitmask n f') (KMask.xor x y) i = _
      rw [mbit_k _ hi, KMask.xor, BitVec.getLsbD_xor, h1, h2]
      dsimp only
      cases f i <;> cases h i <;> rfl

theorem NM.set (hg : g.Ok) {x : MaskM g} {f : Nat → Bool} {i : Nat} (b : Bool) (hi : i < g.size) (hx : NM g x f) :
    NM g (nmSet g x i b) (upd f i b) := by
  cases g with
  | scalar =>
    refine ⟨trivial, fun j hj => ?_⟩
    have e : j = i := by simp at hi hj; omega
    subst e
    change mbit .scalar b j = _
    rw [mbit_scalar _ hj, upd, if_pos rfl]
  | vec w n f' =>
    obtain ⟨h1, h2⟩ := Props.C41_vec_set hg.1 hg.2.2.2.1 (x := x) hx.1 hi b
    have hl : (VMask.lanes n x).length = n := length_maskLanes hg x hx.1
    refine ⟨h1, fun j hj => ?_⟩
    change VMask.bit (VMask.lanes n (VMask.set x i b)) j = _
    have hi : i < n := hi
    rw [h2, VMask.bit_set _ (by omega), upd]
    by_cases e : j = i
    · rw [if_pos e, if_pos e.symm]
    · rw [if_neg e, if_neg (fun h => e h.symm)]; exact hx.2 j hj
  | bitmask n f' =>
    refine ⟨trivial, fun j hj => ?_⟩
    change mbit (.bitmask n f') (KMask.set x i b) j = _
    have hi : i < n := hi
    rw [mbit_k _ hj, KMask.getLsbD_set _ hi, upd]
    by_cases e : j = i
    · rw [if_pos e, if_pos e.symm]
    · rw [if_neg e, if_neg (fun h => e h.symm), ← hx.2 j hj, mbit_k _ hj]

theorem NM.assign (hg : g.Ok) {k x y : MaskM g} {s f h : Nat → Bool} (hk : NM g k s) (hx : NM g x f) (hy : NM g y h) :
    NM g (nmAssign g k x y) (fun i => if s i then h i else f i) := by
  cases g with
  | scalar =>
    refine ⟨trivial, fun i hi => ?_⟩
    have h0 := hk.2 i hi
    have h1 := hx.2 i hi
    have h2 := hy.2 i hi
    rw [mbit_scalar _ hi] at h0 h1 h2
    rw [mbit_scalar _ hi]
    dsimp only
    rw [← h0, ← h1, ← h2]; rfl
  | vec w n f' =>
    obtain ⟨h1, h2⟩ := Props.C41_vec_masked_assign hg.1 hg.2.2.2.1 (k := k) (x := x) (y := y) hk.1 hx.1 hy.1
    have hl0 : (VMask.lanes n k).length = n := length_maskLanes hg k hk.1
    have hl1 : (VMask.lanes n x).length = n := length_maskLanes hg x hx.1
    have hl2 : (VMask.lanes n y).length = n := length_maskLanes hg y hy.1
    refine ⟨h1, fun i hi => ?_⟩
    change VMask.bit (VMask.lanes n (VMask.maskedAssign k x y)) i = _
    have hi' : i < n := hi
    rw [h2, KMask.bit_select _ _ _ (by omega) (by omega) (by omega)]
    dsimp only
    rw [← hk.2 i hi, ← hx.2 i hi, ← hy.2 i hi]; rfl
  | bitmask n f' =>
    refine ⟨trivial, fun i hi => ?_⟩
    change mbit (.bitmask n f') (KMask.maskedAssign k x y) i = _
    have h0 := hk.2 i hi
    have h1 := hx.2 i hi
    have h2 := hy.2 i hi
    have hb : i < kBits n := Nat.lt_of_lt_of_le hi (KMask.le_kBits n)
    rw [mbit_k _ hi] at h0 h1 h2
    rw [mbit_k _ hi, KMask.maskedAssign, BitVec.getLsbD_or, BitVec.getLsbD_and, BitVec.getLsbD_and, BitVec.getLsbD_not, h0, h1, h2]
    dsimp only
    cases s i <;> simp [hb]

theorem NM.of_lanes (hg : g.Ok) {k : MaskM g} (hk : MaskOk g k) {l : List Bool} (hl : maskLanes g k = l) {b : Nat → Bool}
    (h : ∀ i < g.size, l[i]? = some (b i)) : NM g k b :=
  ⟨hk, fun i hi => by unfold mbit VMask.bit; rw [hl, h i hi]; rfl⟩

theorem NV.two {x y : List K.Bits} {f h : Nat → K.Bits} (p : K.Bits → K.Bits → Bool) (hx : NV g x f) (hy : NV g y h) {i : Nat} (hi : i < g.size) :
    (List.zipWith p (x.take g.size) (y.take g.size))[i]? = some (p (f i) (h i)) := by
  rw [List.getElem?_zipWith, List.getElem?_take_of_lt hi, List.getElem?_take_of_lt hi, hx.2 i hi, hy.2 i hi]

theorem NV.one {x : List K.Bits} {f : Nat → K.Bits} (p : K.Bits → Bool) (hx : NV g x f) {i : Nat} (hi : i < g.size) :
    ((x.take g.size).map p)[i]? = some (p (f i)) := by
  rw [List.getElem?_map, List.getElem?_take_of_lt hi, hx.2 i hi]; rfl

theorem NV.assign (hg : g.Ok) {k : MaskM g} {v x : List K.Bits} {b : Nat → Bool} {f h : Nat → K.Bits} (c : Bool) (hk : NM g k b)
    (hv : NV g v f) (hx : NV g x h) : NV g (Native.maskedAssign g (hintOf c g k) k v x) (fun i => if b i then h i else f i) := by
  obtain ⟨h1, h2⟩ := maskedAssign_spec hg k hk.1 _ (hintOf_truthful c hg k hk.1) v x hv.1 hx.1
  refine ⟨h1, fun i hi => ?_⟩
  rw [h2 i hi, hk.2 i hi, hx.2 i hi, hv.2 i hi]
  dsimp only
  split <;> rfl

theorem NV.cassign (hg : g.Ok) {k : MaskM g} {v x z : List K.Bits} {b : Nat → Bool} {f h : Nat → K.Bits} (c : Bool) (hk : NM g k b)
    (hv : NV g v f) (op : List K.Bits → List K.Bits → Option (List K.Bits)) (ho : op v x = some z) (hz : NV g z h) :
    ∃ r, Native.maskedCassign g (hintOf c g k) k v x op = some r ∧ NV g r (fun i => if b i then h i else f i) := by
  obtain ⟨s, e0, e2, e3⟩ := maskedCassign_spec hg k hk.1 _ (hintOf_truthful c hg k hk.1) v x hv.1 op z ho hz.1
  refine ⟨s, e0, e2, fun i hi => ?_⟩
  rw [e3 i hi, hk.2 i hi, hz.2 i hi, hv.2 i hi]
  dsimp only
  split <;> rfl

theorem NV.set (hg : g.Ok) {x : List K.Bits} {f : Nat → K.Bits} {i : Nat} (a : K.Bits) (hi : i < g.size) (hx : NV g x f) :
    NV g (Native.set x i a) (upd f i a) := by
  have hsz := hg.size_le
  have hl := hx.1
  refine ⟨(List.length_set ..).trans hx.1, fun j hj => ?_⟩
  change (List.set x i a)[j]? = _
  rw [List.getElem?_set, upd]
  by_cases e : j = i
  · rw [if_pos e, if_pos e.symm, if_pos (by omega)]
  · rw [if_neg e, if_neg (fun h => e h.symm), hx.2 j hj]

theorem NV.store (hg : g.Ok) {x : List K.Bits} {f : Nat → K.Bits} (c : Xfer) (hc : c.Ok) (st : K.Bits → β) (hx : NV g x f) {mem : Mem β} {b : Nat}
    (hm : ∀ i < g.size, (mem (b + i)).isSome) : ∃ mem', Native.store c st g x mem b = some mem' ∧
    (∀ i < g.size, mem' (b + i) = some (st (f i))) ∧ ∀ a, (a < b ∨ b + g.size ≤ a) → mem' a = mem a := by
  obtain ⟨m, e, hs⟩ := store_spec c hc st hg x hx.1 mem b hm
  refine ⟨m, e, fun i hi => ?_, fun a ha => ?_⟩
  · rw [hs, if_pos ⟨by omega, by omega, rfl⟩, Nat.add_sub_cancel_left]; dsimp only; rw [hx.2 i hi]; rfl
  · rw [hs, if_neg (by omega)]

theorem NV.maskedLoad (hg : g.Ok) {x : List K.Bits} {f : Nat → K.Bits} {k : MaskM g} {s : Nat → Bool} (p : MaskedPath) (hp : p = .raw → Exact g)
    (ld : β → K.Bits) (hx : NV g x f) (hk : NM g k s) {mem : Mem β} {b : Nat} {c : Nat → β}
    (hm : ∀ i < g.size, s i = true → mem (b + i) = some (c i)) :
    ∃ r, Native.maskedLoad p ld g x k mem b = some r ∧ NV g r (fun i => if s i then ld (c i) else f i) := by
  obtain ⟨r, e, h1, h2⟩ := maskedLoad_spec p ld hg k hk.1 (fun h => clean_of_exact hg (hp h) k hk.1) x hx.1 mem b c
    (fun i hi h => hm i hi (by rw [← hk.2 i hi]; exact h))
  refine ⟨r, e, h1, fun i hi => ?_⟩
  rw [h2 i hi, hk.2 i hi, hx.2 i hi]
  dsimp only
  split <;> rfl

theorem NV.maskedStore (hg : g.Ok) {x : List K.Bits} {f : Nat → K.Bits} {k : MaskM g} {s : Nat → Bool} (p : MaskedPath) (hp : p = .raw → Exact g)
    (st : K.Bits → β) (junk : K.Bits) (hx : NV g x f) (hk : NM g k s) {mem : Mem β} {b : Nat}
    (hm : ∀ i < g.size, s i = true → (mem (b + i)).isSome) :
    ∃ mem', Native.maskedStore p st junk g x mem b k = some mem' ∧ (∀ i < g.size, mem' (b + i) = if s i then some (st (f i)) else mem (b + i)) ∧
      ∀ a, (a < b ∨ b + g.size ≤ a) → mem' a = mem a := by
  obtain ⟨m, e, hs⟩ := maskedStore_spec p st junk hg k hk.1 (fun h => clean_of_exact hg (hp h) k hk.1) x hx.1 mem b
    (fun i hi h => hm i hi (by rw [← hk.2 i hi]; exact h))
  refine ⟨m, e, fun i hi => ?_, fun a ha => ?_⟩
  · rw [hs, Nat.add_sub_cancel_left, hk.2 i hi]
    dsimp only
    rw [hx.2 i hi]
    cases s i
    · rw [if_neg (by rintro ⟨_, _, h⟩; exact absurd h (by simp)), if_neg (by simp)]
    · rw [if_pos ⟨by omega, by omega, rfl⟩, if_pos rfl]; rfl
  · rw [hs, if_neg (by omega)]

theorem native_correct (hg : g.Ok) {E : Program.Elem K} (C : Cfg K β) (hR : Implements C.R E g)
    {t : Abi.Target} {U : Abi.Elem} (hU : U.Ok) (same : Bool) (hX : C.xfer = Xfer.of t U same) (hp : C.path g = .raw → Exact g) :
    Correct (nativeImpl C g) E C.ld C.st (NV g) (NM g) := by
  have hsz := hg.size_le
  refine
  { pos := hg.one_le
    vcongr := fun h e => ⟨h.1, fun i hi => by rw [h.2 i hi, e i hi]⟩
    mcongr := fun h e => ⟨h.1, fun i hi => by rw [h.2 i hi, e i hi]⟩
    broadcast := fun a => ?_
    generator := fun f => ?_
    un := fun {o x f r} hx h => ?_
    bin := fun {o x y f g r} hx hy h => ?_
    shift := fun {l x s f r} hx hs h => ?_
    f1 := fun {o x f r} hx h => ?_
    f2 := fun {o x y f g r} hx hy h => ?_
    f3 := fun {o x y z f g h r} hx hy hz e => ?_
    t1 := fun {o p x f} hp hx => ?_
    t2 := fun {o p x y f g} hp hx hy => ?_
    cmp := fun {o x y f g} hx hy => ?_
    negate := fun {x f} hx => ?_
    maskedAssign := fun {k v x b f g} hk hv hx => ?_
    maskedCassign := fun {o k v x b f g h} ho1 ho2 hk hv hx he => ?_
    maskedUnary := fun {inc k v b f h} hk hv he => ?_
    set := fun {x f i} a hi hx => ?_
    load := fun {mem b c} hm => ?_
    store := fun {x f mem b} hx hm => ?_
    maskedLoad := fun {x f k s mem b c} hx hk hm => ?_
    maskedStore := fun {x f k s mem b} hx hk hm => ?_
    mbroadcast := fun b => NM.broadcast hg b
    mnot := fun {x f} hx => NM.not hg hx
    mbin := fun {o x y f g} hx hy => NM.bin hg o hx hy
    mset := fun {x f i} b hi hx => NM.set hg b hi hx
    mmaskedAssign := fun {k x y s f g} hk hx hy => NM.assign hg hk hx hy }
  · refine ⟨by simp [nativeImpl, Native.broadcast], fun i hi => ?_⟩
    change (List.replicate g.full a)[i]? = _
    rw [List.getElem?_replicate, if_pos (by omega)]
  · have e : (nativeImpl C g).generator f = (List.range g.size).map f ++ List.replicate (g.full - g.size) 0#K.width := by
      have := Props.C10_native_generator (m := Id) hg (0#K.width) (fun i => f i)
      rw [mapM_Id] at this
      exact this
    rw [e]
    exact ⟨by simp; omega, fun i hi => by rw [List.getElem?_append_left (by simpa using hi)]; simp [hi]⟩
  · obtain ⟨z, h1, h2, h3⟩ := hR.un o x r hx.1 (fun i hi => ⟨_, hx.2 i hi, h i hi⟩)
    exact ⟨z, h1, h2, h3⟩
  · obtain ⟨z, h1, h2, h3⟩ := hR.bin o x y r hx.1 hy.1 (fun i hi => ⟨_, _, hx.2 i hi, hy.2 i hi, h i hi⟩)
    exact ⟨z, h1, h2, h3⟩
  · obtain ⟨z, h1, h2, h3⟩ := hR.shift l x s r hx.1 hs (fun i hi => ⟨_, hx.2 i hi, h i hi⟩)
    exact ⟨z, h1, h2, h3⟩
  · obtain ⟨z, h1, h2, h3⟩ := hR.fn.f1 o x r hx.1 (fun i hi => ⟨_, hx.2 i hi, h i hi⟩)
    exact ⟨z, h1, h2, h3⟩
  · obtain ⟨z, h1, h2, h3⟩ := hR.fn.f2 o x y r hx.1 hy.1 (fun i hi => ⟨_, _, hx.2 i hi, hy.2 i hi, h i hi⟩)
    exact ⟨z, h1, h2, h3⟩
  · obtain ⟨z, h1, h2, h3⟩ := hR.fn.f3 o x y z r hx.1 hy.1 hz.1 (fun i hi => ⟨_, _, _, hx.2 i hi, hy.2 i hi, hz.2 i hi, e i hi⟩)
    exact ⟨z, h1, h2, h3⟩
  · obtain ⟨k, hk, ho, hl⟩ := hR.fn.t1 o p x hp hx.1
    exact ⟨k, hk, NM.of_lanes hg ho hl (fun i hi => NV.one _ hx hi)⟩
  · obtain ⟨k, hk, ho, hl⟩ := hR.fn.t2 o p x y hp hx.1 hy.1
    exact ⟨k, hk, NM.of_lanes hg ho hl (fun i hi => NV.two _ hx hy hi)⟩
  · obtain ⟨k, hk, ho, hl⟩ := Compare.compare_spec K (C.ctx _) o hg x y hx.1 hy.1
    exact ⟨k, hk, NM.of_lanes hg ho hl (fun i hi => NV.two _ hx hy hi)⟩
  · obtain ⟨k, hk, ho, hl⟩ := classify_spec (isZero (K := K)) hg x hx.1
    exact ⟨k, hk, NM.of_lanes hg ho hl (fun i hi => (NV.one _ hx hi).trans (congrArg some (Compare.elem_spec K .equal _ _)))⟩
  · exact ⟨_, rfl, NV.assign hg (C.c 0) hk hv hx⟩
  · have ho : ∀ g x y, regBin C.R (whereOp o) g x y = C.R.bin o g x y := fun g x y => by cases o <;> rfl
    obtain ⟨z, h1, h2, h3⟩ := hR.bin o v x h hv.1 hx.1 (fun i hi => ⟨_, _, hv.2 i hi, hx.2 i hi, he i hi⟩)
    exact NV.cassign hg (C.c 0) hk hv _ ((ho _ v x).trans h1) ⟨h2, h3⟩
  · have ho : ∀ g x, regUn C.R (if inc then .increment else .decrement) g x = C.R.un (stepOp inc) g x := fun g x => by cases inc <;> rfl
    obtain ⟨z, h1, h2, h3⟩ := hR.un (stepOp inc) v h hv.1 (fun i hi => ⟨_, hv.2 i hi, he i hi⟩)
    obtain ⟨r, e, hr⟩ := NV.cassign hg (C.c 0) (x := v) hk hv (fun x _ => regUn C.R (if inc then .increment else .decrement) g x)
      ((ho _ v).trans h1) ⟨h2, h3⟩
    exact ⟨r, (maskedUnary_eq _ _ _ _ _).trans e, hr⟩
  · exact NV.set hg a hi hx
  · obtain ⟨r, e, h1, h2⟩ := load_spec _ (Xfer.of_ok t hU same) C.ld 0#K.width hg mem b c hm
    rw [← hX] at e
    exact ⟨r, e, h1, h2⟩
  · obtain ⟨m, e, h⟩ := NV.store hg _ (Xfer.of_ok t hU same) C.st hx hm
    rw [← hX] at e
    exact ⟨m, e, h⟩
  · exact NV.maskedLoad hg _ hp C.ld hx hk hm
  · exact NV.maskedStore hg _ hp C.st C.junk hx hk hm

end StdSimd.SimdClass
