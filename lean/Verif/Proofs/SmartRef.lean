import Verif.Model.SmartRef
import Verif.Proofs.FixedSize
/-! # Lemmas about element references -/
namespace StdSimd.SmartRef
open Native
variable {α : Type}

/-- The types that exist: native geometries and the storage of `fixed_size` objects. -/
def Cls.Ok : Cls → Prop
  | .value g => g.Ok
  | .tuple gs _ => ∃ (t : Abi.Target) (T : Abi.Elem) (n : Nat), t.Consistent ∧ T.Ok ∧ 1 ≤ n ∧ gs = Tuple.regs t T n
  | .mask g => g.Ok
  | .bits n => 1 ≤ n

/-- Number of elements the user sees. -/
def Cls.size : Cls → Nat
  | .value g => g.size
  | .tuple gs _ => Tuple.total gs
  | .mask g => g.size
  | .bits n => n

/-- Invariants of objects: registers have their number of elements, lanes of vector masks are all-zeros or all-ones (nothing about
other padding), `fixed_size` masks have no bit set beyond their size. -/
def Inv : (c : Cls) → Data α c → Prop
  | .value g, x => x.length = g.full
  | .tuple gs _, x => Tuple.Wf gs x
  | .mask g, k => MaskOk g k
  | .bits _, k => BitMask.Clean k

/-- The elements the user sees. -/
def lanes : (c : Cls) → Data α c → List (Val α c)
  | .value g, x => x.take g.size
  | .tuple gs _, x => Tuple.lanes gs x
  | .mask g, k => maskLanes g k
  | .bits _, k => BitMask.lanes k

theorem read_spec {c : Cls} (hc : c.Ok) (x : Data α c) (hx : Inv c x) {i : Nat} (hi : i < c.size) :
    readData c x i = (lanes c x)[i]? ∧ ((lanes c x)[i]?).isSome := by
  cases c with
  | value g =>
    have hl := Geo.Ok.size_le hc
    have hx : x.length = g.full := hx
    have hi : i < g.size := hi
    have h2 : ((lanes (.value g) x)[i]?).isSome := by
      show ((x.take g.size)[i]?).isSome
      rw [List.getElem?_take_of_lt hi, List.getElem?_eq_getElem (by omega)]; rfl
    refine ⟨?_, h2⟩
    show _ = (x.take g.size)[i]?
    rw [List.getElem?_take_of_lt hi]
    cases g with
    | scalar =>
      have : i = 0 := by simp at hi; omega
      subst this; rfl
    | vec w n f => rfl
    | bitmask n f => rfl
  | tuple gs a =>
    obtain ⟨t, T, n, ht, hT, h1, rfl⟩ := hc
    obtain ⟨_, hok, htot, hf⟩ := Tuple.regs_facts ht hT h1
    have hi : i < Tuple.total (Tuple.regs t T n) := hi
    have h2 : ((Tuple.lanes (Tuple.regs t T n) x)[i]?).isSome := by
      rw [List.getElem?_eq_getElem (by rw [Tuple.length_lanes hok hx]; omega)]; rfl
    refine ⟨?_, h2⟩
    cases a
    · exact Tuple.get_eq hok hx hi
    · exact Tuple.getAlias_eq hok hf hx hi
  | mask g =>
    have hg : g.Ok := hc
    have hll := length_maskLanes hg x hx
    have hi : i < g.size := hi
    have h2 : ((maskLanes g x)[i]?).isSome := by rw [List.getElem?_eq_getElem (by omega)]; rfl
    refine ⟨?_, h2⟩
    cases g with
    | scalar =>
      have : i = 0 := by simp at hi; omega
      subst this; rfl
    | vec w n f =>
      show (x[i]?).map _ = (VMask.lanes n x)[i]?
      unfold VMask.lanes
      rw [List.getElem?_map, List.getElem?_take_of_lt (show i < n from hi)]
    | bitmask n f =>
      show some (BitVec.getLsbD x i) = (KMask.lanes x)[i]?
      have hi : i < n := hi
      unfold KMask.lanes; simp [hi]
  | bits n =>
    have hi : i < n := hi
    have h1 : 1 ≤ n := hc
    refine ⟨?_, ?_⟩
    · show BitMask.get x i = (BitMask.lanes x)[i]?
      rw [BitMask.get_eq h1 x hi]; unfold BitMask.lanes; simp [hi]
    · show ((BitMask.lanes x)[i]?).isSome
      unfold BitMask.lanes; simp [hi]

theorem take_set {x : List α} {n i : Nat} (hi : i < n) (v : α) : (x.set i v).take n = (x.take n).set i v := by
  apply List.ext_getElem?
  intro j
  by_cases hj : j < n
  · rw [List.getElem?_take_of_lt hj]
    simp only [List.getElem?_set, List.length_take, List.getElem?_take_of_lt hj]
    by_cases e : i = j
    · subst e; by_cases hl : i < x.length
      · rw [if_pos rfl, if_pos rfl, if_pos hl, if_pos (by omega)]
      · rw [if_pos rfl, if_pos rfl, if_neg hl, if_neg (by omega)]
    · rw [if_neg e, if_neg e]
  · rw [List.getElem?_eq_none (by simp; omega), List.getElem?_eq_none (by simp; omega)]

theorem ext_set {β : Type} {l r : List β} {i : Nat} {v : β} (hl : l.length = r.length)
    (h : ∀ j, j < r.length → l[j]? = if i = j then some v else r[j]?) : l = r.set i v := by
  apply List.ext_getElem?
  intro j
  rw [List.getElem?_set]
  by_cases hj : j < r.length
  · rw [h j hj]
    by_cases e : i = j
    · subst e; rw [if_pos rfl, if_pos rfl, if_pos hj]
    · rw [if_neg e, if_neg e]
  · rw [List.getElem?_eq_none (by omega)]
    by_cases e : i = j
    · subst e; rw [if_pos rfl, if_neg hj]
    · rw [if_neg e, List.getElem?_eq_none (by omega)]

theorem write_spec {c : Cls} (hc : c.Ok) (x : Data α c) (hx : Inv c x) {i : Nat} (hi : i < c.size) (v : Val α c) :
    Inv c (writeData c x i v) ∧ lanes c (writeData c x i v) = (lanes c x).set i v := by
  cases c with
  | value g =>
    have hl := Geo.Ok.size_le hc
    have hx : x.length = g.full := hx
    have hi : i < g.size := hi
    cases g with
    | scalar =>
      have : i = 0 := by simp at hi; omega
      subst this
      exact ⟨by simpa [Inv, writeData, Native.set] using hx, take_set hi v⟩
    | vec w n f => exact ⟨by simpa [Inv, writeData, Native.set] using hx, take_set hi v⟩
    | bitmask n f => exact ⟨by simpa [Inv, writeData, Native.set] using hx, take_set hi v⟩
  | tuple gs a =>
    obtain ⟨t, T, n, ht, hT, h1, rfl⟩ := hc
    obtain ⟨_, hok, htot, hf⟩ := Tuple.regs_facts ht hT h1
    have hi : i < Tuple.total (Tuple.regs t T n) := hi
    have h := Tuple.set_spec hok hx hi v
    cases a
    · exact h
    · have e : writeData (.tuple (Tuple.regs t T n) true) x i v = Tuple.set (Tuple.regs t T n) x i v := Tuple.setAlias_eq hok hf hx hi v
      rw [e]; exact h
  | mask g =>
    have hg : g.Ok := hc
    have hi : i < g.size := hi
    cases g with
    | scalar =>
      have : i = 0 := by simp at hi; omega
      subst this
      exact ⟨trivial, rfl⟩
    | vec w n f =>
      have h := VMask.rep_set hg.1 (VMask.Wf.rep hg.1 hg.2.2.2.1 hx) hi v
      exact ⟨h.wf, h.lanes_eq hg.1⟩
    | bitmask n f =>
      refine ⟨trivial, ?_⟩
      show KMask.lanes (KMask.set x i v) = (KMask.lanes x).set i v
      apply ext_set (by simp [KMask.lanes])
      intro j hj
      have hj : j < n := by simpa [KMask.lanes] using hj
      unfold KMask.lanes
      rw [List.getElem?_map, List.getElem?_map, List.getElem?_range hj]
      simp only [Option.map_some, KMask.getLsbD_set x (show i < n from hi)]
      split <;> rfl
  | bits n =>
    have hi : i < n := hi
    refine ⟨BitMask.clean_set hc x hx hi v, ?_⟩
    show BitMask.lanes (BitMask.set x i v) = (BitMask.lanes x).set i v
    apply ext_set (by simp [BitMask.lanes])
    intro j hj
    have hj : j < n := by simpa [BitMask.lanes] using hj
    unfold BitMask.lanes
    rw [List.getElem?_map, List.getElem?_map, List.getElem?_range hj]
    simp only [Option.map_some, BitMask.lane_set hc x hi]
    split <;> rfl

/-! ## stores -/

variable {c : Cls}

/-- What the user sees at a reference. -/
def view (h : Store α c) (r : Ref) : Option (Val α c) := (lanes c (h r.obj))[r.idx]?

/-- All objects are valid. -/
def Valid (h : Store α c) : Prop := ∀ o, Inv c (h o)

theorem read_view (hc : c.Ok) {h : Store α c} (hv : Valid h) {r : Ref} (hr : r.idx < c.size) : ∃ v, view h r = some v ∧ read h r = some v := by
  obtain ⟨h1, h2⟩ := read_spec hc (h r.obj) (hv _) hr
  obtain ⟨v, e⟩ := Option.isSome_iff_exists.1 h2
  exact ⟨v, e, by unfold read; rw [h1, e]⟩

theorem write_view (hc : c.Ok) {h : Store α c} (hv : Valid h) {r : Ref} (hr : r.idx < c.size) (v : Val α c) :
    Valid (write h r v) ∧ view (write h r v) r = some v ∧ ∀ q, q ≠ r → view (write h r v) q = view h q := by
  obtain ⟨w1, w2⟩ := write_spec hc (h r.obj) (hv _) hr v
  have hs := (read_spec hc (h r.obj) (hv _) hr).2
  refine ⟨fun o => ?_, ?_, fun q hq => ?_⟩
  · unfold write
    by_cases e : o = r.obj
    · rw [if_pos e, e]; exact w1
    · rw [if_neg e]; exact hv o
  · unfold view write
    rw [if_pos rfl, w2, List.getElem?_set, if_pos rfl, if_pos]
    rcases Nat.lt_or_ge r.idx (lanes c (h r.obj)).length with hlt | hge
    · exact hlt
    · rw [List.getElem?_eq_none hge] at hs
      exact absurd hs (by simp)
  · unfold view write
    by_cases e : q.obj = r.obj
    · rw [if_pos e, e, w2, List.getElem?_set, if_neg]
      intro e2; exact hq (by cases q; cases r; simp_all)
    · rw [if_neg e]

end StdSimd.SmartRef
