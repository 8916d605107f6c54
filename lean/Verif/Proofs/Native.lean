import Verif.Model.Native
import Verif.Proofs.KMask
import Verif.Proofs.VMaskMem
import Verif.Proofs.Memory
import Verif.Proofs.Util
namespace StdSimd

theorem Geo.Ok.size_le {g : Geo} (h : g.Ok) : g.size ≤ g.full := by
  cases g <;> simp [Geo.Ok] at * <;> omega
theorem Geo.Ok.one_le {g : Geo} (h : g.Ok) : 1 ≤ g.size := by
  cases g <;> simp [Geo.Ok] at * <;> omega
theorem Geo.Ok.le64 {g : Geo} (h : g.Ok) : g.size ≤ 64 := by
  cases g <;> simp [Geo.Ok] at * <;> omega

end StdSimd

namespace StdSimd.Native
open VMask (bit bit_of_lt bit_of_ge)
variable {α β : Type}

theorem length_maskLanes {g : Geo} (hg : g.Ok) (k : MaskM g) (hk : MaskOk g k) : (maskLanes g k).length = g.size := by
  cases g with
  | scalar => rfl
  | vec w n f => exact (VMask.Wf.rep hg.1 hg.2.2.2.1 hk).blen
  | bitmask n f => exact KMask.length_lanes k

/-- Lane `i` of a mask. -/
def mbit (g : Geo) (k : MaskM g) (i : Nat) : Bool := bit (maskLanes g k) i

theorem length_blend {g : Geo} (k : MaskM g) (hk : MaskOk g k) (a b : List α) (ha : a.length = g.full)
    (hb : b.length = g.full) : (blend g k a b).length = g.full := by
  cases g with
  | scalar => change (if (show Bool from k) then b else a).length = _; split <;> assumption
  | vec w n f =>
    have := VMask.Wf.len hk
    change (List.zipWith _ _ _).length = _
    rw [List.length_zipWith, List.length_zip, ha, hb, Geo.full]
    exact (congrArg (fun m => min m (min f f)) this).trans (by simp)
  | bitmask n f => simp [blend, kblend, ha, hb]

theorem blend_get {g : Geo} (hg : g.Ok) (k : MaskM g) (hk : MaskOk g k) (a b : List α) (ha : a.length = g.full)
    (hb : b.length = g.full) {i : Nat} (hi : i < g.size) :
    (blend g k a b)[i]? = if mbit g k i then b[i]? else a[i]? := by
  have hf := hg.size_le
  have hza : i < a.length := by omega
  have hzb : i < b.length := by omega
  cases g with
  | scalar =>
    simp at hi; subst hi
    change (if (show Bool from k) then b else a)[0]? = if (show Bool from k) then _ else _
    cases (show Bool from k) <;> rfl
  | vec w n f =>
    simp at hi hf ha hb
    have hr := VMask.Wf.rep hg.1 hf hk
    simp only [blend, VMask.blend, List.getElem?_zipWith]
    have hz : (a.zip b)[i]? = some (a[i], b[i]) := by simp [List.getElem?_eq_some_iff]; omega
    rw [hr.getD' hi, hz]
    change _ = if bit (VMask.lanes n k) i then _ else _
    have he := VMask.elem_ne_zero hg.1 (bit (VMask.lanes n k) i)
    cases hbv : bit (VMask.lanes n k) i
    · rw [hbv] at he; simp at he; simp [he, hza]
    · rw [hbv] at he; simp at he; simp [he, hzb]
  | bitmask n f =>
    simp at hi hf ha hb
    have hz : (a.zip b)[i]? = some (a[i], b[i]) := by simp [List.getElem?_eq_some_iff]; omega
    simp only [blend, kblend, List.getElem?_mapIdx, hz, Option.map_some]
    change _ = if bit (KMask.lanes k) i then _ else _
    rw [KMask.bit_lanes]
    simp only [hi, decide_true, Bool.and_true]
    cases hbv : k.getLsbD i <;> simp [hza, hzb]

/-- `blendv` (by sign bit) and the logic form agree with `blend` on the lanes of a mask. -/
theorem blendv_get {w n f : Nat} (hw : 0 < w) (hf : n ≤ f) (k : VMask w) (hk : VMask.Wf n f k) (a b : List α)
    (ha : a.length = f) (hb : b.length = f) {i : Nat} (hi : i < n) :
    (blendv k a b)[i]? = if bit (VMask.lanes n k) i then b[i]? else a[i]? := by
  have hr := VMask.Wf.rep hw hf hk
  have hza : i < a.length := by omega
  have hzb : i < b.length := by omega
  simp only [blendv, List.getElem?_zipWith]
  have hz : (a.zip b)[i]? = some (a[i], b[i]) := by simp [List.getElem?_eq_some_iff]; omega
  rw [hr.getD' hi, hz]
  simp only [VMask.msb_elem hw]
  cases bit (VMask.lanes n k) i <;> simp [hza, hzb]

theorem blendLogic_get {w n f : Nat} (hw : 0 < w) (hf : n ≤ f) (k : VMask w) (hk : VMask.Wf n f k) (a b : List (BitVec w))
    (ha : a.length = f) (hb : b.length = f) {i : Nat} (hi : i < n) :
    (blendLogic k a b)[i]? = if bit (VMask.lanes n k) i then b[i]? else a[i]? := by
  have hr := VMask.Wf.rep hw hf hk
  have hza : i < a.length := by omega
  have hzb : i < b.length := by omega
  simp only [blendLogic, List.getElem?_zipWith]
  have hz : (a.zip b)[i]? = some (a[i], b[i]) := by simp [List.getElem?_eq_some_iff]; omega
  rw [hr.getD' hi, hz]
  cases bit (VMask.lanes n k) i <;> simp [hza, hzb, VMask.elem]

/-! ### comparisons -/

theorem cmp_spec (p : α → α → Bool) {g : Geo} (hg : g.Ok) (x y : List α) (hx : x.length = g.full)
    (hy : y.length = g.full) :
    ∃ k, cmp p g x y = some k ∧ MaskOk g k ∧ maskLanes g k = List.zipWith p (x.take g.size) (y.take g.size) := by
  cases g with
  | scalar =>
    simp at hx hy
    obtain ⟨a, rfl⟩ := List.length_eq_one_iff.1 hx
    obtain ⟨b, rfl⟩ := List.length_eq_one_iff.1 hy
    exact ⟨_, rfl, trivial, rfl⟩
  | vec w n f =>
    simp at hx hy
    have hr : VMask.Rep n f (List.zipWith (fun a b => VMask.elem w (p a b)) x y)
        (List.zipWith p (x.take n) (y.take n)) := by
      have hf : n ≤ f := hg.2.2.2.1
      apply VMask.rep_of
      · simp [hx, hy]
      · simp; omega
      · exact hf
      · intro i hi
        have h1 : i < x.length := by omega
        have h2 : i < y.length := by omega
        simp [bit, List.getElem?_zipWith, h1, h2, hi, List.getElem?_take_of_lt]
    exact ⟨_, rfl, hr.wf, hr.lanes_eq hg.1⟩
  | bitmask n f =>
    simp at hx hy
    have h2 := hg.2.1
    exact ⟨_, rfl, trivial, (KMask.cmp_spec hg.2.2 p x y (by omega) (by omega)).lanes_eq⟩

theorem cmpNe_spec [DecidableEq α] {g : Geo} (hg : g.Ok) (x y : List α) (hx : x.length = g.full)
    (hy : y.length = g.full) :
    ∃ k, cmpNe g x y = some k ∧ MaskOk g k ∧
      maskLanes g k = List.zipWith (fun a b => a != b) (x.take g.size) (y.take g.size) := by
  cases g with
  | scalar => exact cmp_spec (fun a b => a != b) hg x y hx hy
  | vec w n f => exact cmp_spec (fun a b => a != b) hg x y hx hy
  | bitmask n f =>
    simp at hx hy
    have h2 := hg.2.1
    exact ⟨_, rfl, trivial, KMask.intNotEqual_lanes hg.2.2 _ x y (by omega) (by omega)⟩

theorem zipWith_self (p : α → Bool) (x : List α) : List.zipWith (fun a _ => p a) x x = x.map p := by
  induction x <;> simp_all

theorem classify_spec (p : α → Bool) {g : Geo} (hg : g.Ok) (x : List α) (hx : x.length = g.full) :
    ∃ k, classify p g x = some k ∧ MaskOk g k ∧ maskLanes g k = (x.take g.size).map p := by
  obtain ⟨k, h1, h2, h3⟩ := cmp_spec (fun a _ => p a) hg x x hx hx
  exact ⟨k, h1, h2, by rw [h3, zipWith_self]⟩

theorem classifyRaw_spec (p : α → Bool) {g : Geo} (hg : g.Ok) (x : List α) (hx : x.length = g.full) :
    ∃ k, classifyRaw p g x = some k ∧ MaskOk g k ∧ maskLanes g k = (x.take g.size).map p := by
  cases g with
  | scalar => exact classify_spec p hg x hx
  | vec w n f => exact classify_spec p hg x hx
  | bitmask n f =>
    simp at hx
    have h2 := hg.2.1
    exact ⟨_, rfl, trivial, KMask.classifyRaw_lanes p x (by omega)⟩

/-! ### mask representation changes -/

theorem lanes_one {s : Bool} (x : BitMask 1 s) : x.lanes = [x.lane 0] := rfl

theorem maskToBits_spec {g : Geo} (hg : g.Ok) (k : MaskM g) (hk : MaskOk g k) :
    (maskToBits g k).lanes = maskLanes g k ∧ (maskToBits g k).Clean := by
  cases g with
  | scalar =>
    apply VMask.lanes_ofULL_of (n := 1) (by omega) (by omega) true (if (show Bool from k) then 1#64 else 0#64)
      [(show Bool from k)] rfl
    intro j
    cases (show Bool from k)
    · cases j <;> simp [bit]
    · cases j <;> simp [bit]
  | vec w n f =>
    exact VMask.toBits_spec hg.1 hg.2.1 hg.2.2.1 hg.2.2.2.2 (VMask.Wf.rep hg.1 hg.2.2.2.1 hk)
  | bitmask n f => exact KMask.toBits_spec hg.1 hg.2.2 k

theorem maskOfBits_spec {g : Geo} (hg : g.Ok) (x : BitMask g.size true) (hx : x.Clean) :
    ∃ k, maskOfBits g x = some k ∧ MaskOk g k ∧ MaskClean g k ∧ maskLanes g k = x.lanes := by
  cases g with
  | scalar =>
    refine ⟨x.lane 0, BitMask.get_eq (by simp) x (by simp), trivial, trivial, rfl⟩
  | vec w n f =>
    obtain ⟨v, h1, h2, h3⟩ := VMask.ofBits_spec (w := w) hg.2.2.1 hg.2.2.2.1 x
    refine ⟨v, h1, h2.wf, ?_, h2.lanes_eq hg.1⟩
    intro i hi
    by_cases hf : i < f
    · have := h3 i hi hf
      change (v[i]?).getD 0#w = 0#w
      rw [this]; rfl
    · change (v[i]?).getD 0#w = 0#w
      rw [List.getElem?_eq_none (by have := h2.len; omega)]; rfl
  | bitmask n f =>
    obtain ⟨k, h1, h2⟩ := KMask.ofBits_spec (by have := hg.1; simp; omega) hg.2.2 x hx
    exact ⟨k, h1, trivial, h2.clean, h2.lanes_eq⟩

end StdSimd.Native
