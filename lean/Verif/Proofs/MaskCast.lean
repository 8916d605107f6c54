import Verif.Model.MultiAbi
import Verif.Proofs.MaskSplit
import Verif.Proofs.Resize
import Verif.Proofs.VMaskMem
import Verif.Proofs.ControlImpl
/-!
# Conversions between masks of any ABI
-/
namespace StdSimd.SimdClass
open Native MaskSplit

/-- The conversions between masks that are right for all masks: a vector mask or a bit mask that becomes a larger one of the same sort shows padding. -/
def Resizable : MAbi → MAbi → Prop
  | .native (.vec _ n _), .native (.vec _ m _) => m ≤ n
  | .native (.bitmask n _), .native (.bitmask m _) => m ≤ n
  | _, _ => True

theorem Resizable.of_size {a b : MAbi} (h : a.size = b.size) : Resizable a b := by
  cases a with
  | fixed n => trivial
  | native g =>
    cases b with
    | fixed m => cases g <;> trivial
    | native g' =>
      have h : g.size = g'.size := h
      cases g <;> cases g' <;> first | trivial | exact Nat.le_of_eq h.symm

theorem vec_lanes {w m f : Nat} (hw : 0 < w) (hm : m ≤ f) {r : VMask w} (hr : r.length = f) (bs : List Bool)
    (h : ∀ i < m, r[i]? = some (VMask.elem w ((bs[i]?).getD false))) :
    VMask.Wf m f r ∧ VMask.lanes m r = Spec.resize false m bs := by
  have : VMask.Rep m f r (Spec.resize false m bs) :=
    { len := hr, blen := by simp [Spec.resize], le := hm, get := fun i hi => by simp [h i hi, Spec.resize, hi] }
  exact ⟨this.wf, this.lanes_eq hw⟩

theorem ofBits_lanes {w n m f : Nat} (hn : 1 ≤ n) (hw : 0 < w) (hm : m ≤ f) {s : Bool} (x : BitMask n s) :
    ∃ r, VMask.ofBits w f x = some r ∧ VMask.Wf m f r ∧ VMask.lanes m r = Spec.resize false m x.lanes := by
  refine ⟨(List.range f).map (fun i => if i < n then VMask.elem w (x.lane i) else 0#w), ?_, vec_lanes hw hm (by simp) _ ?_⟩
  · unfold VMask.ofBits
    apply mapM_some
    intro i hi
    by_cases h : i < n
    · simp [h, BitMask.get_eq hn x h]
    · simp [h]
  · intro i hi
    rw [List.getElem?_map, List.getElem?_range (by omega), BitMask.lanes_getElem?]
    by_cases h : i < n <;> simp [h, VMask.elem]

theorem bits_ofULL {n m : Nat} (h1 : 1 ≤ n) (h64 : n ≤ 64) (hm : m ≤ 64) (x : BitMask n true) (hx : x.Clean) :
    ∃ r, x.toULL.map (Resize.bits m) = some r ∧ KMask.lanes r = Spec.resize false m x.lanes := by
  obtain ⟨v, hv, hl⟩ := BitMask.toULL_eq h1 h64 x
  refine ⟨_, by rw [hv]; rfl, ?_⟩
  rw [Resize.bits_lanes (n := n) v (fun i hi => by rw [hl]; exact hx i hi) hm]
  congr 1
  unfold BitMask.lanes
  exact List.map_congr_left fun i _ => hl i

theorem resize_one (x : Bool) (l : List Bool) : Spec.resize false 1 (x :: l) = [x] := rfl

theorem lanes_cons {a : MAbi} (ha : a.Ok) (k : Data a) (hk : MOk a k) : ∃ x l, lanes a k = x :: l := by
  have h1 := length_lanes ha k hk
  have h2 := ha.bounds.1
  cases h : lanes a k with
  | nil => rw [h] at h1; simp at h1; omega
  | cons x l => exact ⟨x, l, rfl⟩

theorem maskCast_spec {a b : MAbi} (ha : a.Ok) (hb : b.Ok) (hr : Resizable a b) (k : Data a) (hk : MOk a k) :
    ∃ r, maskCast a b k = some r ∧ MOk b r ∧ lanes b r = Spec.resize false b.size (lanes a k) := by
  cases b with
  | fixed m =>
    obtain ⟨h1, h2⟩ := toBits_spec ha k hk
    obtain ⟨r, e, c, l⟩ := Resize.fixed_spec ha.bounds.1 hb.1 hb.2 _ h2
    refine ⟨r, by cases a <;> exact e, c, ?_⟩
    rw [← h1]; exact l
  | native g =>
    cases g with
    | scalar =>
      cases a with
      | fixed n =>
        have h := BitMask.get_eq (n := n) (s := true) ha.1 k (i := 0) ha.1
        refine ⟨BitMask.lane (n := n) (s := true) k 0, h, trivial, ?_⟩
        have : 0 < n := ha.1
        change [BitMask.lane (n := n) (s := true) k 0] = Spec.resize false 1 (BitMask.lanes (n := n) (s := true) k)
        simp [Spec.resize, this, BitMask.lanes]
      | native g =>
        have h := nmGet_eq (g := g) ha k hk (i := 0) (Geo.Ok.one_le ha)
        obtain ⟨x, l, e⟩ := lanes_cons ha k hk
        have e' : maskLanes g k = x :: l := e
        rw [e'] at h
        refine ⟨x, by cases g <;> exact h, trivial, ?_⟩
        rw [e]; rfl
    | vec w m f =>
      obtain ⟨hw, _, hm1, hmf, hm64⟩ : 0 < w ∧ w ≤ 64 ∧ 1 ≤ m ∧ m ≤ f ∧ m ≤ 64 := hb
      cases a with
      | fixed n => exact ofBits_lanes (n := n) (s := true) ha.1 hw hmf k
      | native g =>
        cases g with
        | scalar =>
          refine ⟨_, rfl, ?_⟩
          refine vec_lanes hw hmf (by simp [VMask.ofBool]) [(k : Bool)] fun i hi => ?_
          have hif : i < f := by omega
          simp only [VMask.ofBool, List.getElem?_map, List.getElem?_range hif, Option.map_some]
          cases i with
          | zero => rfl
          | succ i => rfl
        | vec w' n f' =>
          obtain ⟨hw', _, hn1, hnf, _⟩ : 0 < w' ∧ w' ≤ 64 ∧ 1 ≤ n ∧ n ≤ f' ∧ n ≤ 64 := ha
          have hmn : m ≤ n := hr
          have hrep : VMask.Rep n f' k (VMask.lanes n k) := VMask.Wf.rep hw' hnf hk
          have hlen : (VMask.lanes n k).length = n := hrep.blen
          refine ⟨_, rfl, ?_⟩
          change VMask.Wf m f (VMask.ofVector w f n k) ∧ VMask.lanes m (VMask.ofVector w f n k) = Spec.resize false m (VMask.lanes n k)
          have hget : ∀ i < n, k[i]? = some (VMask.elem w' (((VMask.lanes n k)[i]?).getD false)) := by
            intro i hi
            rw [hrep.get i hi, List.getElem?_eq_getElem (by omega)]; rfl
          unfold VMask.ofVector
          split
          · rename_i h
            obtain ⟨h1, h2⟩ := h
            subst h1
            exact vec_lanes hw hmf h2 _ fun i hi => hget i (by omega)
          · refine vec_lanes hw hmf (by simp) _ fun i hi => ?_
            rw [List.getElem?_map, List.getElem?_range (by omega), Option.map_some, if_pos (by omega), hget i (by omega), Option.getD_some,
              VMask.signExtend_elem hw']
        | bitmask n f' =>
          obtain ⟨h1, h2⟩ := maskToBits_spec (g := .bitmask n f') ha k hk
          have hn : 1 ≤ n := Geo.Ok.one_le (g := .bitmask n f') ha
          obtain ⟨r, e, h3, h4⟩ := ofBits_lanes (w := w) (f := f) hn hw hmf (maskToBits (.bitmask n f') k)
          refine ⟨r, e, h3, ?_⟩
          change VMask.lanes m r = Spec.resize false m (maskLanes (.bitmask n f') k)
          rw [← h1]; exact h4
    | bitmask m f =>
      have hm : m ≤ 64 := hb.2.2
      cases a with
      | fixed n =>
        obtain ⟨r, e, l⟩ := bits_ofULL ha.1 ha.2 hm k hk
        exact ⟨r, e, trivial, l⟩
      | native g =>
        cases g with
        | scalar =>
          refine ⟨_, rfl, trivial, ?_⟩
          refine (Resize.bits_lanes (n := 1) (BitVec.ofBool (k : Bool)) (fun i hi => BitVec.getLsbD_of_ge _ _ hi) hm).trans ?_
          congr 1
          have : ∀ b : Bool, (List.range 1).map (fun i => (BitVec.ofBool b).getLsbD i) = [b] := by decide
          exact this k
        | vec w n f' =>
          obtain ⟨h1, h2⟩ := maskToBits_spec (g := .vec w n f') ha k hk
          obtain ⟨r, e, l⟩ := bits_ofULL (m := m) (Geo.Ok.one_le (g := .vec w n f') ha) (Geo.Ok.le64 (g := .vec w n f') ha) hm _ h2
          refine ⟨r, e, trivial, ?_⟩
          change KMask.lanes r = Spec.resize false m (maskLanes (.vec w n f') k)
          rw [← h1]; exact l
        | bitmask n f' =>
          have hmn : m ≤ n := hr
          refine ⟨_, rfl, trivial, ?_⟩
          change KMask.lanes (Resize.bits m (k : BitVec (kBits n))) = Spec.resize false m (KMask.lanes (n := n) k)
          have hmb := KMask.le_kBits m
          unfold Resize.bits
          apply List.map_congr_left
          intro i hi
          rw [List.mem_range] at hi
          rw [BitVec.getLsbD_setWidth, KMask.lanes_getElem?, if_pos (by omega)]
          simp [show i < kBits m by omega]

end StdSimd.SimdClass
