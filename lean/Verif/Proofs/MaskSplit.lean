import Verif.Model.MaskSplit
import Verif.Proofs.Native
import Verif.Proofs.FixedMask
import Verif.Proofs.Split
import Verif.Spec.Split
/-!
# Lemmas about `split` for masks
-/
namespace StdSimd.MaskSplit
open BitMask (ofULL)
open VMask (bit)

/-- Sizes of mask types that exist. -/
def MAbi.Ok : MAbi → Prop
  | .native g => g.Ok
  | .fixed n => 1 ≤ n ∧ n ≤ 64

/-- What the library guarantees about every mask object. -/
def MOk : (a : MAbi) → Data a → Prop
  | .native g, k => Native.MaskOk g k
  | .fixed _, k => BitMask.Clean k

theorem MAbi.Ok.bounds {a : MAbi} (h : a.Ok) : 1 ≤ a.size ∧ a.size ≤ 64 := by
  cases a with
  | native g => exact ⟨Geo.Ok.one_le h, Geo.Ok.le64 h⟩
  | fixed n => exact h

theorem toBits_spec {a : MAbi} (h : a.Ok) (k : Data a) (hk : MOk a k) :
    (toBits a k).lanes = lanes a k ∧ (toBits a k).Clean := by
  cases a with
  | native g => exact Native.maskToBits_spec h k hk
  | fixed n =>
    refine ⟨?_, BitMask.sanitized_clean h.1 _ (fun _ => hk)⟩
    show (BitMask.sanitized k).lanes = BitMask.lanes k
    unfold BitMask.lanes
    simp [BitMask.lane_sanitized_true]

theorem length_lanes {a : MAbi} (h : a.Ok) (k : Data a) (hk : MOk a k) : (lanes a k).length = a.size := by
  cases a with
  | native g => exact Native.length_maskLanes h k hk
  | fixed n => simp [lanes, BitMask.lanes, MAbi.size]

theorem fromBitmask_spec {a : MAbi} (h : a.Ok) (x : BitMask a.size true) (hx : x.Clean) :
    ∃ k, fromBitmask a x = some k ∧ MOk a k ∧ lanes a k = x.lanes := by
  cases a with
  | native g =>
    obtain ⟨k, h1, h2, _, h4⟩ := Native.maskOfBits_spec h x hx
    exact ⟨k, h1, h2, h4⟩
  | fixed n => exact ⟨x, rfl, hx, rfl⟩

theorem toBitset_spec {a : MAbi} (h : a.Ok) (k : Data a) (hk : MOk a k) :
    ∃ v, toBitset a k = some v ∧ ∀ i, v.getLsbD i = bit (lanes a k) i := by
  obtain ⟨h1, h2⟩ := toBits_spec h k hk
  obtain ⟨v, hv, hl⟩ := BitMask.toULL_eq h.bounds.1 h.bounds.2 (toBits a k)
  refine ⟨v.setWidth a.size, by simp [toBitset, hv], ?_⟩
  intro i
  rw [BitVec.getLsbD_setWidth, hl, ← h1]
  by_cases hi : i < a.size
  · simp [hi, bit, BitMask.lanes]
  · simp [hi, bit, BitMask.lanes]

theorem ofBitset_spec {a : MAbi} (h : a.Ok) (w : BitVec 64) (bs : List Bool) (hl : bs.length = a.size)
    (hb : ∀ i < a.size, w.getLsbD i = bit bs i) : ∃ k, ofBitset a w = some k ∧ MOk a k ∧ lanes a k = bs := by
  obtain ⟨h1, h2⟩ := VMask.lanes_ofULL_of h.bounds.1 h.bounds.2 true ((w.setWidth a.size).setWidth 64) bs hl (by
    intro i
    have h64 := h.bounds.2
    rw [BitVec.getLsbD_setWidth, BitVec.getLsbD_setWidth]
    by_cases hi : i < a.size
    · rw [hb i hi]; simp [hi, show i < 64 by omega]
    · simp [hi, bit, List.getElem?_eq_none (show bs.length ≤ i by omega)])
  obtain ⟨k, a1, a2, a3⟩ := fromBitmask_spec h _ h2
  exact ⟨k, a1, a2, a3.trans h1⟩

theorem split_replicate {α : Type} (k : Nat) : ∀ (p : Nat) (l : List α),
    Spec.split (List.replicate p k) l = (List.range p).map (fun i => (l.drop (i * k)).take k)
  | 0, _ => rfl
  | p + 1, l => by
    rw [List.replicate_succ, Spec.split, split_replicate k p, List.range_succ_eq_map, List.map_cons, List.map_map]
    simp only [Nat.zero_mul, List.drop_zero, List.drop_drop]
    congr 1
    apply List.map_congr_left
    intro i _
    simp only [Function.comp_apply, Nat.succ_eq_add_one, Nat.add_mul, Nat.one_mul, Nat.add_comm]

theorem split_one {α : Type} (l : List α) {n : Nat} (h : l.length = n) : Spec.split [n] l = [l] := by
  simp [Spec.split, ← h]

/-- The branch on whole register halves is taken for a source with padding. -/
def Bad (a b : MAbi) : Prop :=
  a.size / b.size = 2 ∧ isSse b = true ∧ isAvx a = true ∧ (∀ w n f, a = .native (.vec w n f) → n < f)

theorem split_spec {a b : MAbi} (ha : a.Ok) (hb : b.Ok) {parts : Nat} (hs : a.size = parts * b.size) (x : Data a) (hx : MOk a x)
    (hw : ∀ w n f w' n' f', a = .native (.vec w n f) → b = .native (.vec w' n' f') → isAvx a = true → w = w' ∧ (n = 2 * n' → n = f → n' = f'))
    (hbad : ¬ Bad a b) :
    ∃ r, split a b x = some r ∧ (∀ k ∈ r, MOk b k) ∧
      r.map (lanes b) = Spec.split (List.replicate parts b.size) (lanes a x) := by
  have hb1 := hb.bounds.1
  have hparts : a.size / b.size = parts := by rw [hs]; exact Nat.mul_div_cancel _ (by omega)
  have hlen := length_lanes ha x hx
  unfold split
  dsimp only
  rw [hparts]
  by_cases hab : a = b
  · subst hab
    rw [dif_pos rfl]
    have hp : parts = 1 := by
      have : parts * a.size = 1 * a.size := by omega
      exact Nat.eq_of_mul_eq_mul_right (by omega) this
    subst hp
    refine ⟨[x], rfl, by simpa using hx, ?_⟩
    rw [List.replicate_one, split_one _ hlen]; rfl
  · rw [dif_neg hab]
    by_cases h1 : parts = 1
    · rw [if_pos h1]
      subst h1
      obtain ⟨e1, e2⟩ := toBits_spec ha x hx
      obtain ⟨v, hv, hl⟩ := BitMask.toULL_eq ha.bounds.1 ha.bounds.2 (toBits a x)
      obtain ⟨g1, g2⟩ := VMask.lanes_ofULL_of hb.bounds.1 hb.bounds.2 true (v.setWidth 64) (lanes a x) (by omega) (by
        intro i
        rw [BitVec.setWidth_eq, hl, ← e1]
        by_cases hi : i < a.size
        · simp [hi, bit, BitMask.lanes]
        · simp [hi, bit, BitMask.lanes, e2 i (by omega)])
      obtain ⟨k, k1, k2, k3⟩ := fromBitmask_spec hb _ g2
      refine ⟨[k], by rw [hv, Option.getD_some, k1]; rfl, by simpa using k2, ?_⟩
      rw [List.replicate_one, split_one _ (by omega), List.map_singleton, k3, g1]
    · rw [if_neg h1]
      by_cases h2 : parts = 2 ∧ isSse b = true ∧ isAvx a = true
      · rw [if_pos h2]
        obtain ⟨rfl, hsse, havx⟩ := h2
        cases a with
        | fixed n => simp [isAvx] at havx
        | native g =>
          cases g with
          | scalar => simp [isAvx] at havx
          | bitmask n f => simp [isAvx] at havx
          | vec w n f =>
            cases b with
            | fixed n => simp [isSse] at hsse
            | native g' =>
              cases g' with
              | scalar => simp [isSse] at hsse
              | bitmask n f => simp [isSse] at hsse
              | vec w' n' f' =>
                obtain ⟨rfl, hfull⟩ := hw _ _ _ _ _ _ rfl rfl havx
                have hnf : n = f := by
                  have hle : n ≤ f := ha.2.2.2.1
                  refine Decidable.byContradiction fun hne => ?_
                  apply hbad
                  refine ⟨hparts, hsse, havx, ?_⟩
                  intro w n f e
                  cases e
                  omega
                have hs' : n = 2 * n' := hs
                have hn' : n' = f' := hfull hs' hnf
                subst hnf hn' hs'
                change VMask w at x
                have hx' : VMask.Wf (2 * n') (2 * n') x := hx
                have hx2 := hx'.len
                have hx3 : ∀ v ∈ x, v = 0#w ∨ v = BitVec.allOnes w := by
                  have := hx'.lane; rwa [List.take_of_length_le (by omega)] at this
                have hd : 2 * n' / 2 = n' := by omega
                refine ⟨[x.take n', x.drop n'], ?_, ?_, ?_⟩
                · simp only [halves, dif_pos, hd]
                · have t1 : VMask.Wf n' n' (x.take n') := ⟨by rw [List.length_take]; omega, fun v hv => hx3 v (List.mem_of_mem_take (List.mem_of_mem_take hv))⟩
                  have t2 : VMask.Wf n' n' (x.drop n') := ⟨by rw [List.length_drop]; omega, fun v hv => hx3 v (List.mem_of_mem_drop (List.mem_of_mem_take hv))⟩
                  intro k hk
                  simp only [List.mem_cons, List.not_mem_nil, or_false] at hk
                  rcases hk with rfl | rfl
                  · exact t1
                  · exact t2
                · show [VMask.lanes n' (x.take n'), VMask.lanes n' (x.drop n')] = Spec.split [n', n'] (VMask.lanes (2 * n') x)
                  have hxl : x.length ≤ 2 * n' := by omega
                  simp only [Spec.split, VMask.lanes, List.take_take, Nat.min_self, List.take_of_length_le hxl, List.map_take, List.map_drop]
      · rw [if_neg h2, if_pos hb.bounds.2]
        obtain ⟨v, hv, hl⟩ := toBitset_spec ha x hx
        rw [hv, Option.bind_some]
        have h64 := ha.bounds.2
        have key : ∀ i < parts, ∃ k, ofBitset b ((v >>> (i * b.size)).setWidth 64) = some k ∧ MOk b k ∧
            lanes b k = ((lanes a x).drop (i * b.size)).take b.size := by
          intro i hi
          have hle : (i + 1) * b.size ≤ parts * b.size := Nat.mul_le_mul_right _ hi
          rw [Nat.add_mul, Nat.one_mul] at hle
          apply ofBitset_spec hb
          · rw [List.length_take, List.length_drop]; omega
          · intro j hj
            have hb64 := hb.bounds.2
            rw [BitVec.getLsbD_setWidth, BitVec.getLsbD_ushiftRight, hl]
            simp [bit, List.getElem?_take, hj, show j < 64 by omega]
        have : ∀ (l : List Nat), (∀ i ∈ l, i < parts) → ∃ r, l.mapM (fun i => ofBitset b ((v >>> (i * b.size)).setWidth 64)) = some r ∧
            (∀ k ∈ r, MOk b k) ∧ r.map (lanes b) = l.map (fun i => ((lanes a x).drop (i * b.size)).take b.size) := by
          intro l
          induction l with
          | nil => intro _; exact ⟨[], rfl, by simp, rfl⟩
          | cons i l ih =>
            intro h
            obtain ⟨r, r1, r2, r3⟩ := ih (fun j hj => h j (List.mem_cons_of_mem _ hj))
            obtain ⟨k, k1, k2, k3⟩ := key i (h i List.mem_cons_self)
            refine ⟨k :: r, by rw [List.mapM_cons, k1, r1]; rfl, ?_, by rw [List.map_cons, List.map_cons, k3, r3]⟩
            intro q hq
            rcases List.mem_cons.1 hq with rfl | hq
            · exact k2
            · exact r2 _ hq
        obtain ⟨r, r1, r2, r3⟩ := this (List.range parts) (fun i hi => List.mem_range.1 hi)
        exact ⟨r, r1, r2, by rw [r3, split_replicate]⟩

end StdSimd.MaskSplit

namespace StdSimd.MaskSplit
open Abi

/-- The mask representation of `simd_mask<T, tag>`. -/
def mabi (t : Target) (T : Elem) : Tag → MAbi
  | .fixed n => .fixed n
  | a => .native (Geo.ofTag t T a)

theorem mabi_ok {t : Target} {T : Elem} (hT : T.Ok) {a : Tag} (hv : valid t T a = true) :
    (mabi t T a).Ok ∧ (mabi t T a).size = Abi.size T a := by
  cases a with
  | fixed n =>
    refine ⟨?_, rfl⟩
    simp only [valid, maxFixedSize, Bool.and_eq_true, decide_eq_true_eq] at hv
    have := hv.2
    refine ⟨hv.1, ?_⟩
    split at this <;> omega
  | scalar => exact ⟨(Tuple.ofTag_ok (a := .scalar) hT hv (by simp)).1, rfl⟩
  | builtin b => exact ⟨(Tuple.ofTag_ok hT hv (by simp)).1, rfl⟩
  | btmsk b => exact ⟨(Tuple.ofTag_ok hT hv (by simp)).1, rfl⟩

/-- A mask type whose register has padding lanes and between 17 and 32 bytes. -/
def PartialAvx (t : Target) (T : Elem) : Tag → Prop
  | .builtin b => 16 < b ∧ b ≤ 32 ∧ isPartial t T (.builtin b) = true
  | _ => False

/-- Parts of half a full 32-byte register fill their register. -/
theorem half_full {t : Target} {T : Elem} (hT : T.Ok) {b c : Nat} (hb : valid t T (.builtin b) = true) (hc : valid t T (.builtin c) = true)
    (h2 : b / T.size = 2 * (c / T.size)) (h16 : 16 < b ∧ b ≤ 32)
    (hf : b / T.size = fullSize t T (.builtin b)) : c / T.size = fullSize t T (.builtin c) := by
  have h1 := elem_pos hT
  obtain ⟨e, he⟩ := Split.mul_fullSize hT hb (by simp) (by simp)
  rw [← hf] at he
  have hv := hb
  have hw := hc
  rw [valid_builtin h1] at hv hw
  have hbm : T.size * (b / T.size) = b := by have := Nat.div_add_mod b T.size; omega
  have hcm : T.size * (c / T.size) = c := by have := Nat.div_add_mod c T.size; omega
  have hbc : b = 2 * c := by rw [h2, Nat.mul_left_comm, hcm] at hbm; omega
  have hb32 : b = 32 := by
    rw [hbm] at he
    rcases Nat.lt_or_ge e 5 with h | h
    · have : 2 ^ e ≤ 2 ^ 4 := Nat.pow_le_pow_right (by omega) (by omega)
      omega
    · have : 2 ^ 5 ≤ 2 ^ e := Nat.pow_le_pow_right (by omega) h
      omega
  have hc16 : c = 16 := by omega
  subst hc16
  have hvec : vecBytes t T.size (16 / T.size) = 16 := by
    unfold vecBytes
    dsimp only
    rw [Nat.mul_comm, hcm, show bitCeil 16 = 16 from Abi.bitCeil_two_pow 4]
    have h2s : ¬ 16 < 2 * T.size := by
      intro hlt
      have : 2 * T.size ≤ T.size * (16 / T.size) := by rw [Nat.mul_comm 2]; exact Nat.mul_le_mul_left _ (by omega)
      omega
    simp [h2s]
  simp only [fullSize, hc, if_true, Abi.size, hvec]

theorem split_abi {t : Target} {T : Elem} (hT : T.Ok) {a b : Tag} (ha : valid t T a = true) (hb : valid t T b = true)
    {parts : Nat} (hs : Abi.size T a = parts * Abi.size T b) (hp : ¬ (PartialAvx t T a ∧ parts = 2))
    (x : Data (mabi t T a)) (hx : MOk _ x) :
    ∃ r, split (mabi t T a) (mabi t T b) x = some r ∧ (∀ k ∈ r, MOk _ k) ∧
      r.map (lanes _) = Spec.split (List.replicate parts (Abi.size T b)) (lanes _ x) := by
  obtain ⟨a1, a2⟩ := mabi_ok hT ha
  obtain ⟨b1, b2⟩ := mabi_ok hT hb
  have h1 := elem_pos hT
  have hb0 := b1.bounds.1
  rw [← b2]
  rw [← a2, ← b2] at hs
  by_cases hbad : Bad (mabi t T a) (mabi t T b)
  · exfalso
    obtain ⟨c1, c2, c3, c4⟩ := hbad
    apply hp
    rw [hs, Nat.mul_div_cancel _ (by omega)] at c1
    refine ⟨?_, c1⟩
    cases a with
    | scalar => simp [mabi, Geo.ofTag, isAvx] at c3
    | fixed n => simp [mabi, isAvx] at c3
    | btmsk n => simp [mabi, Geo.ofTag, isAvx] at c3
    | builtin n =>
      have hlt := c4 _ _ _ rfl
      have hv := ha
      rw [valid_builtin h1] at hv
      have hbm : T.size * (n / T.size) = n := by have := Nat.div_add_mod n T.size; omega
      simp only [mabi, Geo.ofTag, isAvx, decide_eq_true_eq, Abi.size] at c3
      rw [Nat.mul_div_cancel_left _ (by omega : 0 < 8), Nat.mul_comm, hbm] at c3
      refine ⟨c3.1, c3.2, ?_⟩
      simp only [isPartial, ha, if_true, bne_iff_ne]
      omega
  · apply split_spec a1 b1 hs x hx _ hbad
    intro w n f w' n' f' e e' c3
    cases a with
    | scalar => simp [mabi, Geo.ofTag] at e
    | fixed n => simp [mabi] at e
    | btmsk n => simp [mabi, Geo.ofTag] at e
    | builtin p =>
      cases b with
      | scalar => simp [mabi, Geo.ofTag] at e'
      | fixed n => simp [mabi] at e'
      | btmsk n => simp [mabi, Geo.ofTag] at e'
      | builtin q =>
        have hv := ha
        rw [valid_builtin h1] at hv
        have hbm : T.size * (p / T.size) = p := by have := Nat.div_add_mod p T.size; omega
        simp only [mabi, Geo.ofTag, isAvx, decide_eq_true_eq, Abi.size] at c3
        rw [Nat.mul_div_cancel_left _ (by omega : 0 < 8), Nat.mul_comm, hbm] at c3
        cases e; cases e'
        exact ⟨rfl, fun h2 h3 => half_full hT ha hb h2 c3 h3⟩

end StdSimd.MaskSplit
