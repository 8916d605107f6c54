import Verif.Model.BoolArray
import Verif.Proofs.Memory
import Verif.Proofs.BitMask
import Verif.Proofs.X86Lane
import Verif.Proofs.KMask
/-! Lemmas about storing masks as arrays of `bool`. -/
namespace StdSimd.BoolArray
open X86 BitMask

/-- `mem'` is `mem` with `f i` written at `base + lo + i`, for `i < len`, and nothing else changed. -/
def Written (f : Nat → BitVec 8) (base lo len : Nat) (mem mem' : Mem (BitVec 8)) : Prop :=
  ∀ a, mem' a = if base + lo ≤ a ∧ a < base + lo + len then some (f (a - base)) else mem a

theorem storeBytes_spec (f : Nat → BitVec 8) (bytes : List (BitVec 8)) (len base lo : Nat) (mem : Mem (BitVec 8))
    (hb : ∀ j < len, bytes[j]? = some (f (lo + j))) (hm : ∀ j < len, (mem (base + lo + j)).isSome) :
    ∃ mem', storeBytes bytes len mem (base + lo) = some mem' ∧ Written f base lo len mem mem' := by
  obtain ⟨mem', e, h⟩ := foldlM_write (fun j => f (lo + j)) (fun j => bytes[j]?) (base + lo) (List.range len) mem
    (fun i hi => hb i (List.mem_range.1 hi)) (fun i hi => hm i (List.mem_range.1 hi))
  refine ⟨mem', e, fun a => ?_⟩
  rw [h a]
  by_cases hc : base + lo ≤ a ∧ a < base + lo + len
  · rw [if_pos hc, if_pos ⟨hc.1, List.mem_range.2 (by omega)⟩]
    congr 2; omega
  · rw [if_neg hc, if_neg]
    rintro ⟨h1, h2⟩
    exact hc ⟨h1, by have := List.mem_range.1 h2; omega⟩

theorem storeBool_spec (f : Nat → BitVec 8) (b : Bool) (base lo : Nat) (mem : Mem (BitVec 8)) (hb : boolByte b = f lo)
    (hm : (mem (base + lo)).isSome) :
    ∃ mem', storeBool b mem (base + lo) = some mem' ∧ Written f base lo 1 mem mem' := by
  refine ⟨_, if_pos hm, fun a => ?_⟩
  by_cases h : a = base + lo
  · subst h
    rw [if_pos rfl, if_pos (by omega), hb]; congr 2; omega
  · rw [if_neg h, if_neg (by omega)]

theorem chunks_spec (f : Nat → BitVec 8) (F : Mem (BitVec 8) → Nat → Option (Mem (BitVec 8))) (lo len : Nat → Nat) (base n m : Nat)
    (hF : ∀ i < m, ∀ mem : Mem (BitVec 8), (∀ j < n, (mem (base + j)).isSome) →
      ∃ mem', F mem i = some mem' ∧ Written f base (lo i) (len i) mem mem')
    (hin : ∀ i < m, len i = 0 ∨ lo i + len i ≤ n) (hcov : ∀ j < n, ∃ i < m, lo i ≤ j ∧ j < lo i + len i)
    (mem : Mem (BitVec 8)) (hm : ∀ j < n, (mem (base + j)).isSome) :
    ∃ mem', (List.range m).foldlM F mem = some mem' ∧ Written f base 0 n mem mem' := by
  have key : ∀ k ≤ m, ∃ mem', (List.range k).foldlM F mem = some mem' ∧
      (∀ j < n, (mem' (base + j)).isSome) ∧
      ∀ a, ((∃ i < k, base + lo i ≤ a ∧ a < base + lo i + len i) → mem' a = some (f (a - base))) ∧
        ((¬ ∃ i < k, base + lo i ≤ a ∧ a < base + lo i + len i) → mem' a = mem a) := by
    intro k
    induction k with
    | zero => intro _; exact ⟨mem, rfl, hm, fun a => ⟨by rintro ⟨i, h, _⟩; omega, fun _ => rfl⟩⟩
    | succ k ih =>
      intro hk
      obtain ⟨m1, e1, hm1, h1⟩ := ih (by omega)
      obtain ⟨m2, e2, h2⟩ := hF k hk m1 hm1
      refine ⟨m2, ?_, ?_, ?_⟩
      · rw [List.range_succ, List.foldlM_append, e1]
        simpa using e2
      · intro j hj
        rw [h2]; split
        · rfl
        · exact hm1 j hj
      · intro a
        rw [h2 a]
        by_cases hc : base + lo k ≤ a ∧ a < base + lo k + len k
        · rw [if_pos hc]
          exact ⟨fun _ => rfl, fun h => absurd ⟨k, by omega, hc⟩ h⟩
        · rw [if_neg hc]
          refine ⟨?_, ?_⟩
          · rintro ⟨i, hi, h⟩
            have : i ≠ k := by rintro rfl; exact hc h
            exact (h1 a).1 ⟨i, by omega, h⟩
          · intro h
            exact (h1 a).2 (fun ⟨i, hi, h'⟩ => h ⟨i, by omega, h'⟩)
  obtain ⟨mem', e, _, h⟩ := key m (le_refl _)
  refine ⟨mem', e, fun a => ?_⟩
  by_cases hc : base + 0 ≤ a ∧ a < base + 0 + n
  · rw [if_pos hc]
    obtain ⟨i, hi, h1, h2⟩ := hcov (a - base) (by omega)
    exact (h a).1 ⟨i, hi, by omega, by omega⟩
  · rw [if_neg hc]
    refine (h a).2 ?_
    rintro ⟨i, hi, h1, h2⟩
    rcases hin i hi with h0 | h0 <;> omega

/-! ## bytes -/

theorem bytesOf_get {W : Nat} (v : BitVec W) {j : Nat} (h : j < W / 8) : (bytesOf v)[j]? = some (lane 8 v j) := by
  simp [bytesOf, List.getElem?_range, h]

theorem toNat_lt_of_bits {W : Nat} (v : BitVec W) (k : Nat) (h : ∀ i, k ≤ i → v.getLsbD i = false) : v.toNat < 2 ^ k :=
  Nat.lt_pow_two_of_testBit _ (fun i hi => by have := h i hi; rwa [BitVec.getLsbD] at this)

theorem eq_ofNat {W : Nat} (v : BitVec W) : v = BitVec.ofNat W v.toNat := by simp

theorem bool2_tab : ∀ b < 4, ∀ j < 2, lane 8 (bool2 (BitVec.ofNat 64 b)) j = boolByte (b.testBit j) := by decide +kernel
theorem bool3_tab : ∀ b < 8, ∀ j < 3, lane 8 (bool3 (BitVec.ofNat 64 b)) j = boolByte (b.testBit j) := by decide +kernel
theorem bool7_tab : ∀ b < 128, ∀ j < 7, lane 8 (bool7 (BitVec.ofNat 64 b)) j = boolByte (b.testBit j) := by decide +kernel
theorem bool4_tab : ∀ b < 16, ∀ j < 4,
    lane 8 ((BitVec.ofNat 32 b * 0x204081#32) &&& 0x01010101#32) j = boolByte (b.testBit j) := by decide +kernel

theorem bool2_get (v : BitVec 64) (h : ∀ i, 2 ≤ i → v.getLsbD i = false) {j : Nat} (hj : j < 2) :
    (bytesOf (bool2 v))[j]? = some (boolByte (v.getLsbD j)) := by
  rw [bytesOf_get _ (by omega), eq_ofNat v, bool2_tab _ (toNat_lt_of_bits v 2 h) j hj]
  simp [BitVec.getLsbD]

theorem bool3_get (v : BitVec 64) (h : ∀ i, 3 ≤ i → v.getLsbD i = false) {j : Nat} (hj : j < 3) :
    (bytesOf (bool3 v))[j]? = some (boolByte (v.getLsbD j)) := by
  rw [bytesOf_get _ (by omega), eq_ofNat v, bool3_tab _ (toNat_lt_of_bits v 3 h) j hj]
  simp [BitVec.getLsbD]

theorem bool7_get (v : BitVec 64) (h : ∀ i, 7 ≤ i → v.getLsbD i = false) {j : Nat} (hj : j < 7) :
    (bytesOf (bool7 v))[j]? = some (boolByte (v.getLsbD j)) := by
  rw [bytesOf_get _ (by omega), eq_ofNat v, bool7_tab _ (toNat_lt_of_bits v 7 h) j hj]
  simp [BitVec.getLsbD]

theorem bool4_get (rem : Nat) (v : BitVec 64) (h : rem ≤ 7 → ∀ i, 4 ≤ i → v.getLsbD i = false) {j : Nat} (hj : j < 4) :
    (bytesOf (bool4 rem v))[j]? = some (boolByte (v.getLsbD j)) := by
  rw [bytesOf_get _ (by omega)]
  unfold bool4; dsimp only
  generalize hu : (if rem > 7 then v.setWidth 32 &&& 0xf#32 else v.setWidth 32) = u
  have hu4 : ∀ i, 4 ≤ i → u.getLsbD i = false := by
    intro i hi
    rw [← hu]
    by_cases hr : rem > 7
    · rw [if_pos hr, BitVec.getLsbD_and]
      have : (0xf#32).getLsbD i = false := by
        by_cases hi32 : i < 32
        · have : ∀ i < 32, 4 ≤ i → (0xf#32).getLsbD i = false := by decide
          exact this i hi32 hi
        · exact BitVec.getLsbD_of_ge _ _ (by omega)
      rw [this, Bool.and_false]
    · rw [if_neg hr, BitVec.getLsbD_setWidth, h (by omega) i hi, Bool.and_false]
  have huj : u.getLsbD j = v.getLsbD j := by
    rw [← hu]
    have h15 : (0xf#32).getLsbD j = true := by
      have : ∀ j < 4, (0xf#32).getLsbD j = true := by decide
      exact this j hj
    have : j < 32 := by omega
    split <;> simp [-BitVec.getLsbD_eq_getElem, h15, this]
  rw [← huj, eq_ofNat u, bool4_tab _ (toNat_lt_of_bits u 4 hu4) j hj]
  simp [BitVec.getLsbD]

/-! ## pdep -/

theorem getLsbD_pdep {W : Nat} (src mask : BitVec W) (j : Nat) :
    (pdep src mask).getLsbD j =
      (decide (j < W) && mask.getLsbD j && src.getLsbD ((List.range j).countP (fun i => mask.getLsbD i))) := by
  unfold pdep
  rw [getLsbD_join (by omega)]
  by_cases h : j < W <;> simp [h, -BitVec.getLsbD_eq_getElem, Nat.mod_one]

theorem pdep64_tab : ∀ j < 8, ∀ i < 8, (0x0101010101010101#64).getLsbD (8 * j + i) = decide (i = 0) ∧
    (i = 0 → (List.range (8 * j + i)).countP (fun i => (0x0101010101010101#64).getLsbD i) = j) := by decide +kernel
theorem pdep32_tab : ∀ j < 4, ∀ i < 8, (0x01010101#32).getLsbD (8 * j + i) = decide (i = 0) ∧
    (i = 0 → (List.range (8 * j + i)).countP (fun i => (0x01010101#32).getLsbD i) = j) := by decide +kernel

theorem boolByte_bit (b : Bool) (i : Nat) : (boolByte b).getLsbD i = (b && decide (i = 0)) := by
  cases b
  · simp [boolByte]
  · rcases i with _ | i <;> simp [boolByte]

theorem pdep64_get (v : BitVec 64) {j : Nat} (hj : j < 8) :
    (bytesOf (pdep v 0x0101010101010101#64))[j]? = some (boolByte (v.getLsbD j)) := by
  rw [bytesOf_get _ (by omega)]
  congr 1
  apply BitVec.eq_of_getLsbD_eq
  intro i hi
  obtain ⟨h1, h2⟩ := pdep64_tab j hj i hi
  rw [getLsbD_lane, getLsbD_pdep, h1, boolByte_bit]
  have : 8 * j + i < 64 := by omega
  by_cases h0 : i = 0
  · rw [h2 h0]; simp [-BitVec.getLsbD_eq_getElem, h0]; omega
  · simp [h0]

theorem pdep32_get (v : BitVec 32) {j : Nat} (hj : j < 4) :
    (bytesOf (pdep v 0x01010101#32))[j]? = some (boolByte (v.getLsbD j)) := by
  rw [bytesOf_get _ (by omega)]
  congr 1
  apply BitVec.eq_of_getLsbD_eq
  intro i hi
  obtain ⟨h1, h2⟩ := pdep32_tab j hj i hi
  rw [getLsbD_lane, getLsbD_pdep, h1, boolByte_bit]
  have : 8 * j + i < 32 := by omega
  by_cases h0 : i = 0
  · rw [h2 h0]; simp [-BitVec.getLsbD_eq_getElem, h0]; omega
  · simp [h0]

/-! ## the SSE2 forms -/

theorem and_bit_tab : ∀ j < 8, ∀ b : BitVec 8,
    (if b &&& (1#8 <<< j) = 0#8 then 0xff#8 else 0#8) + 1#8 = boolByte (b.getLsbD j) := by decide +kernel

theorem unpack_idx : ∀ j < 16, ((((List.range 16).map (fun i => i / 4 / 2 * 4 + i % 4)).map (fun i => i / 2 / 2 * 2 + i % 2)).map
    (fun i => i / 1 / 2 * 1 + i % 1))[j]? = some (j / 8) := by decide

theorem boolsSse2_get (v : BitVec 32) {j : Nat} (hj : j < 16) :
    (boolsSse2 v)[j]? = some (boolByte (v.getLsbD j)) := by
  have hl : ∀ k < 2, (bytesOf v ++ List.replicate 12 0#8).getD k 0#8 = lane 8 v k := by
    intro k hk
    rw [List.getD_eq_getElem?_getD, List.getElem?_append_left (by simp [bytesOf]; omega), bytesOf_get _ (by omega)]; rfl
  have hg : ∀ (g : Nat) (a : List (BitVec 8)) (i : Nat), i < 16 → (unpackloSelf g a).getD i 0#8 = a.getD (i / g / 2 * g + i % g) 0#8 := by
    intro g a i hi
    simp [unpackloSelf, hi]
  have hb : (unpackloSelf 4 (unpackloSelf 2 (unpackloSelf 1 (bytesOf v ++ List.replicate 12 0#8)))).getD j 0#8 = lane 8 v (j / 8) := by
    rw [hg 4 _ j hj, hg 2 _ _ (by omega), hg 1 _ _ (by omega), ← hl (j / 8) (by omega)]
    congr 1; omega
  have hlen : ∀ g a, (unpackloSelf g a).length = 16 := by intro g a; simp [unpackloSelf]
  have hm : ∀ j < 16, ([1#8, 2#8, 4#8, 8#8, 16#8, 32#8, 64#8, 128#8, 1#8, 2#8, 4#8, 8#8, 16#8, 32#8, 64#8, 128#8] : List (BitVec 8))[j]?
      = some (1#8 <<< (j % 8)) := by decide
  unfold boolsSse2
  dsimp only
  rw [List.getElem?_map, List.getElem?_zipWith, hm j hj, List.getElem?_eq_getElem (by rw [hlen]; exact hj)]
  rw [List.getD_eq_getElem?_getD, List.getElem?_eq_getElem (by rw [hlen]; exact hj), Option.getD_some] at hb
  rw [hb]
  simp only [Option.map_some]
  rw [and_bit_tab (j % 8) (by omega), getLsbD_lane, Nat.div_add_mod]
  have : j % 8 < 8 := by omega
  simp [-BitVec.getLsbD_eq_getElem, this]

theorem sat_bool (b : Bool) : sat8 (sat16 (if b then 1#32 else 0#32)) = boolByte b := by cases b <;> decide

theorem bools512_get (todo : Nat) (v : BitVec 32) {j : Nat} (hj : j < 16) (ht : j < todo) :
    (bools512 todo v)[j]? = some (boolByte (v.getLsbD j)) := by
  unfold bools512 xzyw packs256
  dsimp only
  rw [show List.range 16 = [0, 1, 2, 3, 4, 5, 6, 7, 8, 9, 10, 11, 12, 13, 14, 15] from rfl]
  by_cases h8 : 8 < todo
  · rw [if_pos h8]
    simp only [List.map_cons, List.map_nil, List.take_succ_cons, List.drop_succ_cons, List.take_zero, List.drop_zero,
      List.cons_append, List.nil_append, List.take_nil, List.drop_nil, sat_bool]
    interval_cases j <;> rfl
  · rw [if_neg h8]
    simp only [List.map_cons, List.map_nil, List.take_succ_cons, List.drop_succ_cons, List.take_zero, List.drop_zero,
      List.cons_append, List.nil_append, List.take_nil, List.drop_nil, sat_bool, List.replicate]
    have : j < 8 := by omega
    interval_cases j <;> rfl

/-! ## `_S_store_bool_array` -/
variable {n : Nat} {s : Bool}

/-- The value stored for lane `i`. -/
def val (x : BitMask n s) (i : Nat) : BitVec 8 := boolByte (x.lane i)

theorem extract_bits (h64 : n ≤ 64) (x : BitMask n true) (hx : x.Clean) {off : Nat} (h : off < n) :
    ∃ r, x.extract off (n - off) = some r ∧ ∃ v, r.toULL = some v ∧ (∀ j, off + j < n → v.getLsbD j = x.lane (off + j)) ∧
      (∀ j, n - off ≤ j → v.getLsbD j = false) := by
  obtain ⟨r, e, hl, hc⟩ := extract_spec (by omega) x (fun _ => hx) h (new := n - off) (by omega) (by omega)
  obtain ⟨v, ev, hv⟩ := toULL_eq (by omega) (by omega) r
  have hs : extractSan n true off (n - off) = true := by
    unfold extractSan
    split
    · rfl
    · have : n ≤ n - off + off := by omega
      simp [this]
  refine ⟨r, e, v, ev, fun j hj => by rw [hv, hl j (by omega) hj], fun j hj => by rw [hv, hc hs j hj]⟩

theorem whole_bits (h1 : 1 ≤ n) (h64 : n ≤ 64) (x : BitMask n true) (hx : x.Clean) :
    ∃ v, x.toULL = some v ∧ (∀ j, v.getLsbD j = x.lane j) ∧ ∀ j, n ≤ j → v.getLsbD j = false := by
  obtain ⟨v, e, hv⟩ := toULL_eq h1 h64 x
  exact ⟨v, e, hv, fun j hj => by rw [hv, hx j hj]⟩

theorem store_one (h1 : 1 ≤ n) (x : BitMask n true) (mem : Mem (BitVec 8)) (base lo : Nat) (hlo : lo < n)
    (hm : (mem (base + lo)).isSome) :
    ∃ mem', (do let b ← x.get lo; storeBool b mem (base + lo)) = some mem' ∧ Written (val x) base lo 1 mem mem' := by
  rw [get_eq h1 x hlo]
  exact storeBool_spec (val x) (x.lane lo) base lo mem rfl hm

theorem baseChunk_spec (h64 : n ≤ 64) (x : BitMask n true) (hx : x.Clean) (base i : Nat) (hi : i * 4 < n)
    (mem : Mem (BitVec 8)) (hm : ∀ j < n, (mem (base + j)).isSome) :
    ∃ mem', baseChunk x base mem i = some mem' ∧ Written (val x) base (i * 4)
      (if 4 < n - i * 4 ∧ n - i * 4 ≤ 7 then n - i * 4 else if 4 ≤ n - i * 4 then 4 else 0) mem mem' := by
  obtain ⟨r, er, v, ev, hv, hc⟩ := extract_bits h64 x hx hi
  unfold baseChunk
  dsimp only
  have hmm : ∀ len, len ≤ n - i * 4 → ∀ j < len, (mem (base + i * 4 + j)).isSome := by
    intro len hl j hj
    have := hm (i * 4 + j) (by omega)
    rwa [← Nat.add_assoc] at this
  by_cases h7 : 4 < n - i * 4 ∧ n - i * 4 ≤ 7
  · rw [if_pos h7, if_pos h7, er]
    simp only [Option.bind_eq_bind, Option.bind_some, ev]
    refine storeBytes_spec (val x) _ _ base (i * 4) mem (fun j hj => ?_) (hmm _ (le_refl _))
    rw [bool7_get v (fun k hk => hc k (by omega)) (by omega), hv j (by omega)]; rfl
  · rw [if_neg h7, if_neg h7]
    by_cases h4 : 4 ≤ n - i * 4
    · rw [if_pos h4, if_pos h4, er]
      simp only [Option.bind_eq_bind, Option.bind_some, ev]
      refine storeBytes_spec (val x) _ _ base (i * 4) mem (fun j hj => ?_) (hmm _ (by omega))
      rw [bool4_get _ v (fun h k hk => hc k (by omega)) hj, hv j (by omega)]; rfl
    · rw [if_neg h4, if_neg h4]
      exact ⟨mem, rfl, fun a => by rw [if_neg (by omega)]⟩

theorem storeBase_spec (h1 : 1 ≤ n) (h64 : n ≤ 64) (x : BitMask n true) (hx : x.Clean) (mem : Mem (BitVec 8)) (base : Nat)
    (hm : ∀ j < n, (mem (base + j)).isSome) :
    ∃ mem', storeBase x mem base = some mem' ∧ Written (val x) base 0 n mem mem' := by
  obtain ⟨v, ev, hv, hc⟩ := whole_bits h1 h64 x hx
  unfold storeBase
  by_cases e1 : n = 1
  · subst e1
    rw [if_pos rfl]
    exact store_one (le_refl _) x mem base 0 (by omega) (hm 0 (by omega))
  rw [if_neg e1]
  by_cases e2 : n = 2
  · subst e2
    rw [if_pos rfl, ev]
    refine storeBytes_spec (val x) _ 2 base 0 mem (fun j hj => ?_) (fun j hj => hm j hj)
    rw [bool2_get v hc hj, hv j, Nat.zero_add]; rfl
  rw [if_neg e2]
  by_cases e3 : n = 3
  · subst e3
    rw [if_pos rfl, ev]
    refine storeBytes_spec (val x) _ 3 base 0 mem (fun j hj => ?_) (fun j hj => hm j hj)
    rw [bool3_get v hc hj, hv j, Nat.zero_add]; rfl
  rw [if_neg e3]
  have hm4 : ∀ i, i < divRoundup n 4 ↔ i * 4 < n := by intro i; unfold divRoundup; omega
  refine chunks_spec (val x) (baseChunk x base) (fun i => i * 4) _ base n _
    (fun i hi mem hm => baseChunk_spec h64 x hx base i ((hm4 i).1 hi) mem hm) ?_ ?_ mem hm
  · intro i hi
    have := (hm4 i).1 hi
    split
    · right; omega
    · split
      · right; omega
      · left; rfl
  · intro j hj
    by_cases hr : 4 ≤ n - j / 4 * 4
    · refine ⟨j / 4, (hm4 _).2 (by omega), by omega, ?_⟩
      split
      · omega
      · omega
    · refine ⟨j / 4 - 1, (hm4 _).2 (by omega), by omega, ?_⟩
      have : 4 < n - (j / 4 - 1) * 4 ∧ n - (j / 4 - 1) * 4 ≤ 7 := by omega
      rw [if_pos this]; omega

theorem storeMovm_spec (h1 : 1 ≤ n) (h64 : n ≤ 64) (x : BitMask n true) (hx : x.Clean) (mem : Mem (BitVec 8)) (base : Nat)
    (hm : ∀ j < n, (mem (base + j)).isSome) :
    ∃ mem', storeMovm x mem base = some mem' ∧ Written (val x) base 0 n mem mem' := by
  obtain ⟨v, ev, hv, hc⟩ := whole_bits h1 h64 x hx
  unfold storeMovm
  rw [ev]
  refine storeBytes_spec (val x) _ n base 0 mem (fun j hj => ?_) (fun j hj => hm j hj)
  have hW : j < (if n ≤ 16 then 16 else if n ≤ 32 then 32 else 64) := by split_ifs <;> omega
  rw [List.getElem?_map, List.getElem?_map, List.getElem?_range hW, Nat.zero_add]
  simp only [Option.map_some, val, hv]
  cases x.lane j <;> rfl

theorem bmiChunk64_spec (h64 : n ≤ 64) (x : BitMask n true) (hx : x.Clean) (base i : Nat) (hi : i * 8 < n)
    (mem : Mem (BitVec 8)) (hm : ∀ j < n, (mem (base + j)).isSome) :
    ∃ mem', bmiChunk64 x base mem i = some mem' ∧ Written (val x) base (i * 8) (min 8 (n - i * 8)) mem mem' := by
  obtain ⟨r, er, v, ev, hv, hc⟩ := extract_bits h64 x hx hi
  unfold bmiChunk64
  dsimp only
  by_cases h : min 8 (n - i * 8) = 1
  · rw [if_pos h, h]
    exact store_one (by omega) x mem base _ hi (hm _ hi)
  · rw [if_neg h, er]
    simp only [Option.bind_eq_bind, Option.bind_some, ev]
    refine storeBytes_spec (val x) _ _ base (i * 8) mem (fun j hj => ?_) (fun j hj => ?_)
    · rw [pdep64_get v (by omega), hv j (by omega)]; rfl
    · have := hm (i * 8 + j) (by omega)
      rwa [← Nat.add_assoc] at this

theorem setWidth32_bit (v : BitVec 64) {j : Nat} (h : j < 32) : (v.setWidth 32).getLsbD j = v.getLsbD j := by
  simp [-BitVec.getLsbD_eq_getElem, h]

theorem bmiChunk32_spec (h64 : n ≤ 64) (x : BitMask n true) (hx : x.Clean) (base i : Nat) (hi : i * 4 < n)
    (mem : Mem (BitVec 8)) (hm : ∀ j < n, (mem (base + j)).isSome) :
    ∃ mem', bmiChunk32 x base mem i = some mem' ∧ Written (val x) base (i * 4) (min 4 (n - i * 4)) mem mem' := by
  obtain ⟨r, er, v, ev, hv, hc⟩ := extract_bits h64 x hx hi
  unfold bmiChunk32
  dsimp only
  by_cases h : min 4 (n - i * 4) = 1
  · rw [if_pos h, h]
    exact store_one (by omega) x mem base _ hi (hm _ hi)
  · rw [if_neg h, er]
    simp only [Option.bind_eq_bind, Option.bind_some, ev]
    refine storeBytes_spec (val x) _ _ base (i * 4) mem (fun j hj => ?_) (fun j hj => ?_)
    · rw [pdep32_get _ (by omega), setWidth32_bit v (by omega), hv j (by omega)]; rfl
    · have := hm (i * 4 + j) (by omega)
      rwa [← Nat.add_assoc] at this

theorem storeBmi_spec (x64 : Bool) (h1 : 1 ≤ n) (h64 : n ≤ 64) (x : BitMask n true) (hx : x.Clean) (mem : Mem (BitVec 8)) (base : Nat)
    (hm : ∀ j < n, (mem (base + j)).isSome) :
    ∃ mem', storeBmi x64 x mem base = some mem' ∧ Written (val x) base 0 n mem mem' := by
  unfold storeBmi
  by_cases h4 : n ≤ 4
  · obtain ⟨v, ev, hv, hc⟩ := whole_bits h1 h64 x hx
    rw [if_pos h4, ev]
    refine storeBytes_spec (val x) _ n base 0 mem (fun j hj => ?_) (fun j hj => hm j hj)
    rw [pdep32_get _ (by omega), setWidth32_bit v (by omega), hv j, Nat.zero_add]; rfl
  · rw [if_neg h4]
    by_cases hx64 : x64 = true
    · rw [if_pos hx64]
      have hmi : ∀ i, i < divRoundup n 8 ↔ i * 8 < n := by intro i; unfold divRoundup; omega
      refine chunks_spec (val x) (bmiChunk64 x base) (fun i => i * 8) _ base n _
        (fun i hi mem hm => bmiChunk64_spec h64 x hx base i ((hmi i).1 hi) mem hm) ?_ ?_ mem hm
      · intro i hi; have := (hmi i).1 hi; right; omega
      · intro j hj; exact ⟨j / 8, (hmi _).2 (by omega), by omega, by omega⟩
    · rw [if_neg hx64]
      have hmi : ∀ i, i < divRoundup n 4 ↔ i * 4 < n := by intro i; unfold divRoundup; omega
      refine chunks_spec (val x) (bmiChunk32 x base) (fun i => i * 4) _ base n _
        (fun i hi mem hm => bmiChunk32_spec h64 x hx base i ((hmi i).1 hi) mem hm) ?_ ?_ mem hm
      · intro i hi; have := (hmi i).1 hi; right; omega
      · intro j hj; exact ⟨j / 4, (hmi _).2 (by omega), by omega, by omega⟩

theorem sseChunk_spec (avx512f : Bool) (h64 : n ≤ 64) (x : BitMask n true) (hx : x.Clean) (base i : Nat) (hi : i * 16 < n)
    (mem : Mem (BitVec 8)) (hm : ∀ j < n, (mem (base + j)).isSome) :
    ∃ mem', sseChunk avx512f x base mem i = some mem' ∧ Written (val x) base (i * 16) (min 16 (n - i * 16)) mem mem' := by
  obtain ⟨r, er, v, ev, hv, hc⟩ := extract_bits h64 x hx hi
  unfold sseChunk
  dsimp only
  rw [er]
  simp only [Option.bind_eq_bind, Option.bind_some, ev]
  refine storeBytes_spec (val x) _ _ base (i * 16) mem (fun j hj => ?_) (fun j hj => ?_)
  · split
    · rw [bools512_get _ _ (by omega) hj, setWidth32_bit v (by omega), hv j (by omega)]; rfl
    · rw [boolsSse2_get _ (by omega), setWidth32_bit v (by omega), hv j (by omega)]; rfl
  · have := hm (i * 16 + j) (by omega)
    rwa [← Nat.add_assoc] at this

theorem store_spec (p : Path) (h1 : 1 ≤ n) (h64 : n ≤ 64) (x : BitMask n true) (hx : x.Clean) (mem : Mem (BitVec 8)) (base : Nat)
    (hm : ∀ j < n, (mem (base + j)).isSome) :
    ∃ mem', store p x mem base = some mem' ∧ Written (val x) base 0 n mem mem' := by
  cases p with
  | generic => exact storeBase_spec h1 h64 x hx mem base hm
  | bwvl => exact storeMovm_spec h1 h64 x hx mem base hm
  | bmi2 x64 => exact storeBmi_spec x64 h1 h64 x hx mem base hm
  | sse2 f =>
    unfold store; dsimp only
    by_cases h7 : 7 < n
    · rw [if_pos h7]
      have hmi : ∀ i, i < divRoundup n 16 ↔ i * 16 < n := by intro i; unfold divRoundup; omega
      refine chunks_spec (val x) (sseChunk f x base) (fun i => i * 16) _ base n _
        (fun i hi mem hm => sseChunk_spec f h64 x hx base i ((hmi i).1 hi) mem hm) ?_ ?_ mem hm
      · intro i hi; have := (hmi i).1 hi; right; omega
      · intro j hj; exact ⟨j / 16, (hmi _).2 (by omega), by omega, by omega⟩
    · rw [if_neg h7]
      exact storeBase_spec h1 h64 x hx mem base hm

theorem storeFixed_spec (p : Path) (h1 : 1 ≤ n) (h64 : n ≤ 64) (x : BitMask n true) (hx : x.Clean) (mem : Mem (BitVec 8)) (base : Nat)
    (hm : ∀ j < n, (mem (base + j)).isSome) :
    ∃ mem', storeFixed p x mem base = some mem' ∧ Written (val x) base 0 n mem mem' := by
  unfold storeFixed
  split
  · next e1 =>
    subst e1
    exact store_one (le_refl _) x mem base 0 (by omega) (hm 0 (by omega))
  · exact store_spec p h1 h64 x hx mem base hm

/-! ## native masks -/

/-- The visible lanes of a vector mask are all ones or all zeros; padding lanes are arbitrary. -/
def VGood {w : Nat} (n : Nat) (b : Nat → Bool) (v : VMask w) : Prop :=
  ∀ i < n, v[i]? = some (if b i then BitVec.allOnes w else 0#w)

theorem vec64Sse_get {b : Nat → Bool} {v : VMask 64} (h : VGood n b v) {j : Nat} (hj : j < n) :
    (vec64Sse v)[j]? = some (boolByte (b j)) := by
  unfold vec64Sse
  rw [List.getElem?_map, h j hj]
  cases b j <;> rfl

theorem vec32Sse_get {b : Nat → Bool} {v : VMask 32} (h : VGood n b v) {j : Nat} (hj : j < n) (h4 : n ≤ 4) :
    (vec32Sse v)[j]? = some (boolByte (b j)) := by
  unfold vec32Sse
  dsimp only
  rw [bytesOf_get _ (by omega), X86.lane_and, lane_join (by omega) 4 _ j (by omega) (by omega)]
  have hl : j < v.length := by
    have := h j hj
    exact (List.getElem?_eq_some_iff.1 this).1
  have : lane 8 0x01010101#32 j = 1#8 := by
    have : ∀ j < 4, lane 8 0x01010101#32 j = 1#8 := by decide
    exact this j (by omega)
  rw [this, List.getD_eq_getElem?_getD, List.getElem?_append_left (by simp; omega), List.getElem?_map,
    List.getElem?_append_left (by simpa using hl), List.getElem?_map, h j hj]
  cases b j <;> rfl

theorem vec16Sse_get {b : Nat → Bool} {v : VMask 16} (h : VGood n b v) {j : Nat} (hj : j < n) :
    (vec16Sse v)[j]? = some (boolByte (b j)) := by
  have hl : j < v.length := (List.getElem?_eq_some_iff.1 (h j hj)).1
  unfold vec16Sse
  rw [List.getElem?_append_left (by simpa using hl), List.getElem?_map, List.getElem?_map, h j hj]
  cases b j <;> rfl

theorem vec8_get {b : Nat → Bool} {v : VMask 8} (h : VGood n b v) {j : Nat} (hj : j < n) :
    (vec8 v)[j]? = some (boolByte (b j)) := by
  unfold vec8
  rw [List.getElem?_map, h j hj]
  cases b j <;> rfl

theorem getLsbD_movemask8 (l : List (BitVec 8)) (j : Nat) : (movemask8 l).getLsbD j = (decide (j < 32) && (l.getD j 0#8).msb) := by
  unfold movemask8
  rw [getLsbD_join (by omega)]
  by_cases h : j < 32 <;> simp [h, -BitVec.getLsbD_eq_getElem, Nat.mod_one]

theorem flatMap_bytes_get (v : VMask 64) {j : Nat} {a : BitVec 64} (hv : v[j]? = some a) {i : Nat} (hi : i < 8) :
    (v.flatMap bytesOf)[8 * j + i]? = some (lane 8 a i) := by
  induction v generalizing j with
  | nil => simp at hv
  | cons c v ih =>
    have hlen : (bytesOf c).length = 8 := by simp [bytesOf]
    rw [List.flatMap_cons]
    rcases j with _ | j
    · simp at hv; subst hv
      rw [List.getElem?_append_left (by omega), Nat.mul_zero, Nat.zero_add, bytesOf_get _ (by omega)]
    · rw [List.getElem?_append_right (by omega), hlen]
      rw [List.getElem?_cons_succ] at hv
      rw [← ih hv]; congr 1; omega

theorem vec64Avx_get (avx2 : Bool) {b : Nat → Bool} {v : VMask 64} (h : VGood n b v) {j : Nat} (hj : j < n) (h4 : n ≤ 4) :
    (vec64Avx avx2 v)[j]? = some (boolByte (b j)) := by
  unfold vec64Avx
  dsimp only
  rw [bytesOf_get _ (by omega)]
  congr 1
  apply BitVec.eq_of_getLsbD_eq
  intro i hi
  rw [getLsbD_lane, BitVec.getLsbD_and, (pdep32_tab j (by omega) i hi).1, boolByte_bit]
  by_cases h0 : i = 0
  · subst h0
    have hb : ((v.flatMap bytesOf).getD (8 * j) 0#8).msb = b j := by
      have := flatMap_bytes_get v (h j hj) (i := 0) (by omega)
      rw [Nat.add_zero] at this
      rw [List.getD_eq_getElem?_getD, this]
      cases b j <;> decide
    have hbits : (if avx2 = true then movemask8 (v.flatMap bytesOf) else
        movemask8 ((v.flatMap bytesOf).take 16) ||| (movemask8 ((v.flatMap bytesOf).drop 16) <<< 16)).getLsbD (8 * j) = b j := by
      have h32 : 8 * j < 32 := by omega
      cases avx2
      · rw [if_neg (by simp), BitVec.getLsbD_or, BitVec.getLsbD_shiftLeft, getLsbD_movemask8, getLsbD_movemask8]
        by_cases h16 : 8 * j < 16
        · rw [List.getD_eq_getElem?_getD, List.getElem?_take, if_pos h16, ← List.getD_eq_getElem?_getD, hb]
          simp [h32, h16]
        · rw [List.getD_eq_getElem?_getD, List.getElem?_take, if_neg h16, List.getD_eq_getElem?_getD, List.getElem?_drop,
            show 16 + (8 * j - 16) = 8 * j by omega, ← List.getD_eq_getElem?_getD, hb]
          have : 8 * j - 16 < 32 := by omega
          simp [h32, h16, this]
      · rw [if_pos rfl, getLsbD_movemask8, hb]; simp [h32]
    rw [Nat.add_zero, hbits]; simp
  · simp [h0]

theorem flatMap_shorts_get (v : VMask 32) {j : Nat} {a : BitVec 32} (hv : v[j]? = some a) :
    (v.flatMap (fun (a : BitVec 32) => [lane 16 a 0, lane 16 a 1]))[2 * j]? = some (lane 16 a 0) ∧
    (v.flatMap (fun (a : BitVec 32) => [lane 16 a 0, lane 16 a 1]))[2 * j + 1]? = some (lane 16 a 1) := by
  induction v generalizing j with
  | nil => simp at hv
  | cons c v ih =>
    rw [List.flatMap_cons]
    rcases j with _ | j
    · simp at hv; subst hv
      simp
    · rw [List.getElem?_cons_succ] at hv
      rw [show 2 * (j + 1) = 2 * j + 1 + 1 by omega, show 2 * j + 1 + 1 + 1 = (2 * j + 1) + 1 + 1 by omega]
      simpa using ih hv

theorem vec32Avx_get {b : Nat → Bool} {v : VMask 32} (h : VGood n b v) {j : Nat} (hj : j < n) (h8 : n ≤ 8) :
    (vec32Avx v)[j]? = some (boolByte (b j)) := by
  unfold vec32Avx
  dsimp only
  rw [List.take_append_drop]
  obtain ⟨g0, g1⟩ := flatMap_shorts_get v (h j hj)
  have hj8 : j < 8 := by omega
  rw [List.getElem?_append_left (by simpa using hj8), List.getElem?_map, List.getElem?_map, List.getElem?_range hj8]
  simp only [Option.map_some, join, List.getD_eq_getElem?_getD, List.getElem?_map, Nat.add_zero, g0, g1]
  cases b j <;> rfl

theorem vec16Avx_get (avx2 : Bool) {b : Nat → Bool} {v : VMask 16} (h : VGood n b v) {j : Nat} (hj : j < n) :
    (vec16Avx avx2 v)[j]? = some (boolByte (b j)) := by
  unfold vec16Avx
  dsimp only
  rw [List.take_append_drop, List.take_append_drop]
  split
  · rw [List.getElem?_map, List.getElem?_map, h j hj]
    cases b j <;> rfl
  · rw [List.getElem?_map, List.getElem?_map, h j hj]
    cases b j <;> rfl

theorem kBwvl_get (v : KMask n) {j : Nat} (hj : j < n) (h64 : n ≤ 64) : (kBwvl v)[j]? = some (boolByte (v.getLsbD j)) := by
  unfold kBwvl
  have hW : j < (if n ≤ 16 then 16 else if n ≤ 32 then 32 else 64) := by split_ifs <;> omega
  rw [List.getElem?_map, List.getElem?_range hW]
  simp only [Option.map_some]; rfl

theorem kPdep64_get (v : KMask n) {j : Nat} (hj : j < 8) : (kPdep64 v)[j]? = some (boolByte (v.getLsbD j)) := by
  unfold kPdep64
  rw [List.getElem?_append_left (by simp [bytesOf]; omega), pdep64_get _ hj]
  have : j < 64 := by omega
  simp [-BitVec.getLsbD_eq_getElem, this]

theorem kPdep32_get (v : KMask n) {j : Nat} (hj : j < 8) : (kPdep32 v)[j]? = some (boolByte (v.getLsbD j)) := by
  unfold kPdep32
  have hl : (bytesOf (pdep (BitVec.setWidth 32 v) 0x01010101#32)).length = 4 := by simp [bytesOf]
  by_cases h4 : j < 4
  · rw [List.getElem?_append_left (by omega), pdep32_get _ h4]
    have : j < 32 := by omega
    simp [-BitVec.getLsbD_eq_getElem, this]
  · rw [List.getElem?_append_right (by omega), hl, pdep32_get _ (by omega), BitVec.getLsbD_ushiftRight]
    have : 4 + (j - 4) = j := by omega
    have h32 : j < 32 := by omega
    rw [this]; simp [-BitVec.getLsbD_eq_getElem, h32]

theorem k16_tab : ∀ n ≤ 16, ∀ j < 16, (0xffff#32 >>> (16 - n)).getLsbD j = decide (j < n) := by decide +kernel

theorem storeK16_spec (v : KMask n) (h16 : n ≤ 16) (mem : Mem (BitVec 8)) (base : Nat) (hm : ∀ j < n, (mem (base + j)).isSome) :
    ∃ mem', storeK16 v mem base = some mem' ∧ Written (fun i => boolByte (v.getLsbD i)) base 0 n mem mem' := by
  have hmem : ∀ i, i ∈ (List.range 16).filter (fun j => (0xffff#32 >>> (16 - n)).getLsbD j) ↔ i < n := by
    intro i
    rw [List.mem_filter, List.mem_range]
    constructor
    · rintro ⟨h1, h2⟩; rw [k16_tab n h16 i h1] at h2; simpa using h2
    · intro h; exact ⟨by omega, by rw [k16_tab n h16 i (by omega)]; simpa using h⟩
  obtain ⟨mem', e, h⟩ := foldlM_write (fun j => boolByte (v.getLsbD j))
    (fun j => some ((if v.getLsbD j then 1#32 else 0#32 : BitVec 32).setWidth 8)) base _ mem
    (fun i hi => by cases v.getLsbD i <;> rfl) (fun i hi => hm i ((hmem i).1 hi))
  refine ⟨mem', e, fun a => ?_⟩
  rw [h a]
  by_cases hc : base + 0 ≤ a ∧ a < base + 0 + n
  · rw [if_pos hc, if_pos ⟨by omega, (hmem _).2 (by omega)⟩]
  · rw [if_neg hc, if_neg]
    rintro ⟨h1, h2⟩
    have := (hmem _).1 h2
    omega

theorem kMaskedStore_spec (W : Nat) (v k : KMask n) (hk : k.Clean) (hW : n ≤ W) (mem : Mem (BitVec 8)) (base : Nat)
    (hm : ∀ j < n, k.getLsbD j = true → (mem (base + j)).isSome) :
    ∃ mem', kMaskedStore W v k mem base = some mem' ∧
      ∀ a, mem' a = if base ≤ a ∧ a < base + n ∧ k.getLsbD (a - base) then some (boolByte (v.getLsbD (a - base))) else mem a := by
  have hmem : ∀ i, i ∈ (List.range W).filter (fun j => k.getLsbD j) ↔ i < n ∧ k.getLsbD i = true := by
    intro i
    rw [List.mem_filter, List.mem_range]
    constructor
    · rintro ⟨h1, h2⟩
      refine ⟨?_, h2⟩
      by_contra h
      rw [hk i (by omega)] at h2; cases h2
    · rintro ⟨h1, h2⟩; exact ⟨by omega, h2⟩
  obtain ⟨mem', e, h⟩ := foldlM_write (fun j => boolByte (v.getLsbD j))
    (fun j => some (if v.getLsbD j then 1#8 else 0#8)) base _ mem
    (fun i hi => rfl) (fun i hi => hm i ((hmem i).1 hi).1 ((hmem i).1 hi).2)
  refine ⟨mem', e, fun a => ?_⟩
  rw [h a]
  by_cases hc : base ≤ a ∧ a < base + n ∧ k.getLsbD (a - base)
  · rw [if_pos hc, if_pos ⟨by omega, (hmem _).2 ⟨by omega, hc.2.2⟩⟩]
  · rw [if_neg hc, if_neg]
    rintro ⟨h1, h2⟩
    have := (hmem _).1 h2
    exact hc ⟨h1, by omega, this.2⟩

/-! ## loads -/

/-- The `n` cells at `base` hold the `bool`s `b 0`, ..., `b (n - 1)`. -/
def Holds (n : Nat) (b : Nat → Bool) (mem : Mem (BitVec 8)) (base : Nat) : Prop :=
  ∀ i < n, mem (base + i) = some (boolByte (b i))

theorem loadBytes_spec {b : Nat → Bool} {mem : Mem (BitVec 8)} {base : Nat} (h : Holds n b mem base) (W : Nat) :
    ∃ a, loadBytes n W mem base = some a ∧ (∀ j < n, a.getD j 0#8 = boolByte (b j)) ∧ (∀ j, n ≤ j → a.getD j 0#8 = 0#8) ∧
      a.length = n + (W - n) := by
  have e := mapM_some (f := fun i => mem.read (base + i)) (g := fun i => boolByte (b i)) (List.range n)
    (fun i hi => h i (List.mem_range.1 hi))
  refine ⟨_, by unfold loadBytes; rw [e]; rfl, ?_, ?_, ?_⟩
  · intro j hj
    rw [List.getD_eq_getElem?_getD, List.getElem?_append_left (by simpa using hj), List.getElem?_map, List.getElem?_range hj]; rfl
  · intro j hj
    rw [List.getD_eq_getElem?_getD, List.getElem?_append_right (by simpa using hj), List.getElem?_replicate]
    split <;> rfl
  · simp

/-- The lanes are all ones or all zeros, and padding lanes are zero. -/
def VExact {w : Nat} (n full : Nat) (b : Nat → Bool) (v : VMask w) : Prop :=
  v.length = full ∧ ∀ i < full, v[i]? = some (if i < n ∧ b i then BitVec.allOnes w else 0#w)

theorem load64x2_spec {b : Nat → Bool} {mem : Mem (BitVec 8)} {base : Nat} (h : Holds 2 b mem base) :
    ∃ v, load64x2 mem base = some v ∧ VExact 2 2 b v := by
  have h0 := h 0 (by omega)
  have h1 := h 1 (by omega)
  rw [Nat.add_zero] at h0
  refine ⟨_, by unfold load64x2 Mem.read; rw [h0, h1]; rfl, rfl, ?_⟩
  intro i hi
  interval_cases i
  · simp only [List.getElem?_cons_zero, Option.some.injEq]; cases b 0 <;> decide
  · simp only [List.getElem?_cons_succ, List.getElem?_cons_zero, Option.some.injEq]; cases b 1 <;> decide

theorem bool4_test : ∀ j < 4, ∀ b0 b1 b2 b3 : Bool,
    ((join 32 4 (fun i => boolByte ([b0, b1, b2, b3].getD i false)) &&& (1#32 <<< (8 * j)) : BitVec 32) != 0#32)
      = [b0, b1, b2, b3].getD j false := by decide +kernel

theorem join_ones (b : Bool) : (join 64 2 (fun _ => (ones b : BitVec 32)) : BitVec 64) = if b then BitVec.allOnes 64 else 0#64 := by
  cases b <;> decide

theorem load64Avx_spec {b : Nat → Bool} {mem : Mem (BitVec 8)} {base : Nat} (h : Holds n b mem base) (h3 : 3 ≤ n) (h4 : n ≤ 4) :
    ∃ v, load64Avx n mem base = some v ∧ VExact n 4 b v := by
  obtain ⟨a, ea, ha, hz, hl⟩ := loadBytes_spec h 4
  refine ⟨_, by unfold load64Avx; rw [ea]; rfl, rfl, ?_⟩
  have hj : (join 32 4 (fun j => a.getD j 0#8) : BitVec 32)
      = join 32 4 (fun i => boolByte ([b 0, b 1, b 2, decide (n = 4) && b 3].getD i false)) := by
    have e0 := ha 0 (by omega)
    have e1 := ha 1 (by omega)
    have e2 := ha 2 (by omega)
    have e3 : a.getD 3 0#8 = boolByte (decide (n = 4) && b 3) := by
      by_cases hn : n = 4
      · rw [ha 3 (by omega)]; simp [hn]
      · rw [hz 3 (by omega)]; simp [hn, boolByte]
    simp only [join, e0, e1, e2, e3, List.getD_cons_zero, List.getD_cons_succ]
  rw [hj]
  intro i hi
  rw [List.map_map, List.getElem?_map]
  have key : ∀ j < 4, _ := fun j hj => bool4_test j hj (b 0) (b 1) (b 2) (decide (n = 4) && b 3)
  interval_cases i
  · have := key 0 (by omega)
    simp only [List.getElem?_cons_zero, Option.map_some, Function.comp]
    rw [show (1#32 <<< (8 * 0)) = 0x1#32 from rfl] at this
    have hi0 : 0 < n := by omega
    rw [this, join_ones]; simp [hi0]
  · have := key 1 (by omega)
    simp only [List.getElem?_cons_succ, List.getElem?_cons_zero, Option.map_some, Function.comp]
    rw [show (1#32 <<< (8 * 1)) = 0x100#32 from rfl] at this
    have hi0 : 1 < n := by omega
    rw [this, join_ones]; simp [hi0]
  · have := key 2 (by omega)
    simp only [List.getElem?_cons_succ, List.getElem?_cons_zero, Option.map_some, Function.comp]
    rw [show (1#32 <<< (8 * 2)) = 0x10000#32 from rfl] at this
    have hi0 : 2 < n := by omega
    rw [this, join_ones]; simp [hi0]
  · have := key 3 (by omega)
    simp only [List.getElem?_cons_succ, List.getElem?_cons_zero, Option.map_some, Function.comp]
    by_cases hn : n = 4
    · rw [if_pos hn]
      rw [show (1#32 <<< (8 * 3)) = 0x1000000#32 from rfl] at this
      rw [this, join_ones]; simp [hn]
    · rw [if_neg hn, BitVec.and_zero, show (0#32 != 0#32) = false from rfl, join_ones, if_neg (by simp), if_neg (by omega)]

theorem load_byte_eq {b : Nat → Bool} {a : List (BitVec 8)} (ha : ∀ j < n, a.getD j 0#8 = boolByte (b j))
    (hz : ∀ j, n ≤ j → a.getD j 0#8 = 0#8) (i : Nat) : a.getD i 0#8 = boolByte (decide (i < n) && b i) := by
  by_cases hi : i < n
  · rw [ha i hi]; simp [hi]
  · rw [hz i (by omega)]; simp [hi, boolByte]

theorem load32_spec {b : Nat → Bool} {mem : Mem (BitVec 8)} {base : Nat} (m : Nat) (h : Holds n b mem base) :
    ∃ v, load32 m n mem base = some v ∧ VExact n m b v := by
  obtain ⟨a, ea, ha, hz, hl⟩ := loadBytes_spec h (if m = 4 then 4 else 16)
  refine ⟨_, by unfold load32; rw [ea]; rfl, by simp [cmpgt16], ?_⟩
  intro i hi
  unfold cmpgt16
  rw [List.getElem?_map, List.getElem?_map, List.getElem?_range hi]
  simp only [Option.map_some]
  rw [load_byte_eq ha hz i]
  by_cases hin : i < n
  · simp only [hin, decide_true, Bool.true_and, true_and]; cases b i <;> decide
  · simp only [hin, decide_false, Bool.false_and, false_and]; decide

theorem load16_spec {b : Nat → Bool} {mem : Mem (BitVec 8)} {base : Nat} (m : Nat) (hm : m ≤ 16) (h : Holds n b mem base) :
    ∃ v, load16 m n mem base = some v ∧ VExact n m b v := by
  obtain ⟨a, ea, ha, hz, hl⟩ := loadBytes_spec h 16
  refine ⟨_, by unfold load16; rw [ea]; rfl, by simp, ?_⟩
  intro i hi
  rw [List.getElem?_map, List.getElem?_range hi]
  simp only [Option.map_some]
  have : (a.map (fun (x : BitVec 8) => (ones ((0#8).slt x) : BitVec 8))).getD i 0#8 = ones (decide (i < n) && b i) := by
    have hia : i < a.length := by omega
    rw [List.getD_eq_getElem?_getD, List.getElem?_map, List.getElem?_eq_getElem hia]
    have := load_byte_eq ha hz i
    rw [List.getD_eq_getElem?_getD, List.getElem?_eq_getElem hia, Option.getD_some] at this
    rw [Option.map_some, Option.getD_some, this]
    cases (decide (i < n) && b i) <;> rfl
  rw [this]
  by_cases hin : i < n
  · simp only [hin, decide_true, Bool.true_and, true_and]; cases b i <;> decide
  · simp only [hin, decide_false, Bool.false_and, false_and]; decide

theorem loadK_spec {b : Nat → Bool} {mem : Mem (BitVec 8)} {base : Nat} (W ext : Nat) (hW : n ≤ W) (h64 : W ≤ 64)
    (hext : ext = 8 ∨ ext = 32 ∨ ext = 64) (h : Holds n b mem base) :
    ∃ v : KMask n, loadK n W ext mem base = some v ∧ v.Clean ∧ ∀ i < n, v.getLsbD i = b i := by
  obtain ⟨a, ea, ha, hz, hl⟩ := loadBytes_spec h (max W 16)
  have hbit : ∀ i, (join 64 W (fun j => BitVec.ofBool (((a.getD j 0#8).signExtend ext &&& (a.getD j 0#8).signExtend ext) != 0#ext)) :
      BitVec 64).getLsbD i = (decide (i < n) && b i) := by
    intro i
    rw [getLsbD_join (by omega)]
    simp only [Nat.div_one, Nat.mod_one, Nat.one_mul]
    rw [load_byte_eq ha hz i]
    by_cases hin : i < n
    · have h1 : i < 64 := by omega
      have h2 : i < W := by omega
      simp only [hin, h1, h2, decide_true, Bool.true_and, BitVec.and_self]
      rcases hext with rfl | rfl | rfl <;> cases b i <;> decide
    · simp only [hin, decide_false, Bool.false_and, BitVec.and_self]
      rcases hext with rfl | rfl | rfl <;> simp [boolByte]
  refine ⟨_, by unfold loadK; rw [ea]; rfl, ?_, ?_⟩
  · intro i hi
    rw [BitVec.getLsbD_setWidth, hbit i]
    have : ¬ i < n := by omega
    simp [this]
  · intro i hi
    rw [BitVec.getLsbD_setWidth, hbit i]
    have : i < kBits n := by have := bitCeil_ge n; unfold kBits; omega
    simp [this, hi]

theorem maskedLoadBwvl_spec {w : Nat} {b : Nat → Bool} {merge : VMask w} {bits : BitVec 64} {mem : Mem (BitVec 8)} {base : Nat}
    (hw : 8 ≤ w) (h : ∀ i < merge.length, bits.getLsbD i = true → mem (base + i) = some (boolByte (b i))) :
    ∃ v, maskedLoadBwvl merge bits mem base = some v ∧ v.length = merge.length ∧
      ∀ i < merge.length, v[i]? = if bits.getLsbD i then some (if b i then BitVec.allOnes w else 0#w) else merge[i]? := by
  have e := mapM_some (f := fun j => if bits.getLsbD j then mem.read (base + j) else some 0#8)
    (g := fun j => if bits.getLsbD j then boolByte (b j) else 0#8) (List.range merge.length)
    (fun i hi => by
      by_cases hb : bits.getLsbD i = true
      · rw [if_pos hb, if_pos hb]; exact h i (List.mem_range.1 hi) hb
      · rw [if_neg hb, if_neg hb])
  refine ⟨_, by unfold maskedLoadBwvl; rw [e]; rfl, by simp, ?_⟩
  intro i hi
  rw [List.getElem?_mapIdx, List.getElem?_eq_getElem hi]
  simp only [Option.map_some]
  by_cases hb : bits.getLsbD i = true
  · rw [if_pos hb, if_pos hb]
    congr 1
    rw [List.getD_eq_getElem?_getD, List.getElem?_map, List.getElem?_range hi]
    simp only [Option.map_some, Option.getD_some, hb, if_true]
    cases hbi : b i
    · have : (0#8).signExtend w = 0#w := by
        apply BitVec.eq_of_toInt_eq
        rw [BitVec.toInt_signExtend_of_le hw, BitVec.toInt_zero, BitVec.toInt_zero]
      simp [boolByte, this]
    · rw [if_pos rfl]
      apply BitVec.eq_of_toInt_eq
      simp only [boolByte, if_true, BitVec.zero_sub]
      have h1 : (1#8).signExtend w = 1#w := by
        apply BitVec.eq_of_toInt_eq
        rw [BitVec.toInt_signExtend_of_le hw]
        rw [BitVec.toInt_one (by omega), BitVec.toInt_one (by omega)]
      rw [h1, BitVec.neg_one_eq_allOnes]
  · rw [if_neg hb, if_neg hb]

end StdSimd.BoolArray
