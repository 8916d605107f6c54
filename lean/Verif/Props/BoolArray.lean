import Verif.Spec.Bools
import Verif.Proofs.BoolArray
/-!
# Property theorems about masks in memory (C29, C42)

`BoolsAt n b mem base`: the bytes at `base` are the `bool`s `b 0, ..., b (n-1)`; `SameOutside`: no other byte changed;
`Mapped`: the bytes may be accessed (the precondition of `copy_to`/`copy_from`).
-/
namespace StdSimd.Props
open StdSimd Spec BoolArray

private theorem of_written {n : Nat} {b : Nat → Bool} {base : Nat} {mem mem' : Mem (BitVec 8)}
    (h : Written (fun i => boolByte (b i)) base 0 n mem mem') : BoolsAt n b mem' base ∧ SameOutside n mem mem' base := by
  refine ⟨fun i hi => ?_, fun a ha => ?_⟩
  · rw [h, if_pos (by omega)]
    show some (boolByte (b (base + i - base))) = _
    rw [Nat.add_sub_cancel_left]; rfl
  · rw [h, if_neg (by omega)]

/-- C29. `copy_to` of a fixed_size mask writes one `bool` per lane and nothing else, for every number of lanes and on every code
path: multiplication tricks, `pdep`, SSE2 and AVX-512. -/
theorem C29_fixed_size {n : Nat} (h1 : 1 ≤ n) (h64 : n ≤ 64) (p : Path) (x : BitMask n true) (hx : x.Clean)
    (mem : Mem (BitVec 8)) (base : Nat) (hm : Mapped n mem base) :
    ∃ mem', storeFixed p x mem base = some mem' ∧ BoolsAt n x.lane mem' base ∧ SameOutside n mem mem' base := by
  obtain ⟨mem', e, h⟩ := storeFixed_spec p h1 h64 x hx mem base hm
  exact ⟨mem', e, of_written h⟩

/-- Seven lanes `1010011`, memory of seven bytes at 3. -/
example : ∃ mem', storeFixed .generic (BitMask.ofULL 7 true 0b1100101#64)
      (fun a => if 3 ≤ a ∧ a < 10 then some 0xaa#8 else none) 3 = some mem' ∧
      (List.range 12).map mem' = [none, none, none, some 1#8, some 0#8, some 1#8, some 0#8, some 0#8, some 1#8, some 1#8,
        none, none] := by
  refine ⟨_, rfl, ?_⟩
  decide +kernel

/-- C29. The function itself, for its other callers. -/
theorem C29_store_bool_array {n : Nat} (h1 : 1 ≤ n) (h64 : n ≤ 64) (p : Path) (x : BitMask n true) (hx : x.Clean)
    (mem : Mem (BitVec 8)) (base : Nat) (hm : Mapped n mem base) :
    ∃ mem', store p x mem base = some mem' ∧ BoolsAt n x.lane mem' base ∧ SameOutside n mem mem' base := by
  obtain ⟨mem', e, h⟩ := store_spec p h1 h64 x hx mem base hm
  exact ⟨mem', e, of_written h⟩

/-- C29. `copy_to` of a vector mask on x86: the lanes are all ones (true) or all zeros (false), padding lanes are arbitrary. -/
theorem C29_vector (f : VecForm) {n : Nat} (hn : n ≤ f.maxLanes) {b : Nat → Bool} (v : VMask f.width)
    (hv : ∀ i < n, v[i]? = some (if b i then BitVec.allOnes f.width else 0#f.width))
    (mem : Mem (BitVec 8)) (base : Nat) (hm : Mapped n mem base) :
    ∃ mem', storeVec f n v mem base = some mem' ∧ BoolsAt n b mem' base ∧ SameOutside n mem mem' base := by
  have hb : ∀ j < n, (vecBytes f v)[j]? = some ((fun i => boolByte (b i)) (0 + j)) := by
    intro j hj
    rw [Nat.zero_add]
    cases f with
    | sse64 => exact vec64Sse_get hv hj
    | sse32 => exact vec32Sse_get hv hj hn
    | sse16 => exact vec16Sse_get hv hj
    | byte => exact vec8_get hv hj
    | avx64 a => exact vec64Avx_get a hv hj hn
    | avx32 => exact vec32Avx_get hv hj hn
    | avx16 a => exact vec16Avx_get a hv hj
  obtain ⟨mem', e, h⟩ := storeBytes_spec (fun i => boolByte (b i)) (vecBytes f v) n base 0 mem hb hm
  exact ⟨mem', e, of_written h⟩

/-- Three 64-bit lanes in an AVX register, without AVX2; the padding lane holds an arbitrary pattern. -/
example : ∃ mem', storeVec (.avx64 false) 3 [BitVec.allOnes 64, 0#64, BitVec.allOnes 64, 0x123456789abcdef0#64]
      (fun a => if 1 ≤ a ∧ a < 4 then some 0xaa#8 else none) 1 = some mem' ∧
      (List.range 5).map mem' = [none, some 1#8, some 0#8, some 1#8, none] := by
  refine ⟨_, rfl, ?_⟩
  decide +kernel

/-- C29. `copy_to` of an AVX-512 mask; bits beyond the lanes are arbitrary. -/
theorem C29_avx512 (f : KForm) {n : Nat} (hn : n ≤ f.maxLanes) (v : KMask n)
    (mem : Mem (BitVec 8)) (base : Nat) (hm : Mapped n mem base) :
    ∃ mem', storeK f v mem base = some mem' ∧ BoolsAt n (fun i => v.getLsbD i) mem' base ∧ SameOutside n mem mem' base := by
  have hb : ∀ l : List (BitVec 8), (∀ j < n, l[j]? = some (boolByte (v.getLsbD j))) →
      ∃ mem', storeBytes l n mem base = some mem' ∧ BoolsAt n (fun i => v.getLsbD i) mem' base ∧ SameOutside n mem mem' base := by
    intro l hl
    obtain ⟨mem', e, h⟩ := storeBytes_spec (fun i => boolByte (v.getLsbD i)) l n base 0 mem
      (fun j hj => by rw [Nat.zero_add]; exact hl j hj) hm
    exact ⟨mem', e, of_written h⟩
  cases f with
  | bwvl => exact hb _ (fun j hj => kBwvl_get v hj hn)
  | pdep64 => exact hb _ (fun j hj => kPdep64_get v (Nat.lt_of_lt_of_le hj hn))
  | pdep32 => exact hb _ (fun j hj => kPdep32_get v (Nat.lt_of_lt_of_le hj hn))
  | cvt16 =>
    obtain ⟨mem', e, h⟩ := storeK16_spec v hn mem base hm
    exact ⟨mem', e, of_written h⟩

/-- Eight lanes on i386. -/
example : ∃ mem', storeK (n := 8) .pdep32 (0b10110001#8) (fun a => if a < 8 then some 0xaa#8 else none) 0 = some mem' ∧
      (List.range 9).map mem' = [some 1#8, some 0#8, some 0#8, some 0#8, some 1#8, some 1#8, some 0#8, some 1#8, none] := by
  refine ⟨_, rfl, ?_⟩
  decide +kernel

/-- C29. Masked `copy_to` of an AVX-512 mask: exactly the selected bytes are written, no other byte needs to be mapped. -/
theorem C29_avx512_masked {n : Nat} (W : Nat) (hW : n ≤ W) (v k : KMask n) (hk : ∀ i, n ≤ i → k.getLsbD i = false)
    (mem : Mem (BitVec 8)) (base : Nat) (hm : ∀ i < n, k.getLsbD i = true → (mem (base + i)).isSome) :
    ∃ mem', kMaskedStore W v k mem base = some mem' ∧
      ∀ a, mem' a = if base ≤ a ∧ a < base + n ∧ k.getLsbD (a - base) then some (if v.getLsbD (a - base) then 1#8 else 0#8)
        else mem a :=
  kMaskedStore_spec W v k hk hW mem base hm

/-- Two of four bytes are mapped and selected. -/
example : ∃ mem', kMaskedStore (n := 4) 16 (0b0101#8) (0b0110#8) (fun a => if a = 1 ∨ a = 2 then some 0xaa#8 else none) 0
      = some mem' ∧ (List.range 4).map mem' = [none, some 0#8, some 1#8, none] := by
  refine ⟨_, rfl, ?_⟩
  decide +kernel

/-! ## C42: loading masks from arrays of `bool` -/

/-- C42. `copy_from` of vector masks on x86: lane `i` is `mem[i]`, only `n` bytes are read (no other byte needs to be mapped),
padding lanes become zero.  Two 64-bit lanes. -/
theorem C42_vector64x2 {b : Nat → Bool} {mem : Mem (BitVec 8)} {base : Nat} (h : BoolsAt 2 b mem base) :
    ∃ v, load64x2 mem base = some v ∧ v = (List.range 2).map (fun i => if b i then BitVec.allOnes 64 else 0#64) := by
  obtain ⟨v, e, hl, hv⟩ := load64x2_spec h
  refine ⟨v, e, List.ext_getElem? fun i => ?_⟩
  by_cases hi : i < 2
  · rw [hv i hi]; simp [hi]
  · rw [List.getElem?_eq_none (by omega), List.getElem?_eq_none (by simp; omega)]

private theorem of_exact {w n full : Nat} {b : Nat → Bool} {v : VMask w} (h : VExact n full b v) :
    v = (List.range full).map (fun i => if i < n ∧ b i then BitVec.allOnes w else 0#w) := by
  refine List.ext_getElem? fun i => ?_
  by_cases hi : i < full
  · rw [h.2 i hi]; simp [hi]
  · rw [List.getElem?_eq_none (by rw [h.1]; omega), List.getElem?_eq_none (by simp; omega)]

/-- C42. Three or four 64-bit lanes with AVX. -/
theorem C42_vector64 {n : Nat} (h3 : 3 ≤ n) (h4 : n ≤ 4) {b : Nat → Bool} {mem : Mem (BitVec 8)} {base : Nat}
    (h : BoolsAt n b mem base) :
    ∃ v, load64Avx n mem base = some v ∧
      v = (List.range 4).map (fun i => if i < n ∧ b i then BitVec.allOnes 64 else 0#64) := by
  obtain ⟨v, e, hv⟩ := load64Avx_spec h h3 h4
  exact ⟨v, e, of_exact hv⟩

/-- C42. 32-bit lanes in registers of `full` = 4 or 8 lanes. -/
theorem C42_vector32 {n full : Nat} {b : Nat → Bool} {mem : Mem (BitVec 8)} {base : Nat}
    (h : BoolsAt n b mem base) :
    ∃ v, load32 full n mem base = some v ∧
      v = (List.range full).map (fun i => if i < n ∧ b i then BitVec.allOnes 32 else 0#32) := by
  obtain ⟨v, e, hv⟩ := load32_spec full h
  exact ⟨v, e, of_exact hv⟩

/-- C42. 16-bit lanes in registers of `full` = 8 or 16 lanes. -/
theorem C42_vector16 {n full : Nat} (hf : full ≤ 16) {b : Nat → Bool} {mem : Mem (BitVec 8)} {base : Nat}
    (h : BoolsAt n b mem base) :
    ∃ v, load16 full n mem base = some v ∧
      v = (List.range full).map (fun i => if i < n ∧ b i then BitVec.allOnes 16 else 0#16) := by
  obtain ⟨v, e, hv⟩ := load16_spec full hf h
  exact ⟨v, e, of_exact hv⟩

/-- Three lanes; exactly three bytes are mapped. -/
example : load32 4 3 (fun a => if a = 5 then some 1#8 else if a = 6 then some 0#8 else if a = 7 then some 1#8 else none) 5
    = some [BitVec.allOnes 32, 0#32, BitVec.allOnes 32, 0#32] := by decide +kernel

/-- C42. AVX-512 masks: only `n` bytes are read and no phantom lane is set; `ext` is the element width of the test. -/
theorem C42_avx512 {n W ext : Nat} (hW : n ≤ W) (h64 : W ≤ 64) (hext : ext = 8 ∨ ext = 32 ∨ ext = 64) {b : Nat → Bool}
    {mem : Mem (BitVec 8)} {base : Nat} (h : BoolsAt n b mem base) :
    ∃ v : KMask n, loadK n W ext mem base = some v ∧ (∀ i < n, v.getLsbD i = b i) ∧ ∀ i, n ≤ i → v.getLsbD i = false := by
  obtain ⟨v, e, h1, h2⟩ := loadK_spec W ext hW h64 hext h
  exact ⟨v, e, h2, h1⟩

example : loadK 5 8 64 (fun a => if a < 5 then some (if a % 2 = 0 then 1#8 else 0#8) else none) 0 = some (0b10101#(kBits 5)) := by
  decide +kernel

/-- C42. Masked `copy_from` of vector masks with AVX512BW+VL: selected lanes are `mem[i]`, the others are unchanged, and only
selected bytes are read. -/
theorem C42_masked {w : Nat} (hw : 8 ≤ w) {b : Nat → Bool} {merge : VMask w} {bits : BitVec 64} {mem : Mem (BitVec 8)} {base : Nat}
    (h : ∀ i < merge.length, bits.getLsbD i = true → mem (base + i) = some (if b i then 1#8 else 0#8)) :
    ∃ v, maskedLoadBwvl merge bits mem base = some v ∧ v.length = merge.length ∧
      ∀ i < merge.length, v[i]? = if bits.getLsbD i then some (if b i then BitVec.allOnes w else 0#w) else merge[i]? :=
  maskedLoadBwvl_spec hw h

example : maskedLoadBwvl [0#16, BitVec.allOnes 16, 0#16, BitVec.allOnes 16] 0b0110#64
    (fun a => if a = 1 then some 0#8 else if a = 2 then some 1#8 else none) 0
    = some [0#16, 0#16, BitVec.allOnes 16, BitVec.allOnes 16] := by decide +kernel

end StdSimd.Props
