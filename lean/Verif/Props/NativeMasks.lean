import Verif.Proofs.VMaskMem
import Verif.Proofs.KMask
import Verif.Proofs.MaskConst
import Verif.Props.Masks
/-!
# Property theorems about native masks (C13, C14, C30, C31, C32, C41)

A vector mask (`VMask w`) is a register of `full` elements of `w` bits whose first `n` elements are lanes;
`VMask.Wf` is the representation promise (each lane all-zeros or all-ones, *no* promise about padding).  An
AVX-512 mask (`KMask n`) is an integer of at least `n` bits; `KMask.Clean` says that no bit at a position `≥ n`
is set.  `lanes` is what `operator[]` returns, lane by lane.
-/
namespace StdSimd.Props
open StdSimd

variable {w n full : Nat}

/-! ## C41: operators on native masks -/

section VecOps
open VMask

/-- C41. `simd_mask(bool)` of a vector mask. -/
theorem C41_vec_broadcast (hw : 0 < w) (hn : n ≤ full) (b : Bool) :
    Wf n full (VMask.broadcast w n full b) ∧ VMask.lanes n (VMask.broadcast w n full b) = List.replicate n b :=
  have h := VMask.rep_broadcast (w := w) b hn
  ⟨h.wf, h.lanes_eq hw⟩

/-- C41. `!x`: lane-wise negation. -/
theorem C41_vec_not (hw : 0 < w) (hn : n ≤ full) {x : VMask w} (hx : Wf n full x) :
    Wf n full (VMask.not n full x) ∧ VMask.lanes n (VMask.not n full x) = (VMask.lanes n x).map (!·) :=
  have h := VMask.rep_not (hx.rep hw hn)
  ⟨h.wf, h.lanes_eq hw⟩

/-- C41. `x & y`, `x && y`. -/
theorem C41_vec_and (hw : 0 < w) (hn : n ≤ full) {x y : VMask w} (hx : Wf n full x) (hy : Wf n full y) :
    Wf n full (VMask.and x y) ∧
      VMask.lanes n (VMask.and x y) = List.zipWith (· && ·) (VMask.lanes n x) (VMask.lanes n y) :=
  have h := rep_zipWith _ _ elem_and (hx.rep hw hn) (hy.rep hw hn)
  ⟨h.wf, h.lanes_eq hw⟩

/-- C41. `x | y`, `x || y`. -/
theorem C41_vec_or (hw : 0 < w) (hn : n ≤ full) {x y : VMask w} (hx : Wf n full x) (hy : Wf n full y) :
    Wf n full (VMask.or x y) ∧
      VMask.lanes n (VMask.or x y) = List.zipWith (· || ·) (VMask.lanes n x) (VMask.lanes n y) :=
  have h := rep_zipWith _ _ elem_or (hx.rep hw hn) (hy.rep hw hn)
  ⟨h.wf, h.lanes_eq hw⟩

/-- C41. `x ^ y`. -/
theorem C41_vec_xor (hw : 0 < w) (hn : n ≤ full) {x y : VMask w} (hx : Wf n full x) (hy : Wf n full y) :
    Wf n full (VMask.xor x y) ∧
      VMask.lanes n (VMask.xor x y) = List.zipWith Bool.xor (VMask.lanes n x) (VMask.lanes n y) :=
  have h := rep_zipWith _ _ elem_xor (hx.rep hw hn) (hy.rep hw hn)
  ⟨h.wf, h.lanes_eq hw⟩

/-- C41. `x != y`. -/
theorem C41_vec_neq (hw : 0 < w) (hn : n ≤ full) {x y : VMask w} (hx : Wf n full x) (hy : Wf n full y) :
    Wf n full (VMask.neq x y) ∧
      VMask.lanes n (VMask.neq x y) = List.zipWith (· != ·) (VMask.lanes n x) (VMask.lanes n y) :=
  C41_vec_xor hw hn hx hy

/-- C41. `x == y`. -/
theorem C41_vec_eq (hw : 0 < w) (hn : n ≤ full) {x y : VMask w} (hx : Wf n full x) (hy : Wf n full y) :
    Wf n full (VMask.eq n full x y) ∧
      VMask.lanes n (VMask.eq n full x y) = List.zipWith (· == ·) (VMask.lanes n x) (VMask.lanes n y) := by
  have h1 := C41_vec_neq hw hn hx hy
  have h2 := C41_vec_not hw hn h1.1
  refine ⟨h2.1, ?_⟩
  unfold VMask.eq
  rw [h2.2, h1.2, List.map_zipWith]
  congr 1; funext a b; cases a <;> cases b <;> rfl

/-- C41. `x[i] = b`. -/
theorem C41_vec_set (hw : 0 < w) (hn : n ≤ full) {x : VMask w} (hx : Wf n full x) {i : Nat} (hi : i < n) (b : Bool) :
    Wf n full (VMask.set x i b) ∧ VMask.lanes n (VMask.set x i b) = (VMask.lanes n x).set i b :=
  have h := VMask.rep_set hw (hx.rep hw hn) hi b
  ⟨h.wf, h.lanes_eq hw⟩

/-- C41. `where(k, x) = y`. -/
theorem C41_vec_masked_assign (hw : 0 < w) (hn : n ≤ full) {k x y : VMask w} (hk : Wf n full k) (hx : Wf n full x)
    (hy : Wf n full y) :
    Wf n full (VMask.maskedAssign k x y) ∧
      VMask.lanes n (VMask.maskedAssign k x y) = Spec.select (VMask.lanes n k) (VMask.lanes n y) (VMask.lanes n x) :=
  have h := rep_blend hw (hk.rep hw hn) (hx.rep hw hn) (hy.rep hw hn)
  ⟨h.wf, h.lanes_eq hw⟩

/-- C41. `where(k, x) = bool`, whether or not the compiler knows the value. -/
theorem C41_vec_masked_assign_bool (hw : 0 < w) (hn : n ≤ full) (const : Bool) {k x : VMask w} (hk : Wf n full k)
    (hx : Wf n full x) (b : Bool) :
    Wf n full (VMask.maskedAssignBool n full const k x b) ∧
      VMask.lanes n (VMask.maskedAssignBool n full const k x b)
        = Spec.select (VMask.lanes n k) (List.replicate n b) (VMask.lanes n x) :=
  have h := VMask.rep_maskedAssignBool hw const (hk.rep hw hn) (hx.rep hw hn) b
  ⟨h.wf, h.lanes_eq hw⟩

-- non-vacuity: 3 lanes in a 4-element register whose padding element holds neither 0 nor -1
example : Wf 3 4 ([0#8, -1#8, -1#8, 0x5a#8] : VMask 8) ∧
    VMask.lanes 3 (VMask.not 3 4 ([0#8, -1#8, -1#8, 0x5a#8] : VMask 8)) = [true, false, false] := by
  refine ⟨⟨rfl, by decide⟩, by decide⟩
example : VMask.lanes 3 (VMask.eq 3 4 ([0#8, -1#8, -1#8, 0x5a#8] : VMask 8) [0#8, 0#8, -1#8, 0#8])
    = [true, false, true] := by decide

end VecOps

section KOps
open KMask

/-- C41. `simd_mask(bool)` of an AVX-512 mask has no phantom lanes. -/
theorem C41_k_broadcast (h1 : 1 ≤ n) (h : n ≤ 64) (b : Bool) :
    (KMask.broadcast n b).Clean ∧ KMask.lanes (KMask.broadcast n b) = List.replicate n b :=
  have r := KMask.rep_broadcast h1 h b
  ⟨r.clean, r.lanes_eq⟩

/-- C41. `!x`. The result has no phantom lanes *whatever* the unused bits of `x` are. -/
theorem C41_k_not (h : n ≤ 64) (x : KMask n) :
    (KMask.not x).Clean ∧ KMask.lanes (KMask.not x) = (KMask.lanes x).map (!·) := by
  refine ⟨fun i hi => ?_, KMask.lanes_ext _ _ (by simp [KMask.lanes]) fun i hi => ?_⟩
  · rw [KMask.getLsbD_not h]; simp; omega
  · rw [KMask.getLsbD_not h, KMask.bit_map _ _ (by rw [KMask.length_lanes]; exact hi), KMask.bit_lanes]; simp [hi]

/-- C41. `x & y`, `x && y`; one clean operand suffices. -/
theorem C41_k_and (x y : KMask n) (hc : x.Clean ∨ y.Clean) :
    (KMask.and x y).Clean ∧ KMask.lanes (KMask.and x y) = List.zipWith (· && ·) (KMask.lanes x) (KMask.lanes y) := by
  refine ⟨fun i hi => ?_, KMask.lanes_ext _ _ (by simp [KMask.lanes]) fun i hi => ?_⟩
  · unfold KMask.and; rw [BitVec.getLsbD_and]
    rcases hc with h | h <;> rw [h i hi] <;> simp
  · unfold KMask.and
    rw [KMask.bit_zipWith _ _ _ (by rw [KMask.length_lanes]; exact hi) (by rw [KMask.length_lanes]; exact hi),
      KMask.bit_lanes, KMask.bit_lanes, BitVec.getLsbD_and]; simp [hi]

/-- C41. `x | y`, `x || y`. -/
theorem C41_k_or (x y : KMask n) (hx : x.Clean) (hy : y.Clean) :
    (KMask.or x y).Clean ∧ KMask.lanes (KMask.or x y) = List.zipWith (· || ·) (KMask.lanes x) (KMask.lanes y) :=
  have r := KMask.rep_zip (r := KMask.or x y) (· || ·) rfl (fun i => BitVec.getLsbD_or) ((KMask.rep_iff x).2 hx) ((KMask.rep_iff y).2 hy)
  ⟨r.clean, r.lanes_eq⟩

/-- C41. `x ^ y`. -/
theorem C41_k_xor (x y : KMask n) (hx : x.Clean) (hy : y.Clean) :
    (KMask.xor x y).Clean ∧ KMask.lanes (KMask.xor x y) = List.zipWith Bool.xor (KMask.lanes x) (KMask.lanes y) :=
  have r := KMask.rep_zip (r := KMask.xor x y) Bool.xor rfl (fun i => BitVec.getLsbD_xor) ((KMask.rep_iff x).2 hx) ((KMask.rep_iff y).2 hy)
  ⟨r.clean, r.lanes_eq⟩

/-- C41. `x != y`. -/
theorem C41_k_neq (x y : KMask n) (hx : x.Clean) (hy : y.Clean) :
    (KMask.neq x y).Clean ∧ KMask.lanes (KMask.neq x y) = List.zipWith (· != ·) (KMask.lanes x) (KMask.lanes y) :=
  C41_k_xor x y hx hy

/-- C41. `x == y`. -/
theorem C41_k_eq (h : n ≤ 64) (x y : KMask n) (hx : x.Clean) (hy : y.Clean) :
    (KMask.eq x y).Clean ∧ KMask.lanes (KMask.eq x y) = List.zipWith (· == ·) (KMask.lanes x) (KMask.lanes y) := by
  refine ⟨(C41_k_not h _).1, ?_⟩
  unfold KMask.eq
  rw [(C41_k_not h _).2, (C41_k_neq x y hx hy).2, List.map_zipWith]
  congr 1; funext a b; cases a <;> cases b <;> rfl

/-- C41. `x[i] = b`. -/
theorem C41_k_set (x : KMask n) (hx : x.Clean) {i : Nat} (hi : i < n) (b : Bool) :
    (KMask.set x i b).Clean ∧ KMask.lanes (KMask.set x i b) = (KMask.lanes x).set i b :=
  have r := KMask.rep_set ((KMask.rep_iff x).2 hx) hi b
  ⟨r.clean, r.lanes_eq⟩

/-- C41. `where(k, x) = y`. -/
theorem C41_k_masked_assign (k x y : KMask n) (hk : k.Clean) (hx : x.Clean) (hy : y.Clean) :
    (KMask.maskedAssign k x y).Clean ∧
      KMask.lanes (KMask.maskedAssign k x y) = Spec.select (KMask.lanes k) (KMask.lanes y) (KMask.lanes x) :=
  have r := KMask.rep_maskedAssign ((KMask.rep_iff k).2 hk) ((KMask.rep_iff x).2 hx) ((KMask.rep_iff y).2 hy)
  ⟨r.clean, r.lanes_eq⟩

/-- C41. `where(k, x) = bool`. -/
theorem C41_k_masked_assign_bool (k x : KMask n) (hk : k.Clean) (hx : x.Clean) (b : Bool) :
    (KMask.maskedAssignBool k x b).Clean ∧
      KMask.lanes (KMask.maskedAssignBool k x b) = Spec.select (KMask.lanes k) (List.replicate n b) (KMask.lanes x) :=
  have r := KMask.rep_maskedAssignBool ((KMask.rep_iff k).2 hk) ((KMask.rep_iff x).2 hx) b
  ⟨r.clean, r.lanes_eq⟩

-- non-vacuity: a 5-lane mask in an 8-bit word
example : KMask.Clean (n := 5) 0b01101#8 ∧ KMask.lanes (n := 5) (KMask.not (n := 5) 0b01101#8) = [false, true, false, false, true] := by
  constructor
  · intro i hi
    rcases Nat.lt_or_ge i 8 with h | h
    · have : ∀ j < 8, 5 ≤ j → (0b01101#8).getLsbD j = false := by decide
      exact this i h hi
    · exact BitVec.getLsbD_of_ge _ _ h
  · decide

end KOps

/-! ## C30: changes of representation -/

/-- C30. Vector mask to bit mask, generic code: the bit mask has the same lanes and no phantom bits. -/
theorem C30_vec_to_bits (hw : 0 < w) (hw64 : w ≤ 64) (h1 : 1 ≤ n) (h : n ≤ 64) (hn : n ≤ full) {x : VMask w}
    (hx : VMask.Wf n full x) : (VMask.toBits n x).lanes = VMask.lanes n x ∧ (VMask.toBits n x).Clean :=
  VMask.toBits_spec hw hw64 h1 h (hx.rep hw hn)

/-- C30. Vector mask to bit mask on x86, constant-folding branch. -/
theorem C30_x86_to_bits_const (hw : 2 ≤ w) (hw64 : w ≤ 64) (h1 : 1 ≤ n) (h : n ≤ 64) (hn : n ≤ full) {x : VMask w}
    (hx : VMask.Wf n full x) :
    (VMask.x86ToBitsConst n x).lanes = VMask.lanes n x ∧ (VMask.x86ToBitsConst n x).Clean :=
  VMask.x86ToBitsConst_spec (by omega) hw64 h1 h (hx.rep (by omega) hn) hw

/-- C30. Vector mask to bit mask on x86, the `movemask`/`movepi*_mask`/`cmp` branches; padding elements of the
register may hold anything. -/
theorem C30_x86_to_bits_sign (hw : 0 < w) (h1 : 2 ≤ n) (h : n ≤ 64) (hn : n ≤ full) (isInt : Bool)
    (h32 : isInt = true → n ≤ 32) {x : VMask w} (hx : VMask.Wf n full x) :
    (VMask.x86ToBitsSign n isInt x).lanes = VMask.lanes n x ∧ (VMask.x86ToBitsSign n isInt x).Clean :=
  VMask.x86ToBitsSign_spec hw h1 h isInt h32 (hx.rep hw hn)

/-- C30. Vector mask to bit mask on x86, 16-bit elements through `packs`. -/
theorem C30_x86_to_bits_16 (h1 : 2 ≤ n) (h : n ≤ 16) (hn : n ≤ full) (hf : full ≤ 16) {x : VMask 16}
    (hx : VMask.Wf n full x) : (VMask.x86ToBits16 n x).lanes = VMask.lanes n x ∧ (VMask.x86ToBits16 n x).Clean :=
  VMask.x86ToBits16_spec h1 h hf (hx.rep (by omega) hn)

/-- C30. Bit mask (sanitised or not, any unused bits) to vector mask: same lanes, every lane all-zeros or
all-ones, padding elements zero. -/
theorem C30_bits_to_vec (hw : 0 < w) (h1 : 1 ≤ n) (hn : n ≤ full) {s : Bool} (x : BitMask n s) :
    ∃ v, VMask.ofBits w full x = some v ∧ VMask.Wf n full v ∧ VMask.lanes n v = x.lanes ∧
      ∀ i, n ≤ i → i < full → v[i]? = some 0#w := by
  obtain ⟨v, e, r, p⟩ := VMask.ofBits_spec (w := w) h1 hn x
  exact ⟨v, e, r.wf, r.lanes_eq hw, p⟩

/-- C30. Vector mask to vector mask of another element width and register size. -/
theorem C30_vec_to_vec {w' full' : Nat} (hw : 0 < w) (hw' : 0 < w') (hn : n ≤ full) (hn' : n ≤ full') {x : VMask w}
    (hx : VMask.Wf n full x) :
    VMask.Wf n full' (VMask.ofVector w' full' n x) ∧
      VMask.lanes n (VMask.ofVector w' full' n x) = VMask.lanes n x :=
  have r := VMask.ofVector_spec (w' := w') hw (hx.rep hw hn) hn'
  ⟨r.wf, r.lanes_eq hw'⟩

/-- C30. `bool` (one-lane mask) to vector mask. -/
theorem C30_bool_to_vec (hw : 0 < w) (hf : 1 ≤ full) (b : Bool) :
    VMask.Wf 1 full (VMask.ofBool w full b) ∧ VMask.lanes 1 (VMask.ofBool w full b) = [b] :=
  have r := VMask.ofBool_spec (w := w) full hf b
  ⟨r.wf, r.lanes_eq hw⟩

/-- C30. AVX-512 mask to bit mask; the unused bits of the word may hold anything. -/
theorem C30_k_to_bits (h1 : 2 ≤ n) (h : n ≤ 64) (k : KMask n) :
    (KMask.toBits k).lanes = KMask.lanes k ∧ (KMask.toBits k).Clean := KMask.toBits_spec h1 h k

/-- C30. Bit mask to AVX-512 mask. -/
theorem C30_bits_to_k (h1 : 1 ≤ n) (h : n ≤ 64) (x : BitMask n true) (hx : x.Clean) :
    ∃ k, KMask.ofBits x = some k ∧ k.Clean ∧ KMask.lanes k = x.lanes := by
  obtain ⟨k, e, r⟩ := KMask.ofBits_spec h1 h x hx
  exact ⟨k, e, r.clean, r.lanes_eq⟩

/-- C30. Round trip vector → bits → vector of any other width keeps the lanes. -/
theorem C30_vec_bits_vec {w' full' : Nat} (hw : 0 < w) (hw64 : w ≤ 64) (hw' : 0 < w') (h1 : 1 ≤ n) (h : n ≤ 64) (hn : n ≤ full)
    (hn' : n ≤ full') {x : VMask w} (hx : VMask.Wf n full x) :
    ∃ v : VMask w', VMask.ofBits w' full' (VMask.toBits n x) = some v ∧ VMask.Wf n full' v ∧
      VMask.lanes n v = VMask.lanes n x := by
  obtain ⟨v, e, r, l, _⟩ := C30_bits_to_vec (w := w') hw' h1 hn' (VMask.toBits n x)
  exact ⟨v, e, r, by rw [l, (C30_vec_to_bits hw hw64 h1 h hn hx).1]⟩

/-- C30. `copy_from(const bool*)` of a vector mask reads exactly `n` cells and every lane holds its cell. -/
theorem C30_vec_load (hw : 0 < w) (hn : n ≤ full) (mem : Mem Bool) (base : Nat) (f : Nat → Bool)
    (hm : ∀ i < n, mem (base + i) = some (f i)) :
    ∃ r, VMask.load w n full mem base = some r ∧ VMask.Wf n full r ∧ VMask.lanes n r = (List.range n).map f := by
  obtain ⟨r, e, hr⟩ := VMask.load_spec (w := w) hn mem base f hm
  exact ⟨r, e, hr.wf, hr.lanes_eq hw⟩

/-- C30. `copy_from(const bool*)` of an AVX-512 mask. -/
theorem C30_k_load (mem : Mem Bool) (base : Nat) (f : Nat → Bool) (hm : ∀ i < n, mem (base + i) = some (f i)) :
    ∃ r, KMask.load n mem base = some r ∧ r.Clean ∧ KMask.lanes r = (List.range n).map f := by
  obtain ⟨r, e, hr⟩ := KMask.load_spec mem base f hm
  exact ⟨r, e, hr.clean, hr.lanes_eq⟩

-- non-vacuity: 5 lanes, cells outside 100..104 unmapped
example : ∃ r, KMask.load 5 (fun a => if 100 ≤ a ∧ a < 105 then some (a % 2 == 0) else none) 100 = some r ∧ r.Clean ∧
    KMask.lanes r = [true, false, true, false, true] :=
  C30_k_load (n := 5) _ 100 (fun i => i % 2 == 0) (by decide)
example : (VMask.x86ToBitsSign 3 true ([-1#32, 0#32, -1#32, -1#32] : VMask 32)).lanes = [true, false, true] := by decide

/-! ## C31: reductions of native masks -/

section Red
variable {k : VMask w}

/-- C31. Generic `all_of`, `any_of`, `none_of`, whatever padding elements contain. -/
theorem C31_vec_all_any_none (hw : 0 < w) (hn : n ≤ full) (hk : VMask.Wf n full k) :
    (VMask.allOf n k = true ↔ Spec.allOf (VMask.lanes n k)) ∧
    (VMask.anyOf n k = true ↔ Spec.anyOf (VMask.lanes n k)) ∧
    (VMask.noneOf n k = true ↔ Spec.noneOf (VMask.lanes n k)) :=
  ⟨VMask.allOf_spec hw (hk.rep hw hn), VMask.anyOf_spec hw (hk.rep hw hn), VMask.noneOf_spec hw (hk.rep hw hn)⟩

/-- C31. Generic `popcount` (a sum of `w`-bit lanes): exact as long as the count fits the element type, which
holds for every register of the library (`n ≤ 64 ≤ 2^7`). -/
theorem C31_vec_popcount (hw : 8 ≤ w) (h64 : n ≤ 64) (hn : n ≤ full) (hk : VMask.Wf n full k) :
    VMask.popcount n k = (Spec.popcount (VMask.lanes n k) : Int) := by
  refine VMask.popcount_spec (by omega) ?_ (hk.rep (by omega) hn)
  calc n ≤ 2 ^ 7 := by omega
    _ ≤ 2 ^ (w - 1) := Nat.pow_le_pow_right (by omega) (by omega)

/-- C31. Generic `some_of`. -/
theorem C31_vec_some_of (hw : 8 ≤ w) (h64 : n ≤ 64) (hn : n ≤ full) (hk : VMask.Wf n full k) :
    VMask.someOf n k = true ↔ Spec.someOf (VMask.lanes n k) := by
  refine VMask.someOf_spec (by omega) ?_ (hk.rep (by omega) hn)
  calc n ≤ 2 ^ 7 := by omega
    _ ≤ 2 ^ (w - 1) := Nat.pow_le_pow_right (by omega) (by omega)

/-- C31. `find_first_set` and `find_last_set` of a vector mask, through its bit mask (generic `to_bits`; the x86
variants of `to_bits` have the same property by C30). -/
theorem C31_vec_find (hw : 0 < w) (hw64 : w ≤ 64) (h1 : 1 ≤ n) (h : n ≤ 64) (hn : n ≤ full) (hk : VMask.Wf n full k)
    (hne : Spec.anyOf (VMask.lanes n k)) :
    (∃ i, VMask.findFirstSet n (VMask.toBits n k) = some i ∧ Spec.IsFirstSet (VMask.lanes n k) i) ∧
    (∃ i : Nat, VMask.findLastSet n (VMask.toBits n k) = some (i : Int) ∧ Spec.IsLastSet (VMask.lanes n k) i) := by
  have hb := C30_vec_to_bits hw hw64 h1 h hn hk
  rw [← hb.1] at hne ⊢
  exact ⟨C03_find_first_set h1 h _ hb.2 hne, C03_find_last_set h1 h _ hb.2 hne⟩

/-- C31. The same through the x86 `to_bits` branches. -/
theorem C31_x86_find (hw : 0 < w) (h1 : 2 ≤ n) (h : n ≤ 64) (hn : n ≤ full) (isInt : Bool)
    (h32 : isInt = true → n ≤ 32) (hk : VMask.Wf n full k) (hne : Spec.anyOf (VMask.lanes n k)) :
    (∃ i, VMask.findFirstSet n (VMask.x86ToBitsSign n isInt k) = some i ∧ Spec.IsFirstSet (VMask.lanes n k) i) ∧
    (∃ i : Nat, VMask.findLastSet n (VMask.x86ToBitsSign n isInt k) = some (i : Int) ∧
      Spec.IsLastSet (VMask.lanes n k) i) := by
  have hb := C30_x86_to_bits_sign hw h1 h hn isInt h32 hk
  rw [← hb.1] at hne ⊢
  exact ⟨C03_find_first_set (by omega) h _ hb.2 hne, C03_find_last_set (by omega) h _ hb.2 hne⟩

/-- C31. x86 `all_of`, `any_of`, `none_of`, `some_of` for vector masks: the `ptest` forms (`sse41`) and the
`movemask` forms (SSE2 only, 16-byte registers), for integer and floating-point element types. -/
theorem C31_x86_reductions (h8 : 8 ∣ w) (hw : 0 < w) (hn : n ≤ full) (sse41 fp signOnly : Bool)
    (hsse : sse41 = false → full * w ≤ 128) (hk : VMask.Wf n full k) :
    (VMask.x86AllOf sse41 fp signOnly n full k = true ↔ Spec.allOf (VMask.lanes n k)) ∧
    (VMask.x86AnyOf sse41 fp signOnly n full k = true ↔ Spec.anyOf (VMask.lanes n k)) ∧
    (VMask.x86NoneOf sse41 fp signOnly n full k = true ↔ Spec.noneOf (VMask.lanes n k)) ∧
    (VMask.x86SomeOf sse41 fp signOnly n full k = true ↔ Spec.someOf (VMask.lanes n k)) := by
  have hs : sse41 = false → VMask.sseBits fp w n ≤ 16 := by
    intro e
    have h := hsse e
    obtain ⟨c, rfl⟩ := h8
    unfold VMask.sseBits
    rw [Nat.mul_div_cancel_left _ (by omega)]
    have hc : 0 < c := by omega
    have e1 : n * c ≤ full * c := Nat.mul_le_mul_right _ hn
    have e2 : n * 1 ≤ n * c := Nat.mul_le_mul_left _ hc
    have e3 : full * (8 * c) = 8 * (full * c) := by rw [Nat.mul_left_comm]
    split <;> omega
  have r := hk.rep hw hn
  exact ⟨VMask.x86AllOf_spec h8 hw _ _ _ r hs, VMask.x86AnyOf_spec h8 hw _ _ _ r hs,
    VMask.x86NoneOf_spec h8 hw _ _ _ r hs, VMask.x86SomeOf_spec h8 hw _ _ _ r hs⟩

/-- C31. x86 `popcount` with the POPCNT instruction (registers up to 32 bytes; wider ones are bit masks). -/
theorem C31_x86_popcount_popcnt (h8 : 8 ∣ w) (hw : 0 < w) (hn : n ≤ full) (fp : Bool) (h32 : full * w ≤ 256)
    (hk : VMask.Wf n full k) : VMask.x86PopcountPopcnt fp n full k = Spec.popcount (VMask.lanes n k) :=
  VMask.x86PopcountPopcnt_spec h8 hw fp (hk.rep hw hn) h32

end Red

/-- C31. x86 `popcount` without POPCNT: 2 lanes of 8 bytes. -/
theorem C31_x86_popcount_8x2 {k : VMask 64} (hk : VMask.Wf 2 2 k) :
    VMask.x86Popcount8x2 2 k = (Spec.popcount (VMask.lanes 2 k) : Int) :=
  VMask.x86Popcount8x2_spec (hk.rep (by omega) (by omega))
/-- C31. 3 or 4 lanes of 8 bytes. -/
theorem C31_x86_popcount_8x4 (hn : n ≤ 4) {k : VMask 64} (hk : VMask.Wf n 4 k) :
    VMask.x86Popcount8x4 n 4 k = (Spec.popcount (VMask.lanes n k) : Int) :=
  VMask.x86Popcount8x4_spec (hk.rep (by omega) hn)
/-- C31. Up to 4 lanes of 4 bytes (8- and 16-byte registers). -/
theorem C31_x86_popcount_4x4 (hn : n ≤ full) (hf : full ≤ 4) {k : VMask 32} (hk : VMask.Wf n full k) :
    VMask.x86Popcount4x4 n full k = (Spec.popcount (VMask.lanes n k) : Int) :=
  VMask.x86Popcount4x4_spec (hk.rep (by omega) hn) hf
/-- C31. Up to 8 lanes of 2 bytes. -/
theorem C31_x86_popcount_2x8 (hn : n ≤ full) (hf : full ≤ 8) {k : VMask 16} (hk : VMask.Wf n full k) :
    VMask.x86Popcount2x8 n full k = (Spec.popcount (VMask.lanes n k) : Int) :=
  VMask.x86Popcount2x8_spec (hk.rep (by omega) hn) hf
/-- C31. Up to 16 lanes of 1 byte. -/
theorem C31_x86_popcount_1x16 (hn : n ≤ full) (hf : full ≤ 16) {k : VMask 8} (hk : VMask.Wf n full k) :
    VMask.x86Popcount1x16 n full k = Spec.popcount (VMask.lanes n k) :=
  VMask.x86Popcount1x16_spec (hk.rep (by omega) hn) hf

-- non-vacuity: 3 lanes of 32 bits, padding all-ones
example : VMask.Wf 3 4 ([BitVec.allOnes 32, 0#32, BitVec.allOnes 32, BitVec.allOnes 32] : VMask 32) ∧
    VMask.x86Popcount4x4 3 4 ([BitVec.allOnes 32, 0#32, BitVec.allOnes 32, BitVec.allOnes 32] : VMask 32) = 2 ∧
    ¬ VMask.x86AllOf true false false 3 4 ([BitVec.allOnes 32, 0#32, BitVec.allOnes 32, BitVec.allOnes 32] : VMask 32) = true := by
  have h : VMask.Wf 3 4 ([BitVec.allOnes 32, 0#32, BitVec.allOnes 32, BitVec.allOnes 32] : VMask 32) := ⟨rfl, by simp⟩
  have hl : VMask.lanes 3 ([BitVec.allOnes 32, 0#32, BitVec.allOnes 32, BitVec.allOnes 32] : VMask 32) = [true, false, true] := by
    simp [VMask.lanes]
  refine ⟨h, ?_, ?_⟩
  · rw [C31_x86_popcount_4x4 (by omega) (by omega) h, hl]; rfl
  · rw [(C31_x86_reductions (by omega) (by omega) (by omega) true false false (by simp) h).1, hl]
    simp [Spec.allOf]

/-- C31. `all_of`, `any_of`, `none_of`, `some_of`, `popcount` of AVX-512 masks, for *every* content of the unused
bits; `wide` is the form for 8-bit masks without AVX512DQ. -/
theorem C31_k_reductions (h1 : 1 ≤ n) (h : n ≤ 64) (wide : Bool) (hw : wide = true → n ≤ 8) (k : KMask n) :
    (KMask.allOf wide k = true ↔ Spec.allOf (KMask.lanes k)) ∧
    (KMask.anyOf k = true ↔ Spec.anyOf (KMask.lanes k)) ∧
    (KMask.noneOf k = true ↔ Spec.noneOf (KMask.lanes k)) ∧
    (KMask.someOf wide k = true ↔ Spec.someOf (KMask.lanes k)) ∧
    KMask.popcount k = Spec.popcount (KMask.lanes k) :=
  ⟨KMask.allOf_spec h wide hw k, KMask.anyOf_spec h k, KMask.noneOf_spec h k, KMask.someOf_spec h wide hw k,
    KMask.popcount_spec h1 h k⟩

/-- C31. `find_first_set` of AVX-512 masks, for every content of the unused bits. -/
theorem C31_k_find_first_set (k : KMask n) (hne : Spec.anyOf (KMask.lanes k)) :
    Spec.IsFirstSet (KMask.lanes k) (KMask.findFirstSet k) := KMask.findFirstSet_spec k hne

/-- C31 (partial). `find_last_set` of AVX-512 masks *without phantom lanes*. Missing: the code does not mask the
word, and masks with phantom lanes are reachable, see `C32_int_not_equal_find_last_set_wrong`. -/
theorem C31_k_find_last_set_partial (k : KMask n) (hk : k.Clean) (hne : Spec.anyOf (KMask.lanes k)) :
    ∃ i : Nat, KMask.findLastSet k = i ∧ Spec.IsLastSet (KMask.lanes k) i := KMask.findLastSet_spec k hk hne

example : KMask.allOf true (n := 5) (0b111#8 ||| 0b11000#8) = true ∧ KMask.popcount (n := 5) 0xff#8 = 5 ∧
    KMask.findLastSet (n := 5) 0b01101#8 = 3 := by decide

/-! ### The constant-propagation branches, shared by all masks -/

/-- `operator[]` of the three mask representations reads the lanes (the hypothesis of the next theorem). -/
theorem C31_subscripts_read_lanes (hn : n ≤ full) (h1 : 1 ≤ n) (x : VMask w) (hx : x.length = full) (k : KMask n)
    {s : Bool} (b : BitMask n s) :
    MaskConst.Reads (fun i => (x[i]?).map (· != 0#w)) (VMask.lanes n x) ∧
    MaskConst.Reads (fun i => if i < n then some (k.getLsbD i) else none) (KMask.lanes k) ∧
    MaskConst.Reads (fun i => b.get i) b.lanes := by
  refine ⟨fun i hi => ?_, fun i hi => ?_, fun i hi => ?_⟩
  · have : i < n := by simp [VMask.lanes] at hi; omega
    simp [VMask.lanes, List.getElem?_take_of_lt this]
  · rw [KMask.lanes_getElem?]
  · exact C05_subscript h1 b (by simpa [BitMask.lanes] using hi)

/-- C31/C03. The constant-propagation branch of every reduction equals its definition, for any mask type whose
`operator[]` reads the lanes; `find_first_set`/`find_last_set` of an empty mask are undefined. -/
theorem C31_constprop {sub : Nat → Option Bool} {bs : List Bool} (h : MaskConst.Reads sub bs) :
    (∃ r, MaskConst.allOf bs.length sub = some r ∧ (r = true ↔ Spec.allOf bs)) ∧
    (∃ r, MaskConst.anyOf bs.length sub = some r ∧ (r = true ↔ Spec.anyOf bs)) ∧
    (∃ r, MaskConst.noneOf bs.length sub = some r ∧ (r = true ↔ Spec.noneOf bs)) ∧
    (∃ r, MaskConst.someOf bs.length sub = some r ∧ (r = true ↔ Spec.someOf bs)) ∧
    MaskConst.popcount bs.length sub = some (Spec.popcount bs) ∧
    (Spec.anyOf bs → ∃ i, MaskConst.findFirstSet bs.length sub = some i ∧ Spec.IsFirstSet bs i) ∧
    (Spec.anyOf bs → ∃ i : Nat, MaskConst.findLastSet bs.length sub = some (i : Int) ∧ Spec.IsLastSet bs i) :=
  ⟨MaskConst.allOf_eq h, MaskConst.anyOf_eq h, MaskConst.noneOf_eq h, MaskConst.someOf_eq h,
    MaskConst.popcount_eq h, (MaskConst.findFirstSet_eq h).1, (MaskConst.findLastSet_eq h).1⟩

/-- C31. The overloads for a single `bool` are the definitions on a one-lane mask. -/
theorem C31_exact_bool (x : Bool) :
    (MaskConst.exactAllOf x = true ↔ Spec.allOf [x]) ∧ (MaskConst.exactAnyOf x = true ↔ Spec.anyOf [x]) ∧
    (MaskConst.exactNoneOf x = true ↔ Spec.noneOf [x]) ∧ (MaskConst.exactSomeOf x = true ↔ Spec.someOf [x]) ∧
    MaskConst.exactPopcount x = Spec.popcount [x] ∧
    (Spec.anyOf [x] → Spec.IsFirstSet [x] (MaskConst.exactFindFirstSet x) ∧
      Spec.IsLastSet [x] (MaskConst.exactFindLastSet x)) := by
  cases x
  · refine ⟨?_, ?_, ?_, ?_, rfl, ?_⟩ <;>
      simp [MaskConst.exactAllOf, MaskConst.exactAnyOf, MaskConst.exactNoneOf, MaskConst.exactSomeOf, Spec.allOf, Spec.anyOf, Spec.noneOf, Spec.someOf]
  · refine ⟨?_, ?_, ?_, ?_, rfl, fun _ => ⟨⟨rfl, ?_⟩, ⟨rfl, ?_⟩⟩⟩ <;>
      simp [MaskConst.exactAllOf, MaskConst.exactAnyOf, MaskConst.exactNoneOf, MaskConst.exactSomeOf, MaskConst.exactFindFirstSet,
        MaskConst.exactFindLastSet, Spec.allOf, Spec.anyOf, Spec.noneOf, Spec.someOf]
    intro j hj
    cases j <;> simp at *

-- non-vacuity
example : MaskConst.findLastSet 5 (fun i => [true, false, true, false, false][i]?) = some 2 ∧
    MaskConst.someOf 5 (fun i => [true, false, true, false, false][i]?) = some true := by decide

/-! ## C32: masks produced by AVX-512 comparisons and classifications -/

section Cmp
variable {α : Type}

/-- C32. `==`, `<`, `<=`, `isunordered`, `isgreater`, ... and floating-point `!=`: lane-wise result, no phantom
lanes, whatever the padding elements of the registers hold. -/
theorem C32_cmp (h : n ≤ 64) (p : α → α → Bool) (x y : List α) (hx : n ≤ x.length) (hy : n ≤ y.length) :
    (KMask.cmp n p x y).Clean ∧ KMask.lanes (KMask.cmp n p x y) = List.zipWith p (x.take n) (y.take n) :=
  have r := KMask.cmp_spec h p x y hx hy
  ⟨r.clean, r.lanes_eq⟩

/-- C32. `isfinite`, `isnormal`. -/
theorem C32_classify_xor (h : n ≤ 64) (p : α → Bool) (x : List α) (hx : n ≤ x.length) :
    (KMask.classifyXor n p x).Clean ∧ KMask.lanes (KMask.classifyXor n p x) = (x.take n).map (fun a => !p a) :=
  have r := KMask.classifyXor_spec h p x hx
  ⟨r.clean, r.lanes_eq⟩

/-- C32. The constant-folding branch of the comparisons. -/
theorem C32_cmp_const (h1 : 2 ≤ n) (h : n ≤ 64) (p : α → α → Bool) (x y : List α) (hx : n ≤ x.length) (hy : n ≤ y.length) :
    (KMask.cmpConst n p x y).Clean ∧ KMask.lanes (KMask.cmpConst n p x y) = List.zipWith p (x.take n) (y.take n) :=
  have r := KMask.cmpConst_spec h1 h p x y hx hy
  ⟨r.clean, r.lanes_eq⟩

/-- C32 (partial). Integer `!=`: the lanes are right. The mask has no phantom lanes only when `n` fills the
mask word; missing for the others, where it is false: `C32_int_not_equal_phantom`. -/
theorem C32_int_not_equal_partial (h : n ≤ 64) (eqv : α → α → Bool) (x y : List α) (hx : n ≤ x.length) (hy : n ≤ y.length) :
    KMask.lanes (KMask.intNotEqual n eqv x y) = List.zipWith (fun a b => !eqv a b) (x.take n) (y.take n) ∧
    (kBits n = n → (KMask.intNotEqual n eqv x y).Clean) := by
  refine ⟨KMask.intNotEqual_lanes h eqv x y hx hy, fun hk i hi => ?_⟩
  exact BitVec.getLsbD_of_ge _ _ (by omega)

/-- C32, negation. Whenever the mask word has unused bits, the result of integer `!=` has *all* of them set: the
mask of any 2-, 3-, 4- (8-bit word), 12-lane (16-bit word) ... comparison has phantom lanes. -/
theorem C32_int_not_equal_phantom (h : n ≤ 64) (eqv : α → α → Bool) (x y : List α) {i : Nat} (hi : n ≤ i)
    (hk : i < kBits n) : (KMask.intNotEqual n eqv x y).getLsbD i = true := by
  unfold KMask.intNotEqual KMask.maskCmp
  rw [BitVec.getLsbD_not, BitVec.getLsbD_and, KMask.getLsbD_implicitMask h]
  have : ¬ i < n := by omega
  simp [hk, this]

/-- C32, negation. Consequence for the user: `find_last_set(a != b)` of two 4-lane vectors that differ in lane 1
only returns 7, an index outside the vector. -/
theorem C32_int_not_equal_find_last_set_wrong :
    KMask.lanes (KMask.intNotEqual 4 (· == ·) [1, 2, 3, 4] [1, 0, 3, 4]) = [false, true, false, false] ∧
    KMask.findLastSet (KMask.intNotEqual 4 (· == ·) [1, 2, 3, 4] [1, 0, 3, 4]) = 7 := by decide

/-- C32 (partial). `signbit` and `isinf`: the lanes are right; no phantom lanes when the register has no padding
element. Missing: registers with padding, where a padding element can set a phantom lane:
`C32_classify_raw_phantom`. -/
theorem C32_classify_raw_partial (p : α → Bool) (x : List α) (hx : n ≤ x.length) :
    KMask.lanes (KMask.classifyRaw n p x) = (x.take n).map p ∧ (x.length = n → (KMask.classifyRaw n p x).Clean) :=
  ⟨KMask.classifyRaw_lanes p x hx, fun h => (KMask.classifyRaw_full p x h).clean⟩

/-- C32, negation. `signbit` of a 3-lane float vector whose padding element is -0.0 (the padding of `-v` after
`v` was loaded: zero-filled padding, negated): `find_last_set` returns 3. -/
theorem C32_classify_raw_phantom :
    ∃ x : List (BitVec 32), x.length = 4 ∧
      KMask.lanes (KMask.classifyRaw 3 BitVec.msb x) = [false, true, false] ∧
      KMask.findLastSet (KMask.classifyRaw 3 BitVec.msb x) = 3 :=
  ⟨[0x3f800000#32, 0xbf800000#32, 0x3f800000#32, 0x80000000#32], by decide⟩

-- non-vacuity: 5 lanes of 8, garbage in the padding elements
example : (KMask.cmp 5 (fun a b => decide (a < b)) [1, 2, 3, 4, 5, 0, 0, 0] [2, 2, 4, 4, 6, 9, 9, 9]).Clean ∧
    KMask.lanes (KMask.cmp 5 (fun a b => decide (a < b)) [1, 2, 3, 4, 5, 0, 0, 0] [2, 2, 4, 4, 6, 9, 9, 9])
      = [true, false, true, false, true] :=
  C32_cmp (n := 5) (by omega) _ _ _ (by decide) (by decide)

end Cmp

/-! ## C13 / C14 / C12 for native masks -/

/-- C13. `where(mask, merge).copy_from(mem)` for vector masks. -/
theorem C13_vec_mask_masked_load (hw : 0 < w) (hw64 : w ≤ 64) (h1 : 1 ≤ n) (h : n ≤ 64) (hn : n ≤ full)
    {merge mask : VMask w} (hv : VMask.Wf n full merge) (hk : VMask.Wf n full mask) (mem : Mem Bool) (base : Nat)
    (f : Nat → Bool)
    (hm : ∀ i < n, (VMask.lanes n mask)[i]? = some true → mem (base + i) = some (f i)) :
    ∃ r, VMask.maskedLoad n merge (VMask.toBits n mask) mem base = some r ∧ VMask.Wf n full r ∧
      VMask.lanes n r = Spec.select (VMask.lanes n mask) ((List.range n).map f) (VMask.lanes n merge) := by
  have hb := C30_vec_to_bits hw hw64 h1 h hn hk
  obtain ⟨r, e, hr⟩ := VMask.maskedLoad_spec hw h1 h (hv.rep hw hn) _ hb.2 mem base f (by
    intro i hi hl
    apply hm i hi
    rw [← hb.1, BitMask.lanes_getElem?, if_pos hi, hl])
  rw [hb.1] at hr
  exact ⟨r, e, hr.wf, hr.lanes_eq hw⟩

/-- C14. `where(k, v).copy_to(mem)` for vector masks. -/
theorem C14_vec_mask_masked_store (hw : 0 < w) (hw64 : w ≤ 64) (h1 : 1 ≤ n) (h : n ≤ 64) (hn : n ≤ full)
    {v k : VMask w} (hv : VMask.Wf n full v) (hk : VMask.Wf n full k) (mem : Mem Bool) (base : Nat)
    (hm : ∀ i < n, (VMask.lanes n k)[i]? = some true → (mem (base + i)).isSome) :
    ∃ mem', VMask.maskedStore n v mem base (VMask.toBits n k) = some mem' ∧
      (∀ i < n, (VMask.lanes n k)[i]? = some true → mem' (base + i) = (VMask.lanes n v)[i]?) ∧
      (∀ a, (¬ ∃ i < n, (VMask.lanes n k)[i]? = some true ∧ a = base + i) → mem' a = mem a) := by
  have hb := C30_vec_to_bits hw hw64 h1 h hn hk
  have hl : ∀ i < n, ((VMask.lanes n k)[i]? = some true ↔ (VMask.toBits n k).lane i = true) := by
    intro i hi
    rw [← hb.1, BitMask.lanes_getElem?, if_pos hi]; simp
  have hr := hv.rep hw hn
  obtain ⟨mem', e, h1, h2⟩ := VMask.maskedStore_spec hw h1 h hr _ hb.2 mem base
    (fun i hi hli => hm i hi ((hl i hi).2 hli))
  refine ⟨mem', e, fun i hi hki => ?_, fun a ha => h2 a ?_⟩
  · rw [h1 i hi ((hl i hi).1 hki), List.getElem?_eq_getElem (show i < (VMask.lanes n v).length by rw [hr.blen]; exact hi)]
    simp [VMask.bit, List.getElem?_eq_getElem (show i < (VMask.lanes n v).length by rw [hr.blen]; exact hi)]
  · rintro ⟨i, hi, hli, rfl⟩
    exact ha ⟨i, hi, (hl i hi).2 hli, rfl⟩

/-- C12 for vector masks. `copy_to(bool*)` writes exactly the `n` cells. -/
theorem C12_vec_mask_store (hw : 0 < w) (hn : n ≤ full) {v : VMask w} (hv : VMask.Wf n full v) (mem : Mem Bool)
    (base : Nat) (hm : ∀ i < n, (mem (base + i)).isSome) :
    ∃ mem', VMask.store n v mem base = some mem' ∧
      (∀ i < n, mem' (base + i) = (VMask.lanes n v)[i]?) ∧
      (∀ a, (a < base ∨ base + n ≤ a) → mem' a = mem a) := by
  have hr := hv.rep hw hn
  obtain ⟨mem', e, hs⟩ := VMask.store_spec hw hr mem base hm
  refine ⟨mem', e, fun i hi => ?_, fun a ha => ?_⟩
  · have hl : i < (VMask.lanes n v).length := by rw [hr.blen]; exact hi
    rw [hs, if_pos ⟨by omega, by omega⟩, Nat.add_sub_cancel_left]
    simp [VMask.bit, List.getElem?_eq_getElem hl]
  · rw [hs, if_neg (by omega)]

/-- C13. `where(mask, merge).copy_from(mem)` for AVX-512 masks (AVX512BW+VL form), masks without phantom lanes. -/
theorem C13_k_mask_masked_load_partial (merge mask : KMask n) (hv : merge.Clean) (hk : mask.Clean) (mem : Mem Bool)
    (base : Nat) (f : Nat → Bool)
    (hm : ∀ i < n, (KMask.lanes mask)[i]? = some true → mem (base + i) = some (f i)) :
    ∃ r, KMask.maskedLoad merge mask mem base = some r ∧ r.Clean ∧
      KMask.lanes r = Spec.select (KMask.lanes mask) ((List.range n).map f) (KMask.lanes merge) := by
  obtain ⟨r, e, hr⟩ := KMask.maskedLoad_spec ((KMask.rep_iff merge).2 hv) ((KMask.rep_iff mask).2 hk) mem base f (by
    intro i hi hb
    apply hm i hi
    rw [KMask.bit_lanes] at hb
    rw [KMask.lanes_getElem?, if_pos hi]
    simpa [hi] using hb)
  exact ⟨r, e, hr.clean, hr.lanes_eq⟩

/-- C14 (partial). `where(k, v).copy_to(mem)` for AVX-512 masks *without phantom lanes*. Missing: the code uses the
mask word as is, so a mask computed with integer `!=` makes it write outside the array:
`C14_k_mask_store_out_of_bounds`. -/
theorem C14_k_mask_masked_store_partial (v k : KMask n) (hk : k.Clean) (mem : Mem Bool) (base : Nat)
    (hm : ∀ i < n, (KMask.lanes k)[i]? = some true → (mem (base + i)).isSome) :
    ∃ mem', KMask.maskedStore v mem base k = some mem' ∧
      (∀ i < n, (KMask.lanes k)[i]? = some true → mem' (base + i) = (KMask.lanes v)[i]?) ∧
      (∀ a, (¬ ∃ i < n, (KMask.lanes k)[i]? = some true ∧ a = base + i) → mem' a = mem a) := by
  have hl : ∀ i < n, ((KMask.lanes k)[i]? = some true ↔ k.getLsbD i = true) := by
    intro i hi; rw [KMask.lanes_getElem?, if_pos hi]; simp
  obtain ⟨mem', e, hs⟩ := KMask.maskedStore_spec v k hk mem base (fun i hi hli => hm i hi ((hl i hi).2 hli))
  refine ⟨mem', e, fun i hi hki => ?_, fun a ha => ?_⟩
  · rw [hs, if_pos ⟨by omega, by rw [Nat.add_sub_cancel_left]; exact (hl i hi).1 hki⟩, Nat.add_sub_cancel_left,
      KMask.lanes_getElem?, if_pos hi]
  · rw [hs, if_neg]
    rintro ⟨h1, h2⟩
    have hin : a - base < n := by
      rcases Nat.lt_or_ge (a - base) n with h | h
      · exact h
      · rw [hk _ h] at h2; exact absurd h2 (by decide)
    exact ha ⟨a - base, hin, (hl _ hin).2 h2, by omega⟩

/-- C14, negation. Storing a 4-lane mask through `where(a != b, m)`, `a` and `b` integer vectors: with exactly
the four elements of the array mapped the store is undefined; with more mapped cells, cell 4, which is outside
the array, is overwritten. -/
theorem C14_k_mask_store_out_of_bounds :
    KMask.maskedStore (n := 4) 0 (fun a => if a < 4 then some true else none) 0
      (KMask.intNotEqual 4 (· == ·) [1, 2, 3, 4] [1, 0, 3, 4]) = none ∧
    ((KMask.maskedStore (n := 4) 0 (fun a => if a < 8 then some true else none) 0
      (KMask.intNotEqual 4 (· == ·) [1, 2, 3, 4] [1, 0, 3, 4])).map (fun m => m 4)) = some (some false) := by
  constructor
  · rfl
  · rfl

/-- C12 for AVX-512 masks. -/
theorem C12_k_mask_store (v : KMask n) (mem : Mem Bool) (base : Nat) (hm : ∀ i < n, (mem (base + i)).isSome) :
    ∃ mem', KMask.store v mem base = some mem' ∧
      (∀ i < n, mem' (base + i) = (KMask.lanes v)[i]?) ∧
      (∀ a, (a < base ∨ base + n ≤ a) → mem' a = mem a) := by
  obtain ⟨mem', e, hs⟩ := KMask.store_spec v mem base hm
  refine ⟨mem', e, fun i hi => ?_, fun a ha => ?_⟩
  · rw [hs, if_pos ⟨by omega, by omega⟩, Nat.add_sub_cancel_left, KMask.lanes_getElem?, if_pos hi]
  · rw [hs, if_neg (by omega)]

-- non-vacuity: only lane 1 selected, only cell 101 mapped
example : ∃ mem', VMask.maskedStore 3 ([-1#8, -1#8, 0#8, 7#8] : VMask 8)
      (fun a => if a = 101 then some false else none) 100 (VMask.toBits 3 ([0#8, -1#8, 0#8, 9#8] : VMask 8)) = some mem' ∧
      mem' 101 = some true := by
  obtain ⟨mem', e, h1, _⟩ := C14_vec_mask_masked_store (w := 8) (n := 3) (full := 4) (by omega) (by omega) (by omega)
    (by omega) (by omega) (v := [-1#8, -1#8, 0#8, 7#8]) (k := [0#8, -1#8, 0#8, 9#8]) ⟨rfl, by decide⟩ ⟨rfl, by decide⟩
    (fun a => if a = 101 then some false else none) 100 (by decide)
  exact ⟨mem', e, h1 1 (by omega) (by decide)⟩

end StdSimd.Props
