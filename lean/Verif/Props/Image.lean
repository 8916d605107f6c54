import Verif.Proofs.Image
import Verif.Props.FixedSize
/-!
# C60: A `fixed_size` object has the memory layout of an array

The elements of a `fixed_size` object lie one after the other from its first byte on, although the object is a nest of structures with
registers of different sizes and with padding.  The conversion to `std::array` (a `memcpy`) and functions that write their result through a
pointer to the object (`frexp`) rely on it.
-/
namespace StdSimd.Props
open Abi Align Tuple Native Image

variable {α : Type}

/-- Byte `T.size * i + j` of the object is byte `j` of the element with index `i`; the object is as large as its layout says. -/
theorem C60_bytes {t : Target} (hc : t.Consistent) {T : Elem} (hT : T.Ok) {n : Nat} (h1 : 1 ≤ n) {al : Nat} (hp : ∃ k, al = 2 ^ k)
    (hal : al ∣ T.size) (R : Rep α T.size) {x : Tup α} (hx : Wf (regs t T n) x) :
    (image t T al n R x).length = (storageLayout t T al n).size ∧
    ∀ i (hi : i < n) j (_ : j < T.size), ∃ a ∈ (lanes (regs t T n) x)[i]?, (image t T al n R x)[T.size * i + j]? = (R.enc a)[j]?.map some := by
  obtain ⟨e1, e2⟩ := image_spec hc hT h1 hp hal R hx
  refine ⟨e1, ?_⟩
  intro i hi j hj
  have hl : (lanes (regs t T n) x).length = n := by
    rw [length_lanes (regs_facts hc hT h1).2.1 hx, (regs_facts hc hT h1).2.2.1]
  have hlt : T.size * i + j < T.size * n := by
    have : T.size * (i + 1) ≤ T.size * n := Nat.mul_le_mul_left _ hi
    rw [Nat.mul_succ] at this; omega
  refine ⟨(lanes (regs t T n) x)[i]'(by omega), by simp [hl, hi], ?_⟩
  rw [← slice R _ (by omega : i < (lanes (regs t T n) x).length), List.getElem?_take_of_lt hj, List.getElem?_drop, ← List.getElem?_map, ← e2,
    List.getElem?_take_of_lt hlt]

/-- Conversion to `std::array` yields the elements in order. -/
theorem C60_array {t : Target} (hc : t.Consistent) {T : Elem} (hT : T.Ok) {n : Nat} (h1 : 1 ≤ n) {al : Nat} (hp : ∃ k, al = 2 ^ k)
    (hal : al ∣ T.size) (R : Rep α T.size) {x : Tup α} (hx : Wf (regs t T n) x) :
    toArray R n (image t T al n R x) = some (lanes (regs t T n) x) := by
  obtain ⟨e1, e2⟩ := image_spec hc hT h1 hp hal R hx
  have hl : (lanes (regs t T n) x).length = n := by
    rw [length_lanes (regs_facts hc hT h1).2.1 hx, (regs_facts hc hT h1).2.2.1]
  have hs := (storageLayout_spec hc hT h1 hp hal).2.2.1
  have := toArray_spec R (im := image t T al n R x) (xs := lanes (regs t T n) x) (by rw [e1, hl]; exact hs) (by rw [hl]; exact e2)
  rwa [hl] at this

/-- The registers of the object are where the layout says: reading them back yields the elements. -/
theorem C60_read {t : Target} (hc : t.Consistent) {T : Elem} (hT : T.Ok) {n : Nat} (h1 : 1 ≤ n) {al : Nat} (hp : ∃ k, al = 2 ^ k)
    (hal : al ∣ T.size) (R : Rep α T.size) {x : Tup α} (hx : Wf (regs t T n) x) :
    readLanes t T al n R (image t T al n R x) = some (lanes (regs t T n) x) := by
  obtain ⟨e1, e2⟩ := image_spec hc hT h1 hp hal R hx
  have hl : (lanes (regs t T n) x).length = n := by
    rw [length_lanes (regs_facts hc hT h1).2.1 hx, (regs_facts hc hT h1).2.2.1]
  exact readLanes_spec hc hT h1 hp hal R hl e2

/-- A store of `n` elements to the address of the object stays within the object and makes them its elements; the bytes after them keep their
values. -/
theorem C60_store {t : Target} (hc : t.Consistent) {T : Elem} (hT : T.Ok) {n : Nat} (h1 : 1 ≤ n) {al : Nat} (hp : ∃ k, al = 2 ^ k)
    (hal : al ∣ T.size) (R : Rep α T.size) {im : Bytes} (him : im.length = (storageLayout t T al n).size) {xs : List α} (hn : xs.length = n) :
    ∃ im', storeTo (xs.flatMap R.enc) im = some im' ∧ im'.length = im.length ∧ readLanes t T al n R im' = some xs ∧
      toArray R n im' = some xs ∧ im'.drop (T.size * n) = im.drop (T.size * n) := by
  have hs := (storageLayout_spec hc hT h1 hp hal).2.2.1
  have hfl : (xs.flatMap R.enc).length = T.size * n := by rw [flatMap_length, hn]
  have ht : ((xs.flatMap R.enc).map some ++ im.drop (xs.flatMap R.enc).length).take (T.size * n) = (xs.flatMap R.enc).map some := by
    rw [List.take_append_of_le_length (by rw [List.length_map, hfl]), List.take_of_length_le (by rw [List.length_map, hfl])]
  have hlen : ((xs.flatMap R.enc).map some ++ im.drop (xs.flatMap R.enc).length).length = im.length := by
    rw [List.length_append, List.length_map, List.length_drop, hfl]; omega
  refine ⟨_, by unfold storeTo; rw [if_pos (by omega)], hlen, readLanes_spec hc hT h1 hp hal R hn ht, ?_, ?_⟩
  · subst hn; exact toArray_spec R (by rw [hlen]; omega) ht
  · rw [List.drop_append, List.length_map, hfl]; simp [hfl]

/-- Representation of a 32-bit integer in the byte order of x86. -/
def exRep : Rep (BitVec 32) 4 where
  enc a := [a.extractLsb' 0 8, a.extractLsb' 8 8, a.extractLsb' 16 8, a.extractLsb' 24 8]
  dec
    | [b0, b1, b2, b3] => b3 ++ b2 ++ b1 ++ b0
    | _ => 0
  len _ := rfl
  inv a := by
    apply BitVec.eq_of_getLsbD_eq
    intro i hi
    simp only [BitVec.getLsbD_append, BitVec.getLsbD_extractLsb']
    by_cases h1 : i < 8
    · simp [h1]
    · by_cases h2 : i - 8 < 8
      · simp [h1, h2, show 8 + (i - 8) = i by omega]
      · by_cases h3 : i - 8 - 8 < 8
        · simp [h1, h2, h3, show 16 + (i - 8 - 8) = i by omega]
        · simp [h1, h2, h3, show 24 + (i - 8 - 8 - 8) = i by omega, show i - 8 - 8 - 8 < 8 by omega]

/-- Eleven elements in a register of 32 bytes and one of 16 bytes with a padding element. -/
def exIm : Tup (BitVec 32) := [[1, 2, 3, 4, 5, 6, 7, 8], [9, 10, 11, 99]]

theorem exIm_wf : Wf (regs exAvx2 ⟨4, true⟩ 11) exIm := by rw [exRegs_avx2]; exact ⟨rfl, rfl, trivial⟩

example : toArray exRep 11 (image exAvx2 ⟨4, true⟩ 4 11 exRep exIm) = some [1, 2, 3, 4, 5, 6, 7, 8, 9, 10, 11] := by
  rw [C60_array exAvx2_ok (T := ⟨4, true⟩) (by decide) (by decide) (al := 4) ⟨2, rfl⟩ (by decide) exRep exIm_wf, exRegs_avx2]; rfl

example : readLanes exAvx2 ⟨4, true⟩ 4 11 exRep (image exAvx2 ⟨4, true⟩ 4 11 exRep exIm) = some [1, 2, 3, 4, 5, 6, 7, 8, 9, 10, 11] := by
  rw [C60_read exAvx2_ok (T := ⟨4, true⟩) (by decide) (by decide) (al := 4) ⟨2, rfl⟩ (by decide) exRep exIm_wf, exRegs_avx2]; rfl

example : ∃ im', storeTo (([10, 20, 30, 40, 50, 60, 70, 80, 90, 100, 110] : List (BitVec 32)).flatMap exRep.enc)
      (image exAvx2 ⟨4, true⟩ 4 11 exRep exIm) = some im' ∧
    readLanes exAvx2 ⟨4, true⟩ 4 11 exRep im' = some [10, 20, 30, 40, 50, 60, 70, 80, 90, 100, 110] := by
  obtain ⟨im', e, _, r, _⟩ := C60_store exAvx2_ok (T := ⟨4, true⟩) (n := 11) (by decide) (by decide) (al := 4) ⟨2, rfl⟩ (by decide) exRep
    (C60_bytes exAvx2_ok (T := ⟨4, true⟩) (by decide) (by decide) ⟨2, rfl⟩ (by decide) exRep exIm_wf).1
    (xs := [10, 20, 30, 40, 50, 60, 70, 80, 90, 100, 110]) rfl
  exact ⟨im', e, r⟩

/-- The same store to an object that is smaller than the elements is not defined. -/
example : storeTo (([1, 2, 3] : List (BitVec 32)).flatMap exRep.enc) (List.replicate 8 none) = none := by decide

end StdSimd.Props
