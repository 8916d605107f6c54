import Verif.Proofs.RegBits
/-!
# C80 bit operations on the elements of registers
-/
namespace StdSimd.Props
open Spec.Bits RegBits

variable {N : Nat}

/-- The element types: integers of 8, 16, 32 or 64 bits, `float` and `double`; they fill registers of `N` bits. -/
def BitTyOk (T : Ty) (N : Nat) : Prop := (T.w = 32 ∨ T.w = 64 ∨ (T.fp = false ∧ (T.w = 8 ∨ T.w = 16))) ∧ T.w ∣ N

theorem BitTyOk.pos {T : Ty} (h : BitTyOk T N) : 0 < T.w := by have := h.1; omega

/-- C80. `&`, `|`, `^` on values, also on floating-point values: the operation on the bits of every element, for registers of every size. -/
theorem C80_and_or_xor (T : Ty) (h : BitTyOk T N) (a b : BitVec N) :
    Lanewise T.w (fun x y => x &&& y) a b (RegBits.and T a b) ∧ Lanewise T.w (fun x y => x ||| y) a b (RegBits.or T a b) ∧
      Lanewise T.w (fun x y => x ^^^ y) a b (RegBits.xor T a b) :=
  ⟨map2_lanes h.pos h.2 _ _ _ and_bit and_bit a b, map2_lanes h.pos h.2 _ _ _ or_bit or_bit a b, map2_lanes h.pos h.2 _ _ _ xor_bit xor_bit a b⟩

/-- C80. `~` on integers, and the complement of floating-point masks, which is computed in pieces of 32 bits. -/
theorem C80_complement (T : Ty) (h : BitTyOk T N) (a : BitVec N) :
    Lanewise1 T.w (fun x => ~~~x) a (complement T a) ∧ Lanewise1 T.w (fun x => ~~~x) a (RegBits.not T a) := by
  refine ⟨map1_lanes h.pos h.2 _ _ _ not_bit not_bit a, ?_⟩
  unfold RegBits.not
  cases hf : T.fp
  · exact map1_lanes h.pos h.2 _ _ _ not_bit not_bit a
  · have h32 : (32 : Nat) ∣ N := by
      rcases h.1 with h1 | h1 | h1
      · rw [← h1]; exact h.2
      · exact Nat.dvd_trans (by rw [h1]; decide) h.2
      · rw [hf] at h1; cases h1.1
    exact map1_lanes (by decide) h32 _ _ _ not_bit not_bit a

/-- C80. `~a & b` of registers of up to 64 bytes, with whatever instruction the target has and whether or not the compiler knows the operands. -/
theorem C80_andnot (t : Feat) (known : Bool) (T : Ty) (h : BitTyOk T N) (k : Nat) (hN : N = 2 ^ k) (a b : BitVec N) :
    Lanewise T.w (fun x y => ~~~x &&& y) a b (andnot t known T a b) := by
  unfold andnot
  split
  · rename_i hc
    have hb : 16 ≤ N / 8 := by
      simp only [Bool.and_eq_true, decide_eq_true_eq] at hc
      exact hc.1.2
    have hk : 7 ≤ k := by
      refine Nat.le_of_not_lt (fun hk => ?_)
      have : (2 : Nat) ^ k ≤ 2 ^ 6 := Nat.pow_le_pow_right (by decide) (by omega)
      omega
    have h64 : (64 : Nat) ∣ N := by rw [hN, show 64 = 2 ^ 6 from rfl]; exact Nat.pow_dvd_pow 2 (by omega)
    have h32 : (32 : Nat) ∣ N := Nat.dvd_trans (by decide) h64
    have hw : andnotWidth t T (N / 8) = 32 ∨ andnotWidth t T (N / 8) = 64 := by
      unfold andnotWidth
      have := h.1
      split
      · split
        · split
          · exact Or.inl rfl
          · exact Or.inr rfl
        · exact Or.inr rfl
      · split
        · rename_i hf; rw [hf] at this; simp at this; omega
        · split <;> exact Or.inr rfl
    have hp : 0 < andnotWidth t T (N / 8) ∧ andnotWidth t T (N / 8) ∣ N := by
      rcases hw with hw | hw <;> rw [hw]
      · exact ⟨by decide, h32⟩
      · exact ⟨by decide, h64⟩
    exact map2_lanes hp.1 hp.2 _ _ (fun p q => !p && q) andn_bit andn_bit a b
  · exact map2_lanes h.pos h.2 _ _ (fun p q => !p && q) andn_bit andn_bit a b

/-- C80. One floating-point element: `float`, `double`, and `long double` of 12 or 16 bytes, with or without `__int128`. -/
theorem C80_scalar_float (i128 : Bool) (hN : N = 32 ∨ N = 64 ∨ N = 96 ∨ N = 128) (a b : BitVec N) :
    scalarBit i128 (fun _ x y => x &&& y) a b = some (a &&& b) ∧ scalarBit i128 (fun _ x y => x ||| y) a b = some (a ||| b) ∧
      scalarBit i128 (fun _ x y => x ^^^ y) a b = some (a ^^^ b) := by
  have hp : ∃ w, pieceWidth i128 (N / 8) = some w ∧ 0 < w ∧ w ∣ N := by
    rcases hN with rfl | rfl | rfl | rfl <;> cases i128 <;> decide
  obtain ⟨w, e, hw, hd⟩ := hp
  unfold scalarBit
  simp only [e, Option.map_some, Option.some.injEq]
  refine ⟨?_, ?_, ?_⟩
  all_goals
    apply BitVec.eq_of_getLsbD_eq
    intro j hj
  · rw [map2_bit hw hd _ _ and_bit _ _ _ hj, and_bit _ _ _ hj]
  · rw [map2_bit hw hd _ _ or_bit _ _ _ hj, or_bit _ _ _ hj]
  · rw [map2_bit hw hd _ _ xor_bit _ _ _ hj, xor_bit _ _ _ hj]

/-- C80. One integer: the promotion does not show. -/
theorem C80_scalar_int (p : Nat) (hp : N ≤ p) (sgn : Bool) (a b : BitVec N) :
    scalarInt p sgn (fun _ x y => x &&& y) a b = a &&& b ∧ scalarInt p sgn (fun _ x y => x ||| y) a b = a ||| b ∧
      scalarInt p sgn (fun _ x y => x ^^^ y) a b = a ^^^ b := by
  unfold scalarInt
  refine ⟨?_, ?_, ?_⟩
  all_goals
    apply BitVec.eq_of_getLsbD_eq
    intro j hj
    have hj' : j < p := by omega
    cases sgn <;> simp [BitVec.getElem_signExtend, hj, hj']

/-! ## cases that meet the hypotheses -/

example : BitTyOk ⟨true, 64⟩ 128 ∧ BitTyOk ⟨false, 8⟩ 512 := by unfold BitTyOk; decide
/-- Two `double`s: `copysign`-like selection of the sign bit. -/
example : RegBits.and ⟨true, 64⟩ (0xbff0000000000000_4000000000000000#128) (0x8000000000000000_8000000000000000#128) = 0x8000000000000000_0000000000000000#128 := by decide +kernel
/-- `long double` of 12 bytes in three pieces. -/
example : scalarBit true (fun _ x y => x ^^^ y) (0x00003fff8000000000000000#96) (0x000080000000000000000000#96) = some 0x0000bfff8000000000000000#96 := by decide +kernel
/-- `float`s without AVX512DQ: the instruction for integers. -/
example : andnotWidth ⟨true, true, false⟩ ⟨true, 32⟩ 64 = 64 := rfl
example : scalarInt 32 true (fun _ x y => x ^^^ y) (0x80#8) (0xff#8) = 0x7f#8 := by decide +kernel

end StdSimd.Props
