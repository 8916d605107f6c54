import Verif.Model.IntAbs
import Verif.Proofs.Compare
import Verif.Proofs.Tuple
import Mathlib.Algebra.Order.Group.Unbundled.Int
/-! `abs` of integers. -/
namespace StdSimd.IntAbs
open Spec Native Tuple

variable {w : Nat}

theorem pabs_ofInt (x : BitVec w) : pabs x = BitVec.ofInt w (x.toInt.natAbs : Int) := (BitVec.ofInt_natCast _ _).symm

theorem select_eq (x : BitVec w) : select x = pabs x := by
  have hz : (0 : BitVec w).toInt = 0 := BitVec.toInt_zero
  rw [pabs_ofInt]
  unfold select
  by_cases h : x.slt 0 = true
  · rw [if_pos h]
    rw [BitVec.slt_iff_toInt_lt, hz] at h
    rw [show (x.toInt.natAbs : Int) = -x.toInt by omega, BitVec.ofInt_neg, BitVec.ofInt_toInt]
  · rw [if_neg h]
    rw [BitVec.slt_iff_toInt_lt, hz] at h
    rw [show (x.toInt.natAbs : Int) = x.toInt by omega, BitVec.ofInt_toInt]

theorem toInt_ne_of_ne {x : BitVec w} (hw : 0 < w) (h : x ≠ BitVec.intMin w) : x.toInt ≠ -(2 ^ (w - 1) : Int) := by
  intro e; apply h; apply BitVec.eq_of_toInt_eq; rw [e, BitVec.toInt_intMin_of_pos hw]

theorem toInt_pabs {x : BitVec w} (hw : 0 < w) (h : x ≠ BitVec.intMin w) : (pabs x).toInt = |x.toInt| := by
  have h1 := BitVec.le_toInt x
  have h2 := BitVec.toInt_lt (x := x)
  have h3 := toInt_ne_of_ne hw h
  rw [pabs_ofInt, BitVec.toInt_ofInt_eq_self hw (by omega) (by omega), Int.natCast_natAbs]

theorem pabs_min : pabs (BitVec.intMin w) = BitVec.intMin w := by
  rcases Nat.eq_zero_or_pos w with rfl | hw
  · exact Subsingleton.elim _ _
  rw [← select_eq]
  unfold select
  split <;> simp

theorem stdAbs_eq {x : BitVec w} (n : Nat) (hw : 0 < w) (h : x ≠ BitVec.intMin w) : stdAbs n x = some (pabs x) := by
  have hs : (x.signExtend (max w n)).toInt = x.toInt := BitVec.toInt_signExtend_of_le (Nat.le_max_left _ _)
  have h1 := BitVec.le_toInt x
  have h2 := BitVec.toInt_lt (x := x)
  have h3 := toInt_ne_of_ne hw h
  unfold stdAbs
  dsimp only
  rw [if_neg]
  · have := select_eq (x.signExtend (max w n))
    unfold select at this
    rw [this]
    unfold pabs
    rw [hs, BitVec.setWidth_ofNat_of_le (Nat.le_max_left _ _)]
  · intro e
    rw [e, BitVec.toInt_intMin_of_pos (by omega)] at hs
    have : (2 : Int) ^ (w - 1) ≤ 2 ^ (max w n - 1) := by
      exact_mod_cast Nat.pow_le_pow_right (by omega : 0 < 2) (show w - 1 ≤ max w n - 1 by omega)
    omega

/-- Widths of integer types, and no vector with one 64-bit element. -/
def Fits (w : Nat) (g : Geo) : Prop := (w = 8 ∨ w = 16 ∨ w = 32 ∨ w = 64) ∧ (w = 64 → g = .scalar ∨ 2 ≤ g.full)

theorem abs_vec {g : Geo} (hf : Fits w g) (hs : g ≠ .scalar) (c : Ctx w) {x : List (BitVec w)} (hx : x.length = g.full) :
    abs c g x = some (x.map pabs) := by
  have hsel : x.map select = x.map pabs := by congr 1; exact funext select_eq
  have key : (if c.pr91533 ∧ w * g.full < 128 then
      if w = 32 ∨ w = 16 ∨ w = 8 then some (((x ++ c.junk).map pabs).take g.full) else none
    else some (x.map select)) = some (x.map pabs) := by
    split
    · rename_i h
      have : w = 32 ∨ w = 16 ∨ w = 8 := by
        rcases hf.1 with h' | h' | h' | h'
        · omega
        · omega
        · omega
        · rcases hf.2 h' with e | e
          · exact absurd e hs
          · subst h'; omega
      rw [if_pos this, List.map_append, List.take_append_of_le_length (by simp [hx]), List.take_of_length_le (by simp [hx])]
    · rw [hsel]
  cases g with
  | scalar => exact absurd rfl hs
  | vec a b f => simpa only [abs] using key
  | bitmask n f => simpa only [abs] using key

theorem abs_spec {g : Geo} (hf : Fits w g) (c : Ctx w) {x : List (BitVec w)} (hx : x.length = g.full)
    (hm : g = .scalar → ∀ a ∈ x, a ≠ BitVec.intMin w) : abs c g x = some (x.map pabs) := by
  by_cases hs : g = .scalar
  · subst hs
    match x, hx with
    | [a], _ =>
      simp only [abs]
      rw [stdAbs_eq _ (by rcases hf.1 with h | h | h | h <;> omega) (hm rfl a (by simp))]
      rfl
  · exact abs_vec hf hs c hx

end StdSimd.IntAbs
