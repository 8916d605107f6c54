import Verif.Model.Scalar
import Mathlib.Tactic.NormNum
import Mathlib.Tactic.Ring
import Mathlib.Tactic.Linarith
/-! # Lemmas about the scalar ABI's operators -/
namespace StdSimd.Scalar
open Spec

/-- The integer types elements can have. -/
def IsInt : CType → Prop
  | .bool | .float | .double | .ldouble => False
  | _ => True

/-- What the supported platforms have in common beyond the guarantees of the standard. -/
structure PlatOk (p : Platform) : Prop extends p.Ok where
  short16 : p.shortW = 16
  int32 : p.intW = 32
  wchar32 : p.wcharW = 16 ∨ p.wcharW = 32

theorem kind_int {p : Platform} {t : CType} (ht : IsInt t) : p.kind t = .int (p.isSigned t) (p.width t) := by
  cases t <;> simp_all [IsInt, Platform.kind, Platform.isSigned, Platform.width]

theorem width_pos {p : Platform} (hp : p.Ok) {t : CType} (ht : IsInt t) : 8 ≤ p.width t := by
  have h1 := hp.short; have h2 := hp.int; have h3 := hp.long; have h4 := hp.llong; have h5 := hp.wchar
  cases t <;> simp_all [IsInt, Platform.kind, Platform.width] <;> omega

theorem rep_iff {p : Platform} (hp : p.Ok) {t u : CType} (ht : IsInt t) (hu : IsInt u) :
    p.canRepresent u t = true ↔
      (p.isSigned u = p.isSigned t ∧ p.width t ≤ p.width u) ∨
      (p.isSigned u = true ∧ p.isSigned t = false ∧ p.width t < p.width u) := by
  have h1 := width_pos hp ht
  have h2 := width_pos hp hu
  unfold Platform.canRepresent
  rw [decide_eq_true_iff, kind_int ht, kind_int hu]
  generalize p.isSigned t = s at *
  generalize p.isSigned u = r at *
  generalize p.width t = a at *
  generalize p.width u = b at *
  have mono : ∀ m n : Nat, (2:ℤ) ^ m ≤ 2 ^ n ↔ m ≤ n := fun m n => by
    rw [pow_le_pow_iff_right₀ (by norm_num : (1:ℤ) < 2)]
  have posm : ∀ n : Nat, (0:ℤ) < 2 ^ n := fun n => by positivity
  cases s <;> cases r <;> simp only [Platform.minOf, Platform.maxOf, Bool.false_eq_true, false_and, and_false,
    or_false, true_and, false_or, reduceCtorEq]
  · have := mono a b; constructor
    · intro h; exact this.1 (by omega)
    · intro h; have := this.2 h; omega
  · have h3 := mono a (b - 1); constructor
    · intro h; have := h3.1 (by omega); omega
    · intro h; have := h3.2 (by omega); have := posm (b - 1); omega
  · have := posm (a - 1); constructor
    · intro h; omega
    · intro h; exact absurd h (by simp)
  · have h3 := mono (a - 1) (b - 1); constructor
    · intro h; have := h3.1 (by omega); omega
    · intro h; have := h3.2 (by omega); omega

theorem firstFit_spec (p : Platform) (t : CType) (us : List CType) :
    p.firstFit t us = t ∨ (p.firstFit t us ∈ us ∧ p.canRepresent (p.firstFit t us) t = true) := by
  induction us with
  | nil => left; rfl
  | cons u us ih =>
    rw [Platform.firstFit]
    split
    · rename_i h; right; exact ⟨List.mem_cons_self .., h⟩
    · rcases ih with h | ⟨h1, h2⟩
      · left; exact h
      · right; exact ⟨List.mem_cons_of_mem _ h1, h2⟩

theorem firstFit_isInt {p : Platform} {t : CType} (ht : IsInt t) {us : List CType} (hus : ∀ u ∈ us, IsInt u) :
    IsInt (p.firstFit t us) := by
  rcases firstFit_spec p t us with h | ⟨h, _⟩
  · rw [h]; exact ht
  · exact hus _ h

/-- A promotion keeps the type or widens it. -/
theorem promote_spec {p : Platform} (hp : p.Ok) {t : CType} (ht : IsInt t) : IsInt (p.promote t) ∧
    ((p.isSigned (p.promote t) = p.isSigned t ∧ p.width t ≤ p.width (p.promote t)) ∨
     (p.isSigned (p.promote t) = true ∧ p.isSigned t = false ∧ p.width t < p.width (p.promote t))) := by
  have key : ∀ us : List CType, (∀ u ∈ us, IsInt u) → p.promote t = p.firstFit t us → IsInt (p.promote t) ∧
      ((p.isSigned (p.promote t) = p.isSigned t ∧ p.width t ≤ p.width (p.promote t)) ∨
       (p.isSigned (p.promote t) = true ∧ p.isSigned t = false ∧ p.width t < p.width (p.promote t))) := by
    intro us hus he
    rw [he]
    refine ⟨firstFit_isInt ht hus, ?_⟩
    rcases firstFit_spec p t us with h | ⟨h1, h2⟩
    · left; rw [h]; exact ⟨rfl, le_refl _⟩
    · exact (rep_iff hp ht (hus _ h1)).1 h2
  have hi : ∀ u ∈ [CType.int, .uint], IsInt u := by simp [IsInt]
  have hl : ∀ u ∈ [CType.int, .uint, .long, .ulong, .llong, .ullong], IsInt u := by simp [IsInt]
  cases t with
  | bool | float | double | ldouble => exact absurd ht (by simp [IsInt])
  | char | schar | uchar | short | ushort => exact key _ hi rfl
  | char8 | wchar | char16 | char32 => exact key _ hl rfl
  | _ => exact ⟨trivial, Or.inl ⟨rfl, le_refl _⟩⟩

/-- An unsigned type that promotes to a signed type is at most as wide as `unsigned int`. -/
theorem narrow_width {p : Platform} (hp : PlatOk p) {t : CType} (ht : IsInt t) (h1 : p.isSigned (p.promote t) = true)
    (h2 : p.isSigned t = false) : p.width t ≤ p.intW := by
  have h3 := hp.int32; have h4 := hp.wchar32; have h5 := hp.short16; have h6 := hp.int
  cases t <;> simp_all [IsInt, Platform.kind, Platform.width, Platform.promote] <;> omega

/-- The type in which the operators compute: as signed as the element type, and at least as wide. -/
theorem ppu_spec {p : Platform} (hp : PlatOk p) {t : CType} (ht : IsInt t) :
    p.common (ppuType p t) (ppuType p t) = p.promote (ppuType p t) ∧
    p.isSigned (ppuType p t) = p.isSigned t ∧ p.width t ≤ p.width (ppuType p t) ∧
    p.isSigned (p.promote (ppuType p t)) = p.isSigned t ∧ p.width (ppuType p t) ≤ p.width (p.promote (ppuType p t)) ∧
    (p.isSigned t = true → ppuType p t = t) := by
  obtain ⟨h1, h2⟩ := promote_spec hp.toOk ht
  have hI : IsInt (ppuType p t) := by unfold ppuType; split <;> trivial
  have hcommon : p.common (ppuType p t) (ppuType p t) = p.promote (ppuType p t) := by
    unfold Platform.common
    rw [if_neg, if_neg, if_neg]
    · unfold Platform.commonInt; rw [if_pos rfl]
    all_goals (intro h; rcases h with h | h <;> (rw [h] at hI; exact hI))
  refine ⟨hcommon, ?_⟩
  by_cases hc : (p.isSigned (p.promote t) && p.isUnsigned t) = true
  · have hu : ppuType p t = .uint := by unfold ppuType; rw [if_pos hc]
    rw [Bool.and_eq_true] at hc
    have hs : p.isSigned t = false := by simpa [Platform.isUnsigned] using hc.2
    rw [hu, hs]
    refine ⟨rfl, narrow_width hp ht hc.1 hs, rfl, le_refl _, by simp⟩
  · have hu : ppuType p t = t := by unfold ppuType; rw [if_neg hc]
    rw [hu]
    rw [Bool.and_eq_true] at hc
    rcases h2 with ⟨h3, h4⟩ | ⟨h3, h4, h5⟩
    · exact ⟨rfl, le_refl _, h3, h4, fun _ => rfl⟩
    · exact absurd ⟨h3, by simp [Platform.isUnsigned, h4]⟩ hc

/-! ## conversions -/

/-- Widening keeps the value. -/
theorem value_widen (s : Bool) {w W : Nat} (h : w ≤ W) (a : BitVec w) : value s (BitVec.ofInt W (value s a)) = value s a := by
  cases s
  · simp only [value, Bool.false_eq_true, if_false]
    rw [BitVec.toNat_ofInt]
    have := a.isLt
    have h2 : 2 ^ w ≤ 2 ^ W := Nat.pow_le_pow_right (by omega) h
    rw [Int.emod_eq_of_lt (by omega) (by exact_mod_cast (by omega : a.toNat < 2 ^ W))]
    simp
  · simp only [value, if_true]
    rw [BitVec.toInt_ofInt]
    rw [Int.bmod_eq_of_le_mul_two]
    · have h1 := BitVec.le_two_mul_toInt (x := a)
      have h2 : (2:ℤ) ^ w ≤ 2 ^ W := pow_le_pow_right₀ (by norm_num) h
      push_cast; omega
    · have h1 := BitVec.two_mul_toInt_lt (x := a)
      have h2 : (2:ℤ) ^ w ≤ 2 ^ W := pow_le_pow_right₀ (by norm_num) h
      push_cast; omega

theorem value_emod (s : Bool) {W : Nat} (r : BitVec W) : (value s r) % (2 ^ W : ℕ) = (r.toNat : ℤ) := by
  cases s
  · simp only [value, Bool.false_eq_true, if_false]
    exact Int.emod_eq_of_lt (by omega) (by exact_mod_cast r.isLt)
  · simp only [value, if_true]
    rw [BitVec.toInt_eq_toNat_bmod, Int.bmod_emod]
    exact Int.emod_eq_of_lt (by omega) (by exact_mod_cast r.isLt)

/-- Numbers that are congruent modulo 2^w give the same element. -/
theorem ofInt_congr {w : Nat} {x y : ℤ} (h : x % (2 ^ w : ℕ) = y % (2 ^ w : ℕ)) : BitVec.ofInt w x = BitVec.ofInt w y := by
  apply BitVec.eq_of_toNat_eq
  rw [BitVec.toNat_ofInt, BitVec.toNat_ofInt, h]

theorem emod_of_emod {w W : Nat} (h : w ≤ W) {x y : ℤ} (hxy : x % (2 ^ W : ℕ) = y % (2 ^ W : ℕ)) :
    x % (2 ^ w : ℕ) = y % (2 ^ w : ℕ) := by
  have hd : ((2 ^ w : ℕ) : ℤ) ∣ ((2 ^ W : ℕ) : ℤ) := by exact_mod_cast pow_dvd_pow 2 h
  rw [← Int.emod_emod_of_dvd x hd, hxy, Int.emod_emod_of_dvd y hd]

/-- Narrowing of a computed number. -/
theorem narrow_ofInt (s : Bool) {w W : Nat} (h : w ≤ W) (z : ℤ) : BitVec.ofInt w (value s (BitVec.ofInt W z)) = BitVec.ofInt w z := by
  apply ofInt_congr
  apply emod_of_emod h
  rw [value_emod, BitVec.toNat_ofInt]
  have : 0 ≤ z % ((2 ^ W : ℕ) : ℤ) := Int.emod_nonneg _ (by positivity)
  rw [Int.toNat_of_nonneg this]

/-- Narrowing keeps the low bits. -/
theorem narrow_setWidth (s : Bool) {w W : Nat} (h : w ≤ W) (r : BitVec W) : BitVec.ofInt w (value s r) = r.setWidth w := by
  apply BitVec.eq_of_toNat_eq
  rw [BitVec.toNat_ofInt, BitVec.toNat_setWidth]
  have h1 := emod_of_emod h (x := value s r) (y := (r.toNat : ℤ)) (by
    rw [value_emod]; exact (Int.emod_eq_of_lt (by omega) (by exact_mod_cast r.isLt)).symm)
  rw [h1]
  omega

theorem ofInt_value (s : Bool) {w : Nat} (a : BitVec w) : BitVec.ofInt w (value s a) = a := by
  rw [narrow_setWidth s (le_refl _)]; simp

theorem getLsbD_widen (s : Bool) {w W : Nat} (h : w ≤ W) (a : BitVec w) (i : Nat) (hi : i < w) :
    (BitVec.ofInt W (value s a)).getLsbD i = a.getLsbD i := by
  have h1 : (BitVec.ofInt W (value s a)).setWidth w = a := by
    rw [← narrow_setWidth s h, value_widen s h, ofInt_value]
  conv_rhs => rw [← h1]
  rw [BitVec.getLsbD_setWidth]; simp [hi]

/-! ## the operators compute on the values of the elements -/

theorem fit_narrow (s : Bool) {w W : Nat} (h : w ≤ W) (z : ℤ) :
    (fit s W z).map (fun r => BitVec.ofInt w (value s r)) = if s = true ∧ ¬ InRange s W z then none else some (BitVec.ofInt w z) := by
  unfold fit
  split
  · rfl
  · rw [Option.map_some, narrow_ofInt s h]

/-- `op` in a type of width `W`, then converted back to width `w`. -/
def evalIn (s : Bool) (w W : Nat) (op : IOp) (a b : BitVec w) : Option (BitVec w) :=
  (op.eval s (BitVec.ofInt W (value s a)) (BitVec.ofInt W (value s b))).map (fun r => BitVec.ofInt w (value s r))

theorem convert_chain {p : Platform} {t u c : CType} (hs : p.isSigned u = p.isSigned t) (hw : p.width t ≤ p.width u)
    (x : p.Elem t) : p.convert u c (p.convert t u x) = BitVec.ofInt _ (value (p.isSigned t) x) := by
  unfold Platform.convert Platform.val
  rw [hs, value_widen _ hw]

theorem binary_eq {p : Platform} (hp : PlatOk p) {t : CType} (ht : IsInt t) (op : IOp) (x y : p.Elem t) :
    binary p t op x y = evalIn (p.isSigned t) (p.width t) (p.width (p.promote (ppuType p t))) op x y := by
  obtain ⟨h1, h2, h3, h4, h5, _⟩ := ppu_spec hp ht
  unfold binary ppu evalIn
  simp only
  rw [h1, convert_chain h2 h3, convert_chain h2 h3, h4]
  unfold Platform.convert Platform.val
  rw [h4]

variable {s : Bool} {w W : Nat}

/-- Result of an exact operation on the values, computed in a type of width `W`. -/
def res (s : Bool) (w W : Nat) (z : ℤ) : Option (BitVec w) :=
  if s = true ∧ ¬ InRange s W z then none else some (BitVec.ofInt w z)

theorem evalIn_add (h : w ≤ W) (a b : BitVec w) : evalIn s w W .add a b = res s w W (value s a + value s b) := by
  unfold evalIn IOp.eval
  dsimp only
  rw [value_widen s h, value_widen s h, fit_narrow s h]; rfl
theorem evalIn_sub (h : w ≤ W) (a b : BitVec w) : evalIn s w W .sub a b = res s w W (value s a - value s b) := by
  unfold evalIn IOp.eval
  dsimp only
  rw [value_widen s h, value_widen s h, fit_narrow s h]; rfl
theorem evalIn_mul (h : w ≤ W) (a b : BitVec w) : evalIn s w W .mul a b = res s w W (value s a * value s b) := by
  unfold evalIn IOp.eval
  dsimp only
  rw [value_widen s h, value_widen s h, fit_narrow s h]; rfl

theorem widen_zero (h : w ≤ W) (b : BitVec w) : BitVec.ofInt W (value s b) = 0#W ↔ b = 0#w := by
  constructor
  · intro hb
    have h1 := value_widen s h b
    rw [hb] at h1
    have h2 := ofInt_value s b
    rw [← h1] at h2
    rw [← h2]
    cases s <;> simp [value]
  · intro hb
    subst hb
    cases s <;> simp [value]

theorem evalIn_div (h : w ≤ W) (a b : BitVec w) :
    evalIn s w W .div a b = if b = 0#w then none else res s w W ((value s a).tdiv (value s b)) := by
  unfold evalIn IOp.eval
  dsimp only
  rw [value_widen s h, value_widen s h]
  simp only [widen_zero h]
  split
  · rfl
  · rw [fit_narrow s h]; rfl

theorem evalIn_mod (h : w ≤ W) (a b : BitVec w) :
    evalIn s w W .mod a b = if b = 0#w ∨ res s w W ((value s a).tdiv (value s b)) = none then none
      else res s w W ((value s a).tmod (value s b)) := by
  unfold evalIn IOp.eval
  dsimp only
  rw [value_widen s h, value_widen s h]
  simp only [widen_zero h]
  have hf : fit s W ((value s a).tdiv (value s b)) = none ↔ res s w W ((value s a).tdiv (value s b)) = none := by
    unfold fit res
    split <;> simp
  simp only [hf]
  split
  · rfl
  · rw [fit_narrow s h]; rfl

theorem evalIn_and (h : w ≤ W) (a b : BitVec w) : evalIn s w W .and a b = some (a &&& b) := by
  unfold evalIn IOp.eval
  dsimp only
  rw [Option.map_some, narrow_setWidth s h]
  congr 1
  apply BitVec.eq_of_getLsbD_eq
  intro i hi
  rw [BitVec.getLsbD_setWidth, BitVec.getLsbD_and, getLsbD_widen s h a i hi, getLsbD_widen s h b i hi, BitVec.getLsbD_and]
  simp [hi]
theorem evalIn_or (h : w ≤ W) (a b : BitVec w) : evalIn s w W .or a b = some (a ||| b) := by
  unfold evalIn IOp.eval
  dsimp only
  rw [Option.map_some, narrow_setWidth s h]
  congr 1
  apply BitVec.eq_of_getLsbD_eq
  intro i hi
  rw [BitVec.getLsbD_setWidth, BitVec.getLsbD_or, getLsbD_widen s h a i hi, getLsbD_widen s h b i hi, BitVec.getLsbD_or]
  simp [hi]
theorem evalIn_xor (h : w ≤ W) (a b : BitVec w) : evalIn s w W .xor a b = some (a ^^^ b) := by
  unfold evalIn IOp.eval
  dsimp only
  rw [Option.map_some, narrow_setWidth s h]
  congr 1
  apply BitVec.eq_of_getLsbD_eq
  intro i hi
  rw [BitVec.getLsbD_setWidth, BitVec.getLsbD_xor, getLsbD_widen s h a i hi, getLsbD_widen s h b i hi, BitVec.getLsbD_xor]
  simp [hi]

/-- The bit pattern of a sum, difference, product. -/
theorem ofInt_add (s : Bool) (a b : BitVec w) : BitVec.ofInt w (value s a + value s b) = a + b := by
  rw [BitVec.ofInt_add, ofInt_value, ofInt_value]
theorem ofInt_mul (s : Bool) (a b : BitVec w) : BitVec.ofInt w (value s a * value s b) = a * b := by
  rw [BitVec.ofInt_mul, ofInt_value, ofInt_value]
theorem ofInt_neg (s : Bool) (a : BitVec w) : BitVec.ofInt w (-(value s a)) = -a := by
  rw [BitVec.ofInt_neg, ofInt_value]
theorem ofInt_sub (s : Bool) (a b : BitVec w) : BitVec.ofInt w (value s a - value s b) = a - b := by
  rw [Int.sub_eq_add_neg, BitVec.ofInt_add, ofInt_neg, ofInt_value, BitVec.sub_eq_add_neg]

/-- The type in which the operators compute is at least as wide as `int`. -/
theorem promote_wide {p : Platform} (hp : PlatOk p) {t : CType} (ht : IsInt t) : p.intW ≤ p.width (p.promote t) := by
  have h1 := hp.long; have h2 := hp.llong
  have hint : p.width .int = p.intW ∧ p.width .uint = p.intW := ⟨rfl, rfl⟩
  have key : ∀ us : List CType, (∀ u ∈ us, IsInt u) → p.intW ≤ p.width (p.firstFit t (.int :: .uint :: us)) := by
    intro us hus
    rw [Platform.firstFit]
    split
    · exact le_of_eq hint.1.symm
    · rename_i h3
      rw [Platform.firstFit]
      split
      · exact le_of_eq hint.2.symm
      · rename_i h4
        rw [rep_iff hp.toOk ht (u := .int) trivial] at h3
        rw [rep_iff hp.toOk ht (u := .uint) trivial] at h4
        have hlt : p.intW < p.width t := by
          rw [hint.1] at h3; rw [hint.2] at h4
          have e1 : p.isSigned .int = true := rfl
          have e2 : p.isSigned .uint = false := rfl
          rw [e1] at h3; rw [e2] at h4
          cases hs : p.isSigned t <;> simp_all
        rcases firstFit_spec p t us with h5 | ⟨h5, h6⟩
        · rw [h5]; omega
        · rw [rep_iff hp.toOk ht (hus _ h5)] at h6
          rcases h6 with h6 | h6 <;> omega
  cases t with
  | bool | float | double | ldouble => exact absurd ht (by simp [IsInt])
  | char | schar | uchar | short | ushort => exact key [] (by simp)
  | char8 | wchar | char16 | char32 => exact key [.long, .ulong, .llong, .ullong] (by simp [IsInt])
  | _ => simp [Platform.promote, Platform.width, Platform.kind]; try omega

/-- The promoted types. -/
theorem promote_mem {p : Platform} (hp : PlatOk p) {t : CType} (ht : IsInt t) :
    p.promote t ∈ [CType.int, .uint, .long, .ulong, .llong, .ullong] ∧
    (p.width t ≤ 32 → t ≠ .long → t ≠ .ulong → p.promote t = .int ∨ p.promote t = .uint) := by
  have h3 := hp.int32; have h4 := hp.wchar32; have h5 := hp.short16; have h6 := hp.long; have h7 := hp.llong64
  have hint : p.width .int = p.intW ∧ p.width .uint = p.intW := ⟨rfl, rfl⟩
  have key : ∀ us : List CType, p.width t ≤ 32 → p.firstFit t (.int :: .uint :: us) = .int ∨
      p.firstFit t (.int :: .uint :: us) = .uint := by
    intro us hw
    rw [Platform.firstFit]
    split
    · left; rfl
    · rename_i h1
      rw [Platform.firstFit]
      split
      · right; rfl
      · rename_i h2
        exfalso
        rw [rep_iff hp.toOk ht (u := .int) trivial, hint.1] at h1
        rw [rep_iff hp.toOk ht (u := .uint) trivial, hint.2] at h2
        have e1 : p.isSigned .int = true := rfl
        have e2 : p.isSigned .uint = false := rfl
        rw [e1] at h1; rw [e2] at h2
        cases hs : p.isSigned t <;> simp_all
  have narrow : (∃ us, p.promote t = p.firstFit t (.int :: .uint :: us)) → p.width t ≤ 32 →
      p.promote t ∈ [CType.int, .uint, .long, .ulong, .llong, .ullong] ∧
      (p.width t ≤ 32 → t ≠ .long → t ≠ .ulong → p.promote t = .int ∨ p.promote t = .uint) := by
    rintro ⟨us, hu⟩ hw
    rw [hu]
    refine ⟨?_, fun _ _ _ => key us hw⟩
    rcases key us hw with h | h <;> rw [h] <;> simp
  cases t with
  | bool | float | double | ldouble => exact absurd ht (by simp [IsInt])
  | char | schar | uchar => exact narrow ⟨[], rfl⟩ (by simp [Platform.width, Platform.kind])
  | short | ushort => exact narrow ⟨[], rfl⟩ (by simp [Platform.width, Platform.kind]; omega)
  | char8 | char16 | char32 => exact narrow ⟨_, rfl⟩ (by simp [Platform.width, Platform.kind])
  | wchar => exact narrow ⟨_, rfl⟩ (by simp [Platform.width, Platform.kind]; omega)
  | int | uint => exact ⟨by simp [Platform.promote], fun _ _ _ => by simp [Platform.promote]⟩
  | long | ulong => exact ⟨by simp [Platform.promote], fun _ h1 h2 => by simp at h1 h2⟩
  | llong | ullong =>
    exact ⟨by simp [Platform.promote], fun h _ _ => by simp [Platform.width, Platform.kind] at h; omega⟩

/-- `++x` and `--x` compute in the promoted type. -/
theorem common_int {p : Platform} (hp : PlatOk p) {t : CType} (ht : IsInt t) : p.common t .int = p.promote t := by
  have hmem := (promote_mem hp ht).1
  unfold Platform.common
  rw [if_neg, if_neg, if_neg]
  · show p.commonInt (p.promote t) .int = p.promote t
    generalize p.promote t = q at hmem
    simp only [List.mem_cons, List.not_mem_nil, or_false] at hmem
    rcases hmem with rfl | rfl | rfl | rfl | rfl | rfl <;>
      simp [Platform.commonInt, Platform.isSigned, Platform.kind, Platform.rank]
  all_goals (intro h; rcases h with h | h <;> first | (rw [h] at ht; exact ht) | simp at h)

/-- An unsigned type that promotes to a signed type has at most half its width. -/
theorem narrow_unsigned {p : Platform} (hp : PlatOk p) {t : CType} (ht : IsInt t) (h1 : p.isSigned (p.promote t) = true)
    (h2 : p.isSigned t = false) : p.width t ≤ 16 ∧ p.width (p.promote t) = 32 := by
  have h3 := hp.int32; have h4 := hp.wchar32; have h5 := hp.short16
  have h6 := (promote_spec hp.toOk ht).2
  have h7 := narrow_width hp ht h1 h2
  have hne : t ≠ .long ∧ t ≠ .ulong := by
    constructor
    · rintro rfl; simp [Platform.isSigned, Platform.kind] at h2
    · rintro rfl; simp [Platform.isSigned, Platform.kind, Platform.promote] at h1
  rcases (promote_mem hp ht).2 (by omega) hne.1 hne.2 with h8 | h8
  · rw [h8] at h6 ⊢
    have hw : p.width .int = 32 := h3
    rw [hw] at h6 ⊢
    refine ⟨?_, rfl⟩
    have hlt : p.width t < 32 := by
      rcases h6 with h6 | h6
      · rw [h2] at h6; simp [Platform.isSigned, Platform.kind] at h6
      · exact h6.2.2
    have h9 := hp.llong64
    cases t <;> simp_all [Platform.width, Platform.kind, IsInt] <;> omega
  · rw [h8] at h1; simp [Platform.isSigned, Platform.kind] at h1

/-- Promotion keeps the value. -/
theorem val_promote {p : Platform} (hp : PlatOk p) {t : CType} (ht : IsInt t) (a : p.Elem t) :
    p.val (p.promote t) (p.convert t (p.promote t) a) = p.val t a := by
  unfold Platform.val Platform.convert Platform.val
  rcases (promote_spec hp.toOk ht).2 with ⟨h1, h2⟩ | ⟨h1, h2, h3⟩
  · rw [h1, value_widen _ h2]
  · rw [h1, h2]
    simp only [value, if_true, Bool.false_eq_true, if_false]
    rw [BitVec.toInt_ofInt]
    have := a.isLt
    have h4 : (2:ℕ) ^ (p.width t + 1) ≤ 2 ^ p.width (p.promote t) := Nat.pow_le_pow_right (by omega) h3
    rw [pow_succ] at h4
    have h5 : ((a.toNat : ℤ) * 2 : ℤ) < ((2 ^ p.width (p.promote t) : ℕ) : ℤ) := by exact_mod_cast (by omega)
    apply Int.bmod_eq_of_le_mul_two <;> omega

theorem promote_le {p : Platform} (hp : PlatOk p) {t : CType} (ht : IsInt t) : p.width t ≤ p.width (p.promote t) := by
  rcases (promote_spec hp.toOk ht).2 with h | h <;> omega

/-- A result computed in the promoted type and converted back. -/
theorem promoted_res {p : Platform} (hp : PlatOk p) {t : CType} (ht : IsInt t) (z : ℤ) :
    (fit (p.isSigned (p.promote t)) (p.width (p.promote t)) z).map (p.convert (p.promote t) t) =
      res (p.isSigned (p.promote t)) (p.width t) (p.width (p.promote t)) z := fit_narrow _ (promote_le hp ht) z

theorem unaryMinus_eq {p : Platform} (hp : PlatOk p) {t : CType} (ht : IsInt t) (a : p.Elem t) :
    unaryMinus p t a = res (p.isSigned (p.promote t)) (p.width t) (p.width (p.promote t)) (-(p.val t a)) := by
  rw [← promoted_res hp ht]
  unfold unaryMinus negE
  have := val_promote hp ht a
  unfold Platform.val at this ⊢
  simp only [this]

theorem value_one {s : Bool} {W : Nat} (h : 2 ≤ W) : value s (BitVec.ofInt W 1) = 1 := by
  have h1 : (2:ℕ) ^ 2 ≤ 2 ^ W := Nat.pow_le_pow_right (by omega) h
  cases s
  · simp only [value, Bool.false_eq_true, if_false]
    rw [BitVec.toNat_ofInt, Int.emod_eq_of_lt (by omega) (by exact_mod_cast (by omega : 1 < 2 ^ W))]; rfl
  · simp only [value, if_true]
    rw [BitVec.toInt_ofInt]
    have : (4:ℤ) ≤ ((2 ^ W : ℕ) : ℤ) := by exact_mod_cast h1
    apply Int.bmod_eq_of_le_mul_two <;> omega

theorem increment_eq {p : Platform} (hp : PlatOk p) {t : CType} (ht : IsInt t) (a : p.Elem t) :
    increment p t a = res (p.isSigned (p.promote t)) (p.width t) (p.width (p.promote t)) (p.val t a + 1) := by
  rw [← promoted_res hp ht]
  unfold increment
  simp only
  rw [common_int hp ht]
  have h1 := val_promote hp ht a
  have h2 := promote_wide hp ht
  have h3 := hp.int32
  unfold IOp.eval
  dsimp only
  rw [value_one (by omega)]
  unfold Platform.val at h1 ⊢
  rw [h1]

theorem decrement_eq {p : Platform} (hp : PlatOk p) {t : CType} (ht : IsInt t) (a : p.Elem t) :
    decrement p t a = res (p.isSigned (p.promote t)) (p.width t) (p.width (p.promote t)) (p.val t a - 1) := by
  rw [← promoted_res hp ht]
  unfold decrement
  simp only
  rw [common_int hp ht]
  have h1 := val_promote hp ht a
  have h2 := promote_wide hp ht
  have h3 := hp.int32
  unfold IOp.eval
  dsimp only
  rw [value_one (by omega)]
  unfold Platform.val at h1 ⊢
  rw [h1]

theorem ppu_isInt {p : Platform} {t : CType} (ht : IsInt t) : IsInt (ppuType p t) := by unfold ppuType; split <;> trivial

theorem complement_eq {p : Platform} (hp : PlatOk p) {t : CType} (ht : IsInt t) (a : p.Elem t) : complement p t a = some (~~~a) := by
  unfold complement complE
  simp only [Option.map_some]
  congr 1
  have hw := promote_le hp ht
  unfold Platform.convert Platform.val
  rw [narrow_setWidth _ hw]
  apply BitVec.eq_of_getLsbD_eq
  intro i hi
  have h1 : (BitVec.ofInt (p.width (p.promote t)) (value (p.isSigned t) a)).getLsbD i = a.getLsbD i := getLsbD_widen _ hw a i hi
  rw [BitVec.getLsbD_setWidth, BitVec.getLsbD_not, h1, BitVec.getLsbD_not]
  simp [hi, show i < p.width (p.promote t) by omega]

theorem shiftLeft_eq {p : Platform} (hp : PlatOk p) {t : CType} (ht : IsInt t) (a : p.Elem t) (n : ℤ) :
    shiftLeft p t a n = if n < 0 ∨ (p.width (p.promote (ppuType p t)) : ℤ) ≤ n then none
      else if p.isSigned t = true ∧ (value (p.isSigned t) a < 0 ∨
        2 ^ p.width (p.promote (ppuType p t)) ≤ value (p.isSigned t) a * 2 ^ n.toNat) then none
      else some (BitVec.ofInt _ (value (p.isSigned t) a * 2 ^ n.toNat)) := by
  obtain ⟨h1, h2, h3, h4, h5, _⟩ := ppu_spec hp ht
  have hw : p.width t ≤ p.width (p.promote (ppuType p t)) := by omega
  unfold shiftLeft ppu
  simp only
  rw [convert_chain h2 h3, h4]
  unfold shlE
  rw [value_widen _ hw]
  split
  · rfl
  · split
    · rfl
    · rw [Option.map_some]
      unfold Platform.convert Platform.val
      rw [narrow_ofInt _ hw]

theorem shiftRight_eq {p : Platform} (hp : PlatOk p) {t : CType} (ht : IsInt t) (a : p.Elem t) (n : ℤ) :
    shiftRight p t a n = if n < 0 ∨ (p.width (p.promote (ppuType p t)) : ℤ) ≤ n then none
      else some (BitVec.ofInt _ (value (p.isSigned t) a / 2 ^ n.toNat)) := by
  obtain ⟨h1, h2, h3, h4, h5, _⟩ := ppu_spec hp ht
  have hw : p.width t ≤ p.width (p.promote (ppuType p t)) := by omega
  unfold shiftRight ppu
  simp only
  rw [convert_chain h2 h3, h4]
  unfold shrE
  rw [value_widen _ hw]
  split
  · rfl
  · rw [Option.map_some]
    unfold Platform.convert Platform.val
    rw [narrow_ofInt _ hw]

end StdSimd.Scalar
