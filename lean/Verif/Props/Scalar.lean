import Verif.Proofs.Scalar
/-!
# Property theorems about the operators of `simd<T, simd_abi::scalar>`  (C57)

`p` ranges over the platforms (signedness of `char` and `wchar_t`, widths of the types), `t` over the integer types, `a`, `b` over all
elements.  `+`, `-`, `*`, `/`, `%` of bit vectors are arithmetic modulo 2^w, which is what all other ABIs compute.
-/
namespace StdSimd.Props
open Scalar Spec

variable {p : Platform} {t : CType}

private theorem res_unsigned {w W : Nat} (z : ℤ) : res false w W z = some (BitVec.ofInt w z) := by
  simp [res]

private theorem res_signed {w W : Nat} (z : ℤ) : res true w W z = if InRange true W z then some (BitVec.ofInt w z) else none := by
  unfold res
  by_cases h : InRange true W z <;> simp [h]

private theorem res_wide {w W : Nat} {s : Bool} {z : ℤ} (h : s = true → InRange true W z) :
    res s w W z = some (BitVec.ofInt w z) := by
  cases s
  · exact res_unsigned z
  · rw [res_signed, if_pos (h rfl)]

private theorem one_elem {w : Nat} (_ : 8 ≤ w) : BitVec.ofInt w 1 = 1 := rfl

private theorem tmod_inRange {w W : Nat} (h : w ≤ W) (h1 : 1 ≤ w) (a b : BitVec w) : InRange true W (a.toInt.tmod b.toInt) := by
  have h2 := BitVec.le_two_mul_toInt (x := a)
  have h3 := BitVec.two_mul_toInt_lt (x := a)
  have h4 : (2:ℤ) ^ (w - 1) ≤ 2 ^ (W - 1) := pow_le_pow_right₀ (by norm_num) (by omega)
  have h5 : (2:ℤ) ^ w = 2 * 2 ^ (w - 1) := by rw [← pow_succ']; congr 1; omega
  have h6 : (a.toInt.tmod b.toInt).natAbs ≤ a.toInt.natAbs := by rw [Int.natAbs_tmod]; exact Nat.mod_le _ _
  simp only [InRange, if_true]
  have h7 : a.toInt < 0 → a.toInt.tmod b.toInt ≤ 0 := fun h => by
    have := Int.tmod_nonneg (a := -a.toInt) b.toInt (by omega)
    rw [Int.neg_tmod] at this; omega
  have h8 : 0 ≤ a.toInt → 0 ≤ a.toInt.tmod b.toInt := fun h => Int.tmod_nonneg _ h
  rw [h5] at h2 h3
  rcases Int.lt_or_le a.toInt 0 with h9 | h9
  · have := h7 h9; omega
  · have := h8 h9; omega

/-- C57. Unsigned elements of every width, also those narrower than `int`, which C++ promotes to the *signed* type `int`: no operator
has undefined behaviour except division by zero, and every result is that of arithmetic modulo 2^w. -/
theorem C57_unsigned (hp : PlatOk p) (ht : IsInt t) (hu : p.isSigned t = false) (a b : p.Elem t) :
    binary p t .add a b = some (a + b) ∧ binary p t .sub a b = some (a - b) ∧ binary p t .mul a b = some (a * b) ∧
    binary p t .div a b = (if b = 0 then none else some (a / b)) ∧ binary p t .mod a b = (if b = 0 then none else some (a % b)) ∧
    unaryMinus p t a = some (-a) ∧ increment p t a = some (a + 1) ∧ decrement p t a = some (a - 1) := by
  obtain ⟨h1, h2, h3, h4, h5, _⟩ := ppu_spec hp ht
  have hw : p.width t ≤ p.width (p.promote (ppuType p t)) := by omega
  have h8 := width_pos hp.toOk ht
  have ha := a.isLt
  have hone : BitVec.ofInt (p.width t) 1 = 1 := one_elem h8
  have hv : p.val t a = (a.toNat : ℤ) := by simp [Platform.val, value, hu]
  have hin : ∀ z : ℤ, -2 ^ p.width t ≤ z → z ≤ 2 ^ p.width t → p.isSigned (p.promote t) = true →
      InRange true (p.width (p.promote t)) z := by
    intro z hz1 hz2 hs
    obtain ⟨n1, n2⟩ := narrow_unsigned hp ht hs hu
    have n3 : (2:ℤ) ^ p.width t ≤ 2 ^ 16 := pow_le_pow_right₀ (by norm_num) n1
    rw [n2]; simp only [InRange, if_true]; norm_num at n3 ⊢; omega
  refine ⟨?_, ?_, ?_, ?_, ?_, ?_, ?_, ?_⟩
  · rw [binary_eq hp ht, evalIn_add hw, hu, res_unsigned, ofInt_add]
  · rw [binary_eq hp ht, evalIn_sub hw, hu, res_unsigned, ofInt_sub]
  · rw [binary_eq hp ht, evalIn_mul hw, hu, res_unsigned, ofInt_mul]
  · rw [binary_eq hp ht, evalIn_div hw, hu, res_unsigned]
    simp only [value, Bool.false_eq_true, if_false]
    congr 2
    rw [show ((a.toNat : ℤ).tdiv (b.toNat : ℤ)) = ((a.toNat / b.toNat : ℕ) : ℤ) from rfl, BitVec.ofInt_natCast]
    apply BitVec.eq_of_toNat_eq
    rw [BitVec.toNat_ofNat, BitVec.toNat_udiv]
    exact Nat.mod_eq_of_lt (lt_of_le_of_lt (Nat.div_le_self _ _) ha)
  · rw [binary_eq hp ht, evalIn_mod hw, hu]
    simp only [res_unsigned, reduceCtorEq, or_false]
    simp only [value, Bool.false_eq_true, if_false]
    congr 2
    rw [show ((a.toNat : ℤ).tmod (b.toNat : ℤ)) = ((a.toNat % b.toNat : ℕ) : ℤ) from rfl, BitVec.ofInt_natCast]
    apply BitVec.eq_of_toNat_eq
    rw [BitVec.toNat_ofNat, BitVec.toNat_umod]
    exact Nat.mod_eq_of_lt (lt_of_le_of_lt (Nat.mod_le _ _) ha)
  · rw [unaryMinus_eq hp ht, res_wide (fun hs => hin _ (by rw [hv]; push_cast; have : (a.toNat : ℤ) < 2 ^ p.width t := by exact_mod_cast ha
                                                           omega) (by rw [hv]; have : (0:ℤ) < 2 ^ p.width t := by positivity
                                                                      omega) hs)]
    exact congrArg some (ofInt_neg _ a)
  · rw [increment_eq hp ht, res_wide (fun hs => hin _ (by rw [hv]; have : (0:ℤ) < 2 ^ p.width t := by positivity
                                                          omega) (by rw [hv]; have : (a.toNat : ℤ) < 2 ^ p.width t := by exact_mod_cast ha
                                                                     omega) hs)]
    rw [BitVec.ofInt_add, hone]
    exact congrArg (fun x => some (x + 1)) (ofInt_value _ a)
  · rw [decrement_eq hp ht, res_wide (fun hs => hin _ (by rw [hv]; have : (0:ℤ) < 2 ^ p.width t := by positivity
                                                          omega) (by rw [hv]; have : (a.toNat : ℤ) < 2 ^ p.width t := by exact_mod_cast ha
                                                                     omega) hs)]
    rw [Int.sub_eq_add_neg, BitVec.ofInt_add, BitVec.ofInt_neg, hone, BitVec.sub_eq_add_neg]
    exact congrArg (fun x => some (x + -1)) (ofInt_value _ a)

/-- C57. Signed elements: the operators compute in the promoted type, are defined exactly if the exact result is representable there, and
then give the result modulo 2^w. -/
theorem C57_signed (hp : PlatOk p) (ht : IsInt t) (hs : p.isSigned t = true) (a b : p.Elem t) :
    binary p t .add a b = (if InRange true (p.width (p.promote t)) (a.toInt + b.toInt) then some (a + b) else none) ∧
    binary p t .sub a b = (if InRange true (p.width (p.promote t)) (a.toInt - b.toInt) then some (a - b) else none) ∧
    binary p t .mul a b = (if InRange true (p.width (p.promote t)) (a.toInt * b.toInt) then some (a * b) else none) ∧
    binary p t .div a b = (if b ≠ 0 ∧ InRange true (p.width (p.promote t)) (a.toInt.tdiv b.toInt)
      then some (BitVec.ofInt _ (a.toInt.tdiv b.toInt)) else none) ∧
    binary p t .mod a b = (if b ≠ 0 ∧ InRange true (p.width (p.promote t)) (a.toInt.tdiv b.toInt)
      then some (BitVec.ofInt _ (a.toInt.tmod b.toInt)) else none) ∧
    unaryMinus p t a = (if InRange true (p.width (p.promote t)) (-a.toInt) then some (-a) else none) ∧
    increment p t a = (if InRange true (p.width (p.promote t)) (a.toInt + 1) then some (a + 1) else none) ∧
    decrement p t a = (if InRange true (p.width (p.promote t)) (a.toInt - 1) then some (a - 1) else none) := by
  obtain ⟨h1, h2, h3, h4, h5, h6⟩ := ppu_spec hp ht
  have hpt := h6 hs
  have hw : p.width t ≤ p.width (p.promote t) := promote_le hp ht
  rw [hpt] at h4
  have hv : ∀ x : p.Elem t, value true x = x.toInt := fun x => by simp [value]
  have h8 := width_pos hp.toOk ht
  have hone : BitVec.ofInt (p.width t) 1 = 1 := one_elem h8
  have hva : p.val t a = a.toInt := by simp [Platform.val, value, hs]
  refine ⟨?_, ?_, ?_, ?_, ?_, ?_, ?_, ?_⟩
  · rw [binary_eq hp ht, hpt, evalIn_add hw, hs, res_signed, ofInt_add, hv, hv]
  · rw [binary_eq hp ht, hpt, evalIn_sub hw, hs, res_signed, ofInt_sub, hv, hv]
  · rw [binary_eq hp ht, hpt, evalIn_mul hw, hs, res_signed, ofInt_mul, hv, hv]
  · rw [binary_eq hp ht, hpt, evalIn_div hw, hs, res_signed, hv, hv]
    by_cases hb : b = 0#(p.width t)
    · rw [if_pos hb, if_neg (fun h => h.1 hb)]
    · rw [if_neg hb]
      by_cases hr : InRange true (p.width (p.promote t)) (a.toInt.tdiv b.toInt)
      · rw [if_pos hr, if_pos ⟨hb, hr⟩]
      · rw [if_neg hr, if_neg (fun h => hr h.2)]
  · rw [binary_eq hp ht, hpt, evalIn_mod hw, hs, hv, hv]
    by_cases hb : b = 0#(p.width t)
    · rw [if_pos (Or.inl hb), if_neg (fun h => h.1 hb)]
    · by_cases hr : InRange true (p.width (p.promote t)) (a.toInt.tdiv b.toInt)
      · have hno : ¬ (b = 0#(p.width t) ∨ res true (p.width t) (p.width (p.promote t)) (a.toInt.tdiv b.toInt) = none) := by
          rw [res_signed, if_pos hr]
          rintro (h | h)
          · exact hb h
          · simp at h
        rw [if_neg hno, if_pos (show b ≠ 0 ∧ _ from ⟨hb, hr⟩), res_signed, if_pos (tmod_inRange hw (by omega) a b)]
      · have hyes : b = 0#(p.width t) ∨ res true (p.width t) (p.width (p.promote t)) (a.toInt.tdiv b.toInt) = none := by
          right; rw [res_signed, if_neg hr]
        rw [if_pos hyes, if_neg (fun h : b ≠ 0 ∧ _ => hr h.2)]
  · rw [unaryMinus_eq hp ht, h4, hs, res_signed]
    rw [hva, ← ofInt_neg true a, hv]
  · rw [increment_eq hp ht, h4, hs, res_signed, hva, BitVec.ofInt_add, hone, ← hv, ofInt_value]
  · rw [decrement_eq hp ht, h4, hs, res_signed, hva, Int.sub_eq_add_neg, BitVec.ofInt_add, BitVec.ofInt_neg, hone, ← hv, ofInt_value,
      BitVec.sub_eq_add_neg]

/-- C57. Signed elements narrower than `int` (`signed char`, `short`, ...): nothing but division by zero is undefined, results wrap
around. -/
theorem C57_narrow (hp : PlatOk p) (ht : IsInt t) (hs : p.isSigned t = true) (hw : p.width t ≤ 16) (a b : p.Elem t) :
    binary p t .add a b = some (a + b) ∧ binary p t .sub a b = some (a - b) ∧ binary p t .mul a b = some (a * b) ∧
    binary p t .div a b = (if b = 0 then none else some (BitVec.ofInt _ (a.toInt.tdiv b.toInt))) ∧
    binary p t .mod a b = (if b = 0 then none else some (BitVec.ofInt _ (a.toInt.tmod b.toInt))) ∧
    unaryMinus p t a = some (-a) ∧ increment p t a = some (a + 1) ∧ decrement p t a = some (a - 1) := by
  obtain ⟨e1, e2, e3, e4, e5, e6, e7, e8⟩ := C57_signed hp ht hs a b
  have h32 : 32 ≤ p.width (p.promote t) := by have := promote_wide hp ht; have := hp.int32; omega
  have h31 : (2:ℤ) ^ 31 ≤ 2 ^ (p.width (p.promote t) - 1) := pow_le_pow_right₀ (by norm_num) (by omega)
  have h8 := width_pos hp.toOk ht
  have bound : ∀ x : p.Elem t, -2 ^ 15 ≤ x.toInt ∧ x.toInt < 2 ^ 15 := by
    intro x
    have h2 := BitVec.le_two_mul_toInt (x := x)
    have h3 := BitVec.two_mul_toInt_lt (x := x)
    have h4 : (2:ℤ) ^ p.width t ≤ 2 ^ 16 := pow_le_pow_right₀ (by norm_num) hw
    norm_num at h4 ⊢; omega
  have hin : ∀ z : ℤ, -2 ^ 31 ≤ z → z < 2 ^ 31 → InRange true (p.width (p.promote t)) z := by
    intro z h1 h2
    simp only [InRange, if_true]; omega
  obtain ⟨a1, a2⟩ := bound a
  obtain ⟨b1, b2⟩ := bound b
  have hdiv : InRange true (p.width (p.promote t)) (a.toInt.tdiv b.toInt) := by
    have := Int.natAbs_tdiv_le_natAbs a.toInt b.toInt
    apply hin <;> norm_num at a1 a2 ⊢ <;> omega
  refine ⟨?_, ?_, ?_, ?_, ?_, ?_, ?_, ?_⟩
  · rw [e1, if_pos (hin _ (by norm_num at *; omega) (by norm_num at *; omega))]
  · rw [e2, if_pos (hin _ (by norm_num at *; omega) (by norm_num at *; omega))]
  · rw [e3, if_pos (hin _ (by norm_num at a1 a2 b1 b2 ⊢; nlinarith) (by norm_num at a1 a2 b1 b2 ⊢; nlinarith))]
  · rw [e4]
    by_cases hb : b = 0
    · rw [if_pos hb, if_neg (fun h => h.1 hb)]
    · rw [if_neg hb, if_pos ⟨hb, hdiv⟩]
  · rw [e5]
    by_cases hb : b = 0
    · rw [if_pos hb, if_neg (fun h => h.1 hb)]
    · rw [if_neg hb, if_pos ⟨hb, hdiv⟩]
  · rw [e6, if_pos (hin _ (by norm_num at *; omega) (by norm_num at *; omega))]
  · rw [e7, if_pos (hin _ (by norm_num at *; omega) (by norm_num at *; omega))]
  · rw [e8, if_pos (hin _ (by norm_num at *; omega) (by norm_num at *; omega))]

/-- C57. The bitwise operators of every integer type. -/
theorem C57_bitwise (hp : PlatOk p) (ht : IsInt t) (a b : p.Elem t) :
    binary p t .and a b = some (a &&& b) ∧ binary p t .or a b = some (a ||| b) ∧ binary p t .xor a b = some (a ^^^ b) ∧
    complement p t a = some (~~~a) := by
  obtain ⟨h1, h2, h3, h4, h5, _⟩ := ppu_spec hp ht
  have hw : p.width t ≤ p.width (p.promote (ppuType p t)) := by omega
  refine ⟨?_, ?_, ?_, ?_⟩
  · rw [binary_eq hp ht, evalIn_and hw]
  · rw [binary_eq hp ht, evalIn_or hw]
  · rw [binary_eq hp ht, evalIn_xor hw]
  · exact complement_eq hp ht a

/-- C57. Shifts, for shift counts smaller than the width of the element type or of `int`: to the right by rounding down; to the left
of unsigned elements modulo 2^w, of non-negative signed elements whose result does not exceed the unsigned promoted type likewise. -/
theorem C57_shift (hp : PlatOk p) (ht : IsInt t) (a : p.Elem t) (n : Nat) (hn : n < p.width t ∨ n < p.intW) :
    shiftRight p t a n = some (Spec.shr (p.isSigned t) a n) ∧
    (p.isSigned t = false → shiftLeft p t a n = some (Spec.shl a n)) ∧
    (p.isSigned t = true → 0 ≤ a.toInt → a.toInt * 2 ^ n < 2 ^ p.width (p.promote t) → shiftLeft p t a n = some (Spec.shl a n)) := by
  obtain ⟨h1, h2, h3, h4, h5, h6⟩ := ppu_spec hp ht
  have hw : p.width t ≤ p.width (p.promote (ppuType p t)) := by omega
  have hW : n < p.width (p.promote (ppuType p t)) := by
    have := promote_wide hp (ppu_isInt ht (p := p)); omega
  refine ⟨?_, ?_, ?_⟩
  · rw [shiftRight_eq hp ht, if_neg (by omega)]
    unfold Spec.shr value
    cases p.isSigned t <;> simp
    rw [show (a.toNat : ℤ) / 2 ^ n = ((a.toNat / 2 ^ n : ℕ) : ℤ) by push_cast; rfl, BitVec.ofInt_natCast]
  · intro hu
    rw [shiftLeft_eq hp ht, if_neg (by omega), if_neg (by rw [hu]; simp)]
    unfold Spec.shl value
    rw [hu]
    simp only [Bool.false_eq_true, if_false, Int.toNat_natCast]
    rw [show (a.toNat : ℤ) * 2 ^ n = ((a.toNat * 2 ^ n : ℕ) : ℤ) by push_cast; rfl, BitVec.ofInt_natCast]
  · intro hs h0 hlt
    rw [shiftLeft_eq hp ht, if_neg (by omega), if_neg]
    · unfold Spec.shl value
      rw [hs]
      simp only [if_true, Int.toNat_natCast]
      have hn2 : a.toInt = (a.toNat : ℤ) := by
        have hlt := a.isLt
        rw [BitVec.toInt_eq_toNat_cond] at h0 ⊢
        split at h0
        · rename_i hc; rw [if_pos hc]
        · have : (a.toNat : ℤ) < ((2 ^ p.width t : ℕ) : ℤ) := by exact_mod_cast hlt
          omega
      rw [hn2, show (a.toNat : ℤ) * 2 ^ n = ((a.toNat * 2 ^ n : ℕ) : ℤ) by push_cast; rfl, BitVec.ofInt_natCast]
    · rw [hs, h6 hs]
      simp only [value, if_true, Int.toNat_natCast]
      omega

/-! ### non-vacuity -/

theorem lp64_ok : PlatOk Platform.lp64 :=
  { short := by decide, int := by decide, long := by decide, llong := by decide, llong64 := by decide, wchar := by decide,
    wchar' := by decide, flt := by decide, dbl := by decide, ldbl := by decide, ldblBits := by decide, fltExp := by decide,
    dblExp := by decide, ldblExp := by decide, range := by decide, short16 := rfl, int32 := rfl, wchar32 := Or.inr rfl }

/-- `unsigned short`: 65535 * 65535 overflows `int`, but the scalar ABI computes 1. -/
example : IOp.eval true .mul 65535#32 65535#32 = none ∧
    binary Platform.lp64 .ushort .mul 65535#16 65535#16 = some 1#16 := by
  refine ⟨by decide, ?_⟩
  exact (C57_unsigned lp64_ok (t := .ushort) trivial rfl 65535#16 65535#16).2.2.1
/-- `signed char`: -128 / -1 wraps to -128, `int` arithmetic overflows. -/
example : binary Platform.lp64 .schar .div 0x80#8 0xff#8 = some 0x80#8 ∧
    binary Platform.lp64 .int .add 0x7fffffff#32 1#32 = none := by
  refine ⟨?_, ?_⟩
  · rw [(C57_narrow lp64_ok (t := .schar) trivial rfl (by decide) 0x80#8 0xff#8).2.2.2.1]; rfl
  · rw [(C57_signed lp64_ok (t := .int) trivial rfl 0x7fffffff#32 1#32).1]; rfl

end StdSimd.Props
