import Verif.Model.X86Convert
import Verif.Spec.IntCast
/-! # Register conversions: symbolic execution and its soundness -/
namespace StdSimd.X86Convert
open Spec

/-- What a byte of a register is, in terms of the bytes of the arguments. -/
inductive Src where
  | zero
  | byte (k : Nat)
  | sign (k : Nat)
  | junk

/-- Equality of known contents. -/
def Src.same : Src → Src → Bool
  | .zero, .zero => true
  | .byte a, .byte b => a == b
  | .sign a, .sign b => a == b
  | _, _ => false

theorem Src.eq_of_same : ∀ {a b : Src}, a.same b = true → a = b
  | .zero, .zero, _ => rfl
  | .byte a, .byte b, h => by simp [Src.same] at h; rw [h]
  | .sign a, .sign b, h => by simp [Src.same] at h; rw [h]
  | .zero, .byte _, h | .zero, .sign _, h | .zero, .junk, h | .byte _, .zero, h | .byte _, .sign _, h | .byte _, .junk, h
  | .sign _, .zero, h | .sign _, .byte _, h | .sign _, .junk, h | .junk, _, h => by simp [Src.same] at h

def sym : Dom Src where
  zero := .zero
  sign | .zero => .zero | .byte k => .sign k | .sign k => .sign k | .junk => .junk
  or | .zero, b => b | a, .zero => a | _, _ => .junk
  addLo | .zero, .zero, b0, _ => b0 | _, _, _, _ => .junk
  addHi | .zero, .zero, _, b1 => b1 | _, _, _, _ => .junk
  junk _ := .junk

/-- A byte of copies of the top bit. -/
def signByte (b : BitVec 8) : BitVec 8 := if b.msb then 0xff#8 else 0#8

/-- `b` is what `x` says, if `env` are the bytes of the arguments. -/
def Rep (env : Nat → BitVec 8) : Src → BitVec 8 → Prop
  | .zero, b => b = 0#8
  | .byte k, b => b = env k
  | .sign k, b => b = signByte (env k)
  | .junk, _ => True

theorem signByte_signByte (b : BitVec 8) : signByte (signByte b) = signByte b := by revert b; decide

section
variable {env : Nat → BitVec 8} {junk : Nat → BitVec 8}

theorem rep_sign {x : Src} {b : BitVec 8} (h : Rep env x b) : Rep env (sym.sign x) ((bytes junk).sign b) := by
  cases x <;> simp only [sym, Rep, bytes] at h ⊢
  · subst h; rfl
  · subst h; rfl
  · subst h; exact signByte_signByte _

theorem rep_or {x y : Src} {a b : BitVec 8} (h : Rep env x a) (h' : Rep env y b) : Rep env (sym.or x y) ((bytes junk).or a b) := by
  cases x <;> cases y <;> simp only [sym, Rep, bytes] at h h' ⊢ <;> subst_vars <;> simp

theorem add16 (b0 b1 : BitVec 8) : ((0#8 ++ 0#8) + (b1 ++ b0) : BitVec 16).extractLsb' 0 8 = b0 := by
  have : (0#8 ++ 0#8 : BitVec 16) = 0#16 := by decide
  rw [this, BitVec.zero_add]
  ext i hi
  have e := BitVec.getLsbD_append (x := b1) (y := b0) (i := i)
  rw [BitVec.getElem_extractLsb', Nat.zero_add]
  rw [if_pos hi] at e
  exact e.trans (BitVec.getLsbD_eq_getElem hi)

theorem add16' (b0 b1 : BitVec 8) : ((0#8 ++ 0#8) + (b1 ++ b0) : BitVec 16).extractLsb' 8 8 = b1 := by
  have : (0#8 ++ 0#8 : BitVec 16) = 0#16 := by decide
  rw [this, BitVec.zero_add]
  ext i hi
  have e := BitVec.getLsbD_append (x := b1) (y := b0) (i := 8 + i)
  rw [BitVec.getElem_extractLsb']
  rw [if_neg (by omega), Nat.add_sub_cancel_left] at e
  exact e.trans (BitVec.getLsbD_eq_getElem hi)

theorem rep_addLo {x0 x1 y0 y1 : Src} {a0 a1 b0 b1 : BitVec 8} (h0 : Rep env x0 a0) (h1 : Rep env x1 a1) (h2 : Rep env y0 b0) :
    Rep env (sym.addLo x0 x1 y0 y1) ((bytes junk).addLo a0 a1 b0 b1) := by
  cases x0 <;> cases x1 <;> simp only [sym, Rep, bytes] at h0 h1 ⊢
  subst h0 h1
  rw [add16]
  exact h2

theorem rep_addHi {x0 x1 y0 y1 : Src} {a0 a1 b0 b1 : BitVec 8} (h0 : Rep env x0 a0) (h1 : Rep env x1 a1) (h2 : Rep env y1 b1) :
    Rep env (sym.addHi x0 x1 y0 y1) ((bytes junk).addHi a0 a1 b0 b1) := by
  cases x0 <;> cases x1 <;> simp only [sym, Rep, bytes] at h0 h1 ⊢
  subst h0 h1
  rw [add16']
  exact h2

theorem rep_zero : Rep env sym.zero (bytes junk).zero := rfl
theorem rep_junk (i : Nat) : Rep env (sym.junk i) ((bytes junk).junk i) := trivial

theorem rep_ite {p : Prop} [Decidable p] {x y : Src} {a b : BitVec 8} (h : Rep env x a) (h' : Rep env y b) :
    Rep env (if p then x else y) (if p then a else b) := by
  by_cases hp : p
  · rw [if_pos hp, if_pos hp]; exact h
  · rw [if_neg hp, if_neg hp]; exact h'

/-- Symbolic execution is sound. -/
theorem rep_eval {sargs : Nat → Nat → Src} {args : Nat → Nat → BitVec 8} (h : ∀ k i, Rep env (sargs k i) (args k i)) :
    ∀ (e : Expr) (i : Nat), Rep env (e.eval sym sargs i) (e.eval (bytes junk) args i) := by
  intro e
  induction e with
  | arg k n => intro i; exact h k i
  | zero n => intro i; exact rep_zero
  | fit m n e ih => intro i; exact rep_ite (ih i) (rep_junk i)
  | zext m n e ih => intro i; exact rep_ite (ih i) rep_zero
  | slice off n e ih => intro i; exact ih _
  | concat m a b iha ihb => intro i; exact rep_ite (iha i) (ihb _)
  | unpacklo n w a b iha ihb => intro i; exact rep_ite (iha _) (ihb _)
  | unpackhi n w a b iha ihb => intro i; exact rep_ite (iha _) (ihb _)
  | shufb n mask e ih => intro i; exact rep_ite rep_zero (ih _)
  | shufps n imm a b iha ihb => intro i; exact rep_ite (iha _) (ihb _)
  | perm n w idx e ih => intro i; exact ih _
  | srai n w k e ih => intro i; exact rep_ite (ih _) (rep_sign (ih _))
  | slli n w k e ih => intro i; exact rep_ite rep_zero (ih _)
  | srli n w k e ih => intro i; exact rep_ite (ih _) rep_zero
  | keep n w k e ih => intro i; exact rep_ite (ih _) rep_zero
  | or n a b iha ihb => intro i; exact rep_or (iha i) (ihb i)
  | blend16 n imm a b iha ihb => intro i; exact rep_ite (iha i) (ihb i)
  | blend32 n imm a b iha ihb => intro i; exact rep_ite (iha i) (ihb i)
  | hadd16 a b iha ihb =>
    intro i
    exact rep_ite (rep_ite (rep_addLo (iha _) (iha _) (iha _)) (rep_addHi (iha _) (iha _) (iha _)))
      (rep_ite (rep_addLo (ihb _) (ihb _) (ihb _)) (rep_addHi (ihb _) (ihb _) (ihb _)))
  | cast n s d sgn cnt e ih => intro i; exact rep_ite (rep_ite (ih _) (rep_ite (rep_sign (ih _)) rep_zero)) rep_zero

end

/-- Byte `i` of the converted elements, `c.s` and `c.d` bytes large, in terms of the concatenated arguments. -/
def want (c : Cfg) (i : Nat) : Src :=
  if i % c.d < c.s then .byte (i / c.d * c.s + i % c.d) else if c.sgn then .sign (i / c.d * c.s + c.s - 1) else .zero

/-- The bytes of the arguments, `bs` bytes each; what lies outside of an argument is unknown. -/
def sargs (bs k i : Nat) : Src := if i < bs then .byte (k * bs + i) else .junk

/-- The first `n` bytes of a program are as wanted: the converted elements from element `off` on. -/
def good (c : Cfg) (bs off n : Nat) (e : Expr) : Bool :=
  (List.range n).all (fun (i : Nat) => (e.eval sym (sargs bs) i).same (want c (off * c.d + i)))

/-! ## Values -/

theorem leNat_congr {f g : Nat → BitVec 8} {w : Nat} (h : ∀ j, j < w → f j = g j) : leNat f w = leNat g w := by
  induction w with
  | zero => rfl
  | succ w ih => rw [leNat, leNat, ih (fun j hj => h j (by omega)), h w (by omega)]

theorem leNat_lt (f : Nat → BitVec 8) (w : Nat) : leNat f w < 2 ^ (8 * w) := by
  induction w with
  | zero => simp [leNat]
  | succ w ih =>
    rw [leNat]
    have := (f w).isLt
    have e : 2 ^ (8 * (w + 1)) = 256 * 2 ^ (8 * w) := by rw [show 8 * (w + 1) = 8 + 8 * w by omega, Nat.pow_add]
    have : (f w).toNat * 2 ^ (8 * w) ≤ 255 * 2 ^ (8 * w) := Nat.mul_le_mul_right _ (by omega)
    omega

/-- The low bytes are the remainder. -/
theorem leNat_mod (f : Nat → BitVec 8) {d : Nat} : ∀ {s : Nat}, d ≤ s → leNat f s % 2 ^ (8 * d) = leNat f d := by
  intro s
  induction s with
  | zero => intro h; obtain rfl : d = 0 := by omega
            simp [leNat]
  | succ s ih =>
    intro h
    by_cases e : d = s + 1
    · subst e; exact Nat.mod_eq_of_lt (leNat_lt f _)
    · rw [leNat, show 8 * s = 8 * d + (8 * s - 8 * d) by omega, Nat.pow_add, Nat.mul_left_comm, Nat.add_mul_mod_self_left]
      exact ih (by omega)

/-- The top bit. -/
theorem leNat_msb (f : Nat → BitVec 8) (w : Nat) (hw : 1 ≤ w) : 2 ^ (8 * w - 1) ≤ leNat f w ↔ (f (w - 1)).msb = true := by
  obtain ⟨v, rfl⟩ : ∃ v, w = v + 1 := ⟨w - 1, by omega⟩
  have h := leNat_lt f v
  rw [leNat, BitVec.msb_eq_decide, decide_eq_true_iff, show 8 * (v + 1) - 1 = 7 + 8 * v by omega, Nat.pow_add, show v + 1 - 1 = v by omega]
  show 128 * 2 ^ (8 * v) ≤ _ ↔ 128 ≤ _
  constructor
  · intro h'
    rcases Nat.lt_or_ge (f v).toNat 128 with hl | hl
    · have : (f v).toNat * 2 ^ (8 * v) ≤ 127 * 2 ^ (8 * v) := Nat.mul_le_mul_right _ (by omega)
      omega
    · exact hl
  · intro h'
    have : 128 * 2 ^ (8 * v) ≤ (f v).toNat * 2 ^ (8 * v) := Nat.mul_le_mul_right _ h'
    omega

/-- Bytes of zeros above. -/
theorem leNat_zero_ext {f g : Nat → BitVec 8} {s : Nat} (h : ∀ j, j < s → f j = g j) :
    ∀ {d : Nat}, s ≤ d → (∀ j, s ≤ j → j < d → f j = 0#8) → leNat f d = leNat g s := by
  intro d
  induction d with
  | zero => intro h' _; obtain rfl : s = 0 := by omega
            rfl
  | succ d ih =>
    intro h' hz
    by_cases e : s = d + 1
    · subst e; exact leNat_congr h
    · rw [leNat, hz d (by omega) (by omega), ih (by omega) (fun j a b => hz j a (by omega))]; simp

/-- Bytes of ones above. -/
theorem leNat_ones_ext {f g : Nat → BitVec 8} {s : Nat} (h : ∀ j, j < s → f j = g j) :
    ∀ {d : Nat}, s ≤ d → (∀ j, s ≤ j → j < d → f j = 0xff#8) → leNat f d + 2 ^ (8 * s) = leNat g s + 2 ^ (8 * d) := by
  intro d
  induction d with
  | zero => intro h' _; obtain rfl : s = 0 := by omega
            rfl
  | succ d ih =>
    intro h' hz
    by_cases e : s = d + 1
    · subst e; rw [leNat_congr h]
    · have := ih (by omega) (fun j a b => hz j a (by omega))
      have e : 2 ^ (8 * (d + 1)) = 256 * 2 ^ (8 * d) := by rw [show 8 * (d + 1) = 8 + 8 * d by omega, Nat.pow_add]
      have e' : (0xff#8 : BitVec 8).toNat = 255 := rfl
      rw [leNat, hz d (by omega) (by omega), e, e']
      omega

end StdSimd.X86Convert
