import Verif.Proofs.X86Convert
/-! # Register conversions: the values -/
namespace StdSimd.X86Convert
open Spec

/-- A register element is the cast of another one if its bytes are. -/
theorem leNat_cast {F G : Nat → BitVec 8} {sgn : Bool} {s d : Nat} (hs : 1 ≤ s) (h : ∀ j, j < s → j < d → F j = G j)
    (h' : ∀ j, s ≤ j → j < d → F j = if sgn then signByte (G (s - 1)) else 0#8) :
    leNat F d = castBits d (intValue sgn s (leNat G s)) := by
  have hF := leNat_lt F d
  rcases Nat.le_total d s with hd | hd
  · have e : leNat F d = leNat G s % 2 ^ (8 * d) := by
      rw [leNat_mod G hd]; exact leNat_congr (fun j hj => h j (by omega) hj)
    have e2 : ((2 ^ (8 * s) : Nat) : Int) = 2 ^ (8 * d) * 2 ^ (8 * s - 8 * d) := by
      rw [show 8 * s = 8 * d + (8 * s - 8 * d) by omega, Nat.pow_add, show 8 * d + (8 * s - 8 * d) - 8 * d = 8 * s - 8 * d by omega]
      push_cast; rfl
    unfold castBits intValue
    split
    · have : ((leNat G s : Int) - 2 ^ (8 * s)) % 2 ^ (8 * d) = (leNat G s : Int) % 2 ^ (8 * d) := by
        rw [show (2 : Int) ^ (8 * s) = ((2 ^ (8 * s) : Nat) : Int) by push_cast; rfl, e2, Int.sub_mul_emod_self_left]
      rw [this, e, show ((2 : Int) ^ (8 * d)) = ((2 ^ (8 * d) : Nat) : Int) by push_cast; rfl, ← Int.natCast_emod, Int.toNat_natCast]
    · rw [e, show ((2 : Int) ^ (8 * d)) = ((2 ^ (8 * d) : Nat) : Int) by push_cast; rfl, ← Int.natCast_emod, Int.toNat_natCast]
  · have hG := leNat_lt G s
    have hle : (2 : Nat) ^ (8 * s) ≤ 2 ^ (8 * d) := Nat.pow_le_pow_right (by omega) (by omega)
    have hj : ∀ j, j < s → F j = G j := fun j hj => h j hj (by omega)
    unfold castBits intValue
    by_cases hm : sgn = true ∧ 2 ^ (8 * s - 1) ≤ leNat G s
    · rw [if_pos hm]
      have hmsb := (leNat_msb G s hs).mp hm.2
      have e := leNat_ones_ext hj hd (fun j a b => by rw [h' j a b, if_pos hm.1]; simp [signByte, hmsb])
      have e2 : (leNat G s : Int) - 2 ^ (8 * s) = (leNat F d : Int) - ((2 ^ (8 * d) : Nat) : Int) := by
        have : ((leNat F d + 2 ^ (8 * s) : Nat) : Int) = ((leNat G s + 2 ^ (8 * d) : Nat) : Int) := by rw [e]
        push_cast at this ⊢
        omega
      rw [e2, show ((2 : Int) ^ (8 * d)) = ((2 ^ (8 * d) : Nat) : Int) by push_cast; rfl, Int.sub_emod_right, ← Int.natCast_emod,
        Int.toNat_natCast, Nat.mod_eq_of_lt hF]
    · rw [if_neg hm]
      have e := leNat_zero_ext hj hd (fun j a b => by
        rw [h' j a b]
        cases sgn with
        | false => rfl
        | true =>
          rw [if_pos rfl]
          have : (G (s - 1)).msb = false := by
            cases hg : (G (s - 1)).msb with
            | false => rfl
            | true => exact absurd ⟨rfl, (leNat_msb G s hs).mpr hg⟩ hm
          simp [signByte, this])
      rw [e, show ((2 : Int) ^ (8 * d)) = ((2 ^ (8 * d) : Nat) : Int) by push_cast; rfl, ← Int.natCast_emod, Int.toNat_natCast,
        Nat.mod_eq_of_lt (by omega)]

theorem ceil16_spec : ∀ s ∈ [1, 2, 4], ∀ n ∈ List.range 17, 2 ≤ n → n * s ≤ 16 →
    n * s ≤ ceil16 (n * s) ∧ ceil16 (n * s) = ceil16 (n * s) / s * s ∧ 1 ≤ ceil16 (n * s) / s := by decide

theorem good_bytes {c : Cfg} {bs off n : Nat} {e : Expr} (hbs : 1 ≤ bs) (h : good c bs off n e = true) (args : Nat → Nat → BitVec 8)
    (junk : Nat → BitVec 8) {i : Nat} (hi : i < n) :
    Rep (fun (m : Nat) => args (m / bs) (m % bs)) (want c (off * c.d + i)) (e.eval (bytes junk) args i) := by
  have h1 := Src.eq_of_same (List.all_eq_true.mp h i (List.mem_range.mpr hi))
  rw [← h1]
  refine rep_eval (fun k i => ?_) e i
  unfold sargs
  split
  · rename_i hb
    show args k i = args ((k * bs + i) / bs) ((k * bs + i) % bs)
    rw [Nat.mul_comm, Nat.mul_add_div (by omega), Nat.div_eq_of_lt hb, Nat.add_zero, Nat.mul_add_mod, Nat.mod_eq_of_lt hb]
  · trivial

/-- The elements of the result of a good program. -/
theorem good_elem {c : Cfg} {bs np off N : Nat} {e : Expr} (hs : 1 ≤ c.s) (hd : 1 ≤ c.d) (hnp : bs = np * c.s) (hp : 1 ≤ np)
    (h : good c bs off (N * c.d) e = true) (args : Nat → Nat → BitVec 8) (junk : Nat → BitVec 8) {i : Nat} (hi : i < N) :
    elemBits c.d (e.eval (bytes junk) args) i
      = castBits c.d (intValue c.sgn c.s (elemBits c.s (args ((off + i) / np)) ((off + i) % np))) := by
  have hbs : 1 ≤ bs := by subst hnp; exact Nat.mul_pos hp hs
  have hlt : ∀ j, j < c.d → i * c.d + j < N * c.d := fun j hj => by
    have : (i + 1) * c.d ≤ N * c.d := Nat.mul_le_mul_right _ hi
    rw [Nat.succ_mul] at this; omega
  have hr : ∀ j, j < c.d →
      Rep (fun (m : Nat) => args (m / bs) (m % bs)) (want c (off * c.d + (i * c.d + j))) (e.eval (bytes junk) args (i * c.d + j)) :=
    fun j hj => good_bytes hbs h args junk (hlt j hj)
  generalize hq : off + i = q at *
  have hw : ∀ j, j < c.d → want c (off * c.d + (i * c.d + j))
      = if j < c.s then .byte (q * c.s + j) else if c.sgn then .sign (q * c.s + c.s - 1) else .zero := fun j hj => by
    unfold want
    rw [← Nat.add_assoc, ← Nat.add_mul, hq, Nat.mul_comm q c.d, Nat.mul_add_mod, Nat.mod_eq_of_lt hj, Nat.mul_add_div (by omega),
      Nat.div_eq_of_lt hj, Nat.add_zero]
  have hG : ∀ j, j < c.s → args ((q * c.s + j) / bs) ((q * c.s + j) % bs) = args (q / np) (q % np * c.s + j) := fun j hj => by
    have e1 : q * c.s + j = bs * (q / np) + (q % np * c.s + j) := by
      subst hnp
      have := Nat.div_add_mod q np
      calc q * c.s + j = (np * (q / np) + q % np) * c.s + j := by rw [this]
        _ = _ := by rw [Nat.add_mul]; ac_rfl
    have e2 : q % np * c.s + j < bs := by
      subst hnp
      have : (q % np + 1) * c.s ≤ np * c.s := Nat.mul_le_mul_right _ (Nat.mod_lt _ hp)
      rw [Nat.succ_mul] at this; omega
    rw [e1, Nat.mul_add_div (by omega), Nat.div_eq_of_lt e2, Nat.add_zero, Nat.mul_add_mod, Nat.mod_eq_of_lt e2]
  unfold elemBits
  refine leNat_cast hs (fun j hj hj' => ?_) (fun j hj hj' => ?_)
  · have := hr j hj'
    rw [hw j hj', if_pos hj] at this
    rw [← hG j hj]
    exact this
  · have := hr j hj'
    rw [hw j hj', if_neg (by omega)] at this
    cases hsg : c.sgn with
    | false => rw [hsg] at this; exact this
    | true =>
      rw [hsg, if_pos rfl] at this
      rw [if_pos rfl]
      show _ = signByte (args (q / np) (q % np * c.s + (c.s - 1)))
      rw [← hG (c.s - 1) (by omega), ← Nat.add_sub_assoc hs]
      exact this

end StdSimd.X86Convert
