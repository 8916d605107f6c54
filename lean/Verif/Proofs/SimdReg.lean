import Verif.Proofs.SimdFixed
import Verif.Props.Division
/-!
# Native implementations compute the operators of the element types
-/
namespace StdSimd.SimdClass
open Spec Spec.Program Native

/-- An operator applied to every element of a register. -/
theorem map1_implements {α : Type} {g : Geo} (hg : g.Ok) (f : α → α) (e : α → Option α) (h : ∀ a b, e a = some b → f a = b) (x : List α)
    (r : Nat → α) (hx : x.length = g.full) (hr : ∀ i < g.size, ∃ a, x[i]? = some a ∧ e a = some (r i)) :
    ∃ z, map1 (fun a => some (f a)) x = some z ∧ z.length = g.full ∧ ∀ i < g.size, z[i]? = some (r i) :=
  ⟨_, map1_total f x, by simpa using hx, fun i hi => by
    obtain ⟨a, ha, he⟩ := hr i hi
    rw [List.getElem?_map, ha, ← h a _ he]; rfl⟩

theorem map2_implements {α : Type} {g : Geo} (hg : g.Ok) (f : α → α → α) (e : α → α → Option α) (h : ∀ a b c, e a b = some c → f a b = c)
    (x y : List α) (r : Nat → α) (hx : x.length = g.full) (hy : y.length = g.full)
    (hr : ∀ i < g.size, ∃ a b, x[i]? = some a ∧ y[i]? = some b ∧ e a b = some (r i)) :
    ∃ z, map2 (fun a b => some (f a b)) x y = some z ∧ z.length = g.full ∧ ∀ i < g.size, z[i]? = some (r i) :=
  ⟨_, map2_total f x y, by simp [hx, hy], fun i hi => by
    obtain ⟨a, b, ha, hb, he⟩ := hr i hi
    simp only [List.getElem?_map, List.zip, List.getElem?_zipWith, ha, hb]
    rw [← h a b _ he]; rfl⟩

theorem value_ofInt (signed : Bool) {w : Nat} (a : BitVec w) : BitVec.ofInt w (Spec.value signed a) = a := by
  cases signed
  · simp [Spec.value]
  · simp [Spec.value]

theorem arith_eq {signed : Bool} {w : Nat} {v : Int} {c : BitVec w} (h : arith signed w v = some c) : BitVec.ofInt w v = c := by
  unfold arith at h
  split at h
  · exact absurd h (by simp)
  · exact Option.some.inj h

theorem count_eq {signed : Bool} {w lim : Nat} (hlim : lim ≤ w) {b : BitVec w} (h : 0 ≤ Spec.value signed b ∧ Spec.value signed b < lim) :
    (Spec.value signed b).toNat = b.toNat ∧ b.toNat < lim := by
  cases signed with
  | false =>
    simp only [Spec.value, Bool.false_eq_true, if_false] at h ⊢
    omega
  | true =>
    simp only [Spec.value, if_true] at h ⊢
    have hb := b.isLt
    rw [BitVec.toInt_eq_toNat_cond] at h ⊢
    split at h <;> rename_i hc
    · rw [if_pos hc]; omega
    · exfalso
      have : (b.toNat : Int) < (2 ^ w : Nat) := by exact_mod_cast hb
      omega

theorem shl_bv {w : Nat} (a : BitVec w) (s : Nat) : a <<< s = Spec.shl a s := by
  apply BitVec.eq_of_toNat_eq; simp [Spec.shl, Nat.shiftLeft_eq]
theorem shr_bv (signed : Bool) {w : Nat} (a : BitVec w) (s : Nat) :
    (if signed then a.sshiftRight s else a >>> s) = Spec.shr signed a s := by
  cases signed
  · apply BitVec.eq_of_toNat_eq
    simp only [Spec.shr, BitVec.toNat_ushiftRight, Nat.shiftRight_eq_div_pow, BitVec.toNat_ofNat, Bool.false_eq_true, if_false]
    exact (Nat.mod_eq_of_lt (Nat.lt_of_le_of_lt (Nat.div_le_self _ _) a.isLt)).symm
  · simp only [Spec.shr, if_true, BitVec.sshiftRight, Int.shiftRight_eq_div_pow]
    norm_cast

section
variable {signed : Bool} {w lim : Nat} (hlim : lim ≤ w) (junk : BitVec w → Nat → BitVec w) {a b c : BitVec w}

theorem neg_ok (h : arith signed w (-Spec.value signed a) = some b) : -a = b := by
  rw [← arith_eq h, BitVec.ofInt_neg, value_ofInt]
theorem add_ok (h : arith signed w (Spec.value signed a + Spec.value signed b) = some c) : a + b = c := by
  rw [← arith_eq h, BitVec.ofInt_add, value_ofInt, value_ofInt]
theorem sub_ok (h : arith signed w (Spec.value signed a - Spec.value signed b) = some c) : a - b = c := by
  rw [← arith_eq h, Int.sub_eq_add_neg, BitVec.ofInt_add, BitVec.ofInt_neg, value_ofInt, value_ofInt, BitVec.sub_eq_add_neg]
theorem mul_ok (h : arith signed w (Spec.value signed a * Spec.value signed b) = some c) : a * b = c := by
  rw [← arith_eq h, BitVec.ofInt_mul, value_ofInt, value_ofInt]
theorem inc_ok (h : arith signed w (Spec.value signed a + 1) = some b) : a + 1#w = b := by
  rw [← arith_eq h, BitVec.ofInt_add, value_ofInt]; rfl
theorem dec_ok (h : arith signed w (Spec.value signed a - 1) = some b) : a - 1#w = b := by
  rw [← arith_eq h, Int.sub_eq_add_neg, BitVec.ofInt_add, BitVec.ofInt_neg, value_ofInt, BitVec.sub_eq_add_neg]; rfl
include hlim
theorem shl_ok (h : (if 0 ≤ Spec.value signed b ∧ Spec.value signed b < lim then some (Spec.shl a (Spec.value signed b).toNat) else none) = some c) :
    (if b.toNat < w then a <<< b.toNat else junk a b.toNat) = c := by
  split at h
  · rename_i hb
    obtain ⟨e1, e2⟩ := count_eq hlim hb
    rw [if_pos (by omega), ← Option.some.inj h, shl_bv, e1]
  · exact absurd h (by simp)
theorem shr_ok (h : (if 0 ≤ Spec.value signed b ∧ Spec.value signed b < lim then some (Spec.shr signed a (Spec.value signed b).toNat) else none) = some c) :
    (if b.toNat < w then (if signed then a.sshiftRight b.toNat else a >>> b.toNat) else junk a b.toNat) = c := by
  split at h
  · rename_i hb
    obtain ⟨e1, e2⟩ := count_eq hlim hb
    rw [if_pos (by omega), ← Option.some.inj h, shr_bv, e1]
  · exact absurd h (by simp)
theorem shift_ok {l : Bool} {s : Nat} (h : (if s < lim then some (if l then Spec.shl a s else Spec.shr signed a s) else none) = some c) :
    (if s < w then (if l then a <<< s else if signed then a.sshiftRight s else a >>> s) else junk a s) = c := by
  split at h
  · rw [if_pos (by omega), ← Option.some.inj h, shr_bv, shl_bv]
  · exact absurd h (by simp)
end

theorem only_true {K : Kind} (E : Program.Elem K) : E.only (fun _ => true) = E := by
  cases E; simp [Elem.only]

/-- Division needs registers without padding or unsigned elements. -/
theorem builtinInt_implements (signed : Bool) {w : Nat} (hw : 0 < w) (junk : BitVec w → Nat → BitVec w) {g : Geo} (hg : g.Ok)
    (p : BOp → Bool) (hp : p .div = true ∨ p .mod = true → signed = false ∨ g.size = g.full) :
    Implements (builtinInt signed w junk) ((intElem signed w w).only p) g := by
  refine ⟨?_, ?_, ?_, ImplementsFn.empty _ hg⟩
  · intro o x r hx hr
    cases o
    · exact map1_implements (α := BitVec w) hg _ _ (fun a b h => neg_ok h) x r hx hr
    · exact map1_implements (α := BitVec w) hg _ _ (fun a b h => Option.some.inj h) x r hx hr
    · exact map1_implements (α := BitVec w) hg _ _ (fun a b h => inc_ok h) x r hx hr
    · exact map1_implements (α := BitVec w) hg _ _ (fun a b h => dec_ok h) x r hx hr
  · intro o x y r hx hy hr
    by_cases ho : p o = true
    · have hr' : ∀ i < g.size, ∃ a b, x[i]? = some a ∧ y[i]? = some b ∧ (intElem signed w w).bin o a b = some (r i) := fun i hi => by
        obtain ⟨a, b, h1, h2, h3⟩ := hr i hi
        exact ⟨a, b, h1, h2, by simpa only [Elem.only, if_pos ho] using h3⟩
      have dv : ∀ m, (signed = false ∨ g.size = g.full) → (∀ i < g.size, ∃ a b, x[i]? = some a ∧ y[i]? = some b ∧ Props.divOp m signed (w := w) a b = some (r i)) →
          ∃ z, Division.divides g (Props.divOp m signed) (x : List (BitVec w)) y = some z ∧ z.length = g.full ∧ ∀ i < g.size, z[i]? = some (r i) := by
        intro m hs h
        cases signed
        · exact Props.C23_unsigned hw g hg m x y hx hy r h
        · exact Props.C23_signed_full g hg (by simpa using hs) m x y hx hy r h
      cases o
      · exact map2_implements (α := BitVec w) hg _ _ (fun a b c h => add_ok h) x y r hx hy hr'
      · exact map2_implements (α := BitVec w) hg _ _ (fun a b c h => sub_ok h) x y r hx hy hr'
      · exact map2_implements (α := BitVec w) hg _ _ (fun a b c h => mul_ok h) x y r hx hy hr'
      · exact dv false (hp (.inl ho)) hr'
      · exact dv true (hp (.inr ho)) hr'
      · exact map2_implements (α := BitVec w) hg _ _ (fun a b c h => Option.some.inj h) x y r hx hy hr'
      · exact map2_implements (α := BitVec w) hg _ _ (fun a b c h => Option.some.inj h) x y r hx hy hr'
      · exact map2_implements (α := BitVec w) hg _ _ (fun a b c h => Option.some.inj h) x y r hx hy hr'
      · exact map2_implements (α := BitVec w) hg _ _ (fun a b c h => shl_ok (Nat.le_refl w) junk h) x y r hx hy hr'
      · exact map2_implements (α := BitVec w) hg _ _ (fun a b c h => shr_ok (Nat.le_refl w) junk h) x y r hx hy hr'
    · exfalso
      have hpos : 0 < g.size := by cases g <;> simp [Geo.Ok] at hg ⊢ <;> omega
      obtain ⟨a, b, h1, h2, h3⟩ := hr 0 hpos
      simp only [Elem.only, if_neg ho] at h3
      exact absurd h3 (by simp)
  · intro l x s r hx hs hr
    exact map1_implements (α := BitVec w) hg _ _ (fun a b h => shift_ok (Nat.le_refl w) junk h) x r hx hr

theorem builtinFloat_implements {K : Kind} (one : K.Bits) (u : UOp → K.Bits → K.Bits) (b : BOp → K.Bits → K.Bits → K.Bits) {g : Geo} (hg : g.Ok) :
    Implements (builtinFloat one u b) (totalElem u b) g := by
  refine ⟨?_, ?_, ?_, ImplementsFn.empty _ hg⟩
  · intro o x r hx hr
    exact map1_implements hg _ _ (fun a b h => Option.some.inj h) x r hx hr
  · intro o x y r hx hy hr
    have key : ∀ o, (∀ i < g.size, ∃ a c, x[i]? = some a ∧ y[i]? = some c ∧ (totalElem u b).bin o a c = some (r i)) →
        ∃ z, map2 (fun a c => some (b o a c)) x y = some z ∧ z.length = g.full ∧ ∀ i < g.size, z[i]? = some (r i) :=
      fun o h => map2_implements hg _ _ (fun a b c h => Option.some.inj h) x y r hx hy h
    cases o
    case div =>
      have hsz := hg.size_le
      refine Division.map2_of g hg (fun a c => some (b .div a c)) x y (Division.makePaddingOne one g y) hx
        (by rw [Division.length_makePaddingOne, hy]) (fun i hi => by
          rcases Nat.lt_or_ge g.size g.full with h | h
          · rw [Division.makePaddingOne_get one g y h]; simp [hi]
          · rw [Division.makePaddingOne_full one g y (by omega)]) r hr (fun _ _ _ _ _ _ _ => by simp)
    all_goals exact key _ hr
  · intro l x s r hx hs hr
    exact absurd hs (by simp [totalElem])

end StdSimd.SimdClass
