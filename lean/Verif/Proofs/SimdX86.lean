import Verif.Model.SimdX86
import Verif.Proofs.SimdReg
import Verif.Proofs.X86Own
import Verif.Props.X86Int
/-!
# The operators of small integers on x86 compute the operators of the element types
-/
namespace StdSimd.SimdClass
open Spec Spec.Program Native

theorem count_nat {signed : Bool} {w lim : Nat} {b : BitVec w} (h : 0 ≤ Spec.value signed b ∧ Spec.value signed b < lim) :
    (Spec.value signed b).toNat = b.toNat ∧ b.toNat < lim := by
  cases signed with
  | false =>
    simp only [Spec.value, Bool.false_eq_true, if_false] at h ⊢
    omega
  | true =>
    simp only [Spec.value, if_true] at h ⊢
    have hb := b.isLt
    rw [BitVec.toInt_eq_toNat_cond] at h ⊢
    split at h <;> rename_i hc
    · rw [if_pos hc]; omega
    · exfalso
      have : (b.toNat : Int) < (2 ^ w : Nat) := by exact_mod_cast hb
      omega

/-- What the specification of a shift by a vector says about one element. -/
theorem shl_spec_iff {signed : Bool} {w lim : Nat} {a b c : BitVec w}
    (h : (if 0 ≤ Spec.value signed b ∧ Spec.value signed b < lim then some (Spec.shl a (Spec.value signed b).toNat) else none) = some c) :
    b.toNat < lim ∧ c = a <<< b.toNat := by
  split at h
  · rename_i hb
    obtain ⟨e1, e2⟩ := count_nat hb
    exact ⟨e2, by rw [← Option.some.inj h, shl_bv, e1]⟩
  · exact absurd h (by simp)
theorem shr_spec_iff {signed : Bool} {w lim : Nat} {a b c : BitVec w}
    (h : (if 0 ≤ Spec.value signed b ∧ Spec.value signed b < lim then some (Spec.shr signed a (Spec.value signed b).toNat) else none) = some c) :
    b.toNat < lim ∧ c = if signed then a.sshiftRight b.toNat else a >>> b.toNat := by
  split at h
  · rename_i hb
    obtain ⟨e1, e2⟩ := count_nat hb
    exact ⟨e2, by rw [← Option.some.inj h, shr_bv, e1]⟩
  · exact absurd h (by simp)
theorem shift_spec_iff {signed : Bool} {w lim : Nat} {a c : BitVec w} {l : Bool} {s : Nat}
    (h : (if s < lim then some (if l then Spec.shl a s else Spec.shr signed a s) else none) = some c) :
    s < lim ∧ c = if l then a <<< s else if signed then a.sshiftRight s else a >>> s := by
  split at h
  · rename_i hs
    exact ⟨hs, by rw [← Option.some.inj h, shr_bv, shl_bv]⟩
  · exact absurd h (by simp)

/-- A function of one element that may fail in padding only. -/
theorem mapM_scalar {α : Type} (e f : α → Option α) (h : ∀ a b, e a = some b → f a = some b) (x : List α)
    (r : Nat → α) (hx : x.length = 1) (hr : ∀ i < 1, ∃ a, x[i]? = some a ∧ e a = some (r i)) :
    ∃ z, map1 f x = some z ∧ z.length = 1 ∧ ∀ i < 1, z[i]? = some (r i) := by
  obtain ⟨a, h1, h2⟩ := hr 0 (by omega)
  obtain ⟨a', rfl⟩ := List.length_eq_one_iff.1 hx
  obtain rfl : a' = a := by simpa using h1
  refine ⟨[r 0], by simp [map1, h _ _ h2], rfl, fun i hi => ?_⟩
  obtain rfl : i = 0 := by omega
  rfl

theorem mapM_scalar2 {α : Type} (e f : α → α → Option α) (h : ∀ a b c, e a b = some c → f a b = some c) (x y : List α)
    (r : Nat → α) (hx : x.length = 1) (hy : y.length = 1) (hr : ∀ i < 1, ∃ a b, x[i]? = some a ∧ y[i]? = some b ∧ e a b = some (r i)) :
    ∃ z, map2 f x y = some z ∧ z.length = 1 ∧ ∀ i < 1, z[i]? = some (r i) := by
  obtain ⟨a, b, h1, h2, h3⟩ := hr 0 (by omega)
  obtain ⟨a', rfl⟩ := List.length_eq_one_iff.1 hx
  obtain ⟨b', rfl⟩ := List.length_eq_one_iff.1 hy
  obtain rfl : a' = a := by simpa using h1
  obtain rfl : b' = b := by simpa using h2
  refine ⟨[r 0], by simp [map2, h _ _ _ h3], rfl, fun i hi => ?_⟩
  obtain rfl : i = 0 := by omega
  rfl

section
variable {signed : Bool} {w lim : Nat} (hlim : lim ≤ max w 32) {a b c : BitVec w}
include hlim
theorem scalar_shl_ok (h : (if 0 ≤ Spec.value signed b ∧ Spec.value signed b < lim then some (Spec.shl a (Spec.value signed b).toNat) else none) = some c) :
    (if b.toNat < max w 32 then some (a <<< b.toNat) else none) = some c := by
  obtain ⟨h1, h2⟩ := shl_spec_iff h
  rw [if_pos (by omega), h2]
theorem scalar_shr_ok (h : (if 0 ≤ Spec.value signed b ∧ Spec.value signed b < lim then some (Spec.shr signed a (Spec.value signed b).toNat) else none) = some c) :
    (if b.toNat < max w 32 then some (if signed then a.sshiftRight b.toNat else a >>> b.toNat) else none) = some c := by
  obtain ⟨h1, h2⟩ := shr_spec_iff h
  rw [if_pos (by omega), h2]
theorem scalar_shift_ok {l : Bool} {s : Nat} (h : (if s < lim then some (if l then Spec.shl a s else Spec.shr signed a s) else none) = some c) :
    (if s < max w 32 then some (if l then a <<< s else if signed then a.sshiftRight s else a >>> s) else none) = some c := by
  obtain ⟨h1, h2⟩ := shift_spec_iff h
  rw [if_pos (by omega), h2]
end

/-- `_SimdImplScalar`: all counts of the promoted type. -/
theorem scalarInt_implements (signed : Bool) {w lim : Nat} (hlim : lim ≤ max w 32) :
    Implements (scalarInt signed w) (intElem signed w lim) .scalar := by
  have hg : Geo.scalar.Ok := trivial
  refine ⟨?_, ?_, ?_, ImplementsFn.empty _ hg⟩
  · intro o x r hx hr
    cases o
    · exact map1_implements (α := BitVec w) hg _ _ (fun a b h => neg_ok h) x r hx hr
    · exact map1_implements (α := BitVec w) hg _ _ (fun a b h => Option.some.inj h) x r hx hr
    · exact map1_implements (α := BitVec w) hg _ _ (fun a b h => inc_ok h) x r hx hr
    · exact map1_implements (α := BitVec w) hg _ _ (fun a b h => dec_ok h) x r hx hr
  · intro o x y r hx hy hr
    have dv : ∀ m, (∀ i < 1, ∃ a b, x[i]? = some a ∧ y[i]? = some b ∧ Props.divOp m signed (w := w) a b = some (r i)) →
        ∃ z, Division.divides .scalar (Props.divOp m signed) (x : List (BitVec w)) y = some z ∧ z.length = 1 ∧ ∀ i < 1, z[i]? = some (r i) :=
      fun m h => mapM_scalar2 (α := BitVec w) _ _ (fun _ _ _ h => h) x y r hx hy h
    cases o
    · exact map2_implements (α := BitVec w) hg _ _ (fun a b c h => add_ok h) x y r hx hy hr
    · exact map2_implements (α := BitVec w) hg _ _ (fun a b c h => sub_ok h) x y r hx hy hr
    · exact map2_implements (α := BitVec w) hg _ _ (fun a b c h => mul_ok h) x y r hx hy hr
    · exact dv false hr
    · exact dv true hr
    · exact map2_implements (α := BitVec w) hg _ _ (fun a b c h => Option.some.inj h) x y r hx hy hr
    · exact map2_implements (α := BitVec w) hg _ _ (fun a b c h => Option.some.inj h) x y r hx hy hr
    · exact map2_implements (α := BitVec w) hg _ _ (fun a b c h => Option.some.inj h) x y r hx hy hr
    · exact mapM_scalar2 (α := BitVec w) _ (fun a b => if b.toNat < max w 32 then some (a <<< b.toNat) else none)
        (fun a b c h => scalar_shl_ok hlim h) x y r hx hy hr
    · exact mapM_scalar2 (α := BitVec w) _ (fun a b => if b.toNat < max w 32 then some (if signed then a.sshiftRight b.toNat else a >>> b.toNat) else none)
        (fun a b c h => scalar_shr_ok hlim h) x y r hx hy hr
  · intro l x s r hx hs hr
    exact mapM_scalar (α := BitVec w) _ (fun a => if s < max w 32 then
      some (if l then a <<< s else if signed then a.sshiftRight s else a >>> s) else none) (fun a c h => scalar_shift_ok hlim h) x r hx hr

/-! ### code paths, one element -/
open X86

/-- All counts up to element `j` are less than `lim`. -/
def Counts {w : Nat} (lim : Nat) (ys : List (BitVec w)) (j : Nat) : Prop := ∀ l ≤ j, ∃ c, ys[l]? = some c ∧ c.toNat < lim

theorem Counts.own {w lim : Nat} {ys : List (BitVec w)} {j : Nat} (h : Counts lim ys j) {b : BitVec w} (hb : ys[j]? = some b) :
    b.toNat < lim := by
  obtain ⟨c, hc, hl⟩ := h j (Nat.le_refl _)
  rw [hb] at hc
  obtain rfl := Option.some.inj hc
  exact hl

theorem Counts.mono {w lim lim' : Nat} {ys : List (BitVec w)} {j : Nat} (h : Counts lim ys j) (hl : lim ≤ lim') : Counts lim' ys j :=
  fun l hlj => by obtain ⟨c, h1, h2⟩ := h l hlj; exact ⟨c, h1, by omega⟩

theorem zip_own {α : Type} (F f : α → α → α) (xs ys : List α) (j : Nat) (a b : α) (ha : xs[j]? = some a) (hb : ys[j]? = some b)
    (h : F a b = f a b) : (List.zipWith F xs ys)[j]? = some (f a b) := by
  rw [List.getElem?_zipWith, ha, hb, ← h]

theorem shr8v_own (signed : Bool) (p : Shr8Path) {lim : Nat} (hl : lim ≤ 32) (hp : signed = true → p = .sse41 ∨ p = .sse2 → lim ≤ 8)
    (xs ys : List (BitVec 8)) (j : Nat) (a b : BitVec 8) (ha : xs[j]? = some a) (hb : ys[j]? = some b) (hy : Counts lim ys j) :
    (shr8v signed p xs ys)[j]? = some (if signed then a.sshiftRight b.toNat else a >>> b.toNat) := by
  have hb' := hy.own hb
  have pre : ∀ (W k : Nat) (hk : 0 < k) (hW : 8 * k ≤ W) (F : BitVec W → BitVec W → BitVec W)
      (hF : ∀ g y i, (∀ l ≤ i, (lane 8 y l).toNat < lim) → i < k → lane 8 (F g y) i =
        (if signed then (lane 8 g i).sshiftRight (lane 8 y i).toNat else lane 8 g i >>> (lane 8 y i).toNat)),
      (overGroups2 W k F xs ys)[j]? = some (if signed then a.sshiftRight b.toNat else a >>> b.toNat) :=
    fun W k hk hW F hF => overGroups2_prefix W k (by omega) hk hW F
      (fun a b => if signed then a.sshiftRight b.toNat else a >>> b.toNat) (fun c => c.toNat < lim) hF xs ys j a b ha hb hy
  cases p
  · cases signed
    · exact zip_own _ (fun a b => a >>> b.toNat) xs ys j a b ha hb (shr8vWideU_eq a b)
    · exact zip_own _ (fun a b => a.sshiftRight b.toNat) xs ys j a b ha hb (shr8vWideS_eq a b (by omega))
  · refine pre 16 2 (by omega) (by omega) _ (fun g y i h hi => ?_)
    cases signed
    · exact shr8vZmmU_lane g y i hi
    · exact shr8vZmmS_own g y i hi (fun l h' => by have := h l h'; omega)
  · refine pre 32 4 (by omega) (by omega) _ (fun g y i h hi => ?_)
    cases signed
    · exact shr8vAvx2U_lane g y i hi
    · exact shr8vAvx2S_lane g y i hi
  · refine pre 16 2 (by omega) (by omega) _ (fun g y i h hi => ?_)
    cases signed
    · exact shr8vSseU_lane g y i hi
    · refine (shr8vSse41S_lane g y i hi).trans ?_
      have := h i (Nat.le_refl _)
      have := hp rfl (.inl rfl)
      rw [if_pos (by omega)]; rfl
  · refine pre 16 2 (by omega) (by omega) _ (fun g y i h hi => ?_)
    cases signed
    · exact shr8vSseU_lane g y i hi
    · refine (shr8vSse2S_lane g y i hi).trans ?_
      have := h i (Nat.le_refl _)
      have := hp rfl (.inr rfl)
      rw [if_pos (by omega)]; rfl

theorem shl8v_own (p : ShlvPath) (xs ys : List (BitVec 8)) (j : Nat) (a b : BitVec 8) (ha : xs[j]? = some a) (hb : ys[j]? = some b) :
    (shl8v p xs ys)[j]? = some (a <<< b.toNat) := by
  cases p
  · exact zip_own _ (fun a b => a <<< b.toNat) xs ys j a b ha hb (shl8vAvx512_eq a b)
  · obtain ⟨hj, _⟩ := List.getElem?_eq_some_iff.1 hb
    exact overGroups2_prefix 16 2 (by omega) (by omega) (by omega) shl8vSse (fun a b => a <<< b.toNat) (fun _ => True)
      (fun g y i _ hi => shl8vSse_lane g y i hi) xs ys j a b ha hb
      (fun l hl => ⟨ys[l], List.getElem?_eq_getElem (by omega), trivial⟩)

theorem shl16v_own (p : Shl16Path) {lim : Nat} (hl : p = .sse → lim ≤ 16)
    (xs ys : List (BitVec 16)) (j : Nat) (a b : BitVec 16) (ha : xs[j]? = some a) (hb : ys[j]? = some b) (hy : Counts lim ys j) :
    (shl16v p xs ys)[j]? = some (a <<< b.toNat) := by
  cases p
  · exact zip_own (fun a b => a <<< b.toNat) (fun a b => a <<< b.toNat) xs ys j a b ha hb rfl
  · exact overGroups2_prefix 32 2 (by omega) (by omega) (by omega) shl16vAvx2 (fun a b => a <<< b.toNat) (fun c => c.toNat < lim)
      (fun g y i _ hi => shl16vAvx2_lane g y i hi) xs ys j a b ha hb hy
  · exact overGroups2_prefix 32 2 (by omega) (by omega) (by omega) shl16vSse (fun a b => a <<< b.toNat) (fun c => c.toNat < lim)
      (fun g y i h hi => shl16vSse_own g y i hi (fun l h' => by have := h l h'; have := hl rfl; omega)) xs ys j a b ha hb hy

theorem ushr_large {w : Nat} (a : BitVec w) (n : Nat) (h : w ≤ n) : a >>> n = 0#w := by
  apply BitVec.eq_of_getLsbD_eq
  intro j hj
  simp [BitVec.getLsbD_of_ge a (n + j) (by omega)]

theorem shr16v_own (signed : Bool) (p : Shr16Path) {lim : Nat} (hl : lim ≤ 32) (hp : signed = true → p = .sse41 ∨ p = .sse2 → lim ≤ 16)
    (xs ys : List (BitVec 16)) (j : Nat) (a b : BitVec 16) (ha : xs[j]? = some a) (hb : ys[j]? = some b) (hy : Counts lim ys j) :
    (shr16v signed p xs ys)[j]? = some (if signed then a.sshiftRight b.toNat else a >>> b.toNat) := by
  have hb' := hy.own hb
  have sse : (p = .sse41 ∨ p = .sse2) → (if b.toNat < 16 then shrLane signed a b.toNat else 0#16) =
      if signed then a.sshiftRight b.toNat else a >>> b.toNat := by
    intro hp'
    cases signed
    · by_cases h : b.toNat < 16
      · rw [if_pos h]; rfl
      · rw [if_neg h]; exact (ushr_large a _ (by omega)).symm
    · have := hp rfl hp'
      rw [if_pos (by omega)]; rfl
  cases p
  · exact zip_own (fun a b => shrLane signed a b.toNat) (fun a b => if signed then a.sshiftRight b.toNat else a >>> b.toNat) xs ys j a b ha hb rfl
  · refine overGroups2_prefix 32 2 (by omega) (by omega) (by omega) _ (fun a b => if signed then a.sshiftRight b.toNat else a >>> b.toNat)
      (fun c => c.toNat < lim) (fun g y i h hi => ?_) xs ys j a b ha hb hy
    cases signed
    · exact shr16vAvx2U_lane g y i hi
    · exact shr16vAvx2S_own g y i hi (fun l h' => by have := h l h'; omega)
  · exact zip_own _ (fun a b => if signed then a.sshiftRight b.toNat else a >>> b.toNat) xs ys j a b ha hb
      ((shr16vSse41_eq signed a b (by omega)).trans (sse (.inl rfl)))
  · exact zip_own _ (fun a b => if signed then a.sshiftRight b.toNat else a >>> b.toNat) xs ys j a b ha hb
      ((shr16vSse2_eq signed a b (by omega)).trans (sse (.inr rfl)))

theorem shr32v_own (sse41 : Bool) (xs ys : List (BitVec 32)) (j : Nat) (a b : BitVec 32) (ha : xs[j]? = some a) (hb : ys[j]? = some b)
    (hy : Counts 32 ys j) : (shr32v sse41 xs ys)[j]? = some (a >>> b.toNat) :=
  overGroups2_prefix 64 2 (by omega) (by omega) (by omega) (shr32vU sse41) (fun a b => a >>> b.toNat) (fun c => c.toNat < 32)
    (fun g y i h hi => shr32vU_own sse41 g y i hi h) xs ys j a b ha hb hy

theorem shr32vS_own (sse41 : Bool) (n : Nat) (xs ys : List (BitVec 32)) (j : Nat) (hj : j < n) (hn : n ≤ 4) (a b : BitVec 32)
    (ha : xs[j]? = some a) (hb : ys[j]? = some b) :
    ((shr32vS sse41 (toXmm 0#32 xs) (toXmm 0#32 ys)).take n)[j]? = some (a.sshiftRight b.toNat) := by
  have e : ∀ z : List (BitVec 32), toXmm 0#32 z = [z.getD 0 0#32, z.getD 1 0#32, z.getD 2 0#32, z.getD 3 0#32] := fun z => rfl
  rw [e, e, shr32vS_eq, List.getElem?_take_of_lt hj]
  have ha' : xs.getD j 0#32 = a := by rw [List.getD_eq_getElem?_getD, ha]; rfl
  have hb' : ys.getD j 0#32 = b := by rw [List.getD_eq_getElem?_getD, hb]; rfl
  rw [← ha', ← hb']
  have : j < 4 := by omega
  interval_cases j <;> rfl

theorem length_shl8Int (p : ShlPath) (xs : List (BitVec 8)) (s : Nat) (hs : s < 32) : (shl8Int p xs s).length = xs.length := by
  rw [Props.C26_shl8_scalar p xs s hs]; simp

theorem length_mulBytes (p : MulPath) (xs ys : List (BitVec 8)) (h : xs.length = ys.length) : (mulBytes p xs ys).length = xs.length := by
  cases p <;> simp [mulBytes, overGroups2, h]
theorem length_shl8v (p : ShlvPath) (xs ys : List (BitVec 8)) (h : xs.length = ys.length) : (shl8v p xs ys).length = xs.length := by
  cases p <;> simp [shl8v, overGroups2, h]
theorem length_shr8v (s : Bool) (p : Shr8Path) (xs ys : List (BitVec 8)) (h : xs.length = ys.length) : (shr8v s p xs ys).length = xs.length := by
  cases p <;> simp [shr8v, overGroups2, h]
theorem length_shl16v (p : Shl16Path) (xs ys : List (BitVec 16)) (h : xs.length = ys.length) : (shl16v p xs ys).length = xs.length := by
  cases p <;> simp [shl16v, overGroups2, h]
theorem length_shr16v (s : Bool) (p : Shr16Path) (xs ys : List (BitVec 16)) (h : xs.length = ys.length) : (shr16v s p xs ys).length = xs.length := by
  cases p <;> simp [shr16v, overGroups2, h]

/-- One element of the result of each operator of `_SimdImplX86`. -/
theorem counts_of {w lim n : Nat} {x y : List (BitVec w)} {r : Nat → BitVec w} {e : BitVec w → BitVec w → Option (BitVec w)}
    (he : ∀ a b c, e a b = some c → b.toNat < lim) (hr : ∀ i < n, ∃ a b, x[i]? = some a ∧ y[i]? = some b ∧ e a b = some (r i))
    (j : Nat) (hj : j < n) : Counts lim y j := fun l hl => by
  obtain ⟨a, b, _, h2, h3⟩ := hr l (by omega)
  exact ⟨b, h2, he a b _ h3⟩

/-- Which registers and paths are covered: rounding to nearest or any other direction, and, for signed elements without AVX2, counts less than 8. -/
structure X86Byte.Ok (c : X86Byte) (signed : Bool) (lim : Nat) (g : Geo) : Prop where
  three : c.mul g = .three → g.size = 3 ∧ g.full = 4
  round : Spec.IsRounding 24 c.div.R
  bytes : c.div.bytes g = 16 ∨ c.div.bytes g = 32 ∨ c.div.bytes g = 64
  limit : lim ≤ 32
  sse : signed = true → c.shr g = .sse41 ∨ c.shr g = .sse2 → lim ≤ 8

theorem byte_shift (c : X86Byte) (signed l : Bool) (g : Geo) (s : Nat) (hs : s < 32) (x : List (BitVec 8)) :
    (if l then shl8Int (c.shlInt g) x s else if signed then shr8s s x else shr8u (c.shrConst g) s x) =
      x.map (fun a => if l then Spec.shl a s else Spec.shr signed a s) := by
  cases l
  · cases signed
    · exact Props.C27_shr8_scalar_unsigned (c.shrConst g) x s
    · exact Props.C27_shr8_scalar_signed x s
  · exact Props.C26_shl8_scalar (c.shlInt g) x s hs

theorem byte_bin (c : X86Byte) (signed : Bool) {lim : Nat} (g : Geo) (hg : g.Ok) (hc : c.Ok signed lim g) (o : BOp) (x y : List (BitVec 8))
    (r : Nat → BitVec 8) (hx : x.length = g.full) (hy : y.length = g.full)
    (hr : ∀ i < g.size, ∃ a b, x[i]? = some a ∧ y[i]? = some b ∧ (intElem signed 8 lim).bin o a b = some (r i)) :
    (o = .mul → ∃ z, mulBytes (c.mul g) x y = z ∧ z.length = g.full ∧ ∀ i < g.size, z[i]? = some (r i)) ∧
    (o = .div → ∃ z, Division.x86Divides c.div.R g signed c.div.ind (c.div.bytes g) x y = z ∧ z.length = g.full ∧ ∀ i < g.size, z[i]? = some (r i)) ∧
    (o = .mod → ∃ z, Division.x86Modulus8 (c.mul g) c.div.R g signed c.div.ind (c.div.bytes g) x y = z ∧ z.length = g.full ∧
      ∀ i < g.size, z[i]? = some (r i)) ∧
    (o = .shl → ∃ z, shl8v (c.shl g) x y = z ∧ z.length = g.full ∧ ∀ i < g.size, z[i]? = some (r i)) ∧
    (o = .shr → ∃ z, shr8v signed (c.shr g) x y = z ∧ z.length = g.full ∧ ∀ i < g.size, z[i]? = some (r i)) := by
  have hxy : x.length = y.length := by rw [hx, hy]
  refine ⟨?_, ?_, ?_, ?_, ?_⟩ <;> rintro rfl
  · refine ⟨_, rfl, by rw [length_mulBytes _ _ _ hxy, hx], fun i hi => ?_⟩
    obtain ⟨a, b, h1, h2, h3⟩ := hr i hi
    rw [mulBytes_lane _ x y hxy i a b (fun h => by have := hc.three h; omega) h1 h2, mul_ok h3]
  · refine ⟨_, rfl, by simp [Division.x86Divides], fun i hi => ?_⟩
    obtain ⟨a, b, h1, h2, h3⟩ := hr i hi
    exact Props.C25_division (w := 8) (.inl rfl) c.div.R hc.round g hg signed c.div.ind _ hc.bytes x y i hi a b _ h1 h2 h3
  · refine ⟨_, rfl, ?_, fun i hi => ?_⟩
    · have : (Division.x86Divides c.div.R g signed c.div.ind (c.div.bytes g) x y).length = g.full := by simp [Division.x86Divides]
      simp [Division.x86Modulus8, Division.modulusWith, length_mulBytes _ y _ (hy.trans this.symm), hx, hy]
    · obtain ⟨a, b, h1, h2, h3⟩ := hr i hi
      exact Props.C25_modulus8 (c.mul g) c.div.R hc.round g hg hc.three signed c.div.ind _ hc.bytes x y hy i hi a b _ h1 h2 h3
  · refine ⟨_, rfl, by rw [length_shl8v _ _ _ hxy, hx], fun i hi => ?_⟩
    obtain ⟨a, b, h1, h2, h3⟩ := hr i hi
    exact (shl8v_own _ x y i a b h1 h2).trans (congrArg some (shl_spec_iff h3).2.symm)
  · refine ⟨_, rfl, by rw [length_shr8v _ _ _ _ hxy, hx], fun i hi => ?_⟩
    have hcs := counts_of (fun a b c h => (shr_spec_iff h).1) hr i hi
    obtain ⟨a, b, h1, h2, h3⟩ := hr i hi
    exact (shr8v_own signed (c.shr g) hc.limit hc.sse x y i a b h1 h2 hcs).trans (congrArg some (shr_spec_iff h3).2.symm)

/-- The operators that are inherited. -/
theorem base_un (signed : Bool) {w lim : Nat} (junk : BitVec w → Nat → BitVec w) {g : Geo} (hg : g.Ok) (o : UOp) (x : List (BitVec w))
    (r : Nat → BitVec w) (hx : x.length = g.full) (hr : ∀ i < g.size, ∃ a, x[i]? = some a ∧ (intElem signed w lim).un o a = some (r i)) :
    ∃ z, (builtinInt signed w junk).un o g x = some z ∧ z.length = g.full ∧ ∀ i < g.size, z[i]? = some (r i) := by
  cases o
  · exact map1_implements (α := BitVec w) hg _ _ (fun a b h => neg_ok h) x r hx hr
  · exact map1_implements (α := BitVec w) hg _ _ (fun a b h => Option.some.inj h) x r hx hr
  · exact map1_implements (α := BitVec w) hg _ _ (fun a b h => inc_ok h) x r hx hr
  · exact map1_implements (α := BitVec w) hg _ _ (fun a b h => dec_ok h) x r hx hr

theorem base_bin (signed : Bool) {w lim : Nat} (junk : BitVec w → Nat → BitVec w) {g : Geo} (hg : g.Ok) (o : BOp) (x y : List (BitVec w))
    (r : Nat → BitVec w) (hx : x.length = g.full) (hy : y.length = g.full)
    (hr : ∀ i < g.size, ∃ a b, x[i]? = some a ∧ y[i]? = some b ∧ (intElem signed w lim).bin o a b = some (r i))
    (ho : o ≠ .div ∧ o ≠ .mod) (hs : o = .shl ∨ o = .shr → lim ≤ w) :
    ∃ z, (builtinInt signed w junk).bin o g x y = some z ∧ z.length = g.full ∧ ∀ i < g.size, z[i]? = some (r i) := by
  cases o
  · exact map2_implements (α := BitVec w) hg _ _ (fun a b c h => add_ok h) x y r hx hy hr
  · exact map2_implements (α := BitVec w) hg _ _ (fun a b c h => sub_ok h) x y r hx hy hr
  · exact map2_implements (α := BitVec w) hg _ _ (fun a b c h => mul_ok h) x y r hx hy hr
  · exact absurd rfl ho.1
  · exact absurd rfl ho.2
  · exact map2_implements (α := BitVec w) hg _ _ (fun a b c h => Option.some.inj h) x y r hx hy hr
  · exact map2_implements (α := BitVec w) hg _ _ (fun a b c h => Option.some.inj h) x y r hx hy hr
  · exact map2_implements (α := BitVec w) hg _ _ (fun a b c h => Option.some.inj h) x y r hx hy hr
  · exact map2_implements (α := BitVec w) hg _ _ (fun a b c h => shl_ok (hs (.inl rfl)) junk h) x y r hx hy hr
  · exact map2_implements (α := BitVec w) hg _ _ (fun a b c h => shr_ok (hs (.inr rfl)) junk h) x y r hx hy hr

theorem base_shift (signed : Bool) {w lim : Nat} (hlim : lim ≤ w) (junk : BitVec w → Nat → BitVec w) {g : Geo} (hg : g.Ok) (l : Bool)
    (x : List (BitVec w)) (s : Nat) (r : Nat → BitVec w) (hx : x.length = g.full)
    (hr : ∀ i < g.size, ∃ a, x[i]? = some a ∧ (intElem signed w lim).shift l a s = some (r i)) :
    ∃ z, (builtinInt signed w junk).shift l g x s = some z ∧ z.length = g.full ∧ ∀ i < g.size, z[i]? = some (r i) :=
  map1_implements (α := BitVec w) hg _ _ (fun a b h => shift_ok hlim junk h) x r hx hr

/-- The paths that are not scalar, given the operators one by one. -/
theorem not_scalar {g : Geo} {α : Type} {a b : α} (h : g ≠ .scalar) : (match g with | .scalar => a | _ => b) = b := by
  cases g with
  | scalar => exact absurd rfl h
  | vec _ _ _ => rfl
  | bitmask _ _ => rfl

theorem size_pos {g : Geo} (hg : g.Ok) : 0 < g.size := by cases g <;> simp [Geo.Ok] at hg ⊢ <;> omega

theorem some_of {α : Type} {z : List α} {P : List α → Prop} (h : ∃ z', z = z' ∧ P z') : ∃ z', some z = some z' ∧ P z' := by
  obtain ⟨z', rfl, h⟩ := h
  exact ⟨z, rfl, h⟩

theorem byte_shift_own (c : X86Byte) (signed l : Bool) {lim : Nat} (g : Geo) (s : Nat) (hs : s < 32) (x : List (BitVec 8)) (r : Nat → BitVec 8)
    (hx : x.length = g.full) (hr : ∀ i < g.size, ∃ a, x[i]? = some a ∧ (intElem signed 8 lim).shift l a s = some (r i)) :
    ∃ z, some (if l then shl8Int (c.shlInt g) x s else if signed then shr8s s x else shr8u (c.shrConst g) s x) = some z ∧
      z.length = g.full ∧ ∀ i < g.size, z[i]? = some (r i) := by
  rw [byte_shift c signed l g s hs x]
  refine ⟨_, rfl, by simpa using hx, fun i hi => ?_⟩
  obtain ⟨a, h1, h2⟩ := hr i hi
  have h3 : (if s < lim then some (if l then Spec.shl a s else Spec.shr signed a s) else none) = some (r i) := h2
  split at h3
  · rw [List.getElem?_map, h1, ← h3]; rfl
  · exact absurd h3 (by simp)

theorem length_zip {α : Type} {n : Nat} (F : α → α → α) (x y : List α) (hx : x.length = n) (hy : y.length = n) :
    (List.zipWith F x y).length = n := by simp [hx, hy]
theorem length_shr32vS (sse41 : Bool) {n : Nat} (hn : n ≤ 4) (x y : List (BitVec 32)) :
    ((shr32vS sse41 (toXmm 0#32 x) (toXmm 0#32 y)).take n).length = n := by
  have e : ∀ z : List (BitVec 32), toXmm 0#32 z = [z.getD 0 0#32, z.getD 1 0#32, z.getD 2 0#32, z.getD 3 0#32] := fun z => rfl
  rw [e, e, shr32vS_eq]; simp; omega

theorem x86Byte_implements (c : X86Byte) (signed : Bool) {lim : Nat} {g : Geo} (hg : g.Ok) (hc : g ≠ .scalar → c.Ok signed lim g)
    (hlim : lim ≤ 32) : Implements (x86Byte c signed) (intElem signed 8 lim) g := by
  by_cases hs : g = .scalar
  · subst hs
    have S := scalarInt_implements signed (w := 8) (lim := lim) (by omega)
    exact ⟨S.un, S.bin, S.shift, ImplementsFn.empty _ hg⟩
  · have hc := hc hs
    refine ⟨fun o x r hx hr => base_un signed (fun a _ => a) hg o x r hx hr, ?_, ?_, ImplementsFn.empty _ hg⟩
    · intro o x y r hx hy hr
      have B := byte_bin c signed g hg hc o x y r hx hy hr
      have base := fun h1 h2 => base_bin signed (fun a _ => a) hg o x y r hx hy hr h1 h2
      obtain ⟨b1, b2, b3, b4, b5⟩ := B
      cases g with
      | scalar => exact absurd rfl hs
      | vec ew n f =>
        cases o
        case mul => exact some_of (b1 rfl)
        case div => exact some_of (b2 rfl)
        case mod => exact some_of (b3 rfl)
        case shl => exact some_of (b4 rfl)
        case shr => exact some_of (b5 rfl)
        all_goals exact base ⟨by simp, by simp⟩ (by simp)
      | bitmask n f =>
        cases o
        case mul => exact some_of (b1 rfl)
        case div => exact some_of (b2 rfl)
        case mod => exact some_of (b3 rfl)
        case shl => exact some_of (b4 rfl)
        case shr => exact some_of (b5 rfl)
        all_goals exact base ⟨by simp, by simp⟩ (by simp)
    · intro l x s r hx hw hr
      have hs32 : s < 32 := by simpa [intElem] using hw
      have key := byte_shift_own c signed l g s hs32 x r hx hr
      cases g with
      | scalar => exact absurd rfl hs
      | vec ew n f => exact key
      | bitmask n f => exact key

/-- Which registers and paths are covered for 16-bit elements. -/
structure X86Short.Ok (c : X86Short) (g : Geo) : Prop where
  round : Spec.IsRounding 24 c.div.R
  bytes : c.div.bytes g = 16 ∨ c.div.bytes g = 32 ∨ c.div.bytes g = 64

theorem divides_own {w : Nat} (d : X86Div w) (hw : w = 16 ∨ w = 32) (hR : Spec.IsRounding (if w = 32 then 53 else 24) d.R) (signed : Bool)
    (g : Geo) (hg : g.Ok) (hb : d.bytes g = 16 ∨ d.bytes g = 32 ∨ d.bytes g = 64) (x y : List (BitVec w)) (r : Nat → BitVec w)
    (hx : x.length = g.full) (hy : y.length = g.full) (m : Bool)
    (hr : ∀ i < g.size, ∃ a b, x[i]? = some a ∧ y[i]? = some b ∧ Props.divOp m signed a b = some (r i)) :
    ∃ z, some (if m then Division.x86Modulus d.R g signed d.ind (d.bytes g) x y else Division.x86Divides d.R g signed d.ind (d.bytes g) x y) =
      some z ∧ z.length = g.full ∧ ∀ i < g.size, z[i]? = some (r i) := by
  refine ⟨_, rfl, ?_, fun i hi => ?_⟩
  · cases m
    · simp [Division.x86Divides]
    · simp [Division.x86Modulus, Division.modulusWith, Division.x86Divides, hx, hy]
  · obtain ⟨a, b, h1, h2, h3⟩ := hr i hi
    cases m
    · exact Props.C25_division (by omega) d.R hR g hg signed d.ind _ hb x y i hi a b _ h1 h2 h3
    · exact Props.C25_modulus hw d.R hR g hg signed d.ind _ hb x y i hi a b _ h1 h2 h3

theorem x86Short_implements (c : X86Short) (signed : Bool) {g : Geo} (hg : g.Ok) (hc : g ≠ .scalar → c.Ok g) :
    Implements (x86Short c signed) (intElem signed 16 16) g := by
  by_cases hs : g = .scalar
  · subst hs
    have S := scalarInt_implements signed (w := 16) (lim := 16) (by omega)
    exact ⟨S.un, S.bin, S.shift, ImplementsFn.empty _ hg⟩
  · have hc := hc hs
    refine ⟨fun o x r hx hr => base_un signed c.junk hg o x r hx hr, ?_, ?_, ImplementsFn.empty _ hg⟩
    · intro o x y r hx hy hr
      have hxy : x.length = y.length := by rw [hx, hy]
      have base := fun h1 h2 => base_bin signed c.junk hg o x y r hx hy hr h1 h2
      have dv : o = .div → ∃ z, some (Division.x86Divides c.div.R g signed c.div.ind (c.div.bytes g) x y) = some z ∧ z.length = g.full ∧
          ∀ i < g.size, z[i]? = some (r i) := by
        rintro rfl
        exact divides_own c.div (.inl rfl) hc.round signed g hg hc.bytes x y r hx hy false hr
      have md : o = .mod → ∃ z, some (Division.x86Modulus c.div.R g signed c.div.ind (c.div.bytes g) x y) = some z ∧ z.length = g.full ∧
          ∀ i < g.size, z[i]? = some (r i) := by
        rintro rfl
        exact divides_own c.div (.inl rfl) hc.round signed g hg hc.bytes x y r hx hy true hr
      have sl : o = .shl → ∃ z, some (shl16v (c.shl g) x y) = some z ∧ z.length = g.full ∧ ∀ i < g.size, z[i]? = some (r i) := by
        rintro rfl
        refine ⟨_, rfl, (length_shl16v _ _ _ hxy).trans hx, fun i hi => ?_⟩
        have hcs := counts_of (fun a b c h => (shl_spec_iff h).1) hr i hi
        obtain ⟨a, b, h1, h2, h3⟩ := hr i hi
        exact (shl16v_own _ (fun _ => Nat.le_refl _) x y i a b h1 h2 hcs).trans (congrArg some (shl_spec_iff h3).2.symm)
      have sr : o = .shr → ∃ z, some (shr16v signed (c.shr g) x y) = some z ∧ z.length = g.full ∧ ∀ i < g.size, z[i]? = some (r i) := by
        rintro rfl
        refine ⟨_, rfl, (length_shr16v _ _ _ _ hxy).trans hx, fun i hi => ?_⟩
        have hcs := counts_of (fun a b c h => (shr_spec_iff h).1) hr i hi
        obtain ⟨a, b, h1, h2, h3⟩ := hr i hi
        exact (shr16v_own signed _ (by omega) (fun _ _ => Nat.le_refl _) x y i a b h1 h2 hcs).trans (congrArg some (shr_spec_iff h3).2.symm)
      cases g with
      | scalar => exact absurd rfl hs
      | vec ew n f =>
        cases o
        case div => exact dv rfl
        case mod => exact md rfl
        case shl => exact sl rfl
        case shr => exact sr rfl
        all_goals exact base ⟨by simp, by simp⟩ (by simp)
      | bitmask n f =>
        cases o
        case div => exact dv rfl
        case mod => exact md rfl
        case shl => exact sl rfl
        case shr => exact sr rfl
        all_goals exact base ⟨by simp, by simp⟩ (by simp)
    · intro l x s r hx hw hr
      have key := base_shift signed (Nat.le_refl 16) c.junk hg l x s r hx hr
      cases g with
      | scalar => exact absurd rfl hs
      | vec ew n f => exact key
      | bitmask n f => exact key

/-- Which registers are covered for 32-bit elements; without AVX2 they have at most four elements. -/
structure X86Int32.Ok (c : X86Int32) (g : Geo) : Prop where
  round : Spec.IsRounding 53 c.div.R
  bytes : c.div.bytes g = 16 ∨ c.div.bytes g = 32 ∨ c.div.bytes g = 64
  small : c.avx2 = false → g.full ≤ 4

theorem x86Int32_implements (c : X86Int32) (signed : Bool) {g : Geo} (hg : g.Ok) (hc : g ≠ .scalar → c.Ok g) :
    Implements (x86Int32 c signed) (intElem signed 32 32) g := by
  by_cases hs : g = .scalar
  · subst hs
    have S := scalarInt_implements signed (w := 32) (lim := 32) (by omega)
    exact ⟨S.un, S.bin, S.shift, ImplementsFn.empty _ hg⟩
  · have hc := hc hs
    have hsz := hg.size_le
    refine ⟨fun o x r hx hr => base_un signed c.junk hg o x r hx hr, ?_, ?_, ImplementsFn.empty _ hg⟩
    · intro o x y r hx hy hr
      have hxy : x.length = y.length := by rw [hx, hy]
      have base := fun h1 h2 => base_bin signed c.junk hg o x y r hx hy hr h1 h2
      have dv : o = .div → ∃ z, some (Division.x86Divides c.div.R g signed c.div.ind (c.div.bytes g) x y) = some z ∧ z.length = g.full ∧
          ∀ i < g.size, z[i]? = some (r i) := by
        rintro rfl
        exact divides_own c.div (.inr rfl) hc.round signed g hg hc.bytes x y r hx hy false hr
      have md : o = .mod → ∃ z, some (Division.x86Modulus c.div.R g signed c.div.ind (c.div.bytes g) x y) = some z ∧ z.length = g.full ∧
          ∀ i < g.size, z[i]? = some (r i) := by
        rintro rfl
        exact divides_own c.div (.inr rfl) hc.round signed g hg hc.bytes x y r hx hy true hr
      have sl : o = .shl → ∃ z, (if c.avx2 then (builtinInt signed 32 c.junk).bin .shl g x y else some (List.zipWith shl32vSse x y)) = some z ∧
          z.length = g.full ∧ ∀ i < g.size, z[i]? = some (r i) := by
        rintro rfl
        by_cases ha : c.avx2 = true
        · rw [if_pos ha]; exact base ⟨by simp, by simp⟩ (fun _ => Nat.le_refl _)
        · rw [if_neg ha]
          refine ⟨_, rfl, length_zip shl32vSse x y hx hy, fun i hi => ?_⟩
          obtain ⟨a, b, h1, h2, h3⟩ := hr i hi
          exact (zip_own shl32vSse (fun a b => a <<< b.toNat) x y i a b h1 h2 (shl32vSse_eq a b (shl_spec_iff h3).1)).trans
            (congrArg some (shl_spec_iff h3).2.symm)
      have sr : o = .shr → ∃ z, (if c.avx2 then (builtinInt signed 32 c.junk).bin .shr g x y
          else if signed then some ((shr32vS c.sse41 (toXmm 0#32 x) (toXmm 0#32 y)).take g.full) else some (shr32v c.sse41 x y)) = some z ∧
          z.length = g.full ∧ ∀ i < g.size, z[i]? = some (r i) := by
        rintro rfl
        by_cases ha : c.avx2 = true
        · rw [if_pos ha]; exact base ⟨by simp, by simp⟩ (fun _ => Nat.le_refl _)
        · rw [if_neg ha]
          have h4 := hc.small (by simpa using ha)
          cases signed
          · refine ⟨_, rfl, (length_overGroups2 _ _ _ _ _).trans hx, fun i hi => ?_⟩
            have hcs := counts_of (fun a b c h => (shr_spec_iff h).1) hr i hi
            obtain ⟨a, b, h1, h2, h3⟩ := hr i hi
            exact (shr32v_own c.sse41 x y i a b h1 h2 hcs).trans (congrArg some (shr_spec_iff h3).2.symm)
          · refine ⟨_, rfl, length_shr32vS c.sse41 h4 x y, fun i hi => ?_⟩
            obtain ⟨a, b, h1, h2, h3⟩ := hr i hi
            exact (shr32vS_own c.sse41 g.full x y i (by omega) h4 a b h1 h2).trans (congrArg some (shr_spec_iff h3).2.symm)
      cases g with
      | scalar => exact absurd rfl hs
      | vec ew n f =>
        cases o
        case div => exact dv rfl
        case mod => exact md rfl
        case shl => exact sl rfl
        case shr => exact sr rfl
        all_goals exact base ⟨by simp, by simp⟩ (by simp)
      | bitmask n f =>
        cases o
        case div => exact dv rfl
        case mod => exact md rfl
        case shl => exact sl rfl
        case shr => exact sr rfl
        all_goals exact base ⟨by simp, by simp⟩ (by simp)
    · intro l x s r hx hw hr
      have key := base_shift signed (Nat.le_refl 32) c.junk hg l x s r hx hr
      cases g with
      | scalar => exact absurd rfl hs
      | vec ew n f => exact key
      | bitmask n f => exact key

theorem ite_some {α : Type} {p : Prop} [Decidable p] {a b : Option α} {Q : α → Prop} (h1 : p → ∃ z, a = some z ∧ Q z) (h2 : ¬p → ∃ z, b = some z ∧ Q z) :
    ∃ z, (if p then a else b) = some z ∧ Q z := by
  by_cases h : p
  · rw [if_pos h]; exact h1 h
  · rw [if_neg h]; exact h2 h

theorem shl64_own {n : Nat} (hn : n ≤ 2) (x y : List (BitVec 64)) (r : Nat → BitVec 64) (hx : x.length = 2) (hy : y.length = 2)
    (hr : ∀ i < n, ∃ a b, x[i]? = some a ∧ y[i]? = some b ∧ r i = a <<< b.toNat) :
    ∃ z, some (shl64vSse x y) = some z ∧ z.length = 2 ∧ ∀ i < n, z[i]? = some (r i) := by
  obtain ⟨x0, x1, rfl⟩ := List.length_eq_two.1 hx
  obtain ⟨y0, y1, rfl⟩ := List.length_eq_two.1 hy
  refine ⟨_, rfl, rfl, fun i hi => ?_⟩
  obtain ⟨a, b, h1, h2, h3⟩ := hr i hi
  rw [h3]
  have : i < 2 := by omega
  interval_cases i
  · cases h1; cases h2; rfl
  · cases h1; cases h2; rfl

/-- 64-bit elements.  Division is that of the base: registers without padding or unsigned elements. -/
theorem x86Int64_implements (c : X86Int64) (signed : Bool) {g : Geo} (hg : g.Ok)
    (p : BOp → Bool) (hp : p .div = true ∨ p .mod = true → signed = false ∨ g.size = g.full) :
    Implements (x86Int64 c signed) ((intElem signed 64 64).only p) g := by
  have only : ∀ {o : BOp} {a b r : BitVec 64}, ((intElem signed 64 64).only p).bin o a b = some r → (intElem signed 64 64).bin o a b = some r := by
    intro o a b r h
    by_cases ho : p o = true
    · simpa only [Elem.only, if_pos ho] using h
    · simp only [Elem.only, if_neg ho] at h; exact absurd h (by simp)
  by_cases hs : g = .scalar
  · subst hs
    have S := scalarInt_implements signed (w := 64) (lim := 64) (by omega)
    refine ⟨S.un, fun o x y r hx hy hr => S.bin o x y r hx hy (fun i hi => ?_), S.shift, ImplementsFn.empty _ hg⟩
    obtain ⟨a, b, h1, h2, h3⟩ := hr i hi
    exact ⟨a, b, h1, h2, only h3⟩
  · have B := builtinInt_implements signed (w := 64) (by omega) c.junk hg p hp
    refine ⟨B.un, ?_, ?_, ImplementsFn.empty _ hg⟩
    · intro o x y r hx hy hr
      have base := B.bin o x y r hx hy hr
      have sl : o = .shl → ∃ z, (if g.full = 2 ∧ c.avx2 = false then some (shl64vSse x y) else (builtinInt signed 64 c.junk).bin .shl g x y) = some z ∧
          z.length = g.full ∧ ∀ i < g.size, z[i]? = some (r i) := by
        rintro rfl
        refine ite_some (fun ha => ?_) (fun _ => base)
        have hsz := hg.size_le
        rw [ha.1] at hx hy hsz ⊢
        exact shl64_own hsz x y r hx hy (fun i hi => by
          obtain ⟨a, b, h1, h2, h3⟩ := hr i hi
          exact ⟨a, b, h1, h2, (shl_spec_iff (only h3)).2⟩)
      cases g with
      | scalar => exact absurd rfl hs
      | vec ew n f =>
        cases o
        case shl => exact sl rfl
        all_goals exact base
      | bitmask n f =>
        cases o
        case shl => exact sl rfl
        all_goals exact base
    · intro l x s r hx hw hr
      have key : ∃ z, (if signed ∧ l = false then map1 (fun (a : BitVec 64) => some (shr64s s a)) x else (builtinInt signed 64 c.junk).shift l g x s) = some z ∧
          z.length = g.full ∧ ∀ i < g.size, z[i]? = some (r i) := by
        refine ite_some (fun ha => ?_) (fun _ => B.shift l x s r hx hw hr)
        obtain ⟨rfl, rfl⟩ := ha
        exact map1_implements (α := BitVec 64) hg _ _ (fun a b h => by
          have e := shift_spec_iff (lim := 64) (signed := true) (l := false) h
          rw [shr64s_eq s e.1, e.2]; rfl) x r hx hr
      cases g with
      | scalar => exact absurd rfl hs
      | vec ew n f => exact key
      | bitmask n f => exact key

end StdSimd.SimdClass
