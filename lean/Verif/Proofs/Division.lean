import Verif.Model.Division
import Verif.Spec.Arith
import Verif.Proofs.Float
import Verif.Proofs.Util
import Verif.Proofs.X86Mul
/-! Proofs about division. -/
namespace StdSimd.Division
open Spec

theorem toZ_eq (signed : Bool) {w : Nat} (a : BitVec w) : toZ signed a = value signed a := rfl

/-! ### padding -/

/-- The padding fill does not change lanes. -/
theorem makePaddingNonzero_lane {w : Nat} (g : Geo) (y : List (BitVec w)) (i : Nat) (hi : i < g.size) :
    (makePaddingNonzero g y)[i]? = y[i]? := by
  cases g with
  | scalar => rfl
  | vec w' n f =>
    simp only [makePaddingNonzero]
    simp only [Geo.size_vec] at hi
    split
    · rfl
    · rw [List.getElem?_mapIdx]
      cases y[i]? <;> simp [hi]
  | bitmask n f =>
    simp only [makePaddingNonzero]
    simp only [Geo.size_bitmask] at hi
    split
    · rfl
    · rw [List.getElem?_mapIdx]
      cases y[i]? <;> simp [hi]

theorem length_makePaddingNonzero {w : Nat} (g : Geo) (y : List (BitVec w)) : (makePaddingNonzero g y).length = y.length := by
  cases g <;> simp only [makePaddingNonzero] <;> (try split) <;> simp

theorem or_one_ne_zero {w : Nat} (hw : 0 < w) (a : BitVec w) : a ||| 1#w ≠ 0#w := by
  intro h
  have := congrArg (fun z : BitVec w => z.getLsbD 0) h
  simp [hw] at this

/-- The padding fill: no zero outside the lanes. -/
theorem makePaddingNonzero_padding {w : Nat} (hw : 0 < w) (g : Geo) (y : List (BitVec w)) (hg : g.size < g.full) (i : Nat)
    (hi : g.size ≤ i) (b : BitVec w) (hb : (makePaddingNonzero g y)[i]? = some b) : b ≠ 0#w := by
  cases g with
  | scalar => simp at hg
  | vec w' n f =>
    simp only [Geo.size_vec, Geo.full_vec] at hg hi
    simp only [makePaddingNonzero] at hb
    rw [if_neg (by omega), List.getElem?_mapIdx] at hb
    cases hy : y[i]? with
    | none => simp [hy] at hb
    | some c =>
      rw [hy, Option.map_some, if_neg (by omega)] at hb
      cases hb
      rw [BitVec.or_allOnes]
      intro h
      have := congrArg (fun z : BitVec w => z.getLsbD 0) h
      simp [hw] at this
  | bitmask n f =>
    simp only [Geo.size_bitmask, Geo.full_bitmask] at hg hi
    simp only [makePaddingNonzero] at hb
    rw [if_neg (by omega), List.getElem?_mapIdx] at hb
    cases hy : y[i]? with
    | none => simp [hy] at hb
    | some c =>
      rw [hy, Option.map_some, if_neg (by omega)] at hb
      cases hb
      exact or_one_ne_zero hw c

/-- If the operation is defined on all elements, the register is defined; `m` is the divisor with its padding filled. -/
theorem map2_of {α : Type} (g : Geo) (hg : g.Ok) (op : α → α → Option α) (x y m : List α)
    (hx : x.length = g.full) (hml : m.length = g.full) (hlane : ∀ i < g.size, m[i]? = y[i]?) (r : Nat → α)
    (hl : ∀ i < g.size, ∃ a b, x[i]? = some a ∧ y[i]? = some b ∧ op a b = some (r i))
    (hp : ∀ i a b, g.size ≤ i → i < g.full → x[i]? = some a → m[i]? = some b → op a b ≠ none) :
    ∃ z, Native.map2 op x m = some z ∧ z.length = g.full ∧ ∀ i < g.size, z[i]? = some (r i) := by
  have hsz : g.size ≤ g.full := by cases g <;> simp [Geo.Ok] at hg ⊢ <;> omega
  let G : α × α → α := fun p => (op p.1 p.2).getD (r 0)
  have hall : ∀ p ∈ x.zip m, op p.1 p.2 = some (G p) := by
    intro p hp'
    obtain ⟨i, hi, rfl⟩ := List.mem_iff_getElem.1 hp'
    have hi' : i < g.full := by simp only [List.length_zip, hx, hml] at hi; omega
    have ex : x[i]? = some (x.zip m)[i].1 := by simp [hx, hi']
    have em : m[i]? = some (x.zip m)[i].2 := by simp [hml, hi']
    have : op (x.zip m)[i].1 (x.zip m)[i].2 ≠ none := by
      by_cases hs : i < g.size
      · obtain ⟨a, b, h1, h2, h3⟩ := hl i hs
        have e2 : m[i]? = some b := by rw [hlane i hs, h2]
        have e3 := Option.some.inj (em.symm.trans e2)
        have e4 := Option.some.inj (ex.symm.trans h1)
        rw [e3, e4, h3]; simp
      · exact hp i _ _ (by omega) hi' ex em
    show _ = some (Option.getD _ _)
    generalize op (x.zip m)[i].1 (x.zip m)[i].2 = o at this
    cases o with
    | none => exact absurd rfl this
    | some v => rfl
  refine ⟨(x.zip m).map G, mapM_some _ G _ hall, by simp [hx, hml], ?_⟩
  intro i hi
  obtain ⟨a, b, h1, h2, h3⟩ := hl i hi
  have e2 : m[i]? = some b := by rw [hlane i hi, h2]
  rw [List.getElem?_map, List.getElem?_zip_eq_some (z := (a, b)) |>.2 ⟨h1, e2⟩, Option.map_some]
  simp [G, h3]

theorem divides_of {w : Nat} (g : Geo) (hg : g.Ok) (op : BitVec w → BitVec w → Option (BitVec w)) (x y : List (BitVec w))
    (hx : x.length = g.full) (hy : y.length = g.full) (r : Nat → BitVec w)
    (hl : ∀ i < g.size, ∃ a b, x[i]? = some a ∧ y[i]? = some b ∧ op a b = some (r i))
    (hp : ∀ i a b, g.size ≤ i → i < g.full → x[i]? = some a → (makePaddingNonzero g y)[i]? = some b → op a b ≠ none) :
    ∃ z, divides g op x y = some z ∧ z.length = g.full ∧ ∀ i < g.size, z[i]? = some (r i) :=
  map2_of g hg op x y _ hx (by rw [length_makePaddingNonzero, hy]) (fun i hi => makePaddingNonzero_lane g y i hi) r hl hp

theorem length_makePaddingOne {α : Type} (one : α) (g : Geo) (y : List α) : (makePaddingOne one g y).length = y.length := by
  cases g <;> simp only [makePaddingOne] <;> (try split) <;> simp

theorem makePaddingOne_get {α : Type} (one : α) (g : Geo) (y : List α) (hg : g.size < g.full) (i : Nat) :
    (makePaddingOne one g y)[i]? = (y[i]?).map (fun a => if i < g.size then a else one) := by
  cases g with
  | scalar => simp at hg
  | vec w n f =>
    simp only [Geo.size_vec, Geo.full_vec] at hg ⊢
    simp only [makePaddingOne]
    rw [if_neg (by omega), List.getElem?_mapIdx]; rfl
  | bitmask n f =>
    simp only [Geo.size_bitmask, Geo.full_bitmask] at hg ⊢
    simp only [makePaddingOne]
    rw [if_neg (by omega), List.getElem?_mapIdx]; rfl

theorem makePaddingOne_full {α : Type} (one : α) (g : Geo) (y : List α) (hg : g.size = g.full) : makePaddingOne one g y = y := by
  cases g with
  | scalar => rfl
  | vec w n f => simp only [Geo.size_vec, Geo.full_vec] at hg; simp [makePaddingOne, hg]
  | bitmask n f => simp only [Geo.size_bitmask, Geo.full_bitmask] at hg; simp [makePaddingOne, hg]

/-! ### x86 -/

theorem convertAll_get (R : ℚ → ℚ) (signed : Bool) {w : Nat} (m k : Nat) (x : List (BitVec w)) :
    convertAll R signed m k x
      = (List.range m).map (fun c => (List.range k).map (fun j => R (toZ signed (x.getD (c * k + j) 0#w)))) := rfl

/-- Concatenating rows of equal length. -/
theorem flatten_get {α : Type} (m k : Nat) (f : Nat → Nat → α) (i : Nat) (hi : i < m * k) :
    ((List.range m).map (fun c => (List.range k).map (f c))).flatten[i]? = some (f (i / k) (i % k)) := by
  have hk : 0 < k := Nat.pos_of_ne_zero (by rintro rfl; simp at hi)
  induction m with
  | zero => simp at hi
  | succ m ih =>
    rw [List.range_succ, List.map_append, List.flatten_append]
    have hlen : ((List.range m).map (fun c => (List.range k).map (f c))).flatten.length = m * k := by
      rw [List.length_flatten]
      simp only [List.map_map, Function.comp_def, List.length_map, List.length_range]
      simp [List.map_const']
    by_cases h : i < m * k
    · rw [List.getElem?_append_left (by omega), ih h]
    · rw [List.getElem?_append_right (by omega), hlen]
      have h1 : i - m * k < k := by rw [Nat.succ_mul] at hi; omega
      have h2 : i = k * m + (i - m * k) := by rw [Nat.mul_comm k m]; omega
      have h3 : i / k = m := by
        rw [h2, Nat.mul_add_div hk, Nat.div_eq_of_lt h1]; rfl
      have h4 : i % k = i - m * k := by
        conv_lhs => rw [h2]
        rw [Nat.mul_add_mod, Nat.mod_eq_of_lt h1]
      rw [h3, h4]
      simp [h1]

theorem zipWith_rows {α β γ : Type} (F : α → β → γ) (m k : Nat) (f : Nat → Nat → α) (h : Nat → Nat → β) :
    List.zipWith (fun a b => List.zipWith F a b) ((List.range m).map (fun c => (List.range k).map (f c)))
      ((List.range m).map (fun c => (List.range k).map (h c)))
      = (List.range m).map (fun c => (List.range k).map (fun j => F (f c j) (h c j))) := by
  rw [List.zipWith_map, List.zipWith_self]
  simp only [List.zipWith_map, List.zipWith_self]

/-- Lane `i` of the quotient. -/
theorem x86Divides_get (R : ℚ → ℚ) (g : Geo) (hg : g.Ok) (signed : Bool) {w : Nat} (ind : BitVec w) (bytes : Nat)
    (hb : 8 ≤ bytes) (x y : List (BitVec w)) (i : Nat) (hi : i < g.size) (a b : BitVec w) (ha : x[i]? = some a)
    (hbb : y[i]? = some b) :
    (x86Divides R g signed ind bytes x y)[i]?
      = some (toInt signed w ind (fdiv R (R (toZ signed a)) (R (toZ signed b)))) := by
  have hsz : g.size ≤ g.full := by cases g <;> simp [Geo.Ok] at hg ⊢ <;> omega
  have hs1 : 1 ≤ g.size := by cases g <;> simp [Geo.Ok] at hg ⊢ <;> omega
  unfold x86Divides
  dsimp only
  set k := nIntermediate g.size bytes (if w = 32 then 8 else 4) with hk
  have hk0 : 0 < k := by
    rw [hk, nIntermediate]
    have : 1 ≤ bytes / (if w = 32 then 8 else 4) := by split <;> omega
    omega
  have hm : i < (g.size + k - 1) / k * k := by
    have h1 := Nat.div_add_mod (g.size + k - 1) k
    have h2 := Nat.mod_lt (g.size + k - 1) hk0
    rw [Nat.mul_comm] at h1
    omega
  rw [List.getElem?_map, List.getElem?_range (by omega), Option.map_some]
  rw [convertAll_get, convertAll_get, zipWith_rows, flatten_get _ _ _ _ hm]
  have hd : i / k * k + i % k = i := by rw [Nat.mul_comm]; exact Nat.div_add_mod i k
  rw [hd, List.getD_eq_getElem?_getD, List.getD_eq_getElem?_getD, makePaddingNonzero_lane g y i hi, ha, hbb]
  rfl

theorem natAbs_value (signed : Bool) {w : Nat} (hw : 0 < w) (a : BitVec w) : (value signed a).natAbs < 2 ^ w := by
  unfold value
  split
  · have h1 := BitVec.le_toInt a
    have h2 := BitVec.toInt_lt (x := a)
    have h3 : (2 : Int) ^ w = 2 * 2 ^ (w - 1) := by
      obtain ⟨v, rfl⟩ : ∃ v, w = v + 1 := ⟨w - 1, by omega⟩
      rw [Nat.add_sub_cancel, pow_succ]; ring
    have h4 : (0 : Int) < 2 ^ (w - 1) := by positivity
    zify
    rw [abs_lt]
    constructor <;> omega
  · simpa using a.isLt

theorem value_ne_zero (signed : Bool) {w : Nat} (b : BitVec w) (h : b ≠ 0#w) : value signed b ≠ 0 := by
  unfold value
  split
  · intro h0
    exact h (BitVec.eq_of_toInt_eq (by simpa using h0))
  · intro h0
    exact h (BitVec.eq_of_toNat_eq (by simpa using h0))

/-- Division through floating-point numbers with enough bits. -/
theorem quotient_exact {p : Nat} {R : ℚ → ℚ} (hR : IsRounding p R) (signed : Bool) {w : Nat} (hw : 0 < w) (hp : w + 2 ≤ p)
    (ind a b q : BitVec w) (hq : Spec.div signed a b = some q) :
    toInt signed w ind (fdiv R (R (toZ signed a)) (R (toZ signed b))) = q := by
  have hA := natAbs_value signed hw a
  have hB := natAbs_value signed hw b
  have hpw : 4 * 2 ^ w ≤ 2 ^ p := by
    calc 4 * 2 ^ w = 2 ^ (w + 2) := by rw [pow_add]; ring
      _ ≤ 2 ^ p := Nat.pow_le_pow_right (by omega) hp
  unfold Spec.div at hq
  dsimp only at hq
  split at hq
  · cases hq
  · rename_i hnd
    push Not at hnd
    obtain ⟨hb0, hr⟩ := hnd
    have hv := value_ne_zero signed b hb0
    have hfa : R (toZ signed a) = (toZ signed a : ℚ) := hR.int _ (by
      rw [toZ_eq, Int.abs_eq_natAbs]; exact_mod_cast (by omega : (value signed a).natAbs < 2 ^ p))
    have hfb : R (toZ signed b) = (toZ signed b : ℚ) := hR.int _ (by
      rw [toZ_eq, Int.abs_eq_natAbs]; exact_mod_cast (by omega : (value signed b).natAbs < 2 ^ p))
    rw [hfa, hfb, toZ_eq, toZ_eq, fdiv, if_neg (by exact_mod_cast hv)]
    simp only [toInt]
    rw [rounded_quotient hR _ _ hv (by omega)]
    cases hq
    unfold InRange at hr
    split
    · rename_i hs; rw [if_pos hs] at hr; rw [if_pos hr]
    · rename_i hs; rw [if_neg hs] at hr; rw [if_pos hr]

/-- The remainder from the quotient. -/
theorem modulus_exact (signed : Bool) {w : Nat} (a b q r : BitVec w) (hq : Spec.div signed a b = some q)
    (hr : Spec.mod signed a b = some r) : a - b * q = r := by
  unfold Spec.div at hq
  unfold Spec.mod at hr
  dsimp only at hq hr
  split at hq
  · cases hq
  · rename_i hnd
    rw [if_neg hnd] at hr
    cases hq
    cases hr
    have hval : ∀ c : BitVec w, c = BitVec.ofInt w (value signed c) := by
      intro c
      unfold value
      split
      · exact (BitVec.ofInt_toInt).symm
      · simp
    generalize (value signed a).tdiv (value signed b) = q
    conv_lhs => rw [hval a, hval b]
    rw [← BitVec.ofInt_mul, BitVec.sub_eq_add_neg, ← BitVec.ofInt_neg, ← BitVec.ofInt_add]
    congr 1
    ring

theorem mod_of_div (signed : Bool) {w : Nat} (a b r : BitVec w) (hr : Spec.mod signed a b = some r) :
    ∃ q, Spec.div signed a b = some q := by
  unfold Spec.mod at hr
  unfold Spec.div
  dsimp only at hr ⊢
  split at hr
  · cases hr
  · rename_i h; rw [if_neg h]; exact ⟨_, rfl⟩

end StdSimd.Division
