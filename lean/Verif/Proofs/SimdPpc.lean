import Verif.Model.SimdPpc
import Verif.Proofs.SimdX86
import Verif.Props.PpcInt
/-!
# The operators of integers on PowerPC compute the operators of the element types
-/
namespace StdSimd.SimdClass
open Spec Spec.Program Native

theorem zip_own' {α β γ : Type} (F : α → β → γ) (xs : List α) (ys : List β) (j : Nat) (a : α) (b : β) (ha : xs[j]? = some a) (hb : ys[j]? = some b) :
    (List.zipWith F xs ys)[j]? = some (F a b) := by rw [List.getElem?_zipWith, ha, hb]

/-- An element of the result depends on the elements of the operands with the same index only. -/
theorem ppc_shlv_own {w : Nat} (hw : w = 8 ∨ w = 16 ∨ w = 32 ∨ w = 64) (signed : Bool) (xs ys : List (BitVec w)) (j : Nat) (a b : BitVec w)
    (ha : xs[j]? = some a) (hb : ys[j]? = some b) (h : b.toNat < max w 32) : (Ppc.shlv signed xs ys)[j]? = some (a <<< b.toNat) := by
  have k := Props.C26_ppc_vector hw signed [a] [b] (by simpa using h)
  rw [List.zipWith_cons_cons, List.zipWith_nil_left, ← shl_bv] at k
  unfold Ppc.shlv at k ⊢
  dsimp only at k ⊢
  split at k <;> rename_i hs
  · rw [if_pos hs, zip_own' _ _ _ _ _ _ hb (zip_own' _ _ _ _ _ _ ha hb)]
    simpa using k
  · rw [if_neg hs, zip_own' _ _ _ _ _ _ ha hb]
    simpa using k

theorem ppc_shrv_own {w : Nat} (hw : w = 8 ∨ w = 16 ∨ w = 32 ∨ w = 64) (signed : Bool) (xs ys : List (BitVec w)) (j : Nat) (a b : BitVec w)
    (ha : xs[j]? = some a) (hb : ys[j]? = some b) (h : b.toNat < max w 32) :
    (Ppc.shrv signed xs ys)[j]? = some (if signed then a.sshiftRight b.toNat else a >>> b.toNat) := by
  have k := Props.C27_ppc_vector hw signed [a] [b] (by simpa using h)
  rw [List.zipWith_cons_cons, List.zipWith_nil_left, ← shr_bv] at k
  unfold Ppc.shrv at k ⊢
  dsimp only at k ⊢
  split at k <;> rename_i hs
  · rw [if_pos hs]
    cases signed
    · rw [if_neg (by simp)] at k ⊢
      rw [zip_own' _ _ _ _ _ _ hb (zip_own' _ _ _ _ _ _ ha hb)]
      simpa using k
    · rw [if_pos rfl] at k ⊢
      rw [List.zipWith_map_right] at k ⊢
      rw [zip_own' _ _ _ _ _ _ ha hb]
      simpa using k
  · rw [if_neg hs, zip_own' _ _ _ _ _ _ ha hb]
    simpa using k

theorem ppc_shift_own {w : Nat} (hw : 0 < w) (signed l : Bool) (xs : List (BitVec w)) (s : Nat) (hs : s < max w 32) :
    (if l then Ppc.shl xs s else Ppc.shr signed xs s).length = xs.length ∧ ∀ (j : Nat) (a : BitVec w), xs[j]? = some a →
      (if l then Ppc.shl xs s else Ppc.shr signed xs s)[j]? = some (if l then a <<< s else if signed then a.sshiftRight s else a >>> s) := by
  rw [Props.C26_ppc_scalar xs s hs, Props.C27_ppc_scalar hw signed xs s hs]
  refine ⟨by cases l <;> simp, fun j a h => ?_⟩
  rw [shl_bv, shr_bv]
  cases l <;> simp [h]

theorem ppcInt_implements (signed : Bool) {w : Nat} (hw : w = 8 ∨ w = 16 ∨ w = 32 ∨ w = 64) {g : Geo} (hg : g.Ok)
    (p : BOp → Bool) (hp : p .div = true ∨ p .mod = true → signed = false ∨ g.size = g.full) :
    Implements (ppcInt signed w) ((intElem signed w (max w 32)).only p) g := by
  have only : ∀ {o : BOp} {a b r : BitVec w}, ((intElem signed w (max w 32)).only p).bin o a b = some r → (intElem signed w (max w 32)).bin o a b = some r := by
    intro o a b r h
    by_cases ho : p o = true
    · simpa only [Elem.only, if_pos ho] using h
    · simp only [Elem.only, if_neg ho] at h; exact absurd h (by simp)
  by_cases hs : g = .scalar
  · subst hs
    have S := scalarInt_implements signed (w := w) (lim := max w 32) le_rfl
    refine ⟨S.un, fun o x y r hx hy hr => S.bin o x y r hx hy (fun i hi => ?_), S.shift, ImplementsFn.empty _ hg⟩
    obtain ⟨a, b, h1, h2, h3⟩ := hr i hi
    exact ⟨a, b, h1, h2, only h3⟩
  · have B := builtinInt_implements signed (w := w) (by omega) (fun a _ => a) hg p hp
    refine ⟨B.un, ?_, ?_, ImplementsFn.empty _ hg⟩
    · intro o x y r hx hy hr
      have base : o ≠ .shl → o ≠ .shr → ∃ z, (builtinInt signed w (fun a _ => a)).bin o g x y = some z ∧ z.length = g.full ∧ ∀ i < g.size, z[i]? = some (r i) := by
        intro h1 h2
        refine B.bin o x y r hx hy (fun i hi => ?_)
        obtain ⟨a, b, e1, e2, e3⟩ := hr i hi
        refine ⟨a, b, e1, e2, ?_⟩
        cases o <;> first | exact absurd rfl h1 | exact absurd rfl h2 | exact e3
      have sl : o = .shl → ∃ z, some (Ppc.shlv signed (x : List (BitVec w)) y) = some z ∧ z.length = g.full ∧ ∀ i < g.size, z[i]? = some (r i) := by
        rintro rfl
        refine ⟨_, rfl, ?_, fun i hi => ?_⟩
        · unfold Ppc.shlv; dsimp only; split <;> simp [hx, hy]
        · obtain ⟨a, b, h1, h2, h3⟩ := hr i hi
          obtain ⟨h4, h5⟩ := shl_spec_iff (only h3)
          exact (ppc_shlv_own hw signed x y i a b h1 h2 h4).trans (congrArg some h5.symm)
      have sr : o = .shr → ∃ z, some (Ppc.shrv signed (x : List (BitVec w)) y) = some z ∧ z.length = g.full ∧ ∀ i < g.size, z[i]? = some (r i) := by
        rintro rfl
        refine ⟨_, rfl, ?_, fun i hi => ?_⟩
        · unfold Ppc.shrv; dsimp only; split <;> (try split) <;> simp [hx, hy]
        · obtain ⟨a, b, h1, h2, h3⟩ := hr i hi
          obtain ⟨h4, h5⟩ := shr_spec_iff (only h3)
          exact (ppc_shrv_own hw signed x y i a b h1 h2 h4).trans (congrArg some h5.symm)
      cases g with
      | scalar => exact absurd rfl hs
      | vec ew n f =>
        cases o
        case shl => exact sl rfl
        case shr => exact sr rfl
        all_goals exact base (by simp) (by simp)
      | bitmask n f =>
        cases o
        case shl => exact sl rfl
        case shr => exact sr rfl
        all_goals exact base (by simp) (by simp)
    · intro l x s r hx hl hr
      have key : ∃ z, some (if l then Ppc.shl (x : List (BitVec w)) s else Ppc.shr signed (x : List (BitVec w)) s) = some z ∧
          z.length = g.full ∧ ∀ i < g.size, z[i]? = some (r i) := by
        obtain ⟨k1, k2⟩ := ppc_shift_own (w := w) (by omega) signed l x s hl
        refine ⟨_, rfl, k1.trans hx, fun i hi => ?_⟩
        obtain ⟨a, h1, h2⟩ := hr i hi
        exact (k2 i a h1).trans (congrArg some (shift_spec_iff (lim := max w 32) h2).2.symm)
      cases g with
      | scalar => exact absurd rfl hs
      | vec ew n f => exact key
      | bitmask n f => exact key

end StdSimd.SimdClass
