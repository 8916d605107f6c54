import Verif.Model.Reduce
import Verif.Proofs.Storage
import Verif.Spec.Lanes
import Verif.Spec.Reduce
import Mathlib.Tactic.IntervalCases
import Mathlib.Data.List.Forall2
import Mathlib.Data.List.Perm.Basic
/-! # Reductions: combination of lanes as expression trees -/
namespace StdSimd.Reduce
open Spec

variable {α β : Type}

theorem combines_leaf (f : α → α → α) (a : α) : Combines f [a] a := ⟨.leaf a, by simp [Tree.leaves], rfl⟩

theorem _root_.StdSimd.Spec.Combines.node {f : α → α → α} {l₁ l₂ : List α} {a b : α} (h₁ : Combines f l₁ a) (h₂ : Combines f l₂ b) :
    Combines f (l₁ ++ l₂) (f a b) := by
  obtain ⟨t₁, p₁, e₁⟩ := h₁
  obtain ⟨t₂, p₂, e₂⟩ := h₂
  exact ⟨.node t₁ t₂, p₁.append p₂, by simp [Tree.eval, e₁, e₂]⟩

theorem _root_.StdSimd.Spec.Combines.perm {f : α → α → α} {l₁ l₂ : List α} {a : α} (h : Combines f l₁ a) (p : l₁.Perm l₂) : Combines f l₂ a := by
  obtain ⟨t, pt, e⟩ := h
  exact ⟨t, pt.trans p, e⟩

/-- Replace the leaves of a tree by subtrees. -/
theorem tree_subst {f : α → α → α} (t : Tree α) : ∀ parts : List (List α),
    List.Forall₂ (fun p a => Combines f p a) parts t.leaves → Combines f parts.flatten (t.eval f) := by
  induction t with
  | leaf a =>
    intro parts h
    simp only [Tree.leaves] at h
    cases h with
    | cons h1 h2 => cases h2; simpa [Tree.eval] using h1
  | node l r ihl ihr =>
    intro parts h
    simp only [Tree.leaves] at h
    have hl := List.forall₂_take_append parts l.leaves r.leaves h
    have hr := List.forall₂_drop_append parts l.leaves r.leaves h
    have := (ihl _ hl).node (ihr _ hr)
    rw [← List.flatten_append, List.take_append_drop] at this
    exact this

theorem _root_.StdSimd.Spec.Combines.subst {f : α → α → α} {l : List α} {r : α} (h : Combines f l r) {parts : List (List α)}
    (hp : List.Forall₂ (fun p a => Combines f p a) parts l) : Combines f parts.flatten r := by
  obtain ⟨t, pt, e⟩ := h
  subst e
  -- permute the parts
  have h1 : List.Forall₂ (fun a p => Combines f p a) l parts := hp.flip
  obtain ⟨parts', h2, h3⟩ := List.perm_comp_forall₂ pt h1
  have h4 : List.Forall₂ (fun p a => Combines f p a) parts' t.leaves := h2.flip
  exact (tree_subst t parts' h4).perm (List.Perm.flatten h3)

theorem flatten_pairs_perm (xs ys : List α) (h : xs.length = ys.length) :
    (List.zipWith (fun a b => [a, b]) xs ys).flatten.Perm (xs ++ ys) := by
  induction xs generalizing ys with
  | nil => cases ys with
    | nil => simp
    | cons _ _ => simp at h
  | cons a xs ih => cases ys with
    | nil => simp at h
    | cons b ys =>
      simp only [List.zipWith_cons_cons, List.flatten_cons, List.cons_append, List.nil_append]
      refine List.Perm.cons a ?_
      refine ((ih ys (by simpa using h)).cons b).trans ?_
      exact List.perm_middle.symm

theorem forall₂_pairs (f : α → α → α) (xs ys : List α) :
    List.Forall₂ (fun p a => Combines f p a) (List.zipWith (fun a b => [a, b]) xs ys) (List.zipWith f xs ys) := by
  induction xs generalizing ys with
  | nil => simp
  | cons a xs ih => cases ys with
    | nil => simp
    | cons b ys =>
      simp only [List.zipWith_cons_cons]
      exact List.Forall₂.cons ((combines_leaf f a).node (combines_leaf f b)) (ih ys)

/-- Combining two halves lane-wise first. -/
theorem _root_.StdSimd.Spec.Combines.zip {f : α → α → α} {xs ys : List α} {r : α} (hl : xs.length = ys.length)
    (h : Combines f (List.zipWith f xs ys) r) : Combines f (xs ++ ys) r :=
  (h.subst (forall₂_pairs f xs ys)).perm (flatten_pairs_perm xs ys hl)

theorem flatten_singletons (zs : List α) : (zs.map (fun z => [z])).flatten = zs := by
  induction zs with
  | nil => rfl
  | cons z zs ih => rw [List.map_cons, List.flatten_cons, ih]; rfl

/-- Lane-wise combination of the first lanes with a shorter list. -/
theorem _root_.StdSimd.Spec.Combines.zip_short {f : α → α → α} {xs ys zs : List α} {r : α} (hl : xs.length = ys.length)
    (h : Combines f (List.zipWith f xs ys ++ zs) r) : Combines f (xs ++ zs ++ ys) r := by
  have h1 : List.Forall₂ (fun p a => Combines f p a)
      (List.zipWith (fun a b => [a, b]) xs ys ++ zs.map (fun z => [z])) (List.zipWith f xs ys ++ zs) := by
    refine List.rel_append (forall₂_pairs f xs ys) ?_
    rw [List.forall₂_map_left_iff]
    exact List.forall₂_same.2 (fun a _ => combines_leaf f a)
  refine (h.subst h1).perm ?_
  rw [List.flatten_append]
  have h2 := flatten_singletons zs
  rw [h2]
  refine ((flatten_pairs_perm xs ys hl).append_right zs).trans ?_
  rw [List.append_assoc, List.append_assoc]
  exact List.Perm.append_left _ List.perm_append_comm

/-! ## from trees to folds -/

theorem foldl_assoc (f : α → α → α) (ha : ∀ a b c, f (f a b) c = f a (f b c)) (l : List α) (a b : α) :
    l.foldl f (f a b) = f a (l.foldl f b) := by
  induction l generalizing b with
  | nil => rfl
  | cons c l ih => simp only [List.foldl_cons]; rw [ha, ih]

theorem foldOf_append (f : α → α → α) (ha : ∀ a b c, f (f a b) c = f a (f b c)) {l₁ l₂ : List α} {a b : α}
    (h₁ : foldOf f l₁ = some a) (h₂ : foldOf f l₂ = some b) : foldOf f (l₁ ++ l₂) = some (f a b) := by
  cases l₁ with
  | nil => simp [foldOf] at h₁
  | cons x xs => cases l₂ with
    | nil => simp [foldOf] at h₂
    | cons y ys =>
      simp only [foldOf, Option.some.injEq] at h₁ h₂
      subst h₁; subst h₂
      simp only [List.cons_append, foldOf, List.foldl_append, List.foldl_cons]
      rw [foldl_assoc f ha]

theorem foldOf_tree (f : α → α → α) (ha : ∀ a b c, f (f a b) c = f a (f b c)) (t : Tree α) :
    foldOf f t.leaves = some (t.eval f) := by
  induction t with
  | leaf a => rfl
  | node l r ihl ihr => exact foldOf_append f ha ihl ihr

theorem foldOf_perm (f : α → α → α) (ha : ∀ a b c, f (f a b) c = f a (f b c)) (hc : ∀ a b, f a b = f b a) {l₁ l₂ : List α}
    (p : l₁.Perm l₂) : foldOf f l₁ = foldOf f l₂ := by
  induction p with
  | nil => rfl
  | cons x h ih =>
    rename_i m₁ m₂
    cases m₁ with
    | nil => have := h.nil_eq; subst this; rfl
    | cons a m₁ => cases m₂ with
      | nil => exact absurd h.symm.nil_eq (by simp)
      | cons b m₂ =>
        simp only [foldOf, Option.some.injEq, List.foldl_cons] at ih ⊢
        rw [foldl_assoc f ha, foldl_assoc f ha, ih]
  | swap x y l => simp only [foldOf, List.foldl_cons]; rw [hc]
  | trans _ _ ih₁ ih₂ => exact ih₁.trans ih₂

/-- For an associative and commutative operation the order does not matter. -/
theorem _root_.StdSimd.Spec.Combines.fold {f : α → α → α} (ha : ∀ a b c, f (f a b) c = f a (f b c)) (hc : ∀ a b, f a b = f b a) {l : List α} {r : α}
    (h : Combines f l r) : foldOf f l = some r := by
  obtain ⟨t, p, e⟩ := h
  rw [← foldOf_perm f ha hc p, foldOf_tree f ha, e]

/-! ## the native reductions -/

theorem list4 {x : List α} (h : x.length = 4) : ∃ a b c d, x = [a, b, c, d] := by
  match x, h with
  | [a, b, c, d], _ => exact ⟨a, b, c, d, rfl⟩

theorem list8 {x : List α} (h : x.length = 8) : ∃ a b c d e f g i, x = [a, b, c, d, e, f, g, i] := by
  match x, h with
  | [a, b, c, d, e, f, g, i], _ => exact ⟨a, b, c, d, e, f, g, i, rfl⟩

theorem list16 {x : List α} (h : x.length = 16) : ∃ a b c d e f g i j k l m n o p q,
    x = [a, b, c, d, e, f, g, i, j, k, l, m, n, o, p, q] := by
  match x, h with
  | [a, b, c, d, e, f, g, i, j, k, l, m, n, o, p, q], _ => exact ⟨a, b, c, d, e, f, g, i, j, k, l, m, n, o, p, q, rfl⟩

theorem Tree.leaves_map (g : α → β) (t : Tree α) : (t.map g).leaves = t.leaves.map g := by
  induction t with
  | leaf a => rfl
  | node l r ihl ihr => simp [Tree.map, Tree.leaves, ihl, ihr]

/-- A fixed combination scheme, given by the indices of the operands. -/
theorem combines_of_index {f : α → α → α} (t : Tree Nat) (x : List α) (d : α) (hp : t.leaves.Perm (List.range x.length)) {r : α}
    (hr : (t.map (fun i => x.getD i d)).eval f = r) : Combines f x r := by
  refine ⟨t.map (fun i => x.getD i d), ?_, hr⟩
  rw [Tree.leaves_map]
  have h2 : (List.range x.length).map (fun i => x.getD i d) = x := by
    apply List.ext_getElem (by simp)
    intro i h1 h2
    simp at h1
    simp [h1]
  exact (hp.map _).trans (by rw [h2])

theorem step16 (f : α → α → α) (z a b c d e g h i j k l m n o p q : α) :
    List.zipWith f
      (permGroups [0, 0, 1, 1, 2, 2, 3, 3, 4, 4, 5, 5, 6, 6, 7, 7] z [a, b, c, d, e, g, h, i, j, k, l, m, n, o, p, q])
      (permGroups [8, 8, 9, 9, 10, 10, 11, 11, 12, 12, 13, 13, 14, 14, 15, 15] z
        [a, b, c, d, e, g, h, i, j, k, l, m, n, o, p, q])
      = [f a j, f a j, f b k, f b k, f c l, f c l, f d m, f d m, f e n, f e n, f g o, f g o, f h p, f h p, f i q, f i q] := by
  simp [permGroups, List.range_succ]

theorem step8 (f : α → α → α) (z a b c d e g h i : α) :
    List.zipWith f (permGroups [0, 0, 1, 1, 2, 2, 3, 3] z [a, b, c, d, e, g, h, i])
      (permGroups [4, 4, 5, 5, 6, 6, 7, 7] z [a, b, c, d, e, g, h, i])
      = [f a e, f a e, f b g, f b g, f c h, f c h, f d i, f d i] := by
  simp [permGroups, List.range_succ]

theorem step8' (f : α → α → α) (z a b c d e g h i : α) :
    List.zipWith f (permGroups [0, 0, 1, 1, 2, 2, 3, 3] z [a, a, b, b, c, c, d, d, e, e, g, g, h, h, i, i])
      (permGroups [4, 4, 5, 5, 6, 6, 7, 7] z [a, a, b, b, c, c, d, d, e, e, g, g, h, h, i, i])
      = [f a e, f a e, f a e, f a e, f b g, f b g, f b g, f b g, f c h, f c h, f c h, f c h, f d i, f d i, f d i, f d i] := by
  simp [permGroups, List.range_succ]

theorem step4 (f : α → α → α) (z a b c d : α) :
    List.zipWith f [a, b, c, d] (permGroups [3, 2, 1, 0] z [a, b, c, d]) = [f a d, f b c, f c b, f d a] := by
  simp [permGroups, List.range_succ]

theorem step4' (f : α → α → α) (z a b c d : α) :
    List.zipWith f [a, a, b, b, c, c, d, d] (permGroups [3, 2, 1, 0] z [a, a, b, b, c, c, d, d])
      = [f a d, f a d, f b c, f b c, f c b, f c b, f d a, f d a] := by
  simp [permGroups, List.range_succ]

theorem step4'' (f : α → α → α) (z a b c d : α) :
    List.zipWith f [a, a, a, a, b, b, b, b, c, c, c, c, d, d, d, d]
      (permGroups [3, 2, 1, 0] z [a, a, a, a, b, b, b, b, c, c, c, c, d, d, d, d])
      = [f a d, f a d, f a d, f a d, f b c, f b c, f b c, f b c, f c b, f c b, f c b, f c b, f d a, f d a, f d a, f d a] := by
  simp [permGroups, List.range_succ]

theorem step2 (f : α → α → α) (z a b c d : α) :
    (List.zipWith f [a, b, c, d] (permGroups [1, 1] z [a, b, c, d]))[0]? = some (f a c) := by
  simp [permGroups, List.range_succ]

theorem step2' (f : α → α → α) (z a b c d : α) :
    (List.zipWith f [a, a, b, b, c, c, d, d] (permGroups [1, 1] z [a, a, b, b, c, c, d, d]))[0]? = some (f a c) := by
  simp [permGroups, List.range_succ]

theorem step2'' (f : α → α → α) (z a b c d : α) :
    (List.zipWith f [a, a, a, a, b, b, b, b, c, c, c, c, d, d, d, d]
      (permGroups [1, 1] z [a, a, a, a, b, b, b, b, c, c, c, c, d, d, d, d]))[0]? = some (f a c) := by
  simp [permGroups, List.range_succ]

theorem tree16_spec (f : α → α → α) (zero : α) (n : Nat) (hn : n = 4 ∨ n = 8 ∨ n = 16) (x : List α) (hx : x.length = n) :
    ∃ r, tree16 f zero n x = some r ∧ Combines f x r := by
  rcases hn with h | h | h
  · subst h
    obtain ⟨a, b, c, d, rfl⟩ := list4 hx
    have h1 : tree16 f zero 4 [a, b, c, d] = some (f (f a d) (f c b)) := by
      unfold tree16
      simp only [show ¬((4 : Nat) = 16) by decide, if_false, show ¬((8 : Nat) ≤ 4) by decide, Nat.le_refl, if_true, step4, step2]
    refine ⟨_, h1, combines_of_index (.node (.node (.leaf 0) (.leaf 3)) (.node (.leaf 2) (.leaf 1))) _ zero ?_ rfl⟩
    simp only [List.length_cons, List.length_nil]; decide
  · subst h
    obtain ⟨a, b, c, d, e, g, h, i, rfl⟩ := list8 hx
    have h1 : tree16 f zero 8 [a, b, c, d, e, g, h, i] =
        some (f (f (f a e) (f d i)) (f (f c h) (f b g))) := by
      unfold tree16
      simp only [show ¬((8 : Nat) = 16) by decide, if_false, Nat.le_refl, if_true, show (4 : Nat) ≤ 8 by decide, step8, step4', step2']
    refine ⟨_, h1, combines_of_index (.node
      (.node (.node (.leaf 0) (.leaf 4)) (.node (.leaf 3) (.leaf 7)))
      (.node (.node (.leaf 2) (.leaf 6)) (.node (.leaf 1) (.leaf 5)))) _ zero ?_ rfl⟩
    simp only [List.length_cons, List.length_nil]; decide
  · subst h
    obtain ⟨a, b, c, d, e, g, h, i, j, k, l, m, n, o, p, q, rfl⟩ := list16 hx
    have h1 : tree16 f zero 16 [a, b, c, d, e, g, h, i, j, k, l, m, n, o, p, q] =
        some (f (f (f (f a j) (f e n)) (f (f d m) (f i q))) (f (f (f c l) (f h p)) (f (f b k) (f g o)))) := by
      unfold tree16
      simp only [if_true, show (8 : Nat) ≤ 16 by decide, show (4 : Nat) ≤ 16 by decide, step16, step8', step4'', step2'']
    refine ⟨_, h1, combines_of_index (.node
      (.node (.node (.node (.leaf 0) (.leaf 8)) (.node (.leaf 4) (.leaf 12)))
        (.node (.node (.leaf 3) (.leaf 11)) (.node (.leaf 7) (.leaf 15))))
      (.node (.node (.node (.leaf 2) (.leaf 10)) (.node (.leaf 6) (.leaf 14)))
        (.node (.node (.leaf 1) (.leaf 9)) (.node (.leaf 5) (.leaf 13))))) _ zero ?_ rfl⟩
    simp only [List.length_cons, List.length_nil]; decide

theorem eight_le_sixteen_cases {s n : Nat} (h : s * n = 16) (h2 : 2 < n) : n = 4 ∨ n = 8 ∨ n = 16 := by
  have hd : n ∣ 16 := ⟨s, by rw [Nat.mul_comm]; exact h.symm⟩
  have hle : n ≤ 16 := Nat.le_of_dvd (by decide) hd
  interval_cases n <;> first | (exfalso; revert hd; decide) | simp

theorem two_le_of_pow {n k : Nat} (h : n = 2 ^ k) (h1 : n ≠ 1) : ∃ j, n = 2 * 2 ^ j := by
  cases k with
  | zero => simp at h; omega
  | succ k => exact ⟨k, by rw [h, Nat.pow_succ]; omega⟩

theorem reduceFull_spec (f : α → α → α) (zero : α) (s : Nat) : ∀ (k n : Nat) (x : List α), n = 2 ^ k → x.length = n →
    ∃ r, reduceFull f zero s n x = some r ∧ Combines f x r := by
  intro k
  induction k with
  | zero =>
    intro n x hn hx
    simp at hn
    subst hn
    match x, hx with
    | [a], _ => exact ⟨a, by rw [reduceFull]; simp, combines_leaf f a⟩
  | succ k ih =>
    intro n x hn hx
    have hp : 1 ≤ 2 ^ k := Nat.one_le_two_pow
    have hn2 : n = 2 * 2 ^ k := by rw [hn, Nat.pow_succ]; omega
    rw [reduceFull, if_neg (by omega), if_neg (by omega)]
    by_cases h2 : n = 2
    · rw [if_pos h2]
      rw [h2] at hx
      match x, hx with
      | [a, b], _ => exact ⟨f a b, rfl, (combines_leaf f a).node (combines_leaf f b)⟩
    · rw [if_neg h2]
      by_cases h16 : s * n = 16
      · rw [if_pos h16]
        exact tree16_spec f zero n (eight_le_sixteen_cases h16 (by omega)) x hx
      · rw [if_neg h16]
        have hh : n / 2 = 2 ^ k := by omega
        have hl : (x.take (n / 2)).length = (x.drop (n / 2)).length := by simp; omega
        obtain ⟨r, hr, hc⟩ := ih (n / 2) (List.zipWith f (x.take (n / 2)) (x.drop (n / 2))) hh (by
          rw [List.length_zipWith, ← hl]; simp; omega)
        refine ⟨r, hr, ?_⟩
        have := hc.zip hl
        rwa [List.take_append_drop] at this

/-! ### sizes of registers -/

theorem bitCeil_pow (b : Nat) : ∃ k, bitCeil b = 2 ^ k := by
  unfold bitCeil
  split
  · exact ⟨0, rfl⟩
  · exact ⟨_, rfl⟩

theorem bitCeil_mono {a b : Nat} (h : a ≤ b) : bitCeil a ≤ bitCeil b := by
  unfold bitCeil
  by_cases ha : a ≤ 1
  · rw [if_pos ha]; split
    · exact Nat.le_refl _
    · exact Nat.one_le_two_pow
  · rw [if_neg ha, if_neg (by omega)]
    apply Nat.pow_le_pow_right (by decide)
    have : (a - 1).log2 ≤ (b - 1).log2 := by
      rw [Nat.le_log2 (by omega)]
      exact Nat.le_trans (Nat.log2_self_le (by omega)) (by omega)
    omega

/-- Element sizes of vector types. -/
def SizeOk (s : Nat) : Prop := s = 1 ∨ s = 2 ∨ s = 4 ∨ s = 8

theorem vecBytes_eq (t : Abi.Target) {s n : Nat} (h2 : 2 ≤ n) :
    Abi.vecBytes t s n = if t.i386 && bitCeil (n * s) == 8 then 16 else bitCeil (n * s) := by
  unfold Abi.vecBytes
  have h : ¬ bitCeil (n * s) < 2 * s := by
    have := bitCeil_ge (n * s)
    have : 2 * s ≤ n * s := Nat.mul_le_mul_right s h2
    omega
  simp only [h, if_false]

theorem vecBytes_pow (t : Abi.Target) {s n : Nat} (h2 : 2 ≤ n) : ∃ k, Abi.vecBytes t s n = 2 ^ k := by
  rw [vecBytes_eq t h2]
  split
  · exact ⟨4, rfl⟩
  · exact bitCeil_pow _

theorem vecBytes_mono (t : Abi.Target) {s m n : Nat} (hm : 2 ≤ m) (h : m ≤ n) : Abi.vecBytes t s m ≤ Abi.vecBytes t s n := by
  rw [vecBytes_eq t hm, vecBytes_eq t (Nat.le_trans hm h)]
  have hmono := bitCeil_mono (Nat.mul_le_mul_right s h)
  cases t.i386 with
  | false => simpa using hmono
  | true =>
    simp only [Bool.true_and, beq_iff_eq]
    split
    · split
      · exact Nat.le_refl _
      · obtain ⟨k, hk⟩ := bitCeil_pow (n * s)
        rename_i h1 h2
        rw [h1] at hmono
        rw [hk] at hmono h2 ⊢
        have h3 : 2 ^ 3 ≤ 2 ^ k := hmono
        have h4 : 3 ≤ k := (Nat.pow_le_pow_iff_right (by decide)).1 h3
        have h5 : k ≠ 3 := by rintro rfl; exact h2 rfl
        have : 2 ^ 4 ≤ 2 ^ k := Nat.pow_le_pow_right (by decide) (by omega)
        simpa using this
    · split
      · omega
      · exact hmono

theorem fullOf_pow (t : Abi.Target) {s n : Nat} (hs : SizeOk s) (h2 : 2 ≤ n) : ∃ k, fullOf t s n = 2 ^ k := by
  obtain ⟨k, hk⟩ := vecBytes_pow t (s := s) h2
  have hge := Tuple.vecBytes_ge t s n
  unfold fullOf
  rw [hk] at hge ⊢
  obtain ⟨a, rfl⟩ : ∃ a, s = 2 ^ a := by
    rcases hs with h | h | h | h
    · exact ⟨0, h⟩
    · exact ⟨1, h⟩
    · exact ⟨2, h⟩
    · exact ⟨3, h⟩
  have h1 : 1 ≤ 2 ^ a := Nat.one_le_two_pow
  have hak : 2 ^ a ≤ 2 ^ k := Nat.le_trans (Nat.le_mul_of_pos_left _ (by omega)) hge
  refine ⟨k - a, Nat.pow_div ((Nat.pow_le_pow_iff_right (by decide)).1 hak) (by decide)⟩

theorem fullOf_mono (t : Abi.Target) {s m n : Nat} (hm : 2 ≤ m) (h : m ≤ n) : fullOf t s m ≤ fullOf t s n :=
  Nat.div_le_div_right (vecBytes_mono t hm h)

theorem le_fullOf (t : Abi.Target) {s n : Nat} (hs : SizeOk s) : n ≤ fullOf t s n := by
  apply Tuple.le_fullSize
  rcases hs with h | h | h | h <;> omega

/-- Operations other than `plus` and `multiplies`. -/
theorem reduceNative_other (t : Abi.Target) (f : α → α → α) (zero one : α) {s : Nat} (hs : SizeOk s) : ∀ (n : Nat) (x : List α),
    1 ≤ n → (2 ≤ n → x.length = fullOf t s n) → n ≤ x.length →
    ∃ r, reduceNative t .other f zero one s n x = some r ∧ Combines f (x.take n) r := by
  intro n
  induction n using Nat.strong_induction_on with
  | _ n ih =>
    intro x h1 hx hle
    rw [reduceNative, if_neg (by omega)]
    by_cases hn1 : n = 1
    · rw [if_pos hn1]
      subst hn1
      match x, hle with
      | a :: x, _ => exact ⟨a, rfl, by simpa using combines_leaf f a⟩
    rw [if_neg hn1]
    have hlen := hx (by omega)
    by_cases hn2 : n = 2
    · rw [if_pos hn2]
      subst hn2
      match x, hle with
      | a :: b :: x, _ => exact ⟨f a b, rfl, by simpa using (combines_leaf f a).node (combines_leaf f b)⟩
    rw [if_neg hn2]
    by_cases hfull : fullOf t s n ≠ n
    · rw [if_pos hfull]
      by_cases hn3 : n = 3
      · rw [if_pos hn3]
        subst hn3
        match x, hle with
        | a :: b :: c :: x, _ =>
          exact ⟨f (f a b) c, rfl, by simpa using ((combines_leaf f a).node (combines_leaf f b)).node (combines_leaf f c)⟩
      rw [if_neg hn3, if_neg (by decide), if_neg (by decide)]
      by_cases hodd : n % 2 = 1
      · rw [if_pos hodd]
        have hm := fullOf_mono t (s := s) (m := n - 1) (n := n) (by omega) (by omega)
        have hl := le_fullOf t hs (n := n - 1)
        obtain ⟨r, hr, hc⟩ := ih (n - 1) (by omega) (x.take (fullOf t s (n - 1))) (by omega)
          (fun _ => by simp; omega) (by simp; omega)
        have hget : x[n - 1]? = some (x[n - 1]'(by omega)) := List.getElem?_eq_getElem (by omega)
        refine ⟨f r (x[n - 1]'(by omega)), by rw [hr, hget]; rfl, ?_⟩
        have := hc.node (combines_leaf f (x[n - 1]'(by omega)))
        rw [List.take_take, Nat.min_eq_left hl, ← List.take_succ_eq_append_getElem (by omega), Nat.sub_add_cancel h1] at this
        exact this
      · rw [if_neg hodd]
        have hm := fullOf_mono t (s := s) (m := n / 2) (n := n) (by omega) (by omega)
        have hl := le_fullOf t hs (n := n / 2)
        simp only []
        obtain ⟨r, hr, hc⟩ := ih (n / 2) (by omega) (List.zipWith f (x.take (fullOf t s (n / 2)))
          (((List.range x.length).map (fun i => if i < n / 2 then (x[n / 2 + i]?).getD zero else zero)).take (fullOf t s (n / 2))))
          (by omega) (fun _ => by simp; omega) (by simp; omega)
        refine ⟨r, hr, ?_⟩
        have he : List.take (n / 2) (List.zipWith f (x.take (fullOf t s (n / 2)))
            (((List.range x.length).map (fun i => if i < n / 2 then (x[n / 2 + i]?).getD zero else zero)).take (fullOf t s (n / 2))))
            = List.zipWith f (x.take (n / 2)) ((x.drop (n / 2)).take (n / 2)) := by
          apply List.ext_getElem
          · simp; omega
          · intro i hi1 hi2
            simp at hi1 hi2
            have hi : i < n / 2 := by omega
            simp [hi]
            rw [List.getElem?_eq_getElem (by omega)]
            simp
        rw [he] at hc
        have := hc.zip (by simp; omega)
        have e2 : x.take (n / 2) ++ (x.drop (n / 2)).take (n / 2) = x.take n := by
          rw [← List.take_add]; congr 1; omega
        rw [e2] at this
        exact this
    · rw [if_neg hfull]
      have hfe : fullOf t s n = n := by omega
      obtain ⟨k, hk⟩ := fullOf_pow t hs (n := n) (by omega)
      rw [hfe] at hk hlen
      obtain ⟨r, hr, hc⟩ := reduceFull_spec f zero s k n x hk hlen
      refine ⟨r, hr, ?_⟩
      rw [List.take_of_length_le (by omega)]
      exact hc

/-- What the padding is filled with. -/
def unit (zero one : α) : Kind → α
  | .multiplies => one
  | _ => zero

theorem padded (t : Abi.Target) {s n : Nat} (hs : SizeOk s) (x : List α) (hle : n ≤ x.length) (zero u : α) :
    (List.range (fullOf t s n)).map (fun i => if i < n then (x[i]?).getD zero else u)
      = x.take n ++ List.replicate (fullOf t s n - n) u := by
  have hl := le_fullOf t hs (n := n)
  apply List.ext_getElem
  · simp; omega
  · intro i h1 h2
    simp at h1
    by_cases hi : i < n
    · simp [hi, List.getElem_append, hle]
      rw [List.getElem?_eq_getElem (by omega)]; rfl
    · simp [hi, List.getElem_append]

theorem reduceNative_spec (t : Abi.Target) (kd : Kind) (f : α → α → α) (zero one : α) {s : Nat} (hs : SizeOk s) (n : Nat)
    (x : List α) (h1 : 1 ≤ n) (hx : 2 ≤ n → x.length = fullOf t s n) (hle : n ≤ x.length) :
    ∃ r m, reduceNative t kd f zero one s n x = some r ∧ Combines f (x.take n ++ List.replicate m (unit zero one kd)) r ∧
      (kd = .other → m = 0) := by
  by_cases hk : kd = .other
  · subst hk
    obtain ⟨r, hr, hc⟩ := reduceNative_other t f zero one hs n x h1 hx hle
    exact ⟨r, 0, hr, by simpa using hc, fun _ => rfl⟩
  · by_cases hsmall : n = 1 ∨ n = 2 ∨ n = 3 ∨ fullOf t s n = n
    · -- the same branches as for other operations
      obtain ⟨r, hr, hc⟩ := reduceNative_other t f zero one hs n x h1 hx hle
      refine ⟨r, 0, ?_, by simpa using hc, fun h => absurd h hk⟩
      rw [reduceNative] at hr ⊢
      rcases hsmall with h | h | h | h
      · subst h; exact hr
      · subst h; exact hr
      · subst h
        simp only [show ¬((3 : Nat) = 0) by decide, show ¬((3 : Nat) = 1) by decide, show ¬((3 : Nat) = 2) by decide, if_false,
          if_true] at hr ⊢
        exact hr
      · rw [if_neg (show ¬ (fullOf t s n ≠ n) by omega)] at hr ⊢; exact hr
    · obtain ⟨k, hk2⟩ := fullOf_pow t hs (n := n) (by omega)
      rw [reduceNative, if_neg (by omega), if_neg (by omega), if_neg (by omega), if_pos (by omega), if_neg (by omega)]
      have hl := le_fullOf t hs (n := n)
      cases kd with
      | other => exact absurd rfl hk
      | plus =>
        rw [if_pos rfl, padded t hs x hle]
        obtain ⟨r, hr, hc⟩ := reduceFull_spec f zero s k (fullOf t s n) (x.take n ++ List.replicate (fullOf t s n - n) zero) hk2
          (by simp; omega)
        exact ⟨r, _, hr, hc, fun h => absurd h hk⟩
      | multiplies =>
        rw [if_neg (by decide), if_pos rfl, padded t hs x hle]
        obtain ⟨r, hr, hc⟩ := reduceFull_spec f zero s k (fullOf t s n) (x.take n ++ List.replicate (fullOf t s n - n) one) hk2
          (by simp; omega)
        exact ⟨r, _, hr, hc, fun h => absurd h hk⟩

end StdSimd.Reduce
