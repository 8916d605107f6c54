/-!
# Specification of reductions

A reduction over lanes combines them in some order and grouping.  `Tree` makes the grouping explicit: `leaves` are the
operands from left to right, `eval` is the combined value.  A reduction "uses every lane exactly once" if the leaves
are a permutation of the lanes.  For an associative and commutative operation this is the left fold `foldOf`.
-/
namespace StdSimd.Spec

/-- The order and grouping in which a binary operation is applied. -/
inductive Tree (α : Type) where
  | leaf (a : α)
  | node (l r : Tree α)

namespace Tree
variable {α β : Type}

/-- The operands, from left to right. -/
def leaves : Tree α → List α
  | leaf a => [a]
  | node l r => l.leaves ++ r.leaves

/-- The value of the expression. -/
def eval (f : α → α → α) : Tree α → α
  | leaf a => a
  | node l r => f (l.eval f) (r.eval f)

/-- Replace every leaf. -/
def map (g : α → β) : Tree α → Tree β
  | leaf a => leaf (g a)
  | node l r => node (l.map g) (r.map g)

end Tree

/-- `r` is obtained by combining the operands `l`, each exactly once, in some order and grouping. -/
def Combines {α : Type} (f : α → α → α) (l : List α) (r : α) : Prop := ∃ t : Tree α, t.leaves.Perm l ∧ t.eval f = r

/-- `l[0] op l[1] op ... op l[n-1]`, from left to right; `none` without operands. -/
def foldOf {α : Type} (f : α → α → α) : List α → Option α
  | [] => none
  | a :: l => some (l.foldl f a)

/-- `r` is an extremum of `l`: one of its elements, and `le r x` for every element `x`.  With `le` being `≤` this is the
minimum, with `≥` the maximum. -/
def IsExtremum {α : Type} (le : α → α → Prop) (l : List α) (r : α) : Prop := r ∈ l ∧ ∀ x ∈ l, le r x

/-- `f` returns one of its operands, the lesser one in the sense of `le`. -/
def Picks {α : Type} (le : α → α → Prop) (f : α → α → α) : Prop :=
  ∀ a b, (f a b = a ∨ f a b = b) ∧ le (f a b) a ∧ le (f a b) b

end StdSimd.Spec
