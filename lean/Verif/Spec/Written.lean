/-!
# Specification: a mask whose lanes are assigned one at a time

A history of assignments `m[i] = b` in program order.
-/
namespace StdSimd.Spec

/-- Every one of the `n` lanes is assigned at least once, and nothing else is. -/
def AllWritten (n : Nat) (ws : List (Nat × Bool)) : Prop := (∀ w ∈ ws, w.1 < n) ∧ ∀ i < n, ∃ b, (i, b) ∈ ws

/-- The value assigned to lane `i` last (`false` if there is none). -/
def lastWritten : List (Nat × Bool) → Nat → Bool
  | [], _ => false
  | (j, b) :: ws, i => if ws.any (fun w => w.1 == i) then lastWritten ws i else if j = i then b else false

/-- The lanes after the assignments. -/
def written (n : Nat) (ws : List (Nat × Bool)) : List Bool := (List.range n).map (lastWritten ws)

end StdSimd.Spec
