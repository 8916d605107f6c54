/-!
# Memory

A partial map from cell numbers to cell contents.  `none` is an unmapped cell: reading or writing it is
undefined behaviour (the access function returns `none`).
-/
namespace StdSimd

/-- Memory of cells of type `α` (a cell is one array element or one byte, depending on the use). -/
abbrev Mem (α : Type) := Nat → Option α

namespace Mem
variable {α : Type}

/-- Read one cell; UB when unmapped. -/
def read (m : Mem α) (a : Nat) : Option α := m a

/-- Write one cell; UB when unmapped. -/
def write (m : Mem α) (a : Nat) (v : α) : Option (Mem α) :=
  if (m a).isSome then some (fun b => if b = a then some v else m b) else none

end Mem
end StdSimd
