/-!
# Specification: how `n` elements are distributed over registers of `w` elements
-/
namespace StdSimd.Spec

/-- Full registers first, then one register holding exactly the remainder (if any). -/
def layout (w n : Nat) : List Nat :=
  List.replicate (n / w) w ++ (if n % w = 0 then [] else [n % w])

end StdSimd.Spec
