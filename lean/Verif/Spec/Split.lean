/-!
# Specification: `split` and `concat`

`split<Sizes...>(v)` returns consecutive lane ranges; `split<V>(v)` returns ranges of `V::size()` lanes each; `concat` of simds is
`List.flatten` of their lane lists ([simd.casts]).
-/
namespace StdSimd.Spec

/-- Consecutive ranges of the given sizes. -/
def split {α : Type} : List Nat → List α → List (List α)
  | [], _ => []
  | n :: ns, v => v.take n :: split ns (v.drop n)

end StdSimd.Spec
