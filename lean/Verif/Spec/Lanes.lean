/-!
# Specification: lane sequences

The observable content of a `simd<T, Abi>` object is the list of its `size()` element values; the
observable content of a `simd_mask<T, Abi>` is a list of `size()` Booleans.  The definitions below are
the C++ parallelism-TS descriptions of the operations, on plain lists.  Nothing here refers to the model.
-/
namespace StdSimd.Spec

/-- [simd.mask.reductions] "true if all boolean elements in k are true". -/
def allOf (k : List Bool) : Prop := ∀ b ∈ k, b = true
/-- "true if at least one boolean element in k is true". -/
def anyOf (k : List Bool) : Prop := ∃ b ∈ k, b = true
/-- "true if none of the boolean elements in k is true". -/
def noneOf (k : List Bool) : Prop := ∀ b ∈ k, b = false
/-- "true if at least one of the boolean elements is true and at least one is false". -/
def someOf (k : List Bool) : Prop := true ∈ k ∧ false ∈ k
/-- "the number of boolean elements in k that are true". -/
def popcount (k : List Bool) : Nat := k.count true
/-- "the lowest element index i where k[i] is true". -/
def IsFirstSet (k : List Bool) (i : Nat) : Prop := k[i]? = some true ∧ ∀ j < i, k[j]? = some false
/-- "the greatest element index i where k[i] is true". -/
def IsLastSet (k : List Bool) (i : Nat) : Prop := k[i]? = some true ∧ ∀ j, i < j → k[j]? ≠ some true

/-- Lane-wise select: `where(k, v) = x`. -/
def select {α : Type} (k : List Bool) (x v : List α) : List α :=
  List.zipWith (fun (b : Bool) (p : α × α) => if b then p.1 else p.2) k (x.zip v)

/-- The elements of `v` whose mask lane is set, in order. -/
def selected {α : Type} (k : List Bool) (v : List α) : List α :=
  ((k.zip v).filter (·.1)).map (·.2)

/-- The index of every set lane in increasing order. -/
def setLanes (k : List Bool) : List Nat :=
  (List.range k.length).filter (fun i => k[i]? = some true)

end StdSimd.Spec
