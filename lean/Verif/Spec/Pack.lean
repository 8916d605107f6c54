import Verif.Spec.Multi
import Verif.Spec.Split
/-!
# Specification: programs with `split` and `concat`

The programs of `Spec/Multi.lean` on objects of several types, and `split` and `concat` of these objects.  Nothing here refers to the model.
-/
namespace StdSimd.Spec.Pack
open Program Control Multi

variable {ι : Type} {K : ι → Kind} {β : ι → Type}

/-- An object of a type with the elements of type `b`. -/
structure Part (K : ι → Kind) (b : ι) where
  ty : ι
  elem : K ty = K b
  obj : Nat

/-- Programs. -/
inductive Prog (K : ι → Kind) where
  | run (p : Multi.Prog K)
  /-- `d = concat(x, ...)` -/
  | concat (b : ι) (d : Nat) (xs : List (Part K b))
  /-- `tie(d, ...) = split<size of d, ...>(v)` -/
  | split (a : ι) (v : Nat) (ds : List (Part K a))
  /-- `d[0], d[1], ... = split<simd b>(v)` -/
  | splitTo (a : ι) (v : Nat) (b : ι) (h : K b = K a) (ds : List Nat)
  /-- `d[0], d[1], ... = split<simd_mask b>(m)` -/
  | msplit (a : ι) (m : Nat) (b : ι) (ds : List Nat)
  | seq (p q : Prog K)
  | ite (c : Cond K) (p q : Prog K)
  | while (c : Cond K) (p : Prog K)

/-- The same element, of a type with another name. -/
def conv {K K' : Kind} (h : K = K') (x : K.Bits) : K'.Bits := h ▸ x

/-- The elements of object `v` of type `a`. -/
def elems (T : Types K β) (L : ∀ a, Nat → Lane (K a) (β a)) (a : ι) (v : Nat) : List (K a).Bits := (List.range (T.n a)).map fun i => (L a i).v v

/-- The elements of mask `m` of type `a`. -/
def melems (T : Types K β) (L : ∀ a, Nat → Lane (K a) (β a)) (a : ι) (m : Nat) : List Bool := (List.range (T.n a)).map fun i => (L a i).m m

/-- The objects get elements, one after the other. -/
def assign [DecidableEq ι] {a : ι} (L : ∀ a, Nat → Lane (K a) (β a)) (qs : List (Part K a × List (K a).Bits)) : ∀ a, Nat → Lane (K a) (β a) :=
  qs.foldl (fun L q => setObj L q.1.ty q.1.obj (q.2.map (conv q.1.elem.symm))) L

/-- The masks get elements, one after the other. -/
def massign [DecidableEq ι] (L : ∀ a, Nat → Lane (K a) (β a)) (b : ι) (qs : List (Nat × List Bool)) : ∀ a, Nat → Lane (K a) (β a) :=
  qs.foldl (fun L q => setMask L b q.1 q.2) L

/-- What programs do with the elements of the objects of all types. -/
def Prog.exec [DecidableEq ι] (T : Types K β) (fuel : Nat) : Prog K → (∀ a, Nat → Lane (K a) (β a)) → Outcome (∀ a, Nat → Lane (K a) (β a))
  | run p, L => p.exec T fuel L
  | concat b d xs, L => .done (setObj L b d ((xs.map fun p => (elems T L p.ty p.obj).map (conv p.elem)).flatten))
  | split a v ds, L => .done (assign L (ds.zip (Spec.split (ds.map fun p => T.n p.ty) (elems T L a v))))
  | splitTo a v b h ds, L =>
    .done (assign L ((ds.map fun d => (⟨b, h, d⟩ : Part K a)).zip (Spec.split (List.replicate ds.length (T.n b)) (elems T L a v))))
  | msplit a m b ds, L => .done (massign L b (ds.zip (Spec.split (List.replicate ds.length (T.n b)) (melems T L a m))))
  | seq p q, L => (p.exec T fuel L).bind (q.exec T fuel)
  | ite c p q, L =>
    match c.eval T L with
    | none => .undef
    | some b => if b then p.exec T fuel L else q.exec T fuel L
  | .while c p, L => loop (fun L => c.eval T L) (p.exec T fuel) fuel L

/-- The sizes of the parts add up. -/
def Prog.WellFormed (T : Types K β) : Prog K → Prop
  | run p => p.WellFormed T
  | concat b _ xs => xs ≠ [] ∧ (xs.map fun p => T.n p.ty).sum = T.n b
  | split a _ ds => ds ≠ [] ∧ (ds.map fun p => T.n p.ty).sum = T.n a
  | splitTo a _ b _ ds => T.n a = ds.length * T.n b
  | msplit a _ b ds => T.n a = ds.length * T.n b
  | seq p q => p.WellFormed T ∧ q.WellFormed T
  | ite _ p q => p.WellFormed T ∧ q.WellFormed T
  | .while _ p => p.WellFormed T

/-- For which types the functions are called. -/
structure Rules (ι : Type) where
  imp : ι → ι → Prop
  vres : ι → ι → Prop
  res : ι → ι → Prop
  /-- `concat` to the type, of the types -/
  concat : ι → List ι → Prop
  /-- `split<Sizes...>` of the type, to the types -/
  split : ι → List ι → Prop
  /-- `split<simd>` of the type, to the type -/
  splitTo : ι → ι → Prop
  /-- `split<simd_mask>` -/
  msplit : ι → ι → Prop

/-- Every call in the program is for types the rules allow. -/
def Prog.Within (r : Rules ι) : Prog K → Prop
  | run p => p.Convs r.imp r.vres r.res
  | concat b _ xs => r.concat b (xs.map Part.ty)
  | split a _ ds => r.split a (ds.map Part.ty)
  | splitTo a _ b _ _ => r.splitTo a b
  | msplit a _ b _ => r.msplit a b
  | seq p q => p.Within r ∧ q.Within r
  | ite _ p q => p.Within r ∧ q.Within r
  | .while _ p => p.Within r

/-- Is `find_last_set` of masks of type `a` used? -/
def Prog.usesLast [DecidableEq ι] (a : ι) : Prog K → Bool
  | run p => p.usesLast a
  | concat _ _ _ => false
  | split _ _ _ => false
  | splitTo _ _ _ _ _ => false
  | msplit _ _ _ _ => false
  | seq p q => p.usesLast a || q.usesLast a
  | ite c p q => c.usesLast a || p.usesLast a || q.usesLast a
  | .while c p => c.usesLast a || p.usesLast a

end StdSimd.Spec.Pack
