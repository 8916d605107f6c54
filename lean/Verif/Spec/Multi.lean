import Verif.Spec.Control
import Verif.Spec.Resize
/-!
# Specification: programs on objects of several element types

The types of a program are numbered by `ι`; type `a` has `n a` elements of kind `K a`.  A program consists of the programs of `Spec/Control.lean`, each on
the objects of one type, of conversions between types, and of branches and loops on conditions about objects of any type.  Nothing here refers
to the model.
-/
namespace StdSimd.Spec.Multi
open Program Control

variable {ι : Type} {K : ι → Kind} {β : ι → Type}

/-- Conditions: on objects of one type, `!c`, `c && d`. -/
inductive Cond (K : ι → Kind) where
  | on (a : ι) (c : CE (K a))
  | not (c : Cond K)
  | and (c d : Cond K)

/-- Programs. -/
inductive Prog (K : ι → Kind) where
  /-- a program on the objects of type `a` -/
  | on (a : ι) (p : Ctl (K a))
  /-- `d = static_simd_cast<simd b>(e)`, or `d = e` with an implicit conversion -/
  | cast (implicit : Bool) (a b : ι) (d : Nat) (e : VE (K a))
  /-- the same with masks -/
  | mcast (implicit : Bool) (a b : ι) (d : Nat) (k : ME (K a))
  /-- `d = resizing_simd_cast<simd_mask b>(k)` -/
  | mresize (a b : ι) (d : Nat) (k : ME (K a))
  /-- `d = resizing_simd_cast<simd b>(e)`, for types with the same element type -/
  | resize (a b : ι) (h : K a = K b) (d : Nat) (e : VE (K a))
  | seq (p q : Prog K)
  | ite (c : Cond K) (p q : Prog K)
  | while (c : Cond K) (p : Prog K)

/-- The element types. -/
structure Types (K : ι → Kind) (β : ι → Type) where
  E : ∀ a, Elem (K a)
  A : ∀ a, Arith (K a)
  ld : ∀ a, β a → (K a).Bits
  st : ∀ a, (K a).Bits → β a
  /-- the number of elements -/
  n : ι → Nat
  /-- `static_cast`; undefined for some values of floating-point types -/
  cv : ∀ a b, (K a).Bits → Option (K b).Bits

/-- `f` with another value at `a`. -/
def setAt [DecidableEq ι] {γ : ι → Type} (f : ∀ a, γ a) (a : ι) (x : γ a) : ∀ a, γ a := fun b => if h : b = a then h ▸ x else f b

def Cond.eval (T : Types K β) (L : ∀ a, Nat → Lane (K a) (β a)) : Cond K → Option Bool
  | on a c => c.eval (T.E a) (T.n a) (L a)
  | not c => (c.eval T L).map (!·)
  | and c d => (c.eval T L).bind fun b => if b then d.eval T L else some false

def Outcome.map {σ τ : Type} (f : σ → τ) (o : Outcome σ) : Outcome τ := o.bind fun s => .done (f s)

/-- Object `d` of type `b` gets the elements `l`. -/
def setObj [DecidableEq ι] (L : ∀ a, Nat → Lane (K a) (β a)) (b : ι) (d : Nat) (l : List (K b).Bits) : ∀ a, Nat → Lane (K a) (β a) :=
  setAt L b fun i => { L b i with v := upd (L b i).v d (l.getD i ((L b i).v d)) }

/-- Mask `d` of type `b` gets the elements `l`. -/
def setMask [DecidableEq ι] (L : ∀ a, Nat → Lane (K a) (β a)) (b : ι) (d : Nat) (l : List Bool) : ∀ a, Nat → Lane (K a) (β a) :=
  setAt L b fun i => { L b i with m := upd (L b i).m d (l.getD i ((L b i).m d)) }

/-- What programs do with the elements of the objects of all types: `L a i` is what element `i` of the objects of type `a` sees. -/
def Prog.exec [DecidableEq ι] (T : Types K β) (fuel : Nat) : Prog K → (∀ a, Nat → Lane (K a) (β a)) → Outcome (∀ a, Nat → Lane (K a) (β a))
  | on a p, L => Outcome.map (setAt L a) (p.exec (T.E a) (T.A a) (T.ld a) (T.st a) (T.n a) fuel (L a))
  | cast _ a b d e, L => .ofOption ((vals (T.E a) (T.n a) (L a) e).bind fun l => (l.mapM (T.cv a b)).map fun r => setObj L b d r)
  | mcast _ a b d k, L => .ofOption ((bools (T.E a) (T.n a) (L a) k).map fun l => setMask L b d l)
  | mresize a b d k, L => .ofOption ((bools (T.E a) (T.n a) (L a) k).map fun l => setMask L b d (Spec.resize false (T.n b) l))
  | resize a b h d e, L => .ofOption ((vals (T.E a) (T.n a) (L a) e).map fun l =>
      setObj L b d (Spec.resize 0#(K b).width (T.n b) (l.map fun (x : (K a).Bits) => (h ▸ x : (K b).Bits))))
  | seq p q, L => (p.exec T fuel L).bind (q.exec T fuel)
  | ite c p q, L =>
    match c.eval T L with
    | none => .undef
    | some b => if b then p.exec T fuel L else q.exec T fuel L
  | .while c p, L => loop (fun L => c.eval T L) (p.exec T fuel) fuel L

/-- `static_simd_cast` and the implicit conversions are for types of the same number of elements. -/
def Prog.WellFormed (T : Types K β) : Prog K → Prop
  | on a p => p.WellFormed (T.A a)
  | cast _ a b _ _ => T.n a = T.n b
  | mcast _ a b _ _ => T.n a = T.n b
  | mresize _ _ _ _ => True
  | resize _ _ _ _ _ => True
  | seq p q => p.WellFormed T ∧ q.WellFormed T
  | ite _ p q => p.WellFormed T ∧ q.WellFormed T
  | .while _ p => p.WellFormed T

/-- Every implicit conversion of the program is between types `a`, `b` with `imp a b`, every `resizing_simd_cast` of values (masks) between types with
`vres a b` (`res a b`). -/
def Prog.Convs (imp vres res : ι → ι → Prop) : Prog K → Prop
  | on _ _ => True
  | cast i a b _ _ => i = true → imp a b
  | mcast i a b _ _ => i = true → imp a b
  | mresize a b _ _ => res a b
  | resize a b _ _ _ => vres a b
  | seq p q => p.Convs imp vres res ∧ q.Convs imp vres res
  | ite _ p q => p.Convs imp vres res ∧ q.Convs imp vres res
  | .while _ p => p.Convs imp vres res

/-- Is `find_last_set` of masks of type `a` used? -/
def Cond.usesLast [DecidableEq ι] (a : ι) : Cond K → Bool
  | on b c => decide (b = a) && c.usesLast
  | not c => c.usesLast a
  | and c d => c.usesLast a || d.usesLast a

@[inherit_doc Cond.usesLast] def Prog.usesLast [DecidableEq ι] (a : ι) : Prog K → Bool
  | on b p => decide (b = a) && p.usesLast
  | cast _ _ _ _ _ => false
  | mcast _ _ _ _ _ => false
  | mresize _ _ _ _ => false
  | resize _ _ _ _ _ => false
  | seq p q => p.usesLast a || q.usesLast a
  | ite c p q => c.usesLast a || p.usesLast a || q.usesLast a
  | .while c p => c.usesLast a || p.usesLast a

end StdSimd.Spec.Multi
