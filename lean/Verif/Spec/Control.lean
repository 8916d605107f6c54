import Verif.Spec.Program
import Verif.Spec.Lanes
import Verif.Spec.Reduce
/-!
# Specification: programs whose control flow depends on masks

On top of the statements of `Spec/Program.lean`: branches and loops on `all_of(k)`, `any_of(k)`, `popcount(k)`, `k[i]`, `v[i]` ..., and the
operations that move values between elements: subscripts and reductions.  The objects are described by what each element sees (`L i`, for
`i < n`), and operations on several elements by the list of their values.  A loop may run forever: `exec fuel` says what has happened after
at most `fuel` rounds of each loop.  Nothing here refers to the model.
-/
namespace StdSimd.Spec.Control
open Program

variable {K : Kind} {β : Type}

/-- Integer expressions: `i`, `popcount(k)`, `find_first_set(k)`, `find_last_set(k)`. -/
inductive NE (K : Kind) where
  | lit (i : Int)
  | popcount (k : ME K)
  | first (k : ME K)
  | last (k : ME K)

/-- Conditions: `all_of(k)` etc., `k[i]`, a predicate on an integer expression or on `e[i]`, `!c`, `c && d`. -/
inductive CE (K : Kind) where
  | allOf (k : ME K)
  | anyOf (k : ME K)
  | noneOf (k : ME K)
  | someOf (k : ME K)
  | bit (k : ME K) (i : NE K)
  | num (i : NE K) (p : Int → Bool)
  | elem (e : VE K) (i : NE K) (p : K.Bits → Bool)
  | not (c : CE K)
  | and (c d : CE K)

/-- Operations of reductions: `std::plus<>`, `std::multiplies<>`, others. -/
inductive ROp (K : Kind) where
  | plus
  | multiplies
  | other (f : K.Bits → K.Bits → K.Bits)

/-- Programs. -/
inductive Ctl (K : Kind) where
  | base (s : Stmt K)
  | seq (p q : Ctl K)
  /-- `if (c) p else q` -/
  | ite (c : CE K) (p q : Ctl K)
  /-- `while (c) p` -/
  | while (c : CE K) (p : Ctl K)
  /-- `d = simd(e[i])` -/
  | pick (d : Nat) (e : VE K) (i : NE K)
  /-- `d[i] = e[j]` -/
  | put (d : Nat) (i : NE K) (e : VE K) (j : NE K)
  /-- `d = simd(reduce(e, op))` -/
  | reduce (d : Nat) (o : ROp K) (e : VE K)
  /-- `d = simd(reduce(where(k, v), ident, op))` -/
  | whereReduce (d : Nat) (o : ROp K) (k : ME K) (v : Nat) (ident : K.Bits)

/-- The values of a mask expression. -/
def bools (E : Elem K) (n : Nat) (L : Nat → Lane K β) (k : ME K) : Option (List Bool) := (List.range n).mapM fun i => k.eval E i (L i)

/-- The elements of an expression. -/
def vals (E : Elem K) (n : Nat) (L : Nat → Lane K β) (e : VE K) : Option (List K.Bits) := (List.range n).mapM fun i => e.eval E i (L i)

/-- `l[i]`, undefined if there is no such element. -/
def at? {α : Type} (l : List α) (i : Int) : Option α := if 0 ≤ i then l[i.toNat]? else none

/-- `find_first_set` and `find_last_set` are undefined for masks without a set element. -/
def NE.eval (E : Elem K) (n : Nat) (L : Nat → Lane K β) : NE K → Option Int
  | lit i => some i
  | popcount k => (bools E n L k).map fun l => (Spec.popcount l : Int)
  | first k => (bools E n L k).bind fun l => (Spec.setLanes l).head?.map fun (i : Nat) => (i : Int)
  | last k => (bools E n L k).bind fun l => (Spec.setLanes l).getLast?.map fun (i : Nat) => (i : Int)

def CE.eval (E : Elem K) (n : Nat) (L : Nat → Lane K β) : CE K → Option Bool
  | allOf k => (bools E n L k).map fun l => l.all id
  | anyOf k => (bools E n L k).map fun l => l.any id
  | noneOf k => (bools E n L k).map fun l => !l.any id
  | someOf k => (bools E n L k).map fun l => l.any id && !l.all id
  | bit k i => (bools E n L k).bind fun l => (i.eval E n L).bind fun i => at? l i
  | num i p => (i.eval E n L).map p
  | elem e i p => (vals E n L e).bind fun l => (i.eval E n L).bind fun i => (at? l i).map p
  | not c => (c.eval E n L).map (!·)
  | and c d => (c.eval E n L).bind fun b => if b then d.eval E n L else some false

/-- What has become of a program. -/
inductive Outcome (σ : Type) where
  | done (s : σ)
  /-- undefined behaviour -/
  | undef
  /-- still running -/
  | running

def Outcome.bind {σ τ : Type} (o : Outcome σ) (f : σ → Outcome τ) : Outcome τ :=
  match o with
  | done s => f s
  | undef => undef
  | running => running

def Outcome.ofOption {σ : Type} : Option σ → Outcome σ
  | some s => done s
  | none => undef

/-- `while (c) body`, at most `fuel` rounds. -/
def loop {σ : Type} (c : σ → Option Bool) (body : σ → Outcome σ) : Nat → σ → Outcome σ
  | 0, _ => .running
  | fuel + 1, s =>
    match c s with
    | none => .undef
    | some false => .done s
    | some true => (body s).bind (loop c body fuel)

/-- What the reduction operations `std::plus<>` and `std::multiplies<>` do with elements. -/
structure Arith (K : Kind) where
  add : K.Bits → K.Bits → K.Bits
  mul : K.Bits → K.Bits → K.Bits
  one : K.Bits

def ROp.fn (A : Arith K) : ROp K → K.Bits → K.Bits → K.Bits
  | plus => A.add
  | multiplies => A.mul
  | other f => f

/-- All elements of object `d` become `a`. -/
def setAll (L : Nat → Lane K β) (d : Nat) (a : K.Bits) : Nat → Lane K β := fun i => { L i with v := upd (L i).v d a }

/-- Programs on `n` elements. -/
def Ctl.exec (E : Elem K) (A : Arith K) (ld : β → K.Bits) (st : K.Bits → β) (n fuel : Nat) : Ctl K → (Nat → Lane K β) → Outcome (Nat → Lane K β)
  | base s, L => .ofOption (((List.range n).mapM fun i => s.exec E ld st n i (L i)).map fun l => fun i => l.getD i (L i))
  | seq p q, L => (p.exec E A ld st n fuel L).bind (q.exec E A ld st n fuel)
  | ite c p q, L =>
    match c.eval E n L with
    | none => .undef
    | some b => if b then p.exec E A ld st n fuel L else q.exec E A ld st n fuel L
  | .while c p, L => loop (c.eval E n) (p.exec E A ld st n fuel) fuel L
  | pick d e i, L => .ofOption ((vals E n L e).bind fun l => (i.eval E n L).bind fun i => (at? l i).map fun a => setAll L d a)
  | put d i e j, L => .ofOption ((vals E n L e).bind fun l => (j.eval E n L).bind fun j => (at? l j).bind fun a => (i.eval E n L).bind fun i =>
      if 0 ≤ i ∧ i < n then some (fun x => if (x : Int) = i then { L x with v := upd (L x).v d a } else L x) else none)
  | reduce d o e, L => .ofOption ((vals E n L e).bind fun l => (Spec.foldOf (o.fn A) l).map fun a => setAll L d a)
  | whereReduce d o k v ident, L => .ofOption ((bools E n L k).map fun s =>
      setAll L d ((Spec.selected s ((List.range n).map fun i => (L i).v v)).foldl (o.fn A) ident))

/-- What `reduce` requires of an operation: the order in which it combines elements is not specified, and 0 and 1 are taken to be neutral
elements of `std::plus<>` and `std::multiplies<>`. -/
def ROp.Ok (A : Arith K) (o : ROp K) : Prop :=
  (∀ a b c, o.fn A (o.fn A a b) c = o.fn A a (o.fn A b c)) ∧ (∀ a b, o.fn A a b = o.fn A b a) ∧
    match o with
    | plus => ∀ a, A.add a 0#K.width = a
    | multiplies => ∀ a, A.mul a A.one = a
    | other _ => True

/-- The operations of reductions are as required, the identity element is one, and the other statements compile (`Stmt.WellFormed`). -/
def Ctl.WellFormed (A : Arith K) : Ctl K → Prop
  | base s => s.WellFormed
  | seq p q => p.WellFormed A ∧ q.WellFormed A
  | ite _ p q => p.WellFormed A ∧ q.WellFormed A
  | .while _ p => p.WellFormed A
  | pick _ _ _ => True
  | put _ _ _ _ => True
  | reduce _ o _ => o.Ok A
  | whereReduce _ o _ _ ident => o.Ok A ∧ ∀ a, o.fn A a ident = a

/-- The program has `find_last_set` somewhere. -/
def NE.usesLast : NE K → Bool
  | last _ => true
  | _ => false
@[inherit_doc NE.usesLast] def CE.usesLast : CE K → Bool
  | bit _ i => i.usesLast
  | num i _ => i.usesLast
  | elem _ i _ => i.usesLast
  | not c => c.usesLast
  | and c d => c.usesLast || d.usesLast
  | _ => false
@[inherit_doc NE.usesLast] def Ctl.usesLast : Ctl K → Bool
  | seq p q => p.usesLast || q.usesLast
  | ite c p q => c.usesLast || p.usesLast || q.usesLast
  | .while c p => c.usesLast || p.usesLast
  | pick _ _ i => i.usesLast
  | put _ i _ j => i.usesLast || j.usesLast
  | _ => false

end StdSimd.Spec.Control
