import Verif.Spec.Compare
/-!
# Specification: programs on data-parallel objects

A small imperative language: objects `v 0, v 1, ...` of one `simd` type, `m 0, m 1, ...` of its mask type, and arrays, combined by the
operators of [simd.class] and [simd.mask.class] of the Parallelism TS.  The specification says what such a program does with *one
element*: `Stmt.exec n i` is the program as a C++ programmer would write it for scalars, for element number `i` of `n`.  It knows
nothing about the other elements.  Undefined behaviour is `none`.  Nothing here refers to the model.
-/
namespace StdSimd.Spec.Program

/-- Binary operators. -/
inductive BOp where
  | add | sub | mul | div | mod | and | or | xor | shl | shr
  deriving DecidableEq

/-- Prefix operators `-x` and `~x`, and the functions behind `++x` and `--x`. -/
inductive UOp where
  | neg | compl | inc | dec
  deriving DecidableEq

/-- Binary operators of masks. -/
inductive MOp where
  | and | or | xor
  deriving DecidableEq

def MOp.eval : MOp → Bool → Bool → Bool
  | and, a, b => a && b
  | or, a, b => a || b
  | xor, a, b => a != b

/-- Functions of one argument: `abs`, `fabs`, `sqrt`, the functions that round to an integer, and the other functions of [simd.math] with one argument
(`lib k`: `sin`, `exp`, `log`, ..., numbered). -/
inductive Fn1 where
  | abs | fabs | sqrt | trunc | floor | ceil | rint | nearbyint | round
  | lib (k : Nat)
  deriving DecidableEq

/-- Functions of two arguments: `min`, `max` (of [simd.alg]), `copysign`, and the others of [simd.math] (`atan2`, `pow`, `fmin`, ...). -/
inductive Fn2 where
  | min | max | copysign
  | lib (k : Nat)
  deriving DecidableEq

/-- Functions of three arguments. -/
inductive Fn3 where
  | fma
  | lib (k : Nat)
  deriving DecidableEq

/-- Classification functions. -/
inductive Test1 where
  | isfinite | isinf | isnan | isnormal | signbit
  deriving DecidableEq

/-- Quiet comparisons. -/
inductive Test2 where
  | isless | islessequal | isgreater | isgreaterequal | islessgreater | isunordered
  deriving DecidableEq

/-- What the functions do with elements of a type; `none`: the function does not exist for the type, or its behaviour is undefined or not
specified. -/
structure Funs (K : Kind) where
  f1 : Fn1 → K.Bits → Option K.Bits := fun _ _ => none
  f2 : Fn2 → K.Bits → K.Bits → Option K.Bits := fun _ _ _ => none
  f3 : Fn3 → K.Bits → K.Bits → K.Bits → Option K.Bits := fun _ _ _ _ => none
  t1 : Test1 → Option (K.Bits → Bool) := fun _ => none
  t2 : Test2 → Option (K.Bits → K.Bits → Bool) := fun _ => none

/-- What the operators do with elements of a type (of kind `K`); `shift left a s` is `a << s` or `a >> s` for `s` less than `width`, the number of
bits of the promoted type. -/
structure Elem (K : Kind) where
  un : UOp → K.Bits → Option K.Bits
  bin : BOp → K.Bits → K.Bits → Option K.Bits
  shift : Bool → K.Bits → Nat → Option K.Bits
  width : Nat
  fn : Funs K := {}

/-- Expressions of `simd` type: an object, `simd(a)`, `simd(generator)`, `-e` and `~e`, `+e`, `e op f`, `e << s` and `e >> s` with an `int`, calls
`o(e)`, `o(e, f)`, `o(e, f, h)`, `clamp(e, lo, hi)`. -/
inductive VE (K : Kind) where
  | var (v : Nat)
  | const (a : K.Bits)
  | gen (f : Nat → K.Bits)
  | neg (e : VE K)
  | compl (e : VE K)
  | pos (e : VE K)
  | bin (o : BOp) (e f : VE K)
  | shift (left : Bool) (e : VE K) (s : Int)
  | call1 (o : Fn1) (e : VE K)
  | call2 (o : Fn2) (e f : VE K)
  | call3 (o : Fn3) (e f h : VE K)
  | clamp (e lo hi : VE K)

/-- Expressions of mask type: an object, `simd_mask(b)`, a comparison, `!e` of a value, `!k` of a mask, `k & l` and `k && l` etc., `k == l`,
`k != l`, `isnan(e)` etc., `isless(e, f)` etc. -/
inductive ME (K : Kind) where
  | var (m : Nat)
  | const (b : Bool)
  | cmp (r : Kind.Rel) (e f : VE K)
  | isZero (e : VE K)
  | not (k : ME K)
  | bin (o : MOp) (k l : ME K)
  | eq (k l : ME K)
  | ne (k l : ME K)
  | test1 (o : Test1) (e : VE K)
  | test2 (o : Test2) (e f : VE K)

/-- Statements. -/
inductive Stmt (K : Kind) where
  /-- `v = e` -/
  | assign (v : Nat) (e : VE K)
  /-- `v op= e` -/
  | compound (o : BOp) (v : Nat) (e : VE K)
  /-- `v <<= s`, `v >>= s` -/
  | compoundShift (left : Bool) (v : Nat) (s : Int)
  /-- `++v`, `--v` -/
  | step (inc : Bool) (v : Nat)
  /-- `d = ++v`, `d = --v` -/
  | preStep (inc : Bool) (d v : Nat)
  /-- `d = v++`, `d = v--`, where `d` may be `v` -/
  | postStep (inc : Bool) (d v : Nat)
  /-- `m = k` -/
  | massign (m : Nat) (k : ME K)
  /-- `m &= k` etc. -/
  | mcompound (o : MOp) (m : Nat) (k : ME K)
  /-- `v[i] = a` -/
  | elem (v i : Nat) (a : K.Bits)
  /-- `m[i] = b` -/
  | melem (m i : Nat) (b : Bool)
  /-- `where(k, v) = e` -/
  | whereAssign (k : ME K) (v : Nat) (e : VE K)
  /-- `where(k, v) op= e` -/
  | whereCompound (k : ME K) (o : BOp) (v : Nat) (e : VE K)
  /-- `++where(k, v)`, `--where(k, v)` -/
  | whereStep (k : ME K) (inc : Bool) (v : Nat)
  /-- `where(k, m) = l` -/
  | whereMask (k : ME K) (m : Nat) (l : ME K)
  /-- `v.copy_from(array)` -/
  | load (v arr : Nat)
  /-- `v.copy_to(array)` -/
  | store (v arr : Nat)
  /-- `where(k, v).copy_from(array)` -/
  | whereLoad (k : ME K) (v arr : Nat)
  /-- `where(k, v).copy_to(array)` -/
  | whereStore (k : ME K) (v arr : Nat)
  | skip
  | seq (s t : Stmt K)
  /-- `for (int i = 0; i < count; ++i) s` -/
  | loop (count : Nat) (s : Stmt K)

/-- The objects as one element sees them. -/
structure Lane (K : Kind) (β : Type) where
  v : Nat → K.Bits
  m : Nat → Bool
  arr : Nat → β

/-- `f x` at one place. -/
def upd {α : Type} (f : Nat → α) (i : Nat) (a : α) : Nat → α := fun j => if j = i then a else f j

/-- `f` again and again. -/
def iter {σ : Type} (f : σ → Option σ) : Nat → σ → Option σ
  | 0, s => some s
  | k + 1, s => (f s).bind (iter f k)

variable {K : Kind} {β : Type}

/-- The element of an expression. -/
def VE.eval (E : Elem K) (i : Nat) (L : Lane K β) : VE K → Option K.Bits
  | var v => some (L.v v)
  | const a => some a
  | gen f => some (f i)
  | neg e => (e.eval E i L).bind (E.un .neg)
  | compl e => (e.eval E i L).bind (E.un .compl)
  | pos e => e.eval E i L
  | bin o e f => (e.eval E i L).bind fun a => (f.eval E i L).bind fun b => E.bin o a b
  | shift left e s => (e.eval E i L).bind fun a => if 0 ≤ s ∧ s < E.width then E.shift left a s.toNat else none
  | call1 o e => (e.eval E i L).bind fun a => E.fn.f1 o a
  | call2 o e f => (e.eval E i L).bind fun a => (f.eval E i L).bind fun b => E.fn.f2 o a b
  | call3 o e f h => (e.eval E i L).bind fun a => (f.eval E i L).bind fun b => (h.eval E i L).bind fun c => E.fn.f3 o a b c
  | clamp e lo hi => (e.eval E i L).bind fun a => (lo.eval E i L).bind fun b => (hi.eval E i L).bind fun c =>
    (E.fn.f2 .max b a).bind fun d => E.fn.f2 .min c d

/-- The truth value of a mask expression. -/
def ME.eval (E : Elem K) (i : Nat) (L : Lane K β) : ME K → Option Bool
  | var m => some (L.m m)
  | const b => some b
  | cmp r e f => (e.eval E i L).bind fun a => (f.eval E i L).bind fun b => some (K.holds r a b)
  | isZero e => (e.eval E i L).bind fun a => some (K.holds .eq a 0#K.width)
  | not k => (k.eval E i L).bind fun a => some !a
  | bin o k l => (k.eval E i L).bind fun a => (l.eval E i L).bind fun b => some (o.eval a b)
  | eq k l => (k.eval E i L).bind fun a => (l.eval E i L).bind fun b => some (a == b)
  | ne k l => (k.eval E i L).bind fun a => (l.eval E i L).bind fun b => some (a != b)
  | test1 o e => (E.fn.t1 o).bind fun p => (e.eval E i L).bind fun a => some (p a)
  | test2 o e f => (E.fn.t2 o).bind fun p => (e.eval E i L).bind fun a => (f.eval E i L).bind fun b => some (p a b)

def stepOp (inc : Bool) : UOp := if inc then .inc else .dec

/-- A program for element `i` of `n`; `ld` and `st` are the conversions from and to the element type of the arrays.  (`where(k, v) op= e` has
undefined behaviour if `op` has for the operands, also if `k` is false: a selected element gets the result, but the operator is
evaluated for all elements, see C15.) -/
def Stmt.exec (E : Elem K) (ld : β → K.Bits) (st : K.Bits → β) (n i : Nat) : Stmt K → Lane K β → Option (Lane K β)
  | assign v e, L => (e.eval E i L).bind fun a => some { L with v := upd L.v v a }
  | compound o v e, L => (e.eval E i L).bind fun b => (E.bin o (L.v v) b).bind fun a => some { L with v := upd L.v v a }
  | compoundShift left v s, L =>
    if 0 ≤ s ∧ s < E.width then (E.shift left (L.v v) s.toNat).bind fun a => some { L with v := upd L.v v a } else none
  | step inc v, L => (E.un (stepOp inc) (L.v v)).bind fun a => some { L with v := upd L.v v a }
  | preStep inc d v, L => (E.un (stepOp inc) (L.v v)).bind fun a => some { L with v := upd (upd L.v v a) d a }
  | postStep inc d v, L => (E.un (stepOp inc) (L.v v)).bind fun a => some { L with v := upd (upd L.v v a) d (L.v v) }
  | massign m k, L => (k.eval E i L).bind fun b => some { L with m := upd L.m m b }
  | mcompound o m k, L => (k.eval E i L).bind fun b => some { L with m := upd L.m m (o.eval (L.m m) b) }
  | elem v j a, L => if j < n then some (if i = j then { L with v := upd L.v v a } else L) else none
  | melem m j b, L => if j < n then some (if i = j then { L with m := upd L.m m b } else L) else none
  | whereAssign k v e, L => (k.eval E i L).bind fun c => (e.eval E i L).bind fun a =>
    some (if c then { L with v := upd L.v v a } else L)
  | whereCompound k o v e, L => (k.eval E i L).bind fun c => (e.eval E i L).bind fun b => (E.bin o (L.v v) b).bind fun a =>
    some (if c then { L with v := upd L.v v a } else L)
  | whereStep k inc v, L => (k.eval E i L).bind fun c => (E.un (stepOp inc) (L.v v)).bind fun a =>
    some (if c then { L with v := upd L.v v a } else L)
  | whereMask k m l, L => (k.eval E i L).bind fun c => (l.eval E i L).bind fun b =>
    some (if c then { L with m := upd L.m m b } else L)
  | load v j, L => some { L with v := upd L.v v (ld (L.arr j)) }
  | store v j, L => some { L with arr := upd L.arr j (st (L.v v)) }
  | whereLoad k v j, L => (k.eval E i L).bind fun c => some (if c then { L with v := upd L.v v (ld (L.arr j)) } else L)
  | whereStore k v j, L => (k.eval E i L).bind fun c => some (if c then { L with arr := upd L.arr j (st (L.v v)) } else L)
  | skip, L => some L
  | seq s t, L => (s.exec E ld st n i L).bind (t.exec E ld st n i)
  | loop c s, L => iter (s.exec E ld st n i) c L

/-- `where(k, v) <<= e` and `where(k, v) >>= e` do not compile (C62). -/
def Stmt.WellFormed : Stmt K → Prop
  | whereCompound _ o _ _ => o ≠ .shl ∧ o ≠ .shr
  | seq s t => s.WellFormed ∧ t.WellFormed
  | loop _ s => s.WellFormed
  | _ => True

/-! ## element types -/

/-- The result of an arithmetic operator with the mathematical value `v`, for operands of the integer type with `w` bits: for unsigned types modulo
`2 ^ w`; for signed types computed in the promoted type (at least 32 bits), whose overflow is undefined, and converted back ([conv.prom], [expr.pre],
[conv.integral]). -/
def arith (signed : Bool) (w : Nat) (v : Int) : Option (BitVec w) :=
  if signed = true ∧ ¬ InRange true (max w 32) v then none else some (BitVec.ofInt w v)

/-- The operators of integer types with `w` bits.  Shift counts must be less than `lim`.  (The quotient `-2^(w-1) / -1` is left undefined for types
that are promoted, too.) -/
def intElem (signed : Bool) (w lim : Nat) : Elem (.int signed w) where
  un
    | .neg => fun a => arith signed w (-Spec.value signed a)
    | .compl => fun a => some (~~~a)
    | .inc => fun a => arith signed w (Spec.value signed a + 1)
    | .dec => fun a => arith signed w (Spec.value signed a - 1)
  bin
    | .add => fun a b => arith signed w (Spec.value signed a + Spec.value signed b)
    | .sub => fun a b => arith signed w (Spec.value signed a - Spec.value signed b)
    | .mul => fun a b => arith signed w (Spec.value signed a * Spec.value signed b)
    | .div => fun a b => Spec.div signed a b
    | .mod => fun a b => Spec.mod signed a b
    | .and => fun a b => some (a &&& b)
    | .or => fun a b => some (a ||| b)
    | .xor => fun a b => some (a ^^^ b)
    | .shl => fun a b => if 0 ≤ Spec.value signed b ∧ Spec.value signed b < lim then some (Spec.shl a (Spec.value signed b).toNat) else none
    | .shr => fun a b => if 0 ≤ Spec.value signed b ∧ Spec.value signed b < lim then some (Spec.shr signed a (Spec.value signed b).toNat) else none
  shift left a s := if s < lim then some (if left then Spec.shl a s else Spec.shr signed a s) else none
  width := max w 32

/-- Programs without some of the binary operators. -/
def Elem.only {K : Kind} (E : Elem K) (p : BOp → Bool) : Elem K := { E with bin := fun o a b => if p o then E.bin o a b else none }

/-- An element type whose operators never have undefined behaviour (floating-point numbers). -/
def totalElem {K : Kind} (u : UOp → K.Bits → K.Bits) (b : BOp → K.Bits → K.Bits → K.Bits) : Elem K where
  un o a := some (u o a)
  bin o x y := some (b o x y)
  shift _ _ _ := none
  width := 0

end StdSimd.Spec.Program
