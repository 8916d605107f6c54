import Verif.Model.Control
import Verif.Model.Convert
import Verif.Model.Resize
import Verif.Spec.Multi
/-!
# Model: programs on objects of several element types

The programs of `Model/Control.lean` on the objects of each type, and the conversions between them: `static_simd_cast` (experimental/bits/simd.h:2881-2909),
the implicit conversions (4929-4939, 4346-4354), `resizing_simd_cast` (2957-2995).
-/
namespace StdSimd.SimdClass
open Spec Spec.Program Spec.Control Spec.Multi Native

variable {ι : Type} {K : ι → Kind} {β : ι → Type}

/-- The conversions between implementation classes. -/
structure Casts (I : ∀ a, Impl (K a) (β a)) where
  val : Bool → ∀ a b, (I a).V → Option (I b).V
  mask : Bool → ∀ a b, (I a).M → Option (I b).M
  maskResize : ∀ a b, (I a).M → Option (I b).M
  resize : ∀ a b, K a = K b → (I a).V → Option (I b).V

section run
variable {I : ∀ a, Impl (K a) (β a)} (R : ∀ a, RedImpl (I a)) (X : Casts I) (width : ι → Nat) (base : ι → Nat → Nat)

/-- Conditions. -/
def evalCond (S : ∀ a, State (I a)) : Cond K → Option Bool
  | .on a c => evalC (R a) (width a) (S a) c
  | .not c => do let b ← evalCond S c; pure !b
  | .and c d => do let b ← evalCond S c; if b then evalCond S d else pure false

/-- Programs. -/
def runMulti [DecidableEq ι] (fuel : Nat) : Prog K → (∀ a, State (I a)) → Outcome (∀ a, State (I a))
  | .on a p, S => (runCtl (R a) (width a) (base a) fuel p (S a)).bind fun s => .done (setAt S a s)
  | .cast i a b d e, S => .ofOption do
    let x ← evalV (I a) (width a) (S a) e
    let y ← X.val i a b x
    pure (setAt S b (setV (I b) (S b) d y))
  | .mcast i a b d k, S => .ofOption do
    let x ← evalM (I a) (width a) (S a) k
    let y ← X.mask i a b x
    pure (setAt S b (setM (I b) (S b) d y))
  | .mresize a b d k, S => .ofOption do
    let x ← evalM (I a) (width a) (S a) k
    let y ← X.maskResize a b x
    pure (setAt S b (setM (I b) (S b) d y))
  | .resize a b h d e, S => .ofOption do
    let x ← evalV (I a) (width a) (S a) e
    let y ← X.resize a b h x
    pure (setAt S b (setV (I b) (S b) d y))
  | .seq p q, S => (runMulti fuel p S).bind (runMulti fuel q)
  | .ite c p q, S =>
    match evalCond R width S c with
    | none => .undef
    | some b => if b then runMulti fuel p S else runMulti fuel q S
  | .while c p, S => loop (fun S => evalCond R width S c) (runMulti fuel p) fuel S

end run

/-- Registers of the given sizes in a contiguous sequence of elements. -/
def chop {α : Type} : List Nat → List α → Tuple.Tup α
  | [], _ => []
  | n :: ns, x => x.take n :: chop ns (x.drop n)

/-- `resizing_simd_cast` of values (simd.h:2957-2986) from an object with registers `gs` and `n` elements to one with registers `gs'` and `m` elements:
`Resize.value` on the elements in the order of their addresses (the registers of a `_SimdTuple` are contiguous: C07, C09). -/
def resizeRegs {α : Type} (z : α) (sameAbi fixed : Bool) (n m : Nat) (gs' : List Geo) (x : Tuple.Tup α) : Option (Tuple.Tup α) :=
  (Resize.value z sameAbi fixed n m (gs'.map Geo.full).sum x.flatten).map (chop (gs'.map Geo.full))

/-- The same elements, of a type with another name. -/
def recast {K K' : Kind} (h : K = K') (x : Tuple.Tup K.Bits) : Tuple.Tup K'.Bits := h ▸ x

/-- `fixed_size`: the explicit conversion of values is `_SimdConverter` (simd.h:2881-2897), the implicit one goes through an array (4929-4939); the
implicit conversion of masks hands the bits over (`_S_from_bitmask`, 4346-4354, simd_fixed_size.h:1915-1919), the explicit one and
`resizing_simd_cast` extract them (`_S_convert`, simd_fixed_size.h:1906-1912).  `same a b`: integer types of equal size; `ident a b`: the same type. -/
def fixedCasts (t : Abi.Target) (T : ι → Abi.Elem) (n : ι → Nat) (C : ∀ a, Cfg (K a) (β a))
    (ctx : ∀ a b, Convert.Ctx (K a).Bits (K b).Bits) (same ident : ι → ι → Bool) :
    Casts (fun a => fixedImpl (C a) (Tuple.regs t (T a) (n a)) (n a)) where
  val i a b x :=
    if i then (if n a = n b then Convert.implicitCvt (ctx a b) t (T a) (T b) (n a) x else none)
    else Convert.staticSimdCast (ctx a b) t (T a) (T b) (same a b) (ident a b) (.fixed (n a)) (.fixed (n b)) x
  mask i a b k := if i then sameWidth (m := n a) k else if n a = n b then Resize.fixed (n := n a) (n b) k else none
  maskResize a b k := Resize.fixed (n := n a) (n b) k
  resize a b h x := resizeRegs 0#(K b).width (n a == n b) true (n a) (n b) (Tuple.regs t (T b) (n b)) (recast h x)

end StdSimd.SimdClass
