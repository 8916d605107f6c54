import Verif.Model.KnownX86
import Verif.Props.ArithX86
/-!
# Operators with known operands compute the operators of the element type
-/
namespace StdSimd.SimdClass
open StdSimd Spec Spec.Program Spec.Multi Native

/-- If each operation is one of two that implement the element type, the whole does. -/
theorem implements_choose {K : Kind} {R R1 R2 : RegImpl K} {E : Program.Elem K} {g : Geo} (h1 : Implements R1 E g) (h2 : Implements R2 E g)
    (hu : R.un = R1.un) (hb : ∀ o x y, R.bin o g x y = R1.bin o g x y ∨ R.bin o g x y = R2.bin o g x y) (hs : R.shift = R1.shift) (hf : R.fn = R1.fn) :
    Implements R E g := by
  refine ⟨fun o x r hx hr => by rw [hu]; exact h1.un o x r hx hr, fun o x y r hx hy hr => ?_, fun l x s r hx hl hr => by rw [hs]; exact h1.shift l x s r hx hl hr,
    by rw [hf]; exact h1.fn⟩
  rcases hb o x y with e | e <;> rw [e]
  · exact h1.bin o x y r hx hy hr
  · exact h2.bin o x y r hx hy hr

theorem x86Known_bin {signed : Bool} {w : Nat} (k : Known w) (junk : BitVec w → Nat → BitVec w) (R : RegImpl (.int signed w)) (g : Geo) (o : BOp)
    (x y : List (BitVec w)) :
    (x86Known k junk R).bin o g x y = R.bin o g x y ∨ (x86Known k junk R).bin o g x y = (builtinInt signed w junk).bin o g x y := by
  cases g with
  | scalar => exact .inl rfl
  | _ =>
    cases o
    case mul => simp only [x86Known]; split <;> simp
    case div => simp only [x86Known]; split <;> simp
    case mod => simp only [x86Known]; split <;> simp
    case shr => simp only [x86Known]; split <;> simp
    all_goals exact .inl rfl

theorem x86Known_implements {signed : Bool} {w : Nat} (hw : 0 < w) (k : Known w) (junk : BitVec w → Nat → BitVec w) {R : RegImpl (.int signed w)} {g : Geo} (hg : g.Ok)
    (ops : BOp → Bool) (hd : ops .div = true ∨ ops .mod = true → signed = false ∨ g.size = g.full) (h : Implements R ((intElem signed w w).only ops) g) :
    Implements (x86Known k junk R) ((intElem signed w w).only ops) g :=
  implements_choose h (builtinInt_implements signed hw junk hg ops hd) rfl (x86Known_bin k junk R g) rfl rfl

end StdSimd.SimdClass
