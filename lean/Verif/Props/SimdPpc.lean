import Verif.Props.SimdX86
import Verif.Proofs.SimdPpc
/-!
# C63 on PowerPC: programs on objects of integers

`ppcInt` (Model/SimdPpc.lean) has the shifts of `_SimdImplPpc`, which make the counts C++ defines for small types right on instructions that use the count modulo
the width of an element.
-/
namespace StdSimd.Props
open StdSimd.SimdClass Spec Spec.Program Native Tuple

variable {β : Type} {t : Abi.Target} {T : Abi.Elem} {n : Nat} {g : Geo}

/-- **C63** for integers on PowerPC with `fixed_size<n>`, all shift counts C++ defines.  A program on signed elements that divides needs registers without
padding (C23). -/
theorem C63_ppc_partial (signed : Bool) {w : Nat} (hw : w = 8 ∨ w = 16 ∨ w = 32 ∨ w = 64) (ops : BOp → Bool) (ht : t.Consistent) (hT : T.Ok)
    (h1 : 1 ≤ n) (h64 : n ≤ 64) (hd : ops .div = true ∨ ops .mod = true → signed = false ∨ ∀ g ∈ regs t T n, g.size = g.full)
    (C : Cfg (.int signed w) β) (hC : C.R = ppcInt signed w) {U : Abi.Elem} (hU : U.Ok) (same : Bool)
    (hX : C.xfer = Xfer.of t U same) (base : Nat → Nat) (p : Stmt (.int signed w)) (hp : p.WellFormed)
    (S : State (fixedImpl C (regs t T n) n)) (L L' : Nat → Lane (.int signed w) β) (hS : Observed C t T n base S L)
    (hL : ∀ i < n, p.exec ((intElem signed w (max w 32)).only ops) C.ld C.st n i (L i) = some (L' i)) :
    ∃ S', run (fixedImpl C (regs t T n) n) (max w 32) base p S = some S' ∧ Observed C t T n base S' L' ∧
      ∀ j a, (a < base j ∨ base j + n ≤ a) → S'.mem j a = S.mem j a :=
  C63_program ht hT h1 h64 (E := (intElem signed w (max w 32)).only ops) C (fun g hg => by
    rw [hC]
    exact ppcInt_implements signed hw ((regs_facts ht hT h1).2.1 g hg) ops (fun h => (hd h).imp id (fun h => h g hg)))
    hU same hX base p hp S L L' hS hL

/-- **C63** for native integers on PowerPC; partial as `C63_native_partial` and `C63_ppc_partial`. -/
theorem C63_ppc_native_partial (signed : Bool) {w : Nat} (hw : w = 8 ∨ w = 16 ∨ w = 32 ∨ w = 64) (ops : BOp → Bool) (hg : g.Ok)
    (hd : ops .div = true ∨ ops .mod = true → signed = false ∨ g.size = g.full)
    (C : Cfg (.int signed w) β) (hC : C.R = ppcInt signed w) {U : Abi.Elem} (hU : U.Ok) (same : Bool)
    (hX : C.xfer = Xfer.of t U same) (hp : C.path g = .raw → Exact g) (base : Nat → Nat) (p : Stmt (.int signed w)) (hpw : p.WellFormed)
    (S : State (nativeImpl C g)) (L L' : Nat → Lane (.int signed w) β) (hS : ObservedNative C g base S L)
    (hL : ∀ i < g.size, p.exec ((intElem signed w (max w 32)).only ops) C.ld C.st g.size i (L i) = some (L' i)) :
    ∃ S', run (nativeImpl C g) (max w 32) base p S = some S' ∧ ObservedNative C g base S' L' ∧
      ∀ j a, (a < base j ∨ base j + g.size ≤ a) → S'.mem j a = S.mem j a :=
  C63_native_partial hg (E := (intElem signed w (max w 32)).only ops) C (by rw [hC]; exact ppcInt_implements signed hw hg ops hd) hU same hX hp base p hpw
    S L L' hS hL

/-- A program on 16 signed bytes in a register of 16 bytes, `v1 = (v0 * v0 >> 1) & 31; v0 = (v0 << v1) >> 20`: counts from 8 to 31 shift all bits out. -/
def exPpcCfg : Cfg (.int true 8) (BitVec 8) := { exByteCfg true exAvxByte with R := ppcInt true 8 }

def exPpcState : State (nativeImpl exPpcCfg (.vec 8 16 16)) where
  v := fun (x : Nat) => ((List.range 16).map fun i => if x = 0 then BitVec.ofNat 8 (255 - i) else 8#8 : List (BitVec 8))
  m := fun (_ : Nat) => (List.replicate 16 0#8 : VMask 8)
  mem := fun _ a => if a < 20 then some 7#8 else none

-- the hypotheses are met
example : ObservedNative exPpcCfg (.vec 8 16 16) (fun _ => 4) exPpcState (exByteLane true) := by
  refine ⟨fun x => ⟨by rfl, ?_⟩, fun x => ⟨⟨rfl, ?_⟩, by rfl⟩, fun j i hi => ?_⟩
  · by_cases h : x = 0
    · subst h; rfl
    · simp only [exPpcState, exByteLane, h, if_false]; rfl
  · intro v hv
    left
    exact List.eq_of_mem_replicate (List.mem_of_mem_take hv)
  · simp only [exPpcState, exByteLane]; rw [if_pos (by simp at hi; omega)]
example : ∀ i < 16, ((exByteProg true).exec ((intElem true 8 32).only fun _ => true) id id 16 i (exByteLane true i)).isSome := by
  intro i hi
  interval_cases i <;> decide +kernel
example : (run (nativeImpl exPpcCfg (.vec 8 16 16)) 32 (fun _ => 4) (exByteProg true) exPpcState).map (fun S => ((S.v 0 : List (BitVec 8)) == (
    [0xff, 0xff, 0xff, 0, 0, 0, 0, 0xff, 0, 0, 0, 0, 0, 0xff, 0, 0xff] : List (BitVec 8)))) = some true := by
  decide +kernel

end StdSimd.Props
