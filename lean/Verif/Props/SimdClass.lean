import Verif.Proofs.SimdReg
/-!
# C63: a program on `simd` objects does in every element what the scalar program does

Specification: `Spec/Program.lean` (the language and `Stmt.exec`, what a program does with one element).  The model (`Model/SimdClass.lean`) runs the
same program with the operators of `simd<T, fixed_size<n>>` and its mask type: `run I width base p S`.
-/
namespace StdSimd.Props
open StdSimd Spec Spec.Program SimdClass Tuple Native
variable {K : Kind} {β : Type} {t : Abi.Target} {T : Abi.Elem} {n : Nat}

/-- The objects of a program as the user sees them: element `i` of object `v` is `(L i).v v`, element `i` of mask `m` is `(L i).m m`, element `i` of the
array at address `base j` is `(L i).arr j`. -/
structure Observed (C : Cfg K β) (t : Abi.Target) (T : Abi.Elem) (n : Nat) (base : Nat → Nat) (S : State (fixedImpl C (regs t T n) n))
    (L : Nat → Lane K β) : Prop where
  v : ∀ x, Wf (regs t T n) (S.v x) ∧ lanes (regs t T n) (S.v x) = (List.range n).map fun i => (L i).v x
  m : ∀ x, BitMask.Clean (n := n) (s := true) (S.m x) ∧ BitMask.lanes (n := n) (s := true) (S.m x) = (List.range n).map fun i => (L i).m x
  mem : ∀ j, ∀ i < n, S.mem j (base j + i) = some ((L i).arr j)

theorem observed_iff (ht : t.Consistent) (hT : T.Ok) (h1 : 1 ≤ n) (C : Cfg K β) (base : Nat → Nat)
    (S : State (fixedImpl C (regs t T n) n)) (L : Nat → Lane K β) :
    Observed C t T n base S L ↔ Rep (fixedImpl C (regs t T n) n) (FV (regs t T n) n) (FM n) base S L := by
  obtain ⟨_, hok, htot, _⟩ := regs_facts ht hT h1
  have key : ∀ {α : Type} (l : List α) (f : Nat → α), l.length = n → (l = (List.range n).map f ↔ ∀ i < n, l[i]? = some (f i)) := by
    intro α l f hl
    constructor
    · rintro rfl i hi; simp [hi]
    · intro h
      apply List.ext_getElem?
      intro i
      by_cases hi : i < n
      · rw [h i hi]; simp [hi]
      · rw [List.getElem?_eq_none (by omega), List.getElem?_eq_none (by simp; omega)]
  have kv : ∀ (x : Tup K.Bits) (f : Nat → K.Bits), (Wf (regs t T n) x ∧ lanes (regs t T n) x = (List.range n).map f) ↔ FV (regs t T n) n x f := by
    intro x f
    constructor
    · rintro ⟨a, b⟩; exact ⟨a, (key _ _ ((length_lanes hok a).trans htot)).1 b⟩
    · rintro ⟨a, b⟩; exact ⟨a, (key _ _ ((length_lanes hok a).trans htot)).2 b⟩
  have km : ∀ (x : BitMask n true) (f : Nat → Bool), (x.Clean ∧ x.lanes = (List.range n).map f) ↔ FM n x f := by
    intro x f
    have e : (∀ i < n, x.lanes[i]? = some (f i)) ↔ ∀ i < n, x.lane i = f i := by
      constructor
      · intro h i hi; have := h i hi; rw [BitMask.lanes_getElem?, if_pos hi] at this; exact Option.some.inj this
      · intro h i hi; rw [BitMask.lanes_getElem?, if_pos hi, h i hi]
    constructor
    · rintro ⟨a, b⟩; exact ⟨a, e.1 ((key _ _ (length_bmlanes x)).1 b)⟩
    · rintro ⟨a, b⟩; exact ⟨a, (key _ _ (length_bmlanes x)).2 (e.2 b)⟩
  constructor
  · intro h; exact ⟨fun x => (kv _ _).1 (h.v x), fun x => (km _ _).1 (h.m x), h.mem⟩
  · intro h; exact ⟨fun x => (kv _ _).2 (h.v x), fun x => (km _ _).2 (h.m x), h.mem⟩

/-- **C63.** If the scalar program `p` is defined for each of the `n` elements and leads from `L i` to `L' i`, then the program on the `fixed_size<n>`
objects is defined, and leads to objects with the elements `L'`; memory outside the arrays is not changed.  For every target, number of elements,
program, padding, choice of code paths, and every native implementation that computes the operators `E` on the elements of a register. -/
theorem C63_program (ht : t.Consistent) (hT : T.Ok) (h1 : 1 ≤ n) (h64 : n ≤ 64) {E : Program.Elem K} (C : Cfg K β)
    (hR : ∀ g ∈ regs t T n, Implements C.R E g) {U : Abi.Elem} (hU : U.Ok) (same : Bool) (hX : C.xfer = Xfer.of t U same) (base : Nat → Nat)
    (p : Stmt K) (hp : p.WellFormed) (S : State (fixedImpl C (regs t T n) n)) (L L' : Nat → Lane K β) (hS : Observed C t T n base S L)
    (hL : ∀ i < n, p.exec E C.ld C.st n i (L i) = some (L' i)) :
    ∃ S', run (fixedImpl C (regs t T n) n) E.width base p S = some S' ∧ Observed C t T n base S' L' ∧
      ∀ j a, (a < base j ∨ base j + n ≤ a) → S'.mem j a = S.mem j a := by
  obtain ⟨S', h, hS', hf⟩ := run_spec (fixed_correct ht hT h1 h64 C hR hU same hX) p hp ((observed_iff ht hT h1 C base S L).1 hS) hL
  exact ⟨S', h, (observed_iff ht hT h1 C base S' L').2 hS', hf⟩

private theorem regs_size {g : Geo} (ht : t.Consistent) (hT : T.Ok) (h1 : 1 ≤ n) (hg : g ∈ regs t T n) : g.Ok :=
  (regs_facts ht hT h1).2.1 g hg

/-- **C63** for unsigned integers with `_SimdImplBuiltin`: all operators. -/
theorem C63_unsigned {w : Nat} (hw : 0 < w) (ht : t.Consistent) (hT : T.Ok) (h1 : 1 ≤ n) (h64 : n ≤ 64) (C : Cfg (.int false w) β)
    (junk : BitVec w → Nat → BitVec w) (hC : C.R = builtinInt false w junk) {U : Abi.Elem} (hU : U.Ok) (same : Bool)
    (hX : C.xfer = Xfer.of t U same) (base : Nat → Nat) (p : Stmt (.int false w)) (hp : p.WellFormed)
    (S : State (fixedImpl C (regs t T n) n)) (L L' : Nat → Lane (.int false w) β) (hS : Observed C t T n base S L)
    (hL : ∀ i < n, p.exec (intElem false w w) C.ld C.st n i (L i) = some (L' i)) :
    ∃ S', run (fixedImpl C (regs t T n) n) (max w 32) base p S = some S' ∧ Observed C t T n base S' L' ∧
      ∀ j a, (a < base j ∨ base j + n ≤ a) → S'.mem j a = S.mem j a :=
  C63_program ht hT h1 h64 (E := intElem false w w) C (fun g hg => by
    rw [hC, ← only_true (intElem false w w)]
    exact builtinInt_implements false hw junk (regs_size ht hT h1 hg) _ (fun _ => .inl rfl)) hU same hX base p hp S L L' hS hL

/-- **C63** for signed integers, partial: programs without `/` and `%`, or without partially filled registers.  With them the property fails
(`C63_signed_division_wrong`). -/
theorem C63_signed_partial {w : Nat} (hw : 0 < w) (ht : t.Consistent) (hT : T.Ok) (h1 : 1 ≤ n) (h64 : n ≤ 64) (C : Cfg (.int true w) β)
    (junk : BitVec w → Nat → BitVec w) (hC : C.R = builtinInt true w junk) {U : Abi.Elem} (hU : U.Ok) (same : Bool)
    (hX : C.xfer = Xfer.of t U same) (ops : BOp → Bool) (hops : (ops .div = true ∨ ops .mod = true) → ∀ g ∈ regs t T n, g.size = g.full)
    (base : Nat → Nat) (p : Stmt (.int true w)) (hp : p.WellFormed)
    (S : State (fixedImpl C (regs t T n) n)) (L L' : Nat → Lane (.int true w) β) (hS : Observed C t T n base S L)
    (hL : ∀ i < n, p.exec ((intElem true w w).only ops) C.ld C.st n i (L i) = some (L' i)) :
    ∃ S', run (fixedImpl C (regs t T n) n) (max w 32) base p S = some S' ∧ Observed C t T n base S' L' ∧
      ∀ j a, (a < base j ∨ base j + n ≤ a) → S'.mem j a = S.mem j a :=
  C63_program ht hT h1 h64 (E := (intElem true w w).only ops) C (fun g hg => by
    rw [hC]
    exact builtinInt_implements true hw junk (regs_size ht hT h1 hg) _ (fun h => .inr (hops h g hg))) hU same hX base p hp S L L' hS hL

/-- **C63** for floating-point types: whatever the instructions `u` and `b` compute from the operands' elements. -/
theorem C63_floating (ht : t.Consistent) (hT : T.Ok) (h1 : 1 ≤ n) (h64 : n ≤ 64) (C : Cfg K β) (one : K.Bits) (u : UOp → K.Bits → K.Bits)
    (b : BOp → K.Bits → K.Bits → K.Bits) (hC : C.R = builtinFloat one u b) {U : Abi.Elem} (hU : U.Ok) (same : Bool)
    (hX : C.xfer = Xfer.of t U same) (base : Nat → Nat) (p : Stmt K) (hp : p.WellFormed)
    (S : State (fixedImpl C (regs t T n) n)) (L L' : Nat → Lane K β) (hS : Observed C t T n base S L)
    (hL : ∀ i < n, p.exec (totalElem u b) C.ld C.st n i (L i) = some (L' i)) :
    ∃ S', run (fixedImpl C (regs t T n) n) 0 base p S = some S' ∧ Observed C t T n base S' L' ∧
      ∀ j a, (a < base j ∨ base j + n ≤ a) → S'.mem j a = S.mem j a :=
  C63_program ht hT h1 h64 (E := totalElem u b) C (fun g hg => by
    rw [hC]; exact builtinFloat_implements one u b (regs_size ht hT h1 hg)) hU same hX base p hp S L L' hS hL

/-- **C63**, elements do not influence each other: change the operands of other elements (and the padding, the memory around the arrays, the
target and all code-path choices), and element `i` of every object still ends with the same value. -/
theorem C63_lane_independent {t' : Abi.Target} {T' : Abi.Elem} (ht : t.Consistent) (hT : T.Ok) (ht' : t'.Consistent) (hT' : T'.Ok) (h1 : 1 ≤ n)
    (h64 : n ≤ 64) {E : Program.Elem K} (C C' : Cfg K β) (hld : C'.ld = C.ld) (hst : C'.st = C.st)
    (hR : ∀ g ∈ regs t T n, Implements C.R E g) (hR' : ∀ g ∈ regs t' T' n, Implements C'.R E g) {U U' : Abi.Elem} (hU : U.Ok) (hU' : U'.Ok)
    (same same' : Bool) (hX : C.xfer = Xfer.of t U same) (hX' : C'.xfer = Xfer.of t' U' same') (base base' : Nat → Nat)
    (p : Stmt K) (hp : p.WellFormed) (S : State (fixedImpl C (regs t T n) n)) (S' : State (fixedImpl C' (regs t' T' n) n))
    (L L' R R' : Nat → Lane K β) (hS : Observed C t T n base S L) (hS' : Observed C' t' T' n base' S' L')
    (hL : ∀ i < n, p.exec E C.ld C.st n i (L i) = some (R i)) (hL' : ∀ i < n, p.exec E C.ld C.st n i (L' i) = some (R' i)) :
    ∃ Z Z', run (fixedImpl C (regs t T n) n) E.width base p S = some Z ∧ run (fixedImpl C' (regs t' T' n) n) E.width base' p S' = some Z' ∧
      ∀ i < n, L i = L' i →
        (∀ x, (lanes (regs t T n) (Z.v x))[i]? = (lanes (regs t' T' n) (Z'.v x))[i]?) ∧
        (∀ x, (BitMask.lanes (n := n) (s := true) (Z.m x))[i]? = (BitMask.lanes (n := n) (s := true) (Z'.m x))[i]?) ∧
        ∀ j, Z.mem j (base j + i) = Z'.mem j (base' j + i) := by
  obtain ⟨Z, hZ, oZ, _⟩ := C63_program ht hT h1 h64 C hR hU same hX base p hp S L R hS hL
  obtain ⟨Z', hZ', oZ', _⟩ := C63_program ht' hT' h1 h64 C' hR' hU' same' hX' base' p hp S' L' R' hS' (by rw [hld, hst]; exact hL')
  refine ⟨Z, Z', hZ, hZ', fun i hi e => ?_⟩
  have hr : R i = R' i := by
    have h1 := hL i hi
    have h2 := hL' i hi
    rw [e, h2] at h1
    exact (Option.some.inj h1).symm
  refine ⟨fun x => ?_, fun x => ?_, fun j => ?_⟩
  · rw [(oZ.v x).2, (oZ'.v x).2]; simp [hi, hr]
  · rw [(oZ.m x).2, (oZ'.m x).2]; simp [hi, hr]
  · rw [oZ.mem j i hi, oZ'.mem j i hi, hr]

/-! ## concrete programs -/

/-- Three `unsigned long` on AVX2: one register of four, one element of it padding. -/
theorem exRegs_long : regs exAvx2 ⟨8, false⟩ 3 = [.vec 64 3 4] := by
  unfold regs
  rw [Abi.storage_pos (by decide), show (3 - Abi.size ⟨8, false⟩ (Abi.bestAbi exAvx2 ⟨8, false⟩ 3)) = 0 by decide +kernel, Abi.storage_zero]
  decide +kernel

def exCfg (signed : Bool) : Cfg (.int signed 64) (BitVec 64) where
  R := builtinInt signed 64 (fun a _ => a)
  c _ := false
  ctx _ := ⟨true, false, [], []⟩
  xfer := Xfer.of exAvx2 ⟨8, false⟩ true
  path _ := .raw
  junk := 0#64
  ld a := a
  st a := a

/-- `v1 = v0++; v1 -= v1 / 2; where (v0 > 5 && !(v1 == 2)) v0 = v1 << 3; m0 = !v1 || m0; for (3 times) v0[1] = 9, --v1; where (m0) copy_to` -/
def exProg (signed : Bool) : Stmt (.int signed 64) :=
  .seq (.postStep true 1 0) <| .seq (.compound .sub 1 (.bin .div (.var 1) (.const 2#64))) <|
  .seq (.whereAssign (.bin .and (.cmp .gt (.var 0) (.const 5#64)) (.not (.cmp .eq (.var 1) (.const 2#64)))) 0 (.shift true (.var 1) 3)) <|
  .seq (.massign 0 (.bin .or (.isZero (.var 1)) (.var 0))) <|
  .seq (.loop 3 (.seq (.elem 0 1 9#64) (.step false 1))) (.whereStore (.var 0) 0 0)

def exLane (signed : Bool) (i : Nat) : Lane (.int signed 64) (BitVec 64) where
  v := fun (_ : Nat) => (BitVec.ofNat 64 (4 * i) : BitVec 64)
  m := fun _ => i == 2
  arr := fun _ => 77#64

def exImpl (signed : Bool) : Impl (.int signed 64) (BitVec 64) := fixedImpl (exCfg signed) [.vec 64 3 4] 3

def exState (signed : Bool) : State (exImpl signed) where
  v := fun (_ : Nat) => ([[0#64, 4#64, 8#64, 1234#64]] : Tup (BitVec 64))
  m := fun (_ : Nat) => (FixedMask.set (FixedMask.broadcast 3 false) 2 true : BitMask 3 true)
  mem := fun _ a => if a < 10 then some 77#64 else none

-- the program is defined for every element (hypothesis `hL`), and run on the register it has these effects
example : (List.range 3).map (fun i => ((exProg false).exec (intElem false 64 64) id id 3 i (exLane false i)).map fun L => ((L.v 0 : BitVec 64), (L.v 1 : BitVec 64), L.m 0, L.arr 0)) =
    [some (1#64, -3#64, true, 1#64), some (9#64, -1#64, false, 77#64), some (32#64, 1#64, true, 32#64)] := by rfl
example : ((run (exImpl false) 64 (fun _ => 4) (exProg false) (exState false)).map fun S =>
    (lanes [.vec 64 3 4] (S.v 0 : Tup (BitVec 64)), lanes [.vec 64 3 4] (S.v 1 : Tup (BitVec 64)), BitMask.lanes (S.m 0 : BitMask 3 true),
      (List.range 9).map (S.mem 0))) =
    some ([1#64, 9#64, 32#64], [-3#64, -1#64, 1#64], [true, false, true],
      [77#64, 77#64, 77#64, 77#64, 1#64, 77#64, 32#64, 77#64, 77#64].map some) := by decide +kernel

private theorem exObserved (signed : Bool) (p : Stmt (.int signed 64)) (q : Option (Tup (BitVec 64)) → Prop)
    (h : q ((run (exImpl signed) 64 (fun _ => 4) p (exState signed)).map fun S => S.v 0)) :
    ∃ S, Observed (exCfg signed) exAvx2 ⟨8, false⟩ 3 (fun _ => 4) S (exLane signed) ∧
      q ((run (fixedImpl (exCfg signed) (regs exAvx2 ⟨8, false⟩ 3) 3) 64 (fun _ => 4) p S).map fun S => S.v 0) := by
  have key : ∀ gs, gs = [Geo.vec 64 3 4] → ∃ S : State (fixedImpl (exCfg signed) gs 3),
      ((∀ x, Wf gs (S.v x) ∧ lanes gs (S.v x) = (List.range 3).map fun i => (exLane signed i).v x) ∧
      (∀ x, BitMask.Clean (n := 3) (s := true) (S.m x) ∧ BitMask.lanes (n := 3) (s := true) (S.m x) = (List.range 3).map fun i => (exLane signed i).m x) ∧
      ∀ j, ∀ i < 3, S.mem j (4 + i) = some ((exLane signed i).arr j)) ∧
      q ((run (fixedImpl (exCfg signed) gs 3) 64 (fun _ => 4) p S).map fun S => S.v 0) := by
    rintro gs rfl
    refine ⟨exState signed, ⟨fun x => ⟨⟨rfl, trivial⟩, rfl⟩, fun x => ⟨?_, by rfl⟩, fun j i hi => ?_⟩, h⟩
    · exact (FM.set (by decide) true (by decide) (FM.broadcast (by decide) false)).1
    · simp only [exState, exLane]; rw [if_pos (by omega)]
  obtain ⟨S, ⟨a, b, c⟩, d⟩ := key _ exRegs_long
  exact ⟨S, ⟨a, b, c⟩, d⟩

-- the objects of that run meet the hypothesis `hS`
example : ∃ S, Observed (exCfg false) exAvx2 ⟨8, false⟩ 3 (fun _ => 4) S (exLane false) :=
  (exObserved false .skip (fun _ => True) trivial).imp fun _ h => h.1

/-- **C63, finding.** `v / 2` for three `long` equal to `LONG_MIN`, on AVX2: the scalar program is defined for each element, the one on `simd` objects is
not (the padding divides `LONG_MIN` by -1, C23). -/
theorem C63_signed_division_wrong :
    let p : Stmt (.int true 64) := .seq (.assign 0 (.const (BitVec.intMin 64))) (.compound .div 0 (.const 2#64))
    (∀ i < 3, (p.exec (intElem true 64 64) id id 3 i (exLane true i)).isSome) ∧
    ∃ S, Observed (exCfg true) exAvx2 ⟨8, false⟩ 3 (fun _ => 4) S (exLane true) ∧
      run (fixedImpl (exCfg true) (regs exAvx2 ⟨8, false⟩ 3) 3) 64 (fun _ => 4) p S = none := by
  intro p
  refine ⟨?_, ?_⟩
  · intro i hi
    have : i = 0 ∨ i = 1 ∨ i = 2 := by omega
    rcases this with rfl | rfl | rfl <;> decide +kernel
  · obtain ⟨S, h1, h2⟩ := exObserved true p (fun r => r = none) (by rfl)
    exact ⟨S, h1, by
      generalize run _ 64 _ p S = r at h2 ⊢
      cases r with
      | none => rfl
      | some _ => exact absurd h2 (by intro h; cases h)⟩

end StdSimd.Props
