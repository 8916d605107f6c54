import Verif.Props.SimdClass
import Verif.Proofs.SimdNative
/-!
# C63 for objects of native ABIs

The same programs (`Spec/Program.lean`), run with objects that are one register each: `simd<T, scalar>`, `simd<T, _VecBuiltin<Bytes>>`,
`simd<T, _VecBltnBtmsk<Bytes>>`, with any number of elements and any padding in values and masks.
-/
namespace StdSimd.Props
open StdSimd Spec Spec.Program SimdClass Native
variable {K : Kind} {β : Type} {g : Geo}

/-- The objects as the user sees them: element `i` of object `v` is `(L i).v v`, element `i` of mask `m` is `(L i).m m`, element `i` of the
array at address `base j` is `(L i).arr j`. -/
structure ObservedNative (C : Cfg K β) (g : Geo) (base : Nat → Nat) (S : State (nativeImpl C g)) (L : Nat → Lane K β) : Prop where
  v : ∀ x, List.length (α := K.Bits) (S.v x) = g.full ∧ List.take (α := K.Bits) g.size (S.v x) = (List.range g.size).map fun i => (L i).v x
  m : ∀ x, MaskOk g (S.m x) ∧ maskLanes g (S.m x) = (List.range g.size).map fun i => (L i).m x
  mem : ∀ j, ∀ i < g.size, S.mem j (base j + i) = some ((L i).arr j)

private theorem list_iff {α : Type} {n : Nat} (l : List α) (f : Nat → α) (hl : l.length = n) :
    l = (List.range n).map f ↔ ∀ i < n, l[i]? = some (f i) := by
  constructor
  · rintro rfl i hi; simp [hi]
  · intro h
    apply List.ext_getElem?
    intro i
    by_cases hi : i < n
    · rw [h i hi]; simp [hi]
    · rw [List.getElem?_eq_none (by omega), List.getElem?_eq_none (by simp; omega)]

private theorem nv_iff (hg : g.Ok) (x : List K.Bits) (f : Nat → K.Bits) :
    (x.length = g.full ∧ x.take g.size = (List.range g.size).map f) ↔ NV g x f := by
  have := hg.size_le
  constructor
  · rintro ⟨a, b⟩
    refine ⟨a, fun i hi => ?_⟩
    have := (list_iff (n := g.size) _ f (by simp; omega)).1 b i hi
    rwa [List.getElem?_take_of_lt hi] at this
  · rintro ⟨a, b⟩
    exact ⟨a, (list_iff (n := g.size) _ f (by simp; omega)).2 (fun i hi => by rw [List.getElem?_take_of_lt hi]; exact b i hi)⟩

private theorem nm_iff (hg : g.Ok) (k : MaskM g) (f : Nat → Bool) :
    (MaskOk g k ∧ maskLanes g k = (List.range g.size).map f) ↔ NM g k f := by
  constructor
  · rintro ⟨a, b⟩
    refine ⟨a, fun i hi => ?_⟩
    have := (list_iff _ f (length_maskLanes hg k a)).1 b i hi
    unfold mbit VMask.bit; rw [this]; rfl
  · rintro ⟨a, b⟩
    have hl := length_maskLanes hg k a
    refine ⟨a, (list_iff _ f hl).2 (fun i hi => ?_)⟩
    have := b i hi
    unfold mbit VMask.bit at this
    rw [List.getElem?_eq_getElem (by omega)] at this ⊢
    exact congrArg some this

theorem observedNative_iff (hg : g.Ok) (C : Cfg K β) (base : Nat → Nat) (S : State (nativeImpl C g)) (L : Nat → Lane K β) :
    ObservedNative C g base S L ↔ Rep (nativeImpl C g) (NV g) (NM g) base S L := by
  constructor
  · intro h; exact ⟨fun x => (nv_iff hg _ _).1 (h.v x), fun x => (nm_iff hg _ _).1 (h.m x), h.mem⟩
  · intro h; exact ⟨fun x => (nv_iff hg _ _).2 (h.v x), fun x => (nm_iff hg _ _).2 (h.m x), h.mem⟩

/-- **C63** for native ABIs, partial: if the scalar program `p` is defined for each element and leads from `L i` to `L' i`, then the program on the
`simd` objects is defined and leads to objects with the elements `L'`; memory outside the arrays is not changed.  For every register geometry,
program, padding, choice of code paths, and native implementation that computes the operators `E` on the elements of the register.  Missing:
partially filled registers with masked loads and stores that use the mask register as it is (`hp`); with them the property fails
(`C63_native_masked_load_wrong`). -/
theorem C63_native_partial (hg : g.Ok) {E : Program.Elem K} (C : Cfg K β) (hR : Implements C.R E g) {t : Abi.Target} {U : Abi.Elem} (hU : U.Ok)
    (same : Bool) (hX : C.xfer = Xfer.of t U same) (hp : C.path g = .raw → Exact g) (base : Nat → Nat)
    (p : Stmt K) (hw : p.WellFormed) (S : State (nativeImpl C g)) (L L' : Nat → Lane K β) (hS : ObservedNative C g base S L)
    (hL : ∀ i < g.size, p.exec E C.ld C.st g.size i (L i) = some (L' i)) :
    ∃ S', run (nativeImpl C g) E.width base p S = some S' ∧ ObservedNative C g base S' L' ∧
      ∀ j a, (a < base j ∨ base j + g.size ≤ a) → S'.mem j a = S.mem j a := by
  obtain ⟨S', h, hS', hf⟩ := run_spec (native_correct hg C hR hU same hX hp) p hw ((observedNative_iff hg C base S L).1 hS) hL
  exact ⟨S', h, (observedNative_iff hg C base S' L').2 hS', hf⟩

/-- **C63** for `simd<T, scalar>`, all programs. -/
theorem C63_scalar {E : Program.Elem K} (C : Cfg K β) (hR : Implements C.R E .scalar) {t : Abi.Target} {U : Abi.Elem} (hU : U.Ok)
    (same : Bool) (hX : C.xfer = Xfer.of t U same) (base : Nat → Nat) (p : Stmt K) (hw : p.WellFormed) (S : State (nativeImpl C .scalar))
    (L L' : Lane K β) (hS : ObservedNative C .scalar base S (fun _ => L)) (hL : p.exec E C.ld C.st 1 0 L = some L') :
    ∃ S', run (nativeImpl C .scalar) E.width base p S = some S' ∧ ObservedNative C .scalar base S' (fun _ => L') ∧
      ∀ j a, a ≠ base j → S'.mem j a = S.mem j a := by
  obtain ⟨S', h, hS', hf⟩ := C63_native_partial (g := .scalar) trivial C hR hU same hX (fun _ => trivial) base p hw S (fun _ => L) (fun _ => L') hS
    (fun i hi => by
      have : i = 0 := by simp at hi; omega
      subst this; exact hL)
  exact ⟨S', h, hS', fun j a ha => hf j a (by simp; omega)⟩

/-- **C63**, the ABI does not matter: a program that is defined for every element gives the same elements with a native ABI and with
`fixed_size<n>` on any target. -/
theorem C63_abi_independent {t : Abi.Target} {T : Abi.Elem} (ht : t.Consistent) (hT : T.Ok) (hg : g.Ok) {E : Program.Elem K} (C C' : Cfg K β)
    (hld : C'.ld = C.ld) (hst : C'.st = C.st) (hR : Implements C.R E g) (hR' : ∀ g' ∈ Tuple.regs t T g.size, Implements C'.R E g')
    {t₀ : Abi.Target} {U U' : Abi.Elem} (hU : U.Ok) (hU' : U'.Ok) (same same' : Bool) (hX : C.xfer = Xfer.of t₀ U same)
    (hX' : C'.xfer = Xfer.of t U' same') (hp : C.path g = .raw → Exact g) (base base' : Nat → Nat) (p : Stmt K) (hw : p.WellFormed)
    (S : State (nativeImpl C g)) (S' : State (fixedImpl C' (Tuple.regs t T g.size) g.size)) (L R : Nat → Lane K β)
    (hS : ObservedNative C g base S L) (hS' : Observed C' t T g.size base' S' L)
    (hL : ∀ i < g.size, p.exec E C.ld C.st g.size i (L i) = some (R i)) :
    ∃ Z Z', run (nativeImpl C g) E.width base p S = some Z ∧
      run (fixedImpl C' (Tuple.regs t T g.size) g.size) E.width base' p S' = some Z' ∧
      (∀ x, List.take (α := K.Bits) g.size (Z.v x) = Tuple.lanes (Tuple.regs t T g.size) (Z'.v x)) ∧
      (∀ x, maskLanes g (Z.m x) = BitMask.lanes (n := g.size) (s := true) (Z'.m x)) ∧
      ∀ j, ∀ i < g.size, Z.mem j (base j + i) = Z'.mem j (base' j + i) := by
  obtain ⟨Z, hZ, oZ, _⟩ := C63_native_partial hg C hR hU same hX hp base p hw S L R hS hL
  obtain ⟨Z', hZ', oZ', _⟩ := C63_program ht hT hg.one_le hg.le64 C' hR' hU' same' hX' base' p hw S' L R hS' (by rw [hld, hst]; exact hL)
  exact ⟨Z, Z', hZ, hZ', fun x => by rw [(oZ.v x).2, (oZ'.v x).2], fun x => by rw [(oZ.m x).2, (oZ'.m x).2],
    fun j i hi => by rw [oZ.mem j i hi, oZ'.mem j i hi]⟩

/-- **C63** for native unsigned integers with `_SimdImplBuiltin`, partial as `C63_native_partial`. -/
theorem C63_native_unsigned_partial {w : Nat} (hw : 0 < w) (hg : g.Ok) (C : Cfg (.int false w) β) (junk : BitVec w → Nat → BitVec w)
    (hC : C.R = builtinInt false w junk) {t : Abi.Target} {U : Abi.Elem} (hU : U.Ok) (same : Bool) (hX : C.xfer = Xfer.of t U same)
    (hp : C.path g = .raw → Exact g) (base : Nat → Nat) (p : Stmt (.int false w)) (hpw : p.WellFormed) (S : State (nativeImpl C g))
    (L L' : Nat → Lane (.int false w) β) (hS : ObservedNative C g base S L)
    (hL : ∀ i < g.size, p.exec (intElem false w w) C.ld C.st g.size i (L i) = some (L' i)) :
    ∃ S', run (nativeImpl C g) (max w 32) base p S = some S' ∧ ObservedNative C g base S' L' ∧
      ∀ j a, (a < base j ∨ base j + g.size ≤ a) → S'.mem j a = S.mem j a :=
  C63_native_partial hg (E := intElem false w w) C (by
    rw [hC, ← only_true (intElem false w w)]
    exact builtinInt_implements false hw junk hg _ (fun _ => .inl rfl)) hU same hX hp base p hpw S L L' hS hL

/-- **C63** for native signed integers that fill the register, all operators (in particular for `native_simd<T>`). -/
theorem C63_native_signed_full {w : Nat} (hw : 0 < w) (hg : g.Ok) (hfull : g.size = g.full) (C : Cfg (.int true w) β)
    (junk : BitVec w → Nat → BitVec w) (hC : C.R = builtinInt true w junk) {t : Abi.Target} {U : Abi.Elem} (hU : U.Ok) (same : Bool)
    (hX : C.xfer = Xfer.of t U same) (hp : C.path g = .raw → Exact g) (base : Nat → Nat) (p : Stmt (.int true w)) (hpw : p.WellFormed)
    (S : State (nativeImpl C g)) (L L' : Nat → Lane (.int true w) β) (hS : ObservedNative C g base S L)
    (hL : ∀ i < g.size, p.exec (intElem true w w) C.ld C.st g.size i (L i) = some (L' i)) :
    ∃ S', run (nativeImpl C g) (max w 32) base p S = some S' ∧ ObservedNative C g base S' L' ∧
      ∀ j a, (a < base j ∨ base j + g.size ≤ a) → S'.mem j a = S.mem j a :=
  C63_native_partial hg (E := intElem true w w) C (by
    rw [hC, ← only_true (intElem true w w)]
    exact builtinInt_implements true hw junk hg _ (fun _ => .inr hfull)) hU same hX hp base p hpw S L L' hS hL

/-- **C63** for native floating-point objects, partial as `C63_native_partial`. -/
theorem C63_native_floating_partial (hg : g.Ok) (C : Cfg K β) (one : K.Bits) (u : UOp → K.Bits → K.Bits) (b : BOp → K.Bits → K.Bits → K.Bits)
    (hC : C.R = builtinFloat one u b) {t : Abi.Target} {U : Abi.Elem} (hU : U.Ok) (same : Bool) (hX : C.xfer = Xfer.of t U same)
    (hp : C.path g = .raw → Exact g) (base : Nat → Nat) (p : Stmt K) (hpw : p.WellFormed) (S : State (nativeImpl C g)) (L L' : Nat → Lane K β)
    (hS : ObservedNative C g base S L) (hL : ∀ i < g.size, p.exec (totalElem u b) C.ld C.st g.size i (L i) = some (L' i)) :
    ∃ S', run (nativeImpl C g) 0 base p S = some S' ∧ ObservedNative C g base S' L' ∧
      ∀ j a, (a < base j ∨ base j + g.size ≤ a) → S'.mem j a = S.mem j a :=
  C63_native_partial hg (E := totalElem u b) C (by rw [hC]; exact builtinFloat_implements one u b hg) hU same hX hp base p hpw S L L' hS hL

/-! ## concrete programs -/

/-- `exProg` of Props/SimdClass.lean on four `long` in an AVX2 register, and on 2 `long` of an AVX-512VL register whose mask has phantom bits. -/
def exNImpl (signed : Bool) (g : Geo) : Impl (.int signed 64) (BitVec 64) := nativeImpl (exCfg signed) g

def exNState (signed : Bool) : State (exNImpl signed (.vec 64 4 4)) where
  v := fun (_ : Nat) => ([0#64, 4#64, 8#64, 12#64] : List (BitVec 64))
  m := fun (_ : Nat) => ([0#64, 0#64, -1#64, 0#64] : VMask 64)
  mem := fun _ a => if a < 10 then some 77#64 else none

-- hypotheses and conclusion on a concrete program
example : ObservedNative (exCfg false) (.vec 64 4 4) (fun _ => 4) (exNState false) (exLane false) ∧ Exact (.vec 64 4 4) ∧
    ∀ i < 4, ((exProg false).exec (intElem false 64 64) id id 4 i (exLane false i)).isSome := by
  refine ⟨⟨fun x => ⟨rfl, rfl⟩, fun x => ⟨⟨rfl, ?_⟩, by rfl⟩, fun j i hi => ?_⟩, rfl, ?_⟩
  · intro v hv
    change v ∈ [0#64, 0#64, -1#64, 0#64] at hv
    simp only [List.mem_cons, List.not_mem_nil, or_false] at hv
    rcases hv with rfl | rfl | rfl | rfl <;> decide
  · simp only [exNState, exLane]; rw [if_pos (by simp at hi; omega)]
  · intro i hi
    have : i = 0 ∨ i = 1 ∨ i = 2 ∨ i = 3 := by omega
    rcases this with rfl | rfl | rfl | rfl <;> decide +kernel
example : ((run (exNImpl false (.vec 64 4 4)) 64 (fun _ => 4) (exProg false) (exNState false)).map fun S =>
    ((S.v 0 : List (BitVec 64)), (S.v 1 : List (BitVec 64)), maskLanes (.vec 64 4 4) (S.m 0),
      (List.range 9).map (S.mem 0))) =
    some ([1#64, 9#64, 32#64, 48#64], [-3#64, -1#64, 1#64, 3#64], [true, false, true, false],
      [77#64, 77#64, 77#64, 77#64, 1#64, 77#64, 32#64, 77#64, 77#64].map some) := by decide +kernel

/-- `where(v0 == v1, v2).copy_from(p)` -/
def exLoad : Stmt (.int false 64) := .whereLoad (.cmp .eq (.var 0) (.var 1)) 2 0

def exLoadState : State (exNImpl false (.vec 64 3 4)) where
  v := fun (_ : Nat) => ([0#64, 4#64, 8#64, 0#64] : List (BitVec 64))
  m := fun (_ : Nat) => ([0#64, 0#64, -1#64, 0#64] : VMask 64)
  mem := fun _ a => if a < 7 then some 77#64 else none

/-- **C63, finding.** `where(v0 == v1, v2).copy_from(p)` with partially filled registers (three `long` in four) on AVX2, when `p` points to an array
of three: the scalar program is defined for each element; the one on native `simd` objects reads the fourth element (C13). -/
theorem C63_native_masked_load_wrong :
    (∀ i < 3, (exLoad.exec (intElem false 64 64) id id 3 i (exLane false i)).isSome) ∧
    ObservedNative (exCfg false) (.vec 64 3 4) (fun _ => 4) exLoadState (exLane false) ∧
    run (nativeImpl (exCfg false) (.vec 64 3 4)) 64 (fun _ => 4) exLoad exLoadState = none := by
  refine ⟨?_, ⟨fun x => ⟨rfl, rfl⟩, fun x => ⟨⟨rfl, ?_⟩, by rfl⟩, fun j i hi => ?_⟩, by rfl⟩
  · intro i hi
    have : i = 0 ∨ i = 1 ∨ i = 2 := by omega
    rcases this with rfl | rfl | rfl <;> decide +kernel
  · intro v hv
    change v ∈ [0#64, 0#64, -1#64] at hv
    simp only [List.mem_cons, List.not_mem_nil, or_false] at hv
    rcases hv with rfl | rfl | rfl <;> decide
  · simp only [exLoadState, exLane]; rw [if_pos (by simp at hi; omega)]

end StdSimd.Props
