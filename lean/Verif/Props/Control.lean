import Verif.Proofs.ControlImpl
import Verif.Proofs.ControlFuel
import Verif.Props.SimdNative
/-!
# C64: programs whose control flow depends on masks

Specification: `Spec/Control.lean` (programs with `if`, `while`, subscripts and reductions over the program language of C63; `Ctl.exec` says what they
do with `n` elements, and whether they end).  The model (`Model/Control.lean`) runs the same program with the functions of the library: `runCtl`.
-/
namespace StdSimd.Props
open StdSimd Spec Spec.Program Spec.Control SimdClass Tuple Native
variable {K : Kind} {β : Type} {t : Abi.Target} {T : Abi.Elem} {n : Nat} {g : Geo}

/-! ## C31: `popcount` of x86 vector masks without POPCNT, all registers -/

/-- **C31** (partial). For every element size and every register that is not more than twice as large as needed, except 32-byte registers of elements
smaller than 8 bytes, `popcount` without the POPCNT instruction is the number of set lanes.  Missing: those registers (`C31_x86_popcount_no_return`). -/
theorem C31_x86_popcount_partial {w full : Nat} (hw : w = 8 ∨ w = 16 ∨ w = 32 ∨ w = 64) (h2 : 2 ≤ n) (hn : n ≤ full) (hf : full < 2 * n)
    (hr : full * w = 64 ∨ full * w = 128 ∨ (full * w = 256 ∧ w = 64)) {k : VMask w} (hk : VMask.Wf n full k) :
    SimdClass.x86Popcount n full k = some (Spec.popcount (VMask.lanes n k) : Int) := by
  refine SimdClass.x86Popcount_spec hn ?_ hk
  rcases hw with rfl | rfl | rfl | rfl <;> omega

/-- **C31** (negation). In a 32-byte register of elements of 1, 2 or 4 bytes `popcount` without POPCNT (`-mavx2 -mno-popcnt`) has no value, whatever
the mask: control reaches the end of the function without a `return`. -/
theorem C31_x86_popcount_no_return {w full : Nat} (hw : w = 8 ∨ w = 16 ∨ w = 32) (hf : full < 2 * n) (hr : full * w = 256) (k : VMask w) :
    SimdClass.x86Popcount n full k = none := by
  rcases hw with rfl | rfl | rfl
  · simp only [SimdClass.x86Popcount]; rw [if_neg (by omega)]
  · simp only [SimdClass.x86Popcount]; rw [if_neg (by omega)]
  · simp only [SimdClass.x86Popcount]; rw [if_neg (by omega)]

-- concrete cases: three lanes of 4 bytes in a 16-byte register; eight lanes in a 32-byte register
example : SimdClass.x86Popcount 3 4 ([BitVec.allOnes 32, 0#32, BitVec.allOnes 32, BitVec.allOnes 32] : VMask 32) = some 2 := by
  rw [C31_x86_popcount_partial (n := 3) (w := 32) (full := 4) (by simp) (by omega) (by omega) (by omega) (by simp) ⟨rfl, by simp⟩]; rfl
example : SimdClass.x86Popcount 8 8 (List.replicate 8 (BitVec.allOnes 32) : VMask 32) = none :=
  C31_x86_popcount_no_return (by simp) (by omega) rfl _

/-- **C64.** On `fixed_size<n>` objects, after any number of rounds: if the specified program has ended with elements `L'`, the program has ended with
objects that have these elements, and memory outside the arrays is not changed; if the specified program is still running, so is the program.  For every
target, number of elements, program, padding, choice of code paths (`C.c`, `c`, `isConst`: what the compiler knows), and every native implementation
that computes the operators `E` on the elements of a register. -/
theorem C64_control (ht : t.Consistent) (hT : T.Ok) (h1 : 1 ≤ n) (h64 : n ≤ 64) {E : Program.Elem K} (A : Arith K) (C : Cfg K β)
    (hR : ∀ g ∈ regs t T n, Implements C.R E g) {U : Abi.Elem} (hU : U.Ok) (same : Bool) (hX : C.xfer = Xfer.of t U same) (c : Bool)
    (isConst : BitMask n true → Bool) (base : Nat → Nat) (p : Ctl K) (hp : p.WellFormed A) (S : State (fixedImpl C (regs t T n) n))
    (L : Nat → Lane K β) (hS : Observed C t T n base S L) (fuel : Nat) :
    (∀ L', p.exec E A C.ld C.st n fuel L = .done L' →
      ∃ S', runCtl (fixedRed C t T.size A c (regs t T n) n isConst) E.width base fuel p S = .done S' ∧ Observed C t T n base S' L' ∧
        ∀ j a, (a < base j ∨ base j + n ≤ a) → S'.mem j a = S.mem j a) ∧
    (p.exec E A C.ld C.st n fuel L = .running →
      runCtl (fixedRed C t T.size A c (regs t T n) n isConst) E.width base fuel p S = .running) := by
  have h := runCtl_spec (base := base) (fixed_correct ht hT h1 h64 C hR hU same hX) (fixed_red ht hT h1 h64 C A c isConst) fuel p hp
    (fun _ => trivial) S L ((observed_iff ht hT h1 C base S L).1 hS)
  change Sim _ _ _ _ _ _ (p.exec E A C.ld C.st n fuel L) at h
  constructor
  · intro L' e
    rw [e] at h
    obtain ⟨S', e', hS', hf⟩ := h
    exact ⟨S', e', (observed_iff ht hT h1 C base S' L').2 hS', hf⟩
  · intro e
    rw [e] at h
    exact h

/-- **C64**, termination: if the specified program ends, so does the program, with the specified elements, and allowing more rounds makes no difference;
if the specified program runs for ever, so does the program. -/
theorem C64_termination (ht : t.Consistent) (hT : T.Ok) (h1 : 1 ≤ n) (h64 : n ≤ 64) {E : Program.Elem K} (A : Arith K) (C : Cfg K β)
    (hR : ∀ g ∈ regs t T n, Implements C.R E g) {U : Abi.Elem} (hU : U.Ok) (same : Bool) (hX : C.xfer = Xfer.of t U same) (c : Bool)
    (isConst : BitMask n true → Bool) (base : Nat → Nat) (p : Ctl K) (hp : p.WellFormed A) (S : State (fixedImpl C (regs t T n) n))
    (L : Nat → Lane K β) (hS : Observed C t T n base S L) :
    (∀ k L', p.exec E A C.ld C.st n k L = .done L' → ∀ fuel, k ≤ fuel →
      ∃ S', runCtl (fixedRed C t T.size A c (regs t T n) n isConst) E.width base fuel p S = .done S' ∧ Observed C t T n base S' L') ∧
    ((∀ k, p.exec E A C.ld C.st n k L = .running) →
      ∀ fuel, runCtl (fixedRed C t T.size A c (regs t T n) n isConst) E.width base fuel p S = .running) := by
  constructor
  · intro k L' e fuel hk
    rcases exec_mono E A C.ld C.st n hk p L with h | h
    · rw [e] at h; cases h
    · obtain ⟨S', e', o, _⟩ := (C64_control ht hT h1 h64 A C hR hU same hX c isConst base p hp S L hS fuel).1 L' (h ▸ e)
      exact ⟨S', e', o⟩
  · intro e fuel
    exact (C64_control ht hT h1 h64 A C hR hU same hX c isConst base p hp S L hS fuel).2 (e fuel)

/-- `+` and `*` of unsigned integers. -/
def uintArith (w : Nat) : Arith (.int false w) where
  add := fun (a b : BitVec w) => (a + b : BitVec w)
  mul := fun (a b : BitVec w) => (a * b : BitVec w)
  one := (1#w : BitVec w)

/-- `std::plus<>` and `std::multiplies<>` are as `reduce` requires. -/
theorem uint_ok (w : Nat) : ROp.Ok (uintArith w) .plus ∧ ROp.Ok (uintArith w) .multiplies :=
  ⟨⟨fun a b c => BitVec.add_assoc a b c, fun a b => BitVec.add_comm a b, fun a => BitVec.add_zero a⟩,
   ⟨fun a b c => BitVec.mul_assoc a b c, fun a b => BitVec.mul_comm a b, fun a => BitVec.mul_one a⟩⟩

/-- **C64** for unsigned integers with `_SimdImplBuiltin`: all operators, and reductions with `std::plus<>` and `std::multiplies<>`. -/
theorem C64_unsigned {w : Nat} (hw : 0 < w) (ht : t.Consistent) (hT : T.Ok) (h1 : 1 ≤ n) (h64 : n ≤ 64) (C : Cfg (.int false w) β)
    (junk : BitVec w → Nat → BitVec w) (hC : C.R = builtinInt false w junk) {U : Abi.Elem} (hU : U.Ok) (same : Bool)
    (hX : C.xfer = Xfer.of t U same) (c : Bool) (isConst : BitMask n true → Bool) (base : Nat → Nat) (p : Ctl (.int false w))
    (hp : p.WellFormed (uintArith w)) (S : State (fixedImpl C (regs t T n) n)) (L : Nat → Lane (.int false w) β)
    (hS : Observed C t T n base S L) (fuel : Nat) (L' : Nat → Lane (.int false w) β)
    (hL : p.exec (intElem false w w) (uintArith w) C.ld C.st n fuel L = .done L') :
    ∃ S', runCtl (fixedRed C t T.size (uintArith w) c (regs t T n) n isConst) (max w 32) base fuel p S = .done S' ∧
      Observed C t T n base S' L' ∧ ∀ j a, (a < base j ∨ base j + n ≤ a) → S'.mem j a = S.mem j a :=
  (C64_control ht hT h1 h64 (E := intElem false w w) (uintArith w) C (fun g hg => by
    rw [hC, ← only_true (intElem false w w)]
    exact builtinInt_implements false hw junk ((regs_facts ht hT h1).2.1 g hg) _ (fun _ => .inl rfl)) hU same hX c isConst base p hp S L hS
    fuel).1 L' hL

/-- **C64** for native ABIs, partial: as `C64_control`, for objects that are one register, for the mask functions of `_MaskImplScalar`,
`_MaskImplBuiltin` and `_MaskImplX86` (`p`, `wide`; `hf`: those the library chooses for the register).  Missing: masked loads and stores of partially
filled registers that use the mask register as it is (`hp`, as in C63), and `find_last_set` of bit masks that do not fill their type (`hl`); with
the latter the property fails (`C64_find_last_set_wrong`). -/
theorem C64_native_partial (hg : g.Ok) {E : Program.Elem K} (A : Arith K) (C : Cfg K β) (hR : Implements C.R E g) {t : Abi.Target} {U : Abi.Elem}
    (hU : U.Ok) (same : Bool) (hX : C.xfer = Xfer.of t U same) (hp : C.path g = .raw → Exact g) {s : Nat} (hr : Reduce.Regular t s g)
    {path : VecPath} {wide : Bool} (hf : FnsFit path wide g) (isConst : MaskM g → Bool) (base : Nat → Nat) (p : Ctl K) (hw : p.WellFormed A)
    (hl : p.usesLast = true → LastOk g) (S : State (nativeImpl C g)) (L : Nat → Lane K β) (hS : ObservedNative C g base S L) (fuel : Nat) :
    (∀ L', p.exec E A C.ld C.st g.size fuel L = .done L' →
      ∃ S', runCtl (nativeRed C t s A path wide g isConst) E.width base fuel p S = .done S' ∧ ObservedNative C g base S' L' ∧
        ∀ j a, (a < base j ∨ base j + g.size ≤ a) → S'.mem j a = S.mem j a) ∧
    (p.exec E A C.ld C.st g.size fuel L = .running →
      runCtl (nativeRed C t s A path wide g isConst) E.width base fuel p S = .running) := by
  have h := runCtl_spec (base := base) (native_correct hg C hR hU same hX hp) (native_red hg hr hf C A isConst) fuel p hw hl S L
    ((observedNative_iff hg C base S L).1 hS)
  change Sim _ _ _ _ _ _ (p.exec E A C.ld C.st g.size fuel L) at h
  constructor
  · intro L' e
    rw [e] at h
    obtain ⟨S', e', hS', hf⟩ := h
    exact ⟨S', e', (observedNative_iff hg C base S' L').2 hS', hf⟩
  · intro e
    rw [e] at h
    exact h

/-- **C64**, the ABI does not matter: a program that ends after `fuel` rounds gives the same elements with a native ABI and with `fixed_size<n>` on any
target, whatever the compiler knows. -/
theorem C64_abi_independent_partial {T : Abi.Elem} (ht : t.Consistent) (hT : T.Ok) (hg : g.Ok) {E : Program.Elem K} (A : Arith K) (C C' : Cfg K β)
    (hld : C'.ld = C.ld) (hst : C'.st = C.st) (hR : Implements C.R E g) (hR' : ∀ g' ∈ Tuple.regs t T g.size, Implements C'.R E g')
    {t₀ : Abi.Target} {U U' : Abi.Elem} (hU : U.Ok) (hU' : U'.Ok) (same same' : Bool) (hX : C.xfer = Xfer.of t₀ U same)
    (hX' : C'.xfer = Xfer.of t U' same') (hp : C.path g = .raw → Exact g) {s : Nat} (hr : Reduce.Regular t₀ s g) {path : VecPath} {wide : Bool}
    (hf : FnsFit path wide g) (c : Bool) (isConst : MaskM g → Bool) (isConst' : BitMask g.size true → Bool) (base base' : Nat → Nat) (p : Ctl K)
    (hw : p.WellFormed A) (hl : p.usesLast = true → LastOk g) (S : State (nativeImpl C g))
    (S' : State (fixedImpl C' (Tuple.regs t T g.size) g.size)) (L R : Nat → Lane K β) (hS : ObservedNative C g base S L)
    (hS' : Observed C' t T g.size base' S' L) (fuel : Nat) (hL : p.exec E A C.ld C.st g.size fuel L = .done R) :
    ∃ Z Z', runCtl (nativeRed C t₀ s A path wide g isConst) E.width base fuel p S = .done Z ∧
      runCtl (fixedRed C' t T.size A c (regs t T g.size) g.size isConst') E.width base' fuel p S' = .done Z' ∧
      (∀ x, List.take (α := K.Bits) g.size (Z.v x) = Tuple.lanes (Tuple.regs t T g.size) (Z'.v x)) ∧
      (∀ x, maskLanes g (Z.m x) = BitMask.lanes (n := g.size) (s := true) (Z'.m x)) ∧
      ∀ j, ∀ i < g.size, Z.mem j (base j + i) = Z'.mem j (base' j + i) := by
  obtain ⟨Z, hZ, oZ, _⟩ := (C64_native_partial hg A C hR hU same hX hp hr hf isConst base p hw hl S L hS fuel).1 R hL
  obtain ⟨Z', hZ', oZ', _⟩ := (C64_control ht hT hg.one_le hg.le64 A C' hR' hU' same' hX' c isConst' base' p hw S' L hS' fuel).1 R
    (by rw [hld, hst]; exact hL)
  exact ⟨Z, Z', hZ, hZ', fun x => by rw [(oZ.v x).2, (oZ'.v x).2], fun x => by rw [(oZ.m x).2, (oZ'.m x).2],
    fun j i hi => by rw [oZ.mem j i hi, oZ'.mem j i hi]⟩

/-! ## concrete programs -/

/-- `v0 = 1, 5, 9, ...; v1 = 0; while (any_of(v0 != 1)) { m0 = v0 != 1; where(m0, v1) += 1; m1 = (v0 & 1) == 0;
where(m0 && m1, v0) = v0 >> 1; where(m0 && !m1, v0) = 3 * v0 + 1; }
if (some_of(v1 > 10) && popcount(v1 > 10) < 3) { v2 = reduce(v1, std::plus<>()); v3 = v1[find_last_set(v1 < 10)];
v4[find_first_set(v1 > 10)] = v1[0]; v5 = reduce(where(v1 > 10, v1), 1, std::multiplies<>()) } else v2 = 7` -/
def exCollatz : Ctl (.int false 64) :=
  .seq (.base (.seq (.assign 0 (.gen fun i => BitVec.ofNat 64 (4 * i + 1))) (.seq (.assign 1 (.const 0#64)) (.assign 4 (.const 0#64))))) <|
  .seq (.while (.anyOf (.cmp .ne (.var 0) (.const 1#64))) <| .base <|
    .seq (.massign 0 (.cmp .ne (.var 0) (.const 1#64))) <| .seq (.whereCompound (.var 0) .add 1 (.const 1#64)) <|
    .seq (.massign 1 (.cmp .eq (.bin .and (.var 0) (.const 1#64)) (.const 0#64))) <|
    .seq (.whereAssign (.bin .and (.var 0) (.var 1)) 0 (.shift false (.var 0) 1))
      (.whereAssign (.bin .and (.var 0) (.not (.var 1))) 0 (.bin .add (.bin .mul (.const 3#64) (.var 0)) (.const 1#64)))) <|
  .ite (.and (.someOf (.cmp .gt (.var 1) (.const 10#64))) (.num (.popcount (.cmp .gt (.var 1) (.const 10#64))) (· < 3)))
    (.seq (.reduce 2 .plus (.var 1)) <| .seq (.pick 3 (.var 1) (.last (.cmp .lt (.var 1) (.const 10#64)))) <|
      .seq (.put 4 (.first (.cmp .gt (.var 1) (.const 10#64))) (.var 1) (.lit 1)) <|
      .whereReduce 5 .multiplies (.cmp .gt (.var 1) (.const 10#64)) 1 (1#64 : BitVec 64))
    (.base (.assign 2 (.const 7#64)))

theorem exCollatz_wf : exCollatz.WellFormed (uintArith 64) :=
  ⟨⟨trivial, trivial, trivial⟩, ⟨trivial, ⟨by decide, by decide⟩, trivial, trivial, trivial⟩,
    ⟨(uint_ok 64).1, trivial, trivial, (uint_ok 64).2, fun a => BitVec.mul_one a⟩, trivial⟩

/-- What the user sees of the first six objects. -/
def Shown {σ : Type} (f : σ → Nat → List (BitVec 64)) : Outcome σ → Option (List (List (BitVec 64)))
  | .done s => some ((List.range 6).map (f s))
  | _ => none

-- the specified program ends, after 19 rounds (hypothesis `hL`); the numbers of steps are 0, 5 and 19
example : Shown (fun (L : Nat → Lane (.int false 64) (BitVec 64)) x => (List.range 3).map fun i => ((L i).v x : BitVec 64))
    (exCollatz.exec (intElem false 64 64) (uintArith 64) id id 3 20 (exLane false)) =
    some [[1#64, 1#64, 1#64], [0#64, 5#64, 19#64], [24#64, 24#64, 24#64], [5#64, 5#64, 5#64], [0#64, 0#64, 5#64], [19#64, 19#64, 19#64]] := by
  decide +kernel
example : (exCollatz.exec (intElem false 64 64) (uintArith 64) id id 3 19 (exLane false)) = .running := by rfl
-- the program on three `unsigned long` in a register of four does the same, whether the compiler knows the masks or not
example : ∀ b, Shown (fun (S : State (exImpl false)) x => lanes [.vec 64 3 4] (S.v x : Tup (BitVec 64)))
    (runCtl (fixedRed (exCfg false) exAvx2 8 (uintArith 64) false [.vec 64 3 4] 3 (fun _ => b)) 64 (fun _ => 4) 20 exCollatz (exState false)) =
    some [[1#64, 1#64, 1#64], [0#64, 5#64, 19#64], [24#64, 24#64, 24#64], [5#64, 5#64, 5#64], [0#64, 0#64, 5#64], [19#64, 19#64, 19#64]] := by
  decide +kernel

-- the hypotheses of `C64_native_partial` for four `unsigned long` in an AVX2 register with the functions of `_MaskImplX86`, and the program on it
example : Reduce.Regular exAvx2 8 (.vec 64 4 4) ∧ FnsFit (.x86 true true false true false) false (.vec 64 4 4) ∧
    FnsFit (.x86 true false false true false) false (.vec 64 4 4) ∧ LastOk (.vec 64 4 4) :=
  ⟨Or.inr ⟨by simp [Reduce.SizeOk], by decide, by decide +kernel⟩, by simp [FnsFit, VecPath.Fits], by simp [FnsFit, VecPath.Fits],
    fun n f h => by cases h⟩
example : Shown (fun (S : State (exNImpl false (.vec 64 4 4))) x => (S.v x : List (BitVec 64)))
    (runCtl (nativeRed (exCfg false) exAvx2 8 (uintArith 64) (.x86 true true false true false) false (.vec 64 4 4) (fun _ => false)) 64 (fun _ => 4)
      20 exCollatz (exNState false)) =
    some [[1#64, 1#64, 1#64, 1#64], [0#64, 5#64, 19#64, 9#64], [33#64, 33#64, 33#64, 33#64], [9#64, 9#64, 9#64, 9#64],
      [0#64, 0#64, 5#64, 0#64], [19#64, 19#64, 19#64, 19#64]] := by
  decide +kernel

/-- `if (any_of(v0 != v1)) v2 = v0[find_last_set(v0 != v1)]` -/
def exLast : Ctl (.int false 64) :=
  .ite (.anyOf (.cmp .ne (.var 0) (.var 1))) (.pick 2 (.var 0) (.last (.cmp .ne (.var 0) (.var 1)))) (.base .skip)

def exLastCfg : Cfg (.int false 64) (BitVec 64) := { exCfg false with path := fun _ => .bits }

def exLastState : State (nativeImpl exLastCfg (.bitmask 4 4)) where
  v := fun (x : Nat) => (if x = 1 then [0#64, 0#64, 8#64, 12#64] else [0#64, 4#64, 8#64, 12#64] : List (BitVec 64))
  m := fun (_ : Nat) => (0#8 : KMask 4)
  mem := fun _ a => if a < 10 then some 77#64 else none

def exLastLane (i : Nat) : Lane (.int false 64) (BitVec 64) where
  v := fun (x : Nat) => (if x = 1 then [0#64, 0#64, 8#64, 12#64] else [0#64, 4#64, 8#64, 12#64] : List (BitVec 64)).getD i 0#64
  m := fun _ => false
  arr := fun _ => 77#64

/-- **C64, finding.** `if (any_of(a != b)) c = a[find_last_set(a != b)]` with four `unsigned long` in an AVX-512VL register: the specified program is
defined; the program has undefined behaviour, because `find_last_set` returns 7 (C32: `!=` sets the unused bits of the mask). -/
theorem C64_find_last_set_wrong (isConst : MaskM (.bitmask 4 4) → Bool) (hc : ∀ k, isConst k = false) (path : VecPath) (wide : Bool) :
    (∃ L', exLast.exec (intElem false 64 64) (uintArith 64) id id 4 1 exLastLane = .done L' ∧ ∀ i < 4, (L' i).v 2 = 4#64) ∧
    ObservedNative exLastCfg (.bitmask 4 4) (fun _ => 4) exLastState exLastLane ∧
    runCtl (nativeRed exLastCfg {} 8 (uintArith 64) path wide (.bitmask 4 4) isConst) 64 (fun _ => 4) 1 exLast exLastState = .undef := by
  obtain rfl : isConst = fun _ => false := funext hc
  refine ⟨⟨_, rfl, fun i _ => rfl⟩, ⟨fun x => ⟨?_, ?_⟩, fun x => ⟨trivial, show KMask.lanes (n := 4) 0#8 = [false, false, false, false] by decide⟩, fun j i hi => ?_⟩, by rfl⟩
  · simp only [exLastState]; split <;> rfl
  · simp only [exLastState, exLastLane]; split <;> rfl
  · simp only [exLastState, exLastLane]; rw [if_pos (by simp at hi; omega)]

end StdSimd.Props
