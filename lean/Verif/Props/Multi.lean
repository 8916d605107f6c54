import Verif.Proofs.MultiFixed
import Verif.Props.Control
/-!
# C65: programs on objects of several element types

Specification: `Spec/Multi.lean` (programs with conversions between objects of different types, `Prog.exec`).  The model (`Model/Multi.lean`) runs the same
program with the operators, mask functions and conversions of the library: `runMulti`.
-/
namespace StdSimd.Props
open StdSimd Spec Spec.Program Spec.Control Spec.Multi SimdClass Tuple Native
variable {ι : Type} [DecidableEq ι] {K : ι → Kind} {β : ι → Type} {t : Abi.Target}

/-- **C65.** On `fixed_size` objects of any types, after any number of rounds: if the specified program has ended with elements `L'`, the program has ended
with objects that have these elements, and memory outside the arrays is not changed; if the specified program is still running, so is the program.
For every target, family of types (`T a` is the element type of type `a`, `Y` says what its operators, numbers of elements and `static_cast`s are),
program, padding, choice of code paths; for all native implementations that compute the operators on the elements of a register and element
conversions (`ctx a b`) that are right where `static_cast` is defined.  `hq`: `resizing_simd_cast` of values is for types with the same element type. -/
theorem C65_multi (ht : t.Consistent) {T : ι → Abi.Elem} (hT : ∀ a, (T a).Ok) (Y : Types K β)
    (hv : ∀ a, Abi.valid t (T a) (.fixed (Y.n a)) = true) (C : ∀ a, Cfg (K a) (β a)) (hld : ∀ a, (C a).ld = Y.ld a) (hst : ∀ a, (C a).st = Y.st a)
    (hR : ∀ a, ∀ g ∈ regs t (T a) (Y.n a), Implements (C a).R (Y.E a) g) {U : ι → Abi.Elem} (hU : ∀ a, (U a).Ok) (memSame : ι → Bool)
    (hX : ∀ a, (C a).xfer = Xfer.of t (U a) (memSame a)) (ctx : ∀ a b, Convert.Ctx (K a).Bits (K b).Bits)
    (hcast : ∀ a b x y, Y.cv a b x = some y → (ctx a b).cast x = y) (same ident : ι → ι → Bool)
    (hsame : ∀ a b, same a b = true → T a = T b) (hident : ∀ a b, ident a b = true → T a = T b) (c : ι → Bool)
    (isConst : ∀ a, BitMask (Y.n a) true → Bool) (base : ι → Nat → Nat) (p : Prog K) (hp : p.WellFormed Y)
    (hq : p.Convs (fun _ _ => True) (fun a b => T a = T b) (fun _ _ => True)) (S : ∀ a, State (fixedImpl (C a) (regs t (T a) (Y.n a)) (Y.n a))) (L : ∀ a, Nat → Lane (K a) (β a))
    (hS : ∀ a, Observed (C a) t (T a) (Y.n a) (base a) (S a) (L a)) (fuel : Nat) :
    (∀ L', p.exec Y fuel L = .done L' →
      ∃ S', runMulti (fun a => fixedRed (C a) t (T a).size (Y.A a) (c a) (regs t (T a) (Y.n a)) (Y.n a) (isConst a))
          (fixedCasts t T Y.n C ctx same ident) (fun a => (Y.E a).width) base fuel p S = .done S' ∧
        (∀ a, Observed (C a) t (T a) (Y.n a) (base a) (S' a) (L' a)) ∧
        ∀ a j x, (x < base a j ∨ base a j + Y.n a ≤ x) → (S' a).mem j x = (S a).mem j x) ∧
    (p.exec Y fuel L = .running →
      runMulti (fun a => fixedRed (C a) t (T a).size (Y.A a) (c a) (regs t (T a) (Y.n a)) (Y.n a) (isConst a))
        (fixedCasts t T Y.n C ctx same ident) (fun a => (Y.E a).width) base fuel p S = .running) := by
  have hn := fun a => valid_fixed (hv a)
  have h := runMulti_spec (base := base) (T := Y)
    (fun a => by rw [← hld, ← hst]; exact fixed_correct ht (hT a) (hn a).1 (hn a).2 (C a) (hR a) (hU a) (memSame a) (hX a))
    (fun a => fixed_red ht (hT a) (hn a).1 (hn a).2 (C a) (Y.A a) (c a) (isConst a))
    (fixed_casts ht hT Y hv C ctx hcast same ident hsame hident) fuel p hp hq (fun _ _ => trivial) S L
    (fun a => (observed_iff ht (hT a) (hn a).1 (C a) (base a) (S a) (L a)).1 (hS a))
  constructor
  · intro L' e
    rw [e] at h
    obtain ⟨S', e', hS', hf⟩ := h
    exact ⟨S', e', fun a => (observed_iff ht (hT a) (hn a).1 (C a) (base a) (S' a) (L' a)).2 (hS' a), fun a j x hx => hf a j x hx⟩
  · intro e
    rw [e] at h
    exact h

/-- **C65**, termination: if the specified program ends, so does the program, with the specified elements, and allowing more rounds makes no difference;
if the specified program runs for ever, so does the program. -/
theorem C65_termination (ht : t.Consistent) {T : ι → Abi.Elem} (hT : ∀ a, (T a).Ok) (Y : Types K β)
    (hv : ∀ a, Abi.valid t (T a) (.fixed (Y.n a)) = true) (C : ∀ a, Cfg (K a) (β a)) (hld : ∀ a, (C a).ld = Y.ld a) (hst : ∀ a, (C a).st = Y.st a)
    (hR : ∀ a, ∀ g ∈ regs t (T a) (Y.n a), Implements (C a).R (Y.E a) g) {U : ι → Abi.Elem} (hU : ∀ a, (U a).Ok) (memSame : ι → Bool)
    (hX : ∀ a, (C a).xfer = Xfer.of t (U a) (memSame a)) (ctx : ∀ a b, Convert.Ctx (K a).Bits (K b).Bits)
    (hcast : ∀ a b x y, Y.cv a b x = some y → (ctx a b).cast x = y) (same ident : ι → ι → Bool)
    (hsame : ∀ a b, same a b = true → T a = T b) (hident : ∀ a b, ident a b = true → T a = T b) (c : ι → Bool)
    (isConst : ∀ a, BitMask (Y.n a) true → Bool) (base : ι → Nat → Nat) (p : Prog K) (hp : p.WellFormed Y)
    (hq : p.Convs (fun _ _ => True) (fun a b => T a = T b) (fun _ _ => True)) (S : ∀ a, State (fixedImpl (C a) (regs t (T a) (Y.n a)) (Y.n a))) (L : ∀ a, Nat → Lane (K a) (β a))
    (hS : ∀ a, Observed (C a) t (T a) (Y.n a) (base a) (S a) (L a)) :
    (∀ k L', p.exec Y k L = .done L' → ∀ fuel, k ≤ fuel →
      ∃ S', runMulti (fun a => fixedRed (C a) t (T a).size (Y.A a) (c a) (regs t (T a) (Y.n a)) (Y.n a) (isConst a))
          (fixedCasts t T Y.n C ctx same ident) (fun a => (Y.E a).width) base fuel p S = .done S' ∧
        ∀ a, Observed (C a) t (T a) (Y.n a) (base a) (S' a) (L' a)) ∧
    ((∀ k, p.exec Y k L = .running) → ∀ fuel,
      runMulti (fun a => fixedRed (C a) t (T a).size (Y.A a) (c a) (regs t (T a) (Y.n a)) (Y.n a) (isConst a))
        (fixedCasts t T Y.n C ctx same ident) (fun a => (Y.E a).width) base fuel p S = .running) := by
  have h := fun fuel => C65_multi ht hT Y hv C hld hst hR hU memSame hX ctx hcast same ident hsame hident c isConst base p hp hq S L hS fuel
  constructor
  · intro k L' e fuel hk
    rcases multi_mono Y hk p L with h' | h'
    · rw [e] at h'; cases h'
    · obtain ⟨S', e', o, _⟩ := (h fuel).1 L' (h' ▸ e)
      exact ⟨S', e', o⟩
  · intro e fuel
    exact (h fuel).2 (e fuel)

/-! ## integer types -/

/-- The kinds of integer types with the given signedness and numbers of bits. -/
abbrev intKinds (sgn : ι → Bool) (w : ι → Nat) : ι → Kind := fun a => .int (sgn a) (w a)

/-- **C65** for integer types with `_SimdImplBuiltin` and any conversions between them, partial: without `/` and `%` of signed types with partially filled registers,
where the property fails (`C63_signed_division_wrong`).  `static_cast` between integer types gives the value congruent modulo `2 ^ N`. -/
theorem C65_integers_partial {sgn : ι → Bool} {w : ι → Nat} (hw : ∀ a, 0 < w a) (ht : t.Consistent) {T : ι → Abi.Elem} (hT : ∀ a, (T a).Ok)
    (Y : Types (intKinds sgn w) β) (ops : ι → BOp → Bool) (hE : ∀ a, Y.E a = (intElem (sgn a) (w a) (w a)).only (ops a))
    (hcv : ∀ a b (x : BitVec (w a)), Y.cv a b x = some (BitVec.ofInt (w b) (Spec.value (sgn a) x)))
    (hv : ∀ a, Abi.valid t (T a) (.fixed (Y.n a)) = true)
    (hops : ∀ a, (ops a .div = true ∨ ops a .mod = true) → sgn a = false ∨ ∀ g ∈ regs t (T a) (Y.n a), g.size = g.full)
    (C : ∀ a, Cfg (intKinds sgn w a) (β a)) (hld : ∀ a, (C a).ld = Y.ld a) (hst : ∀ a, (C a).st = Y.st a)
    (junk : ∀ a, BitVec (w a) → Nat → BitVec (w a)) (hC : ∀ a, (C a).R = builtinInt (sgn a) (w a) (junk a)) {U : ι → Abi.Elem}
    (hU : ∀ a, (U a).Ok) (memSame : ι → Bool) (hX : ∀ a, (C a).xfer = Xfer.of t (U a) (memSame a))
    (ctx : ∀ a b, Convert.Ctx (intKinds sgn w a).Bits (intKinds sgn w b).Bits)
    (hcast : ∀ a b (x : BitVec (w a)), (ctx a b).cast x = (BitVec.ofInt (w b) (Spec.value (sgn a) x) : BitVec (w b))) (same ident : ι → ι → Bool)
    (hsame : ∀ a b, same a b = true → T a = T b) (hident : ∀ a b, ident a b = true → T a = T b) (c : ι → Bool)
    (isConst : ∀ a, BitMask (Y.n a) true → Bool) (base : ι → Nat → Nat) (p : Prog (intKinds sgn w)) (hp : p.WellFormed Y)
    (hq : p.Convs (fun _ _ => True) (fun a b => T a = T b) (fun _ _ => True)) (S : ∀ a, State (fixedImpl (C a) (regs t (T a) (Y.n a)) (Y.n a))) (L : ∀ a, Nat → Lane (intKinds sgn w a) (β a))
    (hS : ∀ a, Observed (C a) t (T a) (Y.n a) (base a) (S a) (L a)) (fuel : Nat) (L' : ∀ a, Nat → Lane (intKinds sgn w a) (β a))
    (hL : p.exec Y fuel L = .done L') :
    ∃ S', runMulti (fun a => fixedRed (C a) t (T a).size (Y.A a) (c a) (regs t (T a) (Y.n a)) (Y.n a) (isConst a))
        (fixedCasts t T Y.n C ctx same ident) (fun a => max (w a) 32) base fuel p S = .done S' ∧
      (∀ a, Observed (C a) t (T a) (Y.n a) (base a) (S' a) (L' a)) ∧
      ∀ a j x, (x < base a j ∨ base a j + Y.n a ≤ x) → (S' a).mem j x = (S a).mem j x := by
  have hwid : (fun a => (Y.E a).width) = fun a => max (w a) 32 := by funext a; rw [hE a]; rfl
  have h := (C65_multi ht hT Y hv C hld hst (fun a g hg => by
    rw [hC a, hE a]
    exact builtinInt_implements (sgn a) (hw a) (junk a) ((regs_facts ht (hT a) (valid_fixed (hv a)).1).2.1 g hg) _
      (fun h => (hops a h).imp_right fun h => h g hg)) hU memSame hX ctx (fun a b x y h => by
      rw [hcv a b x] at h
      rw [← Option.some.inj h]
      exact hcast a b x) same ident hsame hident c isConst base p hp hq S L hS fuel).1 L' hL
  rw [hwid] at h
  exact h

/-! ## a concrete program -/

/-- `unsigned char` (type `false`) and `int` (type `true`). -/
abbrev exSgn : Bool → Bool := id
@[inherit_doc exSgn] abbrev exBits (a : Bool) : Nat := if a then 32 else 8
@[inherit_doc exSgn] abbrev exSize (a : Bool) : Abi.Elem := ⟨if a then 4 else 1, false⟩

/-- Five elements each. -/
def exTypes : Types (intKinds exSgn exBits) (fun a => BitVec (exBits a)) where
  E a := (intElem (exSgn a) (exBits a) (exBits a)).only (fun o => !(o == .div) && !(o == .mod))
  A a := ⟨fun (x y : BitVec (exBits a)) => (x + y : BitVec (exBits a)), fun (x y : BitVec (exBits a)) => (x * y : BitVec (exBits a)), (1 : BitVec (exBits a))⟩
  ld a := fun (x : BitVec (exBits a)) => (x : BitVec (exBits a))
  st a := fun (x : BitVec (exBits a)) => (x : BitVec (exBits a))
  n _ := 5
  cv a b := fun (x : BitVec (exBits a)) => some (BitVec.ofInt (exBits b) (Spec.value (exSgn a) x) : BitVec (exBits b))

/-- `c0 = 50 * i + 7; i0 = static_simd_cast<int>(c0); i1 = i0 * 200 - 9000;
while (any_of(i1 > 255) && !all_of(c0 == 0)) where(i1 > 255, i1) = i1 >> 1;
m0 = static_simd_cast<unsigned char>(i1 < 0); c1 = static_simd_cast<unsigned char>(i1); where(m0, c1) = c0; i2 = c1 (converted implicitly);
if (any_of(m0)) i3 = reduce(i2, std::plus<>())` -/
def exMixed : Prog (intKinds exSgn exBits) :=
  .seq (.on false (.base (.assign 0 (.gen fun i => BitVec.ofNat 8 (50 * i + 7))))) <|
  .seq (.cast false false true 0 (.var 0)) <|
  .seq (.on true (.base (.assign 1 (.bin .sub (.bin .mul (.var 0) (.const 200#32)) (.const 9000#32))))) <|
  .seq (.while (.and (.on true (.anyOf (.cmp .gt (.var 1) (.const 255#32)))) (.not (.on false (.allOf (.isZero (.var 0))))))
    (.on true (.base (.whereAssign (.cmp .gt (.var 1) (.const 255#32)) 1 (.shift false (.var 1) 1))))) <|
  .seq (.mcast false true false 0 (.cmp .lt (.var 1) (.const 0#32))) <|
  .seq (.cast false true false 1 (.var 1)) <|
  .seq (.on false (.base (.whereAssign (.var 0) 1 (.var 0)))) <|
  .seq (.cast true false true 2 (.var 1)) <|
  .ite (.on false (.anyOf (.var 0))) (.on true (.reduce 3 .plus (.var 2))) (.on true (.base .skip))

theorem exMixed_wf : exMixed.WellFormed exTypes :=
  ⟨trivial, rfl, trivial, trivial, rfl, rfl, trivial, rfl,
    ⟨fun (a b c : BitVec 32) => BitVec.add_assoc a b c, fun (a b : BitVec 32) => BitVec.add_comm a b, fun (a : BitVec 32) => BitVec.add_zero a⟩, trivial⟩

theorem exMixed_convs (vres res : Bool → Bool → Prop) : exMixed.Convs (fun _ _ => True) vres res :=
  ⟨trivial, fun _ => trivial, trivial, trivial, fun _ => trivial, fun _ => trivial, trivial, fun _ => trivial, trivial, trivial⟩

def exZero (a : Bool) (_ : Nat) : Lane (intKinds exSgn exBits a) (BitVec (exBits a)) where
  v := fun _ => (0 : BitVec (exBits a))
  m := fun _ => false
  arr := fun _ => 0

/-- What the user sees of the first objects of both types. -/
def exShow (L : ∀ a, Nat → Lane (intKinds exSgn exBits a) (BitVec (exBits a))) : List (List Nat) × List (List Int) :=
  ((List.range 2).map fun x => (List.range 5).map fun i => BitVec.toNat ((L false i).v x : BitVec 8),
   (List.range 4).map fun x => (List.range 5).map fun i => BitVec.toInt ((L true i).v x : BitVec 32))

def exFinal : Option (List (List Nat) × List (List Int)) :=
  match exMixed.exec exTypes 9 exZero with
  | .done L => some (exShow L)
  | _ => none

-- the specified program ends (hypothesis `hL`)
theorem exFinal_eq : exFinal = some ([[7, 57, 107, 157, 207], [7, 150, 193, 175, 253]],
    [[7, 57, 107, 157, 207], [-7600, 150, 193, 175, 253], [7, 150, 193, 175, 253], [778, 778, 778, 778, 778]]) := by decide +kernel

def exMCfg (a : Bool) : Cfg (intKinds exSgn exBits a) (BitVec (exBits a)) where
  R := builtinInt (exSgn a) (exBits a) (fun x i => x + BitVec.ofNat _ i)
  c _ := true
  ctx _ := ⟨true, false, [], []⟩
  xfer := Xfer.of exAvx2 (exSize a) true
  path _ := .iter
  junk := (99 : BitVec (exBits a))
  ld := fun (x : BitVec (exBits a)) => (x : BitVec (exBits a))
  st := fun (x : BitVec (exBits a)) => (x : BitVec (exBits a))

def exCvt (a b : Bool) : Convert.Ctx (intKinds exSgn exBits a).Bits (intKinds exSgn exBits b).Bits where
  cast := fun (x : BitVec (exBits a)) => (BitVec.ofInt (exBits b) (Spec.value (exSgn a) x) : BitVec (exBits b))
  zeroA := (0 : BitVec (exBits a))
  zeroB := (0 : BitVec (exBits b))
  junkA := fun i => (BitVec.ofNat (exBits a) (i + 11) : BitVec (exBits a))
  junkB := fun i => (BitVec.ofNat (exBits b) (i + 22) : BitVec (exBits b))
  x86 := fun l => l.length == 1

/-- The objects at the beginning exist, the theorem applies, and the user sees the numbers above in the objects at the end: `unsigned char[5]` in a
register of 16 and `int[5]` in two registers on AVX2. -/
example : ∃ S : ∀ a, State (fixedImpl (exMCfg a) (regs exAvx2 (exSize a) 5) 5), ∃ S',
    (∀ a, Observed (exMCfg a) exAvx2 (exSize a) 5 (fun j => 100 * j) (S a) (exZero a)) ∧
    runMulti (fun a => fixedRed (exMCfg a) exAvx2 (exSize a).size (exTypes.A a) true (regs exAvx2 (exSize a) 5) 5 (fun _ => false))
      (fixedCasts exAvx2 exSize exTypes.n exMCfg exCvt (fun a b => a == b) (fun a b => a == b)) (fun a => max (exBits a) 32) (fun _ j => 100 * j) 9
      exMixed S = .done S' ∧
    ((lanes (regs exAvx2 (exSize false) 5) ((S' false).v 1)).map fun (x : BitVec 8) => x.toNat) = [7, 150, 193, 175, 253] ∧
    ((lanes (regs exAvx2 (exSize true) 5) ((S' true).v 3)).map fun (x : BitVec 32) => x.toInt) = [778, 778, 778, 778, 778] := by
  have hc : exAvx2.Consistent := exAvx2_ok
  have hT : ∀ a, (exSize a).Ok := by intro a; cases a <;> decide
  have hv : ∀ a, Abi.valid exAvx2 (exSize a) (.fixed 5) = true := by intro a; cases a <;> decide
  have hS : ∀ a, ∃ S, Observed (exMCfg a) exAvx2 (exSize a) 5 (fun j => 100 * j) S (exZero a) := by
    intro a
    obtain ⟨S, hS⟩ := exists_rep (fixed_correct hc (hT a) (by decide) (by decide) (exMCfg a) (E := exTypes.E a) (n := 5) (fun g hg =>
      builtinInt_implements (w := exBits a) (exSgn a) (by cases a <;> decide) (fun x i => x + BitVec.ofNat _ i)
        ((regs_facts hc (hT a) (by decide)).2.1 g hg) (fun o => !(o == .div) && !(o == .mod)) (by simp)) (hT a) true rfl)
      (fun j => 100 * j) (exZero a)
    exact ⟨S, (observed_iff hc (hT a) (by decide) _ _ _ _).2 hS⟩
  obtain ⟨L, hL, hs⟩ : ∃ L, exMixed.exec exTypes 9 exZero = .done L ∧ exShow L = ([[7, 57, 107, 157, 207], [7, 150, 193, 175, 253]],
      [[7, 57, 107, 157, 207], [-7600, 150, 193, 175, 253], [7, 150, 193, 175, 253], [778, 778, 778, 778, 778]]) := by
    have h := exFinal_eq
    unfold exFinal at h
    split at h
    · rename_i L e; exact ⟨L, e, Option.some.inj h⟩
    · cases h
  have h1 := congrArg (fun (x : List (List Nat) × List (List Int)) => x.1[1]?) hs
  have h2 := congrArg (fun (x : List (List Nat) × List (List Int)) => x.2[3]?) hs
  refine ⟨fun a => (hS a).choose, ?_⟩
  obtain ⟨S', e, o, _⟩ := C65_integers_partial (w := exBits) (sgn := exSgn) (by intro a; cases a <;> decide) hc hT exTypes _ (fun a => rfl) (fun a b x => rfl)
    hv (fun a h => by simp at h) exMCfg (fun a => rfl) (fun a => rfl) (fun a x i => x + BitVec.ofNat _ i) (fun a => rfl) hT (fun _ => true) (fun a => rfl) exCvt (fun a b x => rfl)
    (fun a b => a == b) (fun a b => a == b) (fun a b h => by rw [eq_of_beq h]) (fun a b h => by rw [eq_of_beq h]) (fun _ => true)
    (fun _ _ => false) (fun _ j => 100 * j) exMixed exMixed_wf (exMixed_convs _ _) _ exZero (fun a => (hS a).choose_spec) 9 L hL
  refine ⟨S', fun a => (hS a).choose_spec, e, ?_, ?_⟩
  · refine (congrArg (List.map fun (x : BitVec 8) => x.toNat) ((o false).v 1).2).trans ?_
    exact (List.map_map (f := fun i => ((L false i).v 1 : BitVec 8)) (g := fun (x : BitVec 8) => x.toNat) (l := List.range 5)).trans (Option.some.inj h1)
  · refine (congrArg (List.map fun (x : BitVec 32) => x.toInt) ((o true).v 3).2).trans ?_
    exact (List.map_map (f := fun i => ((L true i).v 3 : BitVec 32)) (g := fun (x : BitVec 32) => x.toInt) (l := List.range 5)).trans (Option.some.inj h2)

end StdSimd.Props
