import Verif.Props.Pack
import Verif.Props.ArithX86
/-!
# C72: programs with `split` and `concat` for all arithmetic types, termination
-/
namespace StdSimd.Props
open StdSimd Spec Spec.Program Spec.Control Spec.Multi SimdClass Tuple Native MaskSplit
variable {ι : Type} [DecidableEq ι] {t : Abi.Target}

/-- **C72** for all arithmetic types of any ABI, partial: as `C72_programs_partial`, and without `/` and `%` of signed integers with partially filled registers
(`C63_signed_division_wrong`). -/
theorem C72_arithmetic_partial (ty : ι → ArithTy) {β : ι → Type} (ht : t.Consistent) {T : ι → Abi.Elem} (hT : ∀ a, (T a).Ok)
    (hK : ∀ a, TyOk (T a) (ty a)) (hw : ∀ a, (ty a).kind.width = 8 * (T a).size)
    (W : FloatSem) (X : ArithCtx) (hF : ∀ f h g, (X.flt f h g).env = W.env f h ∧ (X.flt f h g).lib = W.lib f) (Y : Types (fun a => (ty a).kind) β) (ops : ι → BOp → Bool)
    (hE : ∀ a, Y.E a = arithElem W (ops a) (ty a)) (hcv : ∀ a b, Y.cv a b = arithCast W (ty a) (ty b))
    (tag : ι → Abi.Tag) (hv : ∀ a, Abi.valid t (T a) (tag a) = true) (hn : ∀ a, Y.n a = Abi.size (T a) (tag a))
    (hops : ∀ a, (ops a .div = true ∨ ops a .mod = true) → (∀ w, ty a ≠ .int true w) ∨ ∀ g ∈ abiRegs t (T a) (shape t (T a) (tag a)), g.size = g.full)
    (C : ∀ a, Cfg (ty a).kind (β a)) (hld : ∀ a, (C a).ld = Y.ld a) (hst : ∀ a, (C a).st = Y.st a) (hC : ∀ a, (C a).R = arithReg W X (ty a)) {U : ι → Abi.Elem}
    (hU : ∀ a, (U a).Ok) (memSame : ι → Bool) (hX : ∀ a, (C a).xfer = Xfer.of t (U a) (memSame a))
    (hraw : ∀ a g, shape t (T a) (tag a) = .native g → (C a).path g = .raw → Exact g)
    (ctx : ∀ a b, Convert.Ctx (ty a).kind.Bits (ty b).kind.Bits)
    (hcast : ∀ a b x y, arithCast W (ty a) (ty b) x = some y → (ctx a b).cast x = y) (same ident : ι → ι → Bool)
    (hsame : ∀ a b, same a b = true → T a = T b) (hident : ∀ a b, ident a b = true → T a = T b) (c : ι → Bool) (path : ι → VecPath) (wide : ι → Bool)
    (hf : ∀ a, AbiFit (path a) (wide a) (shape t (T a) (tag a))) (isConst : ∀ a, (abiImpl (C a) t (T a) (shape t (T a) (tag a))).M → Bool)
    (env : PackEnv fun a => (ty a).kind) (ha : Aligned t T tag env) (base : ι → Nat → Nat) (p : Pack.Prog (fun a => (ty a).kind)) (hp : p.WellFormed Y)
    (hq : p.Within (abiRules t T tag env))
    (hl : ∀ a, p.usesLast a = true → AbiLast (shape t (T a) (tag a)))
    (S : ∀ a, State (abiImpl (C a) t (T a) (shape t (T a) (tag a)))) (L : ∀ a, Nat → Lane (ty a).kind (β a))
    (hS : ∀ a, ObservedAbi (C a) t (T a) (shape t (T a) (tag a)) (base a) (S a) (L a)) (fuel : Nat) :
    (∀ L', p.exec Y fuel L = .done L' →
      ∃ S', runPack (fun a => abiRed (C a) t (T a) (Y.A a) (path a) (wide a) (c a) (shape t (T a) (tag a)) (isConst a))
          (abiCasts t T tag C ctx same ident) (abiPacks t T tag C env) (fun a => (Y.E a).width) base fuel p S = .done S' ∧
        (∀ a, ObservedAbi (C a) t (T a) (shape t (T a) (tag a)) (base a) (S' a) (L' a)) ∧
        ∀ a j x, (x < base a j ∨ base a j + Y.n a ≤ x) → (S' a).mem j x = (S a).mem j x) ∧
    (p.exec Y fuel L = .running →
      runPack (fun a => abiRed (C a) t (T a) (Y.A a) (path a) (wide a) (c a) (shape t (T a) (tag a)) (isConst a))
        (abiCasts t T tag C ctx same ident) (abiPacks t T tag C env) (fun a => (Y.E a).width) base fuel p S = .running) := by
  refine C72_programs_partial ht hT hw Y tag hv hn C hld hst (fun a g hg => ?_) hU memSame hX hraw ctx
    (fun a b x y h => hcast a b x y (by rw [← hcv]; exact h)) same ident hsame hident c path wide hf isConst env ha base p hp hq hl S L hS fuel
  rw [hC a, hE a]
  exact arithReg_implements ht (hT a) (hK a) W X hF (ops a) (hv a) (hops a) g hg

/-- **C72** on x86 for all arithmetic types of any ABI, partial as `C65_x86_partial` and `C72_programs_partial`. -/
theorem C72_x86_partial (ty : ι → ArithTy) {β : ι → Type} (ht : t.Consistent) {T : ι → Abi.Elem} (hT : ∀ a, (T a).Ok)
    (hK : ∀ a, TyOk (T a) (ty a)) (hw : ∀ a, (ty a).kind.width = 8 * (T a).size)
    (k : X86Codes) (W : FloatSem) (X : ArithCtx) (hF : ∀ f h g, (X.flt f h g).env = W.env f h ∧ (X.flt f h g).lib = W.lib f) (Y : Types (fun a => (ty a).kind) β) (ops : ι → BOp → Bool)
    (hE : ∀ a, Y.E a = arithElem W (ops a) (ty a)) (hcv : ∀ a b, Y.cv a b = arithCast W (ty a) (ty b))
    (tag : ι → Abi.Tag) (hv : ∀ a, Abi.valid t (T a) (tag a) = true) (hn : ∀ a, Y.n a = Abi.size (T a) (tag a))
    (hk : ∀ a, ∀ g ∈ abiRegs t (T a) (shape t (T a) (tag a)), g ≠ .scalar → X86Codes.Fit k g (ty a))
    (hops : ∀ a, (ops a .div = true ∨ ops a .mod = true) → ty a ≠ .int true 64 ∨ ∀ g ∈ abiRegs t (T a) (shape t (T a) (tag a)), g.size = g.full)
    (C : ∀ a, Cfg (ty a).kind (β a)) (hld : ∀ a, (C a).ld = Y.ld a) (hst : ∀ a, (C a).st = Y.st a) (hC : ∀ a, (C a).R = x86Reg k W X (ty a)) {U : ι → Abi.Elem}
    (hU : ∀ a, (U a).Ok) (memSame : ι → Bool) (hX : ∀ a, (C a).xfer = Xfer.of t (U a) (memSame a))
    (hraw : ∀ a g, shape t (T a) (tag a) = .native g → (C a).path g = .raw → Exact g)
    (ctx : ∀ a b, Convert.Ctx (ty a).kind.Bits (ty b).kind.Bits)
    (hcast : ∀ a b x y, arithCast W (ty a) (ty b) x = some y → (ctx a b).cast x = y) (same ident : ι → ι → Bool)
    (hsame : ∀ a b, same a b = true → T a = T b) (hident : ∀ a b, ident a b = true → T a = T b) (c : ι → Bool) (path : ι → VecPath) (wide : ι → Bool)
    (hf : ∀ a, AbiFit (path a) (wide a) (shape t (T a) (tag a))) (isConst : ∀ a, (abiImpl (C a) t (T a) (shape t (T a) (tag a))).M → Bool)
    (env : PackEnv fun a => (ty a).kind) (ha : Aligned t T tag env) (base : ι → Nat → Nat) (p : Pack.Prog (fun a => (ty a).kind)) (hp : p.WellFormed Y)
    (hq : p.Within (abiRules t T tag env))
    (hl : ∀ a, p.usesLast a = true → AbiLast (shape t (T a) (tag a)))
    (S : ∀ a, State (abiImpl (C a) t (T a) (shape t (T a) (tag a)))) (L : ∀ a, Nat → Lane (ty a).kind (β a))
    (hS : ∀ a, ObservedAbi (C a) t (T a) (shape t (T a) (tag a)) (base a) (S a) (L a)) (fuel : Nat) :
    (∀ L', p.exec Y fuel L = .done L' →
      ∃ S', runPack (fun a => abiRed (C a) t (T a) (Y.A a) (path a) (wide a) (c a) (shape t (T a) (tag a)) (isConst a))
          (abiCasts t T tag C ctx same ident) (abiPacks t T tag C env) (fun a => (Y.E a).width) base fuel p S = .done S' ∧
        (∀ a, ObservedAbi (C a) t (T a) (shape t (T a) (tag a)) (base a) (S' a) (L' a)) ∧
        ∀ a j x, (x < base a j ∨ base a j + Y.n a ≤ x) → (S' a).mem j x = (S a).mem j x) ∧
    (p.exec Y fuel L = .running →
      runPack (fun a => abiRed (C a) t (T a) (Y.A a) (path a) (wide a) (c a) (shape t (T a) (tag a)) (isConst a))
        (abiCasts t T tag C ctx same ident) (abiPacks t T tag C env) (fun a => (Y.E a).width) base fuel p S = .running) := by
  refine C72_programs_partial ht hT hw Y tag hv hn C hld hst (fun a g hg => ?_) hU memSame hX hraw ctx
    (fun a b x y h => hcast a b x y (by rw [← hcv]; exact h)) same ident hsame hident c path wide hf isConst env ha base p hp hq hl S L hS fuel
  rw [hC a, hE a]
  exact x86Reg_implements ht (hT a) (hK a) k W X hF (ops a) (hv a) (hk a) (hops a) g hg

/-- **C72**, termination, partial as `C72_programs_partial`: if the specified program ends, so does the program, with the specified elements, and allowing
more rounds makes no difference; if the specified program runs for ever, so does the program. -/
theorem C72_termination_partial {K : ι → Kind} {β : ι → Type} (ht : t.Consistent) {T : ι → Abi.Elem} (hT : ∀ a, (T a).Ok) (hw : ∀ a, (K a).width = 8 * (T a).size) (Y : Types K β) (tag : ι → Abi.Tag)
    (hv : ∀ a, Abi.valid t (T a) (tag a) = true) (hn : ∀ a, Y.n a = Abi.size (T a) (tag a)) (C : ∀ a, Cfg (K a) (β a))
    (hld : ∀ a, (C a).ld = Y.ld a) (hst : ∀ a, (C a).st = Y.st a)
    (hR : ∀ a, ∀ g ∈ abiRegs t (T a) (shape t (T a) (tag a)), Implements (C a).R (Y.E a) g) {U : ι → Abi.Elem} (hU : ∀ a, (U a).Ok)
    (memSame : ι → Bool) (hX : ∀ a, (C a).xfer = Xfer.of t (U a) (memSame a))
    (hraw : ∀ a g, shape t (T a) (tag a) = .native g → (C a).path g = .raw → Exact g)
    (ctx : ∀ a b, Convert.Ctx (K a).Bits (K b).Bits) (hcast : ∀ a b x y, Y.cv a b x = some y → (ctx a b).cast x = y) (same ident : ι → ι → Bool)
    (hsame : ∀ a b, same a b = true → T a = T b) (hident : ∀ a b, ident a b = true → T a = T b) (c : ι → Bool) (path : ι → VecPath) (wide : ι → Bool)
    (hf : ∀ a, AbiFit (path a) (wide a) (shape t (T a) (tag a))) (isConst : ∀ a, (abiImpl (C a) t (T a) (shape t (T a) (tag a))).M → Bool)
    (env : PackEnv K) (ha : Aligned t T tag env) (base : ι → Nat → Nat) (p : Pack.Prog K) (hp : p.WellFormed Y) (hq : p.Within (abiRules t T tag env))
    (hl : ∀ a, p.usesLast a = true → AbiLast (shape t (T a) (tag a)))
    (S : ∀ a, State (abiImpl (C a) t (T a) (shape t (T a) (tag a)))) (L : ∀ a, Nat → Lane (K a) (β a))
    (hS : ∀ a, ObservedAbi (C a) t (T a) (shape t (T a) (tag a)) (base a) (S a) (L a)) :
    (∀ k L', p.exec Y k L = .done L' → ∀ fuel, k ≤ fuel →
      ∃ S', runPack (fun a => abiRed (C a) t (T a) (Y.A a) (path a) (wide a) (c a) (shape t (T a) (tag a)) (isConst a))
          (abiCasts t T tag C ctx same ident) (abiPacks t T tag C env) (fun a => (Y.E a).width) base fuel p S = .done S' ∧
        ∀ a, ObservedAbi (C a) t (T a) (shape t (T a) (tag a)) (base a) (S' a) (L' a)) ∧
    ((∀ k, p.exec Y k L = .running) → ∀ fuel,
      runPack (fun a => abiRed (C a) t (T a) (Y.A a) (path a) (wide a) (c a) (shape t (T a) (tag a)) (isConst a))
        (abiCasts t T tag C ctx same ident) (abiPacks t T tag C env) (fun a => (Y.E a).width) base fuel p S = .running) := by
  have h := fun fuel => C72_programs_partial ht hT hw Y tag hv hn C hld hst hR hU memSame hX hraw ctx hcast same ident hsame hident c path wide hf isConst env ha
    base p hp hq hl S L hS fuel
  constructor
  · intro k L' e fuel hk
    rcases pack_mono Y hk p L with h' | h'
    · rw [e] at h'; cases h'
    · obtain ⟨S', e', o, _⟩ := (h fuel).1 L' (h' ▸ e)
      exact ⟨S', e', o⟩
  · intro e fuel
    exact (h fuel).2 (e fuel)

/-! ## concrete programs -/

section
open PkTy

/-- The objects of `pkProg` at the beginning exist; the program ends after nine rounds or less and allowing more makes no difference. -/
example : ∃ S : ∀ a, State (abiImpl (pkCfg a) exAvx2 pkInt (shape exAvx2 pkInt (PkTy.tag a))), ∀ fuel, 9 ≤ fuel → ∃ S',
    runPack (fun a => abiRed (pkCfg a) exAvx2 pkInt (pkTys.A a) .generic false true (shape exAvx2 pkInt (PkTy.tag a)) (fun _ => false))
      (abiCasts exAvx2 (fun _ => pkInt) PkTy.tag pkCfg pkCvt (fun a b => a == b) (fun a b => a == b))
      (abiPacks exAvx2 (fun _ => pkInt) PkTy.tag pkCfg pkEnv) (fun a => (pkTys.E a).width) (fun _ j => 100 * j) fuel pkProg S = .done S' := by
  have hc : exAvx2.Consistent := exAvx2_ok
  have hT : pkInt.Ok := by decide
  have hv : ∀ a, Abi.valid exAvx2 pkInt (PkTy.tag a) = true := by intro a; cases a <;> decide
  have hok := fun a => (shape_ok hT (hv a)).1
  have hR : ∀ a, ∀ g ∈ abiRegs exAvx2 pkInt (shape exAvx2 pkInt (PkTy.tag a)), Implements (pkCfg a).R (pkTys.E a) g := fun a g hg =>
    builtinInt_implements (w := 32) true (by decide) (fun x i => x + BitVec.ofNat _ i)
      ((abiRegs_facts hc hT (hok a)).1 g hg) (fun o => !(o == .div) && !(o == .mod)) (by simp)
  have hS : ∀ a, ∃ S, ObservedAbi (pkCfg a) exAvx2 pkInt (shape exAvx2 pkInt (PkTy.tag a)) (fun j => 100 * j) S (pkZero a) := by
    intro a
    obtain ⟨S, hS⟩ := exists_rep (abi_correct hc hT (hok a) (pkCfg a) (E := pkTys.E a) (hR a) hT true rfl (fun _ _ h => by cases h))
      (fun j => 100 * j) (pkZero a)
    exact ⟨S, (observedAbi_iff hc hT (hok a) _ _ _ _).2 hS⟩
  obtain ⟨L, hL⟩ : ∃ L, pkProg.exec pkTys 9 pkZero = .done L := by
    have h := pkFinal_eq
    unfold pkFinal at h
    split at h
    · rename_i L e; exact ⟨L, e⟩
    · cases h
  refine ⟨fun a => (hS a).choose, fun fuel hfuel => ?_⟩
  obtain ⟨S', e, _⟩ := (C72_termination_partial hc (T := fun _ => pkInt) (fun _ => hT) (fun _ => rfl) pkTys PkTy.tag hv (by intro a; cases a <;> rfl) pkCfg
    (fun a => rfl) (fun a => rfl) hR (U := fun _ => pkInt) (fun _ => hT) (fun _ => true) (fun a => rfl) (fun _ _ _ h => by cases h) pkCvt
    (fun a b x y h => Option.some.inj h) (fun a b => a == b) (fun a b => a == b) (fun _ _ _ => rfl) (fun _ _ _ => rfl) (fun _ => true)
    (fun _ => .generic) (fun _ => false) (by intro a; cases a <;> first | trivial | exact ⟨by decide, by decide⟩)
    (fun _ _ => false) pkEnv pkEnv_aligned (fun _ j => 100 * j) pkProg pkProg_wf pkProg_within (fun a h => by cases a <;> exact absurd h (by decide)) _ pkZero
    (fun a => (hS a).choose_spec)).1 9 L hL fuel hfuel
  exact ⟨S', e⟩

end

section
open ExX

/-- `exXProg` (division of partially filled registers, conversions between `int`, `signed char` and `float`), then `i2 = split<V>(i1)[0]` for the type of `i1`. -/
def pkXProg : Pack.Prog (fun a => (ty a).kind) := .seq (.run exXProg) (.splitTo ints 1 ints rfl [2])

def pkXEnv : PackEnv (fun a => (ty a).kind) where
  cp _ _ := false
  addr a l := 96 * objAlign exAvx2 (elem a) (.fixed l.sum)
  cpTo _ := false
  addrTo a := 96 * objAlign exAvx2 (elem a) (tag a)
  cpAll := false
  junk j := BitVec.ofNat 8 (j + 77)
  pad a _ := (exXZero a 0).v 0

def pkXFinal : Option (List Int) :=
  match pkXProg.exec exXTypes 1 exXZero with
  | .done L => some ((List.range 3).map fun i => BitVec.toInt ((L ints i).v 2 : BitVec 32))
  | _ => none

theorem pkXFinal_eq : pkXFinal = some [42, 42, -57] := by decide +kernel

example : ∃ S : ∀ a, State (abiImpl (exXCfg a) exAvx2 (elem a) (shape exAvx2 (elem a) (tag a))), ∃ S',
    runPack (fun a => abiRed (exXCfg a) exAvx2 (elem a) (exXTypes.A a) .generic false true (shape exAvx2 (elem a) (tag a)) (fun _ => false))
      (abiCasts exAvx2 elem tag exXCfg exXCvt (fun a b => a == b) (fun a b => a == b)) (abiPacks exAvx2 elem tag exXCfg pkXEnv)
      (fun a => (exXTypes.E a).width) (fun _ j => 100 * j) 1 pkXProg S = .done S' ∧
    ∃ L : ∀ a, Nat → Lane (ty a).kind (ty a).kind.Bits, (∀ a, ObservedAbi (exXCfg a) exAvx2 (elem a) (shape exAvx2 (elem a) (tag a)) (fun j => 100 * j) (S' a) (L a)) ∧
      ((List.range 3).map fun i => BitVec.toInt ((L ints i).v 2 : BitVec 32)) = [42, 42, -57] := by
  have hc : exAvx2.Consistent := exAvx2_ok
  have hT : ∀ a, (elem a).Ok := by intro a; cases a <;> decide
  have hv : ∀ a, Abi.valid exAvx2 (elem a) (tag a) = true := by intro a; cases a <;> decide
  have hK : ∀ a, TyOk (elem a) (ty a) := by intro a; cases a <;> trivial
  have hok := fun a => (shape_ok (hT a) (hv a)).1
  have hops : ∀ a : ExX, (true = true ∨ true = true) → ty a ≠ .int true 64 ∨ ∀ g ∈ abiRegs exAvx2 (elem a) (shape exAvx2 (elem a) (tag a)), g.size = g.full :=
    fun a _ => .inl (by cases a <;> simp [ty])
  have hS : ∀ a, ∃ S, ObservedAbi (exXCfg a) exAvx2 (elem a) (shape exAvx2 (elem a) (tag a)) (fun j => 100 * j) S (exXZero a) := by
    intro a
    obtain ⟨S, hS⟩ := exists_rep (abi_correct hc (hT a) (hok a) (exXCfg a) (E := exXTypes.E a)
      (fun g hg => x86Reg_implements hc (hT a) (hK a) exXCodes exArSem exArCtx (fun _ _ _ => ⟨rfl, rfl⟩) _ (hv a) (fun g _ _ => exXCodes_fit a g) (hops a) g hg)
      (hT a) true rfl (fun _ _ h => by cases h))
      (fun j => 100 * j) (exXZero a)
    exact ⟨S, (observedAbi_iff hc (hT a) (hok a) _ _ _ _).2 hS⟩
  obtain ⟨L, hL, hs⟩ : ∃ L, pkXProg.exec exXTypes 1 exXZero = .done L ∧ some ((List.range 3).map fun i => BitVec.toInt ((L ints i).v 2 : BitVec 32)) = pkXFinal := by
    have h := pkXFinal_eq
    unfold pkXFinal at h ⊢
    split at h
    · rename_i L e; exact ⟨L, e, rfl⟩
    · cases h
  rw [pkXFinal_eq] at hs
  refine ⟨fun a => (hS a).choose, ?_⟩
  obtain ⟨S', e, o, _⟩ := (C72_x86_partial ty hc hT hK (by intro a; cases a <;> rfl) exXCodes exArSem exArCtx (fun _ _ _ => ⟨rfl, rfl⟩) exXTypes (fun _ _ => true)
    (fun a => rfl) (fun a b => rfl) tag hv (by intro a; cases a <;> rfl) (fun a g _ _ => exXCodes_fit a g) hops exXCfg (fun a => rfl) (fun a => rfl) (fun a => rfl) hT
    (fun _ => true) (fun a => rfl) (fun _ _ _ h => by cases h) exXCvt (fun a b x y h => by simp [exXCvt, h])
    (fun a b => a == b) (fun a b => a == b) (fun a b h => by rw [eq_of_beq h]) (fun a b h => by rw [eq_of_beq h]) (fun _ => true)
    (fun _ => .generic) (fun _ => false) (by intro a; cases a <;> trivial)
    (fun _ _ => false) pkXEnv ⟨fun a l h => absurd h Bool.noConfusion, fun a l _ => Nat.mul_mod_left _ _, fun a => Nat.mul_mod_left _ _⟩ (fun _ j => 100 * j) pkXProg
    ⟨exXProg_wf, rfl⟩ ⟨exXProg_convs, rfl, fun _ => ⟨nofun, fun x hx => by
      have hsz := (Split.hasAbi_good hc (hT ints) (hv ints) hx).2.1
      have h3 : Split.size x = 3 := hsz
      simp [Split.splitV, h3, Abi.size]⟩⟩
    (fun a h => by cases a <;> exact absurd h (by decide)) _ exXZero
    (fun a => (hS a).choose_spec) 1).1 L hL
  exact ⟨S', e, L, o, Option.some.inj hs⟩

end

end StdSimd.Props
