import Verif.Proofs.PackAbi
import Verif.Props.MultiAbi
/-!
# C72: programs with `split` and `concat`

Programs on objects of any element types and ABI tags that also use `concat`, `split<Sizes...>`, `split<simd>` and `split<simd_mask>` (`Spec/Pack.lean`).
The functions work on the bytes of the registers (`Model/Split.lean`); which code path they take depends on the sizes, on what the compiler knows
and on the target.
-/
namespace StdSimd.Props
open StdSimd Spec Spec.Program Spec.Control Spec.Multi SimdClass Tuple Native MaskSplit
variable {ι : Type} [DecidableEq ι] {K : ι → Kind} {β : ι → Type} {t : Abi.Target}

/-- **C72**, partial: on objects of any element types and ABI tags (`T a`, `tag a`), after any number of rounds: if the specified program has
ended with elements `L'`, the program has ended with objects that have these elements, and memory outside the arrays is not changed; if the specified
program is still running, so is the program.  `env`: what the compiler knows at each call, where the objects are (aligned as their types demand, `ha`), and the
values of undefined register halves and of unused elements.  `hq`: results of `concat` and parts of `split<Sizes...>` have the deduced type, and the calls
compile for `fixed_size` arguments (`abiRules`).
Missing, because the property fails there: what is missing in `C65_abi_partial`; `split` of masks of partially filled 32-byte registers in two
(`C19_split_mask_partial_avx_wrong`); `split<simd<long double, scalar>>` of `fixed_size` objects on i386 (`C20_split_i386_false_promise`). -/
theorem C72_programs_partial (ht : t.Consistent) {T : ι → Abi.Elem} (hT : ∀ a, (T a).Ok) (hw : ∀ a, (K a).width = 8 * (T a).size) (Y : Types K β) (tag : ι → Abi.Tag)
    (hv : ∀ a, Abi.valid t (T a) (tag a) = true) (hn : ∀ a, Y.n a = Abi.size (T a) (tag a)) (C : ∀ a, Cfg (K a) (β a))
    (hld : ∀ a, (C a).ld = Y.ld a) (hst : ∀ a, (C a).st = Y.st a)
    (hR : ∀ a, ∀ g ∈ abiRegs t (T a) (shape t (T a) (tag a)), Implements (C a).R (Y.E a) g) {U : ι → Abi.Elem} (hU : ∀ a, (U a).Ok)
    (memSame : ι → Bool) (hX : ∀ a, (C a).xfer = Xfer.of t (U a) (memSame a))
    (hraw : ∀ a g, shape t (T a) (tag a) = .native g → (C a).path g = .raw → Exact g)
    (ctx : ∀ a b, Convert.Ctx (K a).Bits (K b).Bits) (hcast : ∀ a b x y, Y.cv a b x = some y → (ctx a b).cast x = y) (same ident : ι → ι → Bool)
    (hsame : ∀ a b, same a b = true → T a = T b) (hident : ∀ a b, ident a b = true → T a = T b) (c : ι → Bool) (path : ι → VecPath) (wide : ι → Bool)
    (hf : ∀ a, AbiFit (path a) (wide a) (shape t (T a) (tag a))) (isConst : ∀ a, (abiImpl (C a) t (T a) (shape t (T a) (tag a))).M → Bool)
    (env : PackEnv K) (ha : Aligned t T tag env) (base : ι → Nat → Nat) (p : Pack.Prog K) (hp : p.WellFormed Y) (hq : p.Within (abiRules t T tag env))
    (hl : ∀ a, p.usesLast a = true → AbiLast (shape t (T a) (tag a)))
    (S : ∀ a, State (abiImpl (C a) t (T a) (shape t (T a) (tag a)))) (L : ∀ a, Nat → Lane (K a) (β a))
    (hS : ∀ a, ObservedAbi (C a) t (T a) (shape t (T a) (tag a)) (base a) (S a) (L a)) (fuel : Nat) :
    (∀ L', p.exec Y fuel L = .done L' →
      ∃ S', runPack (fun a => abiRed (C a) t (T a) (Y.A a) (path a) (wide a) (c a) (shape t (T a) (tag a)) (isConst a))
          (abiCasts t T tag C ctx same ident) (abiPacks t T tag C env) (fun a => (Y.E a).width) base fuel p S = .done S' ∧
        (∀ a, ObservedAbi (C a) t (T a) (shape t (T a) (tag a)) (base a) (S' a) (L' a)) ∧
        ∀ a j x, (x < base a j ∨ base a j + Y.n a ≤ x) → (S' a).mem j x = (S a).mem j x) ∧
    (p.exec Y fuel L = .running →
      runPack (fun a => abiRed (C a) t (T a) (Y.A a) (path a) (wide a) (c a) (shape t (T a) (tag a)) (isConst a))
        (abiCasts t T tag C ctx same ident) (abiPacks t T tag C env) (fun a => (Y.E a).width) base fuel p S = .running) := by
  have hok := fun a => (shape_ok (hT a) (hv a)).1
  have hsz : ∀ a, (abiImpl (C a) t (T a) (shape t (T a) (tag a))).size = Y.n a := (abi_casts ht hT Y hv hn C ctx hcast same ident hsame hident).size
  have h := runPack_spec (base := base) (T := Y) (lastOk := fun a => AbiLast (shape t (T a) (tag a))) (rules := abiRules t T tag env)
    (fun a => by rw [← hld, ← hst]; exact abi_correct ht (hT a) (hok a) (C a) (hR a) (hU a) (memSame a) (hX a) (hraw a))
    (fun a => abi_red ht (hT a) (hv a) (C a) (Y.A a) (c a) (hf a) (isConst a))
    (abi_casts ht hT Y hv hn C ctx hcast same ident hsame hident) (abi_packs ht hT hv hw C env Y hn ha) fuel p hp hq hl S L
    (fun a => (observedAbi_iff ht (hT a) (hok a) (C a) (base a) (S a) (L a)).1 (hS a))
  constructor
  · intro L' e
    rw [e] at h
    obtain ⟨S', e', hS', hfr⟩ := h
    refine ⟨S', e', fun a => (observedAbi_iff ht (hT a) (hok a) (C a) (base a) (S' a) (L' a)).2 (hS' a), fun a j x hx => hfr a j x ?_⟩
    rw [hsz a]; exact hx
  · intro e
    rw [e] at h
    exact h

/-! ## a concrete program -/

/-- `simd<int, _VecBuiltin<16>>`, `simd<int, _VecBuiltin<32>>`, `fixed_size_simd<int, 12>` (registers of 8 and 4 elements) with AVX2. -/
inductive PkTy
  | four | eight | twelve
  deriving DecidableEq

namespace PkTy
abbrev tag : PkTy → Abi.Tag
  | four => .builtin 16
  | eight => .builtin 32
  | twelve => .fixed 12
abbrev num : PkTy → Nat
  | four => 4
  | eight => 8
  | twelve => 12
end PkTy
open PkTy

abbrev pkInt : Abi.Elem := ⟨4, false⟩
abbrev pkKind : PkTy → Kind := intKinds (fun _ => true) (fun _ => 32)

def pkTys : Types pkKind (fun _ => BitVec 32) where
  E _ := (intElem true 32 32).only (fun o => !(o == .div) && !(o == .mod))
  A _ := ⟨fun (x y : BitVec 32) => (x + y : BitVec 32), fun (x y : BitVec 32) => (x * y : BitVec 32), (1 : BitVec 32)⟩
  ld _ := fun (x : BitVec 32) => (x : BitVec 32)
  st _ := fun (x : BitVec 32) => (x : BitVec 32)
  n := num
  cv _ _ := fun (x : BitVec 32) => some (x : BitVec 32)

/-- `q0 = i - 3; q1 = 100 - 7 * i; w0 = concat(q0, q1); f0 = concat(w0, q0); {q2, q3, q4} = split<simd<int, 4>>(f0); {w1, q5} = split<8, 4>(f0);
{q6, q7} = split<4, 4>(w0); wm0 = w1 > 80; {m0, m1} = split<simd_mask<int, 4>>(wm0); where(m1, q3) = q2; while (any_of(q3 > 50)) q3 = q3 >> 1;
f1 = concat(q3, q7, q6)` -/
def pkProg : Pack.Prog pkKind :=
  .seq (.run (.on four (.base (.assign 0 (.gen fun i => BitVec.ofInt 32 (i - 3)))))) <|
  .seq (.run (.on four (.base (.assign 1 (.gen fun i => BitVec.ofInt 32 (100 - 7 * i)))))) <|
  .seq (.concat eight 0 [⟨four, rfl, 0⟩, ⟨four, rfl, 1⟩]) <|
  .seq (.concat twelve 0 [⟨eight, rfl, 0⟩, ⟨four, rfl, 0⟩]) <|
  .seq (.splitTo twelve 0 four rfl [2, 3, 4]) <|
  .seq (.split twelve 0 [⟨eight, rfl, 1⟩, ⟨four, rfl, 5⟩]) <|
  .seq (.split eight 0 [⟨four, rfl, 6⟩, ⟨four, rfl, 7⟩]) <|
  .seq (.run (.on eight (.base (.massign 0 (.cmp .gt (.var 1) (.const 80#32)))))) <|
  .seq (.msplit eight 0 four [0, 1]) <|
  .seq (.run (.on four (.base (.whereAssign (.var 1) 3 (.var 2))))) <|
  .seq (.while (.on four (.anyOf (.cmp .gt (.var 3) (.const 50#32)))) (.run (.on four (.base (.assign 3 (.shift false (.var 3) 1)))))) <|
  .concat twelve 1 [⟨four, rfl, 3⟩, ⟨four, rfl, 7⟩, ⟨four, rfl, 6⟩]

def pkEnv : PackEnv pkKind where
  cp _ l := l == [3]
  addr a l := 96 * objAlign exAvx2 pkInt (PkTy.tag a) * objAlign exAvx2 pkInt (.fixed l.sum)
  cpTo _ := false
  addrTo a := 96 * objAlign exAvx2 pkInt (PkTy.tag a)
  cpAll := false
  junk j := BitVec.ofNat 8 (j + 77)
  pad _ i := (BitVec.ofNat 32 (i + 1000) : BitVec 32)

theorem pkEnv_aligned : Aligned exAvx2 (fun _ => pkInt) PkTy.tag pkEnv where
  native a l _ := by
    show 96 * objAlign exAvx2 pkInt (PkTy.tag a) * objAlign exAvx2 pkInt (.fixed l.sum) % _ = 0
    rw [Nat.mul_right_comm]; exact Nat.mul_mod_left _ _
  fixed a l _ := Nat.mul_mod_left _ _
  whole a := Nat.mul_mod_left _ _

theorem pkProg_wf : pkProg.WellFormed pkTys :=
  ⟨trivial, trivial, ⟨nofun, rfl⟩, ⟨nofun, rfl⟩, rfl, ⟨nofun, rfl⟩, ⟨nofun, rfl⟩, trivial, rfl, trivial, trivial, ⟨nofun, rfl⟩⟩

private theorem twelve_members {x : Split.Obj} (h : Split.HasAbi exAvx2 pkInt (.fixed 12) x) : ∃ r r' : MaskVec.Reg, x = [⟨8, 8, r⟩, ⟨4, 4, r'⟩] := by
  have h : Split.shapeOf x = [(8, 8), (4, 4)] := h.trans (by decide +kernel)
  match x, h with
  | [⟨a, b, r⟩, ⟨c, d, r'⟩], h =>
    simp only [Split.shapeOf, List.map_cons, List.map_nil, List.cons.injEq, Prod.mk.injEq, and_true] at h
    obtain ⟨⟨rfl, rfl⟩, rfl, rfl⟩ := h
    exact ⟨r, r', rfl⟩

theorem pkProg_within : pkProg.Within (abiRules exAvx2 (fun _ => pkInt) PkTy.tag pkEnv) := by
  have h8 : Abi.deduce exAvx2 pkInt 8 = some (.builtin 32) := by decide
  have h4 : Abi.deduce exAvx2 pkInt 4 = some (.builtin 16) := by decide
  have h12 : Abi.deduce exAvx2 pkInt 12 = some (.fixed 12) := by decide
  refine ⟨trivial, trivial, ⟨fun _ _ => rfl, h8⟩, ⟨fun _ _ => rfl, h12⟩, ⟨rfl, fun _ => ⟨nofun, fun x hx => ?_⟩⟩, ⟨fun b hb => ⟨rfl, ?_⟩, fun _ x hx => ?_⟩,
    ⟨fun b hb => ⟨rfl, ?_⟩, nofun⟩, trivial, ⟨rfl, ?_⟩, trivial, trivial, ⟨fun _ _ => rfl, h12⟩⟩
  · obtain ⟨r, r', rfl⟩ := twelve_members hx
    simp [Split.splitV, Split.size, Split.extractPart, Split.extractTuple, Split.extractNative, Split.extractBody, Split.Res.all, List.range, List.range.loop,
      Split.fromReg, Split.Res.bind, exAvx2, pkEnv, partKind, Abi.size]
  · cases b with
    | four => exact h4
    | eight => exact h8
    | twelve => exact h12
  · obtain ⟨r, r', rfl⟩ := twelve_members hx
    have hk : Split.kindOf exAvx2 pkInt 8 = some .native := by decide
    simp [Split.splitSizes, Split.size, Abi.size, pkEnv, hk, Split.Res.bind]
  · cases b with
    | four => exact h4
    | eight => exact h8
    | twelve => exact h12
  · rintro ⟨⟨_, _, h⟩, _⟩
    exact absurd h (by decide)

def pkZero (_ : PkTy) (_ : Nat) : Lane (intKinds (fun _ => true) (fun _ => 32) ()) (BitVec 32) where
  v := fun _ => (0 : BitVec 32)
  m := fun _ => false
  arr := fun _ => 0

def pkShow (L : ∀ a, Nat → Lane (pkKind a) (BitVec 32)) : List (List Int) × List Int :=
  ((List.range 8).map fun x => (List.range 4).map fun i => BitVec.toInt ((L four i).v x : BitVec 32),
   (List.range 12).map fun i => BitVec.toInt ((L twelve i).v 1 : BitVec 32))

def pkFinal : Option (List (List Int) × List Int) :=
  match pkProg.exec pkTys 9 pkZero with
  | .done L => some (pkShow L)
  | _ => none

-- the specified program ends
theorem pkFinal_eq : pkFinal = some ([[-3, -2, -1, 0], [100, 93, 86, 79], [-3, -2, -1, 0], [-2, -1, -1, 39], [-3, -2, -1, 0], [-3, -2, -1, 0],
      [-3, -2, -1, 0], [100, 93, 86, 79]], [-2, -1, -1, 39, 100, 93, 86, 79, -3, -2, -1, 0]) := by decide +kernel

def pkCfg (a : PkTy) : Cfg (pkKind a) (BitVec 32) where
  R := builtinInt true 32 (fun x i => x + BitVec.ofNat _ i)
  c _ := true
  ctx _ := ⟨true, false, [], []⟩
  xfer := Xfer.of exAvx2 pkInt true
  path _ := .iter
  junk := (99 : BitVec 32)
  ld := fun (x : BitVec 32) => (x : BitVec 32)
  st := fun (x : BitVec 32) => (x : BitVec 32)

def pkCvt (a b : PkTy) : Convert.Ctx (pkKind a).Bits (pkKind b).Bits where
  cast := fun (x : BitVec 32) => (x : BitVec 32)
  zeroA := (0 : BitVec 32)
  zeroB := (0 : BitVec 32)
  junkA := fun i => (BitVec.ofNat 32 (i + 11) : BitVec 32)
  junkB := fun i => (BitVec.ofNat 32 (i + 22) : BitVec 32)
  x86 := fun l => l.length == 1

/-- The objects at the beginning exist, the theorem applies, and the user sees the numbers above in the objects at the end. -/
example : ∃ S : ∀ a, State (abiImpl (pkCfg a) exAvx2 pkInt (shape exAvx2 pkInt (PkTy.tag a))), ∃ S',
    (∀ a, ObservedAbi (pkCfg a) exAvx2 pkInt (shape exAvx2 pkInt (PkTy.tag a)) (fun j => 100 * j) (S a) (pkZero a)) ∧
    runPack (fun a => abiRed (pkCfg a) exAvx2 pkInt (pkTys.A a) .generic false true (shape exAvx2 pkInt (PkTy.tag a)) (fun _ => false))
      (abiCasts exAvx2 (fun _ => pkInt) PkTy.tag pkCfg pkCvt (fun a b => a == b) (fun a b => a == b))
      (abiPacks exAvx2 (fun _ => pkInt) PkTy.tag pkCfg pkEnv) (fun a => (pkTys.E a).width) (fun _ j => 100 * j) 9 pkProg S = .done S' ∧
    (((S' four).v 3 : List (BitVec 32)).take 4).map BitVec.toInt = [-2, -1, -1, 39] ∧
    (Tuple.lanes (regs exAvx2 pkInt 12) ((S' twelve).v 1 : Tup (BitVec 32))).map BitVec.toInt = [-2, -1, -1, 39, 100, 93, 86, 79, -3, -2, -1, 0] := by
  have hc : exAvx2.Consistent := exAvx2_ok
  have hT : pkInt.Ok := by decide
  have hv : ∀ a, Abi.valid exAvx2 pkInt (PkTy.tag a) = true := by intro a; cases a <;> decide
  have hok := fun a => (shape_ok hT (hv a)).1
  have hR : ∀ a, ∀ g ∈ abiRegs exAvx2 pkInt (shape exAvx2 pkInt (PkTy.tag a)), Implements (pkCfg a).R (pkTys.E a) g := fun a g hg =>
    builtinInt_implements (w := 32) true (by decide) (fun x i => x + BitVec.ofNat _ i)
      ((abiRegs_facts hc hT (hok a)).1 g hg) (fun o => !(o == .div) && !(o == .mod)) (by simp)
  have hS : ∀ a, ∃ S, ObservedAbi (pkCfg a) exAvx2 pkInt (shape exAvx2 pkInt (PkTy.tag a)) (fun j => 100 * j) S (pkZero a) := by
    intro a
    obtain ⟨S, hS⟩ := exists_rep (abi_correct hc hT (hok a) (pkCfg a) (E := pkTys.E a) (hR a) hT true rfl (fun _ _ h => by cases h))
      (fun j => 100 * j) (pkZero a)
    exact ⟨S, (observedAbi_iff hc hT (hok a) _ _ _ _).2 hS⟩
  obtain ⟨L, hL, hs⟩ : ∃ L, pkProg.exec pkTys 9 pkZero = .done L ∧ pkShow L = ([[-3, -2, -1, 0], [100, 93, 86, 79], [-3, -2, -1, 0], [-2, -1, -1, 39], [-3, -2, -1, 0], [-3, -2, -1, 0],
      [-3, -2, -1, 0], [100, 93, 86, 79]], [-2, -1, -1, 39, 100, 93, 86, 79, -3, -2, -1, 0]) := by
    have h := pkFinal_eq
    unfold pkFinal at h
    split at h
    · rename_i L e; exact ⟨L, e, Option.some.inj h⟩
    · cases h
  have h1 := congrArg (fun (x : List (List Int) × List Int) => x.1[3]?) hs
  have h2 := congrArg (fun (x : List (List Int) × List Int) => x.2) hs
  refine ⟨fun a => (hS a).choose, ?_⟩
  obtain ⟨S', e, o, _⟩ := (C72_programs_partial hc (T := fun _ => pkInt) (fun _ => hT) (fun _ => rfl) pkTys PkTy.tag hv (by intro a; cases a <;> rfl) pkCfg
    (fun a => rfl) (fun a => rfl) hR (U := fun _ => pkInt) (fun _ => hT) (fun _ => true) (fun a => rfl) (fun _ _ _ h => by cases h) pkCvt
    (fun a b x y h => Option.some.inj h) (fun a b => a == b) (fun a b => a == b) (fun _ _ _ => rfl) (fun _ _ _ => rfl) (fun _ => true)
    (fun _ => .generic) (fun _ => false) (by intro a; cases a <;> first | trivial | exact ⟨by decide, by decide⟩)
    (fun _ _ => false) pkEnv pkEnv_aligned (fun _ j => 100 * j) pkProg pkProg_wf pkProg_within (fun a h => by cases a <;> exact absurd h (by decide)) _ pkZero
    (fun a => (hS a).choose_spec) 9).1 L hL
  refine ⟨S', fun a => (hS a).choose_spec, e, ?_, ?_⟩
  · refine (congrArg (List.map BitVec.toInt) ((List.append_nil _).symm.trans ((o four).v 3).2)).trans ?_
    exact (List.map_map (f := fun i => ((L four i).v 3 : BitVec 32)) (g := BitVec.toInt) (l := List.range 4)).trans (Option.some.inj h1)
  · refine (congrArg (List.map BitVec.toInt) ((o twelve).v 1).2).trans ?_
    exact (List.map_map (f := fun i => ((L twelve i).v 1 : BitVec 32)) (g := BitVec.toInt) (l := List.range 12)).trans h2

end StdSimd.Props
