import Verif.Proofs.MultiAbi
import Verif.Props.Multi
/-!
# C65 for objects of any ABI

As `Props/Multi.lean`, for types with any ABI tags: `simd_abi::scalar`, the native ABIs, partially filled registers, `fixed_size`.
-/
namespace StdSimd.Props
open StdSimd Spec Spec.Program Spec.Control Spec.Multi SimdClass Tuple Native MaskSplit
variable {ι : Type} [DecidableEq ι] {K : ι → Kind} {β : ι → Type} {t : Abi.Target}

/-- The objects and arrays of a program state have the elements `L i`. -/
structure ObservedAbi {K : Kind} {β : Type} (C : Cfg K β) (t : Abi.Target) (T : Abi.Elem) (s : MAbi) (base : Nat → Nat)
    (S : State (abiImpl C t T s)) (L : Nat → Lane K β) : Prop where
  v : ∀ x, Wf (abiRegs t T s) (toRegs C t T s (S.v x)) ∧
    Tuple.lanes (abiRegs t T s) (toRegs C t T s (S.v x)) = (List.range s.size).map fun i => (L i).v x
  m : ∀ x, MOk s (toData C t T s (S.m x)) ∧ MaskSplit.lanes s (toData C t T s (S.m x)) = (List.range s.size).map fun i => (L i).m x
  mem : ∀ j, ∀ i < s.size, S.mem j (base j + i) = some ((L i).arr j)

private theorem list_iff {α : Type} {n : Nat} (l : List α) (f : Nat → α) (hl : l.length = n) :
    l = (List.range n).map f ↔ ∀ i < n, l[i]? = some (f i) := by
  constructor
  · rintro rfl i hi; simp [hi]
  · intro h
    apply List.ext_getElem?
    intro i
    by_cases hi : i < n
    · rw [h i hi]; simp [hi]
    · rw [List.getElem?_eq_none (by omega), List.getElem?_eq_none (by simp; omega)]

theorem observedAbi_iff {K : Kind} {β : Type} (ht : t.Consistent) {T : Abi.Elem} (hT : T.Ok) {s : MAbi} (hs : s.Ok) (C : Cfg K β) (base : Nat → Nat)
    (S : State (abiImpl C t T s)) (L : Nat → Lane K β) :
    ObservedAbi C t T s base S L ↔ Rep (abiImpl C t T s) (abiVR C t T s) (abiMR C t T s) base S L := by
  obtain ⟨o1, o2, o3⟩ := abiRegs_facts ht hT hs
  have hsz : (abiImpl C t T s).size = s.size := by cases s <;> rfl
  have kv : ∀ x (f : Nat → K.Bits), (Wf (abiRegs t T s) (toRegs C t T s x) ∧
      Tuple.lanes (abiRegs t T s) (toRegs C t T s x) = (List.range s.size).map f) ↔ abiVR C t T s x f := by
    intro x f
    rw [abiVR_iff C t T hs]
    exact and_congr_right fun h => list_iff _ _ (by rw [Tuple.length_lanes o1 h, o2])
  have km : ∀ k (b : Nat → Bool), (MOk s (toData C t T s k) ∧ MaskSplit.lanes s (toData C t T s k) = (List.range s.size).map b) ↔ abiMR C t T s k b := by
    intro k b
    rw [abiMR_iff C t T hs]
    exact and_congr_right fun h => list_iff _ _ (MaskSplit.length_lanes hs _ h)
  constructor
  · intro h
    exact ⟨fun x => (kv _ _).1 (h.v x), fun x => (km _ _).1 (h.m x), by rw [hsz]; exact h.mem⟩
  · intro h
    exact ⟨fun x => (kv _ _).2 (h.v x), fun x => (km _ _).2 (h.m x), by have := h.mem; rw [hsz] at this; exact this⟩

/-- **C65** for any ABIs, partial: on objects of any element types and ABI tags (`T a`, `tag a`), after any number of rounds: if the specified program has
ended with elements `L'`, the program has ended with objects that have these elements, and memory outside the arrays is not changed; if the specified
program is still running, so is the program.  `hq`: implicit conversions exist for `fixed_size` only; `resizing_simd_cast` of values is for equal element types.
Missing, because the property fails there: `resizing_simd_cast` of masks to more elements of the same sort of mask (`C43_bits_grow_leak`, `C43_vec_padding_leak`),
masked loads and stores that use the mask register as it is with partially filled registers (`hraw`; `C63_native_masked_load_wrong`), and
`find_last_set` of bit masks with unused bits (`hl`; `C43_bits_shrink_phantom`). -/
theorem C65_abi_partial (ht : t.Consistent) {T : ι → Abi.Elem} (hT : ∀ a, (T a).Ok) (Y : Types K β) (tag : ι → Abi.Tag)
    (hv : ∀ a, Abi.valid t (T a) (tag a) = true) (hn : ∀ a, Y.n a = Abi.size (T a) (tag a)) (C : ∀ a, Cfg (K a) (β a))
    (hld : ∀ a, (C a).ld = Y.ld a) (hst : ∀ a, (C a).st = Y.st a)
    (hR : ∀ a, ∀ g ∈ abiRegs t (T a) (shape t (T a) (tag a)), Implements (C a).R (Y.E a) g) {U : ι → Abi.Elem} (hU : ∀ a, (U a).Ok)
    (memSame : ι → Bool) (hX : ∀ a, (C a).xfer = Xfer.of t (U a) (memSame a))
    (hraw : ∀ a g, shape t (T a) (tag a) = .native g → (C a).path g = .raw → Exact g)
    (ctx : ∀ a b, Convert.Ctx (K a).Bits (K b).Bits) (hcast : ∀ a b x y, Y.cv a b x = some y → (ctx a b).cast x = y) (same ident : ι → ι → Bool)
    (hsame : ∀ a b, same a b = true → T a = T b) (hident : ∀ a b, ident a b = true → T a = T b) (c : ι → Bool) (path : ι → VecPath) (wide : ι → Bool)
    (hf : ∀ a, AbiFit (path a) (wide a) (shape t (T a) (tag a))) (isConst : ∀ a, (abiImpl (C a) t (T a) (shape t (T a) (tag a))).M → Bool)
    (base : ι → Nat → Nat) (p : Prog K) (hp : p.WellFormed Y)
    (hq : p.Convs (fun a b => IsFixed (shape t (T a) (tag a)) ∧ IsFixed (shape t (T b) (tag b))) (fun a b => T a = T b)
      (fun a b => Resizable (shape t (T a) (tag a)) (shape t (T b) (tag b))))
    (hl : ∀ a, p.usesLast a = true → AbiLast (shape t (T a) (tag a)))
    (S : ∀ a, State (abiImpl (C a) t (T a) (shape t (T a) (tag a)))) (L : ∀ a, Nat → Lane (K a) (β a))
    (hS : ∀ a, ObservedAbi (C a) t (T a) (shape t (T a) (tag a)) (base a) (S a) (L a)) (fuel : Nat) :
    (∀ L', p.exec Y fuel L = .done L' →
      ∃ S', runMulti (fun a => abiRed (C a) t (T a) (Y.A a) (path a) (wide a) (c a) (shape t (T a) (tag a)) (isConst a))
          (abiCasts t T tag C ctx same ident) (fun a => (Y.E a).width) base fuel p S = .done S' ∧
        (∀ a, ObservedAbi (C a) t (T a) (shape t (T a) (tag a)) (base a) (S' a) (L' a)) ∧
        ∀ a j x, (x < base a j ∨ base a j + Y.n a ≤ x) → (S' a).mem j x = (S a).mem j x) ∧
    (p.exec Y fuel L = .running →
      runMulti (fun a => abiRed (C a) t (T a) (Y.A a) (path a) (wide a) (c a) (shape t (T a) (tag a)) (isConst a))
        (abiCasts t T tag C ctx same ident) (fun a => (Y.E a).width) base fuel p S = .running) := by
  have hok := fun a => (shape_ok (hT a) (hv a)).1
  have hsz : ∀ a, (abiImpl (C a) t (T a) (shape t (T a) (tag a))).size = Y.n a := (abi_casts ht hT Y hv hn C ctx hcast same ident hsame hident).size
  have h := runMulti_spec (base := base) (T := Y) (lastOk := fun a => AbiLast (shape t (T a) (tag a)))
    (fun a => by rw [← hld, ← hst]; exact abi_correct ht (hT a) (hok a) (C a) (hR a) (hU a) (memSame a) (hX a) (hraw a))
    (fun a => abi_red ht (hT a) (hv a) (C a) (Y.A a) (c a) (hf a) (isConst a))
    (abi_casts ht hT Y hv hn C ctx hcast same ident hsame hident) fuel p hp hq hl S L
    (fun a => (observedAbi_iff ht (hT a) (hok a) (C a) (base a) (S a) (L a)).1 (hS a))
  constructor
  · intro L' e
    rw [e] at h
    obtain ⟨S', e', hS', hfr⟩ := h
    refine ⟨S', e', fun a => (observedAbi_iff ht (hT a) (hok a) (C a) (base a) (S' a) (L' a)).2 (hS' a), fun a j x hx => hfr a j x ?_⟩
    rw [hsz a]; exact hx
  · intro e
    rw [e] at h
    exact h

/-! ## integer types -/

/-- **C65** for integer types of any ABI with `_SimdImplBuiltin`, partial: as `C65_abi_partial`, and without `/` and `%` of signed types with partially
filled registers, where the property fails (`C63_signed_division_wrong`). -/
theorem C65_abi_integers_partial {sgn : ι → Bool} {w : ι → Nat} (hw : ∀ a, 0 < w a) (ht : t.Consistent) {T : ι → Abi.Elem} (hT : ∀ a, (T a).Ok)
    (Y : Types (intKinds sgn w) β) (ops : ι → BOp → Bool) (hE : ∀ a, Y.E a = (intElem (sgn a) (w a) (w a)).only (ops a))
    (hcv : ∀ a b (x : BitVec (w a)), Y.cv a b x = some (BitVec.ofInt (w b) (Spec.value (sgn a) x)))
    (tag : ι → Abi.Tag) (hv : ∀ a, Abi.valid t (T a) (tag a) = true) (hn : ∀ a, Y.n a = Abi.size (T a) (tag a))
    (hops : ∀ a, (ops a .div = true ∨ ops a .mod = true) → sgn a = false ∨ ∀ g ∈ abiRegs t (T a) (shape t (T a) (tag a)), g.size = g.full)
    (C : ∀ a, Cfg (intKinds sgn w a) (β a)) (hld : ∀ a, (C a).ld = Y.ld a) (hst : ∀ a, (C a).st = Y.st a)
    (junk : ∀ a, BitVec (w a) → Nat → BitVec (w a)) (hC : ∀ a, (C a).R = builtinInt (sgn a) (w a) (junk a)) {U : ι → Abi.Elem}
    (hU : ∀ a, (U a).Ok) (memSame : ι → Bool) (hX : ∀ a, (C a).xfer = Xfer.of t (U a) (memSame a))
    (hraw : ∀ a g, shape t (T a) (tag a) = .native g → (C a).path g = .raw → Exact g)
    (ctx : ∀ a b, Convert.Ctx (intKinds sgn w a).Bits (intKinds sgn w b).Bits)
    (hcast : ∀ a b (x : BitVec (w a)), (ctx a b).cast x = (BitVec.ofInt (w b) (Spec.value (sgn a) x) : BitVec (w b))) (same ident : ι → ι → Bool)
    (hsame : ∀ a b, same a b = true → T a = T b) (hident : ∀ a b, ident a b = true → T a = T b) (c : ι → Bool) (path : ι → VecPath) (wide : ι → Bool)
    (hf : ∀ a, AbiFit (path a) (wide a) (shape t (T a) (tag a))) (isConst : ∀ a, (abiImpl (C a) t (T a) (shape t (T a) (tag a))).M → Bool)
    (base : ι → Nat → Nat) (p : Prog (intKinds sgn w)) (hp : p.WellFormed Y)
    (hq : p.Convs (fun a b => IsFixed (shape t (T a) (tag a)) ∧ IsFixed (shape t (T b) (tag b))) (fun a b => T a = T b)
      (fun a b => Resizable (shape t (T a) (tag a)) (shape t (T b) (tag b))))
    (hl : ∀ a, p.usesLast a = true → AbiLast (shape t (T a) (tag a)))
    (S : ∀ a, State (abiImpl (C a) t (T a) (shape t (T a) (tag a)))) (L : ∀ a, Nat → Lane (intKinds sgn w a) (β a))
    (hS : ∀ a, ObservedAbi (C a) t (T a) (shape t (T a) (tag a)) (base a) (S a) (L a)) (fuel : Nat) (L' : ∀ a, Nat → Lane (intKinds sgn w a) (β a))
    (hL : p.exec Y fuel L = .done L') :
    ∃ S', runMulti (fun a => abiRed (C a) t (T a) (Y.A a) (path a) (wide a) (c a) (shape t (T a) (tag a)) (isConst a))
        (abiCasts t T tag C ctx same ident) (fun a => max (w a) 32) base fuel p S = .done S' ∧
      (∀ a, ObservedAbi (C a) t (T a) (shape t (T a) (tag a)) (base a) (S' a) (L' a)) ∧
      ∀ a j x, (x < base a j ∨ base a j + Y.n a ≤ x) → (S' a).mem j x = (S a).mem j x := by
  have hwid : (fun a => (Y.E a).width) = fun a => max (w a) 32 := by funext a; rw [hE a]; rfl
  have h := (C65_abi_partial ht hT Y tag hv hn C hld hst (fun a g hg => by
    rw [hC a, hE a]
    exact builtinInt_implements (sgn a) (hw a) (junk a) ((abiRegs_facts ht (hT a) (shape_ok (hT a) (hv a)).1).1 g hg) _
      (fun h => (hops a h).imp_right fun h => h g hg)) hU memSame hX hraw ctx (fun a b x y h => by
      rw [hcv a b x] at h
      rw [← Option.some.inj h]
      exact hcast a b x) same ident hsame hident c path wide hf isConst base p hp hq hl S L hS fuel).1 L' hL
  rw [hwid] at h
  exact h

/-! ## a concrete program -/

/-- `simd<int, native>` with AVX2 (8 elements), `fixed_size_simd<unsigned char, 8>`, `simd<int, _VecBuiltin<12>>` (3 elements in a register of 4). -/
inductive ExTy
  | wide | bytes | three
  deriving DecidableEq

namespace ExTy
abbrev sgn : ExTy → Bool
  | bytes => false
  | _ => true
abbrev bits : ExTy → Nat
  | bytes => 8
  | _ => 32
abbrev elem : ExTy → Abi.Elem
  | bytes => ⟨1, false⟩
  | _ => ⟨4, false⟩
abbrev tag : ExTy → Abi.Tag
  | wide => .builtin 32
  | bytes => .fixed 8
  | three => .builtin 12
abbrev num : ExTy → Nat
  | three => 3
  | _ => 8
end ExTy
open ExTy

def exTys : Types (intKinds sgn bits) (fun a => BitVec (bits a)) where
  E a := (intElem (sgn a) (bits a) (bits a)).only (fun o => !(o == .div) && !(o == .mod))
  A a := ⟨fun (x y : BitVec (bits a)) => (x + y : BitVec (bits a)), fun (x y : BitVec (bits a)) => (x * y : BitVec (bits a)), (1 : BitVec (bits a))⟩
  ld a := fun (x : BitVec (bits a)) => (x : BitVec (bits a))
  st a := fun (x : BitVec (bits a)) => (x : BitVec (bits a))
  n := num
  cv a b := fun (x : BitVec (bits a)) => some (BitVec.ofInt (bits b) (Spec.value (sgn a) x) : BitVec (bits b))

/-- `c0 = 30 * i + 7; v0 = static_simd_cast<simd<int>>(c0); v1 = v0 * 200 - 9000; while (any_of(v1 > 255)) where(v1 > 255, v1) = v1 >> 1;
c_mask0 = static_simd_cast<fixed_size_simd<unsigned char, 8>>(v1 < 0); t0 = resizing_simd_cast<simd<int, 3>>(v1); t_mask0 = resizing_simd_cast(c_mask0);
where(t_mask0, t0) = -1; v2 = resizing_simd_cast<simd<int>>(t0); if (any_of(t_mask0)) v3 = reduce(v2)` -/
def exAbiProg : Prog (intKinds sgn bits) :=
  .seq (.on bytes (.base (.assign 0 (.gen fun i => BitVec.ofNat 8 (30 * i + 7))))) <|
  .seq (.cast false bytes wide 0 (.var 0)) <|
  .seq (.on wide (.base (.assign 1 (.bin .sub (.bin .mul (.var 0) (.const 200#32)) (.const 9000#32))))) <|
  .seq (.while (.on wide (.anyOf (.cmp .gt (.var 1) (.const 255#32))))
    (.on wide (.base (.whereAssign (.cmp .gt (.var 1) (.const 255#32)) 1 (.shift false (.var 1) 1))))) <|
  .seq (.mcast false wide bytes 0 (.cmp .lt (.var 1) (.const 0#32))) <|
  .seq (.resize wide three rfl 0 (.var 1)) <|
  .seq (.mresize bytes three 0 (.var 0)) <|
  .seq (.on three (.base (.whereAssign (.var 0) 0 (.const 0xffffffff#32)))) <|
  .seq (.resize three wide rfl 2 (.var 0)) <|
  .ite (.on three (.anyOf (.var 0))) (.on wide (.reduce 3 .plus (.var 2))) (.on wide (.base .skip))

theorem exAbiProg_wf : exAbiProg.WellFormed exTys :=
  ⟨trivial, rfl, trivial, trivial, rfl, trivial, trivial, trivial, trivial,
    ⟨fun (a b c : BitVec 32) => BitVec.add_assoc a b c, fun (a b : BitVec 32) => BitVec.add_comm a b, fun (a : BitVec 32) => BitVec.add_zero a⟩, trivial⟩

theorem exAbiProg_convs : exAbiProg.Convs (fun a b => IsFixed (shape exAvx2 (elem a) (tag a)) ∧ IsFixed (shape exAvx2 (elem b) (tag b)))
    (fun a b => elem a = elem b) (fun a b => Resizable (shape exAvx2 (elem a) (tag a)) (shape exAvx2 (elem b) (tag b))) :=
  ⟨trivial, nofun, trivial, trivial, nofun, rfl, trivial, trivial, rfl, trivial, trivial⟩

def exTyZero (a : ExTy) (_ : Nat) : Lane (intKinds sgn bits a) (BitVec (bits a)) where
  v := fun _ => (0 : BitVec (bits a))
  m := fun _ => false
  arr := fun _ => 0

def exTyShow (L : ∀ a, Nat → Lane (intKinds sgn bits a) (BitVec (bits a))) : List Int × List (List Int) :=
  ((List.range 3).map fun i => BitVec.toInt ((L three i).v 0 : BitVec 32),
   (List.range 4).map fun x => (List.range 8).map fun i => BitVec.toInt ((L wide i).v x : BitVec 32))

def exTyFinal : Option (List Int × List (List Int)) :=
  match exAbiProg.exec exTys 9 exTyZero with
  | .done L => some (exTyShow L)
  | _ => none

-- the specified program ends (hypothesis `hL`)
theorem exTyFinal_eq : exTyFinal = some ([-1, -1, 137],
    [[7, 37, 67, 97, 127, 157, 187, 217], [-7600, -1600, 137, 162, 128, 175, 221, 134], [-1, -1, 137, 0, 0, 0, 0, 0],
      [135, 135, 135, 135, 135, 135, 135, 135]]) := by decide +kernel

def exTyCfg (a : ExTy) : Cfg (intKinds sgn bits a) (BitVec (bits a)) where
  R := builtinInt (sgn a) (bits a) (fun x i => x + BitVec.ofNat _ i)
  c _ := true
  ctx _ := ⟨true, false, [], []⟩
  xfer := Xfer.of exAvx2 (elem a) true
  path _ := .iter
  junk := (99 : BitVec (bits a))
  ld := fun (x : BitVec (bits a)) => (x : BitVec (bits a))
  st := fun (x : BitVec (bits a)) => (x : BitVec (bits a))

def exTyCvt (a b : ExTy) : Convert.Ctx (intKinds sgn bits a).Bits (intKinds sgn bits b).Bits where
  cast := fun (x : BitVec (bits a)) => (BitVec.ofInt (bits b) (Spec.value (sgn a) x) : BitVec (bits b))
  zeroA := (0 : BitVec (bits a))
  zeroB := (0 : BitVec (bits b))
  junkA := fun i => (BitVec.ofNat (bits a) (i + 11) : BitVec (bits a))
  junkB := fun i => (BitVec.ofNat (bits b) (i + 22) : BitVec (bits b))
  x86 := fun l => l.length == 1

/-- The objects at the beginning exist, the theorem applies, and the user sees the numbers above in the objects at the end. -/
example : ∃ S : ∀ a, State (abiImpl (exTyCfg a) exAvx2 (elem a) (shape exAvx2 (elem a) (tag a))), ∃ S',
    (∀ a, ObservedAbi (exTyCfg a) exAvx2 (elem a) (shape exAvx2 (elem a) (tag a)) (fun j => 100 * j) (S a) (exTyZero a)) ∧
    runMulti (fun a => abiRed (exTyCfg a) exAvx2 (elem a) (exTys.A a) .generic false true (shape exAvx2 (elem a) (tag a)) (fun _ => false))
      (abiCasts exAvx2 elem tag exTyCfg exTyCvt (fun a b => a == b) (fun a b => a == b)) (fun a => max (bits a) 32) (fun _ j => 100 * j) 9
      exAbiProg S = .done S' ∧
    (((S' three).v 0 : List (BitVec 32)).take 3).map BitVec.toInt = [-1, -1, 137] ∧
    (((S' wide).v 3 : List (BitVec 32)).take 8).map BitVec.toInt = [135, 135, 135, 135, 135, 135, 135, 135] := by
  have hc : exAvx2.Consistent := exAvx2_ok
  have hT : ∀ a, (elem a).Ok := by intro a; cases a <;> decide
  have hv : ∀ a, Abi.valid exAvx2 (elem a) (tag a) = true := by intro a; cases a <;> decide
  have hok := fun a => (shape_ok (hT a) (hv a)).1
  have hS : ∀ a, ∃ S, ObservedAbi (exTyCfg a) exAvx2 (elem a) (shape exAvx2 (elem a) (tag a)) (fun j => 100 * j) S (exTyZero a) := by
    intro a
    obtain ⟨S, hS⟩ := exists_rep (abi_correct hc (hT a) (hok a) (exTyCfg a) (E := exTys.E a) (fun g hg =>
      builtinInt_implements (w := bits a) (sgn a) (by cases a <;> decide) (fun x i => x + BitVec.ofNat _ i)
        ((abiRegs_facts hc (hT a) (hok a)).1 g hg) (fun o => !(o == .div) && !(o == .mod)) (by simp)) (hT a) true rfl
        (fun _ _ h => by cases h))
      (fun j => 100 * j) (exTyZero a)
    exact ⟨S, (observedAbi_iff hc (hT a) (hok a) _ _ _ _).2 hS⟩
  obtain ⟨L, hL, hs⟩ : ∃ L, exAbiProg.exec exTys 9 exTyZero = .done L ∧ exTyShow L = ([-1, -1, 137],
    [[7, 37, 67, 97, 127, 157, 187, 217], [-7600, -1600, 137, 162, 128, 175, 221, 134], [-1, -1, 137, 0, 0, 0, 0, 0],
      [135, 135, 135, 135, 135, 135, 135, 135]]) := by
    have h := exTyFinal_eq
    unfold exTyFinal at h
    split at h
    · rename_i L e; exact ⟨L, e, Option.some.inj h⟩
    · cases h
  have h1 := congrArg (fun (x : List Int × List (List Int)) => x.1) hs
  have h2 := congrArg (fun (x : List Int × List (List Int)) => x.2[3]?) hs
  refine ⟨fun a => (hS a).choose, ?_⟩
  obtain ⟨S', e, o, _⟩ := C65_abi_integers_partial (w := bits) (sgn := sgn) (by intro a; cases a <;> decide) hc hT exTys _ (fun a => rfl) (fun a b x => rfl)
    tag hv (by intro a; cases a <;> rfl) (fun a h => by simp at h) exTyCfg (fun a => rfl) (fun a => rfl) (fun a x i => x + BitVec.ofNat _ i) (fun a => rfl) hT
    (fun _ => true) (fun a => rfl) (fun _ _ _ h => by cases h) exTyCvt (fun a b x => rfl)
    (fun a b => a == b) (fun a b => a == b) (fun a b h => by rw [eq_of_beq h]) (fun a b h => by rw [eq_of_beq h]) (fun _ => true)
    (fun _ => .generic) (fun _ => false) (by intro a; cases a <;> first | trivial | exact ⟨by decide, by decide⟩)
    (fun _ _ => false) (fun _ j => 100 * j) exAbiProg exAbiProg_wf exAbiProg_convs (fun a h => by cases a <;> exact absurd h (by decide)) _ exTyZero
    (fun a => (hS a).choose_spec) 9 L hL
  refine ⟨S', fun a => (hS a).choose_spec, e, ?_, ?_⟩
  · refine (congrArg (List.map BitVec.toInt) ((List.append_nil _).symm.trans ((o three).v 0).2)).trans ?_
    exact (List.map_map (f := fun i => ((L three i).v 0 : BitVec 32)) (g := BitVec.toInt) (l := List.range 3)).trans h1
  · refine (congrArg (List.map BitVec.toInt) ((List.append_nil _).symm.trans ((o wide).v 3).2)).trans ?_
    exact (List.map_map (f := fun i => ((L wide i).v 3 : BitVec 32)) (g := BitVec.toInt) (l := List.range 8)).trans (Option.some.inj h2)

end StdSimd.Props
