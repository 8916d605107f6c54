import Verif.Proofs.KnownX86
/-!
# C68: what the compiler knows about values does not matter

The library chooses between code paths by asking the compiler what it knows (`__builtin_constant_p`, `_M_is_constprop`, `_M_is_constprop_none_of`, ...), and by the
instruction set.  Two builds of the same program may answer differently at every place.
-/
namespace StdSimd.Props
open StdSimd Spec Spec.Program Spec.Control Spec.Multi SimdClass Tuple Native MaskSplit
variable {ι : Type} [DecidableEq ι] {t : Abi.Target}

/-- Everything that a build of a program may choose for itself: what is known about operands (`known`, `isConst`, `c`, `C.c`), code paths, the contents of
padding (`X.junk`, `C.junk`, `ctx`). -/
structure Build (t : Abi.Target) (ty : ι → ArithTy) (β : ι → Type) (T : ι → Abi.Elem) (tag : ι → Abi.Tag) where
  known : ι → ∀ w, Known w
  codes : X86Codes
  X : ArithCtx
  C : ∀ a, Cfg (ty a).kind (β a)
  ctx : ∀ a b, Convert.Ctx (ty a).kind.Bits (ty b).kind.Bits
  same : ι → ι → Bool
  ident : ι → ι → Bool
  c : ι → Bool
  path : ι → VecPath
  wide : ι → Bool
  isConst : ∀ a, (abiImpl (C a) t (T a) (shape t (T a) (tag a))).M → Bool

section
variable {ty : ι → ArithTy} {β : ι → Type} {T : ι → Abi.Elem} {tag : ι → Abi.Tag}

/-- The choices are possible ones (as in `C65_x86_partial`). -/
structure Build.Ok (B : Build t ty β T tag) (W : FloatSem) (Y : Types (fun a => (ty a).kind) β) : Prop where
  flt : ∀ f h g, (B.X.flt f h g).env = W.env f h ∧ (B.X.flt f h g).lib = W.lib f
  codes : ∀ a, ∀ g ∈ abiRegs t (T a) (shape t (T a) (tag a)), g ≠ .scalar → X86Codes.Fit B.codes g (ty a)
  ld : ∀ a, (B.C a).ld = Y.ld a
  st : ∀ a, (B.C a).st = Y.st a
  reg : ∀ a, (B.C a).R = x86KnownReg (B.known a) B.codes W B.X (ty a)
  xfer : ∀ a, ∃ U : Abi.Elem, U.Ok ∧ ∃ same, (B.C a).xfer = Xfer.of t U same
  raw : ∀ a g, shape t (T a) (tag a) = .native g → (B.C a).path g = .raw → Exact g
  cast : ∀ a b x y, arithCast W (ty a) (ty b) x = some y → (B.ctx a b).cast x = y
  same : ∀ a b, B.same a b = true → T a = T b
  ident : ∀ a b, B.ident a b = true → T a = T b
  path : ∀ a, AbiFit (B.path a) (B.wide a) (shape t (T a) (tag a))

/-- The objects of a build of the program. -/
abbrev Build.Objects (B : Build t ty β T tag) : Type := ∀ a, State (abiImpl (B.C a) t (T a) (shape t (T a) (tag a)))

/-- What the build does. -/
def Build.run (B : Build t ty β T tag) (Y : Types (fun a => (ty a).kind) β) (base : ι → Nat → Nat) (fuel : Nat) (p : Prog (fun a => (ty a).kind))
    (S : B.Objects) : Outcome B.Objects :=
  runMulti (fun a => abiRed (B.C a) t (T a) (Y.A a) (B.path a) (B.wide a) (B.c a) (shape t (T a) (tag a)) (B.isConst a))
    (abiCasts t T tag B.C B.ctx B.same B.ident) (fun a => (Y.E a).width) base fuel p S

theorem x86KnownReg_implements (ht : t.Consistent) {T : Abi.Elem} (hT : T.Ok) {y : ArithTy} (hK : TyOk T y) (k : ∀ w, Known w) (c : X86Codes) (W : FloatSem) (X : ArithCtx)
    (hF : ∀ f h g, (X.flt f h g).env = W.env f h ∧ (X.flt f h g).lib = W.lib f) (ops : BOp → Bool) {tag : Abi.Tag} (hv : Abi.valid t T tag = true)
    (hc : ∀ g ∈ abiRegs t T (shape t T tag), g ≠ .scalar → X86Codes.Fit c g y)
    (ho : (ops .div = true ∨ ops .mod = true) → (∀ w, y ≠ .int true w) ∨ ∀ g ∈ abiRegs t T (shape t T tag), g.size = g.full) :
    ∀ g ∈ abiRegs t T (shape t T tag), Implements (x86KnownReg k c W X y) (arithElem W ops y) g := by
  intro g hg
  have hg' : g.Ok := (abiRegs_facts ht hT (shape_ok hT hv).1).1 g hg
  cases y with
  | int s w =>
    obtain ⟨hw, hs⟩ := hK
    refine Implements.withFuns ?_ (intRegFuns_implements s (by simp at hs; omega) (X.abs _) (X.cmp s _) hg' (fun _ => by
      subst hw; exact abi_fits ht hT hs hv g hg))
    have hd : (ops .div = true ∨ ops .mod = true) → s = false ∨ g.size = g.full := by
      intro h
      rcases ho h with h | h
      · left
        cases s
        · rfl
        · exact absurd rfl (h _)
      · exact .inr (h g hg)
    have hcases : w = 8 ∨ w = 16 ∨ w = 32 ∨ w = 64 := by simp at hs; omega
    rcases hcases with rfl | rfl | rfl | rfl
    · exact x86Known_implements (by omega) _ _ hg' ops hd (implements_only (x86Byte_implements c.byte s hg' (hc g hg) (by omega)) ops)
    · exact x86Known_implements (by omega) _ _ hg' ops hd (implements_only (x86Short_implements c.short s hg' (hc g hg)) ops)
    · exact x86Known_implements (by omega) _ _ hg' ops hd (implements_only (x86Int32_implements c.int s hg' (hc g hg)) ops)
    · exact x86Known_implements (by omega) _ _ hg' ops hd (x86Int64_implements c.long s hg' ops hd)
  | float f h1 h2 => exact floatReg_implements h1 h2 (W.env f h1) (W.lib f) (X.flt f h1) hg' (hF f h1 g).1 (hF f h1 g).2

/-- **C68**, one build on x86: a program on objects of arithmetic types of any ABI gives the elements and arrays that follow from the elements, and ends if and only if they say so, whatever
the compiler knows about the operands of `*`, `/`, `%` and `>>` and about masks.  Partial as C65, and without `/` and `%` of signed integers in partially filled registers
(`C68_known_divisor_wrong`); shift counts are less than the width of the elements (`C68_known_shift_wrong`). -/
theorem C68_build_partial (ht : t.Consistent) (hT : ∀ a, (T a).Ok) (hK : ∀ a, TyOk (T a) (ty a)) (hv : ∀ a, Abi.valid t (T a) (tag a) = true)
    (W : FloatSem) (Y : Types (fun a => (ty a).kind) β) (ops : ι → BOp → Bool) (hE : ∀ a, Y.E a = arithElem W (ops a) (ty a))
    (hcv : ∀ a b, Y.cv a b = arithCast W (ty a) (ty b)) (hn : ∀ a, Y.n a = Abi.size (T a) (tag a))
    (hops : ∀ a, (ops a .div = true ∨ ops a .mod = true) → (∀ w, ty a ≠ .int true w) ∨ ∀ g ∈ abiRegs t (T a) (shape t (T a) (tag a)), g.size = g.full)
    (base : ι → Nat → Nat) (p : Prog (fun a => (ty a).kind)) (hp : p.WellFormed Y)
    (hq : p.Convs (fun a b => IsFixed (shape t (T a) (tag a)) ∧ IsFixed (shape t (T b) (tag b))) (fun a b => T a = T b)
      (fun a b => Resizable (shape t (T a) (tag a)) (shape t (T b) (tag b))))
    (hl : ∀ a, p.usesLast a = true → AbiLast (shape t (T a) (tag a))) (B : Build t ty β T tag) (hB : B.Ok W Y) (S : B.Objects) (L : ∀ a, Nat → Lane (ty a).kind (β a))
    (hS : ∀ a, ObservedAbi (B.C a) t (T a) (shape t (T a) (tag a)) (base a) (S a) (L a)) (fuel : Nat) :
    (∀ L', p.exec Y fuel L = .done L' → ∃ S', B.run Y base fuel p S = .done S' ∧
        (∀ a, ObservedAbi (B.C a) t (T a) (shape t (T a) (tag a)) (base a) (S' a) (L' a)) ∧
        ∀ a j x, (x < base a j ∨ base a j + Y.n a ≤ x) → (S' a).mem j x = (S a).mem j x) ∧
    (p.exec Y fuel L = .running → B.run Y base fuel p S = .running) := by
  choose U hU ms hX using hB.xfer
  refine C65_abi_partial ht hT Y tag hv hn B.C hB.ld hB.st (fun a g hg => ?_) hU ms hX hB.raw B.ctx
    (fun a b x y h => hB.cast a b x y (by rw [← hcv]; exact h)) B.same B.ident hB.same hB.ident B.c B.path B.wide hB.path B.isConst base p hp hq hl S L hS fuel
  rw [hB.reg a, hE a]
  exact x86KnownReg_implements ht (hT a) (hK a) (B.known a) B.codes W B.X hB.flt (ops a) (hv a) (hB.codes a) (hops a) g hg

/-- **C68**, two builds: start two builds of the same program with objects that have the same elements and arrays.  If the program is defined, both end, with the same elements of all objects
and masks and the same arrays, or both go on.  Partial as `C68_build_partial`. -/
theorem C68_builds_agree_partial (ht : t.Consistent) (hT : ∀ a, (T a).Ok) (hK : ∀ a, TyOk (T a) (ty a)) (hv : ∀ a, Abi.valid t (T a) (tag a) = true)
    (W : FloatSem) (Y : Types (fun a => (ty a).kind) β) (ops : ι → BOp → Bool) (hE : ∀ a, Y.E a = arithElem W (ops a) (ty a))
    (hcv : ∀ a b, Y.cv a b = arithCast W (ty a) (ty b)) (hn : ∀ a, Y.n a = Abi.size (T a) (tag a))
    (hops : ∀ a, (ops a .div = true ∨ ops a .mod = true) → (∀ w, ty a ≠ .int true w) ∨ ∀ g ∈ abiRegs t (T a) (shape t (T a) (tag a)), g.size = g.full)
    (base : ι → Nat → Nat) (p : Prog (fun a => (ty a).kind)) (hp : p.WellFormed Y)
    (hq : p.Convs (fun a b => IsFixed (shape t (T a) (tag a)) ∧ IsFixed (shape t (T b) (tag b))) (fun a b => T a = T b)
      (fun a b => Resizable (shape t (T a) (tag a)) (shape t (T b) (tag b))))
    (hl : ∀ a, p.usesLast a = true → AbiLast (shape t (T a) (tag a))) (B B' : Build t ty β T tag) (hB : B.Ok W Y) (hB' : B'.Ok W Y) (S : B.Objects) (S' : B'.Objects)
    (L : ∀ a, Nat → Lane (ty a).kind (β a)) (hS : ∀ a, ObservedAbi (B.C a) t (T a) (shape t (T a) (tag a)) (base a) (S a) (L a))
    (hS' : ∀ a, ObservedAbi (B'.C a) t (T a) (shape t (T a) (tag a)) (base a) (S' a) (L a)) (fuel : Nat) (hdef : p.exec Y fuel L ≠ .undef) :
    (B.run Y base fuel p S = .running ∧ B'.run Y base fuel p S' = .running) ∨
    ∃ E E', B.run Y base fuel p S = .done E ∧ B'.run Y base fuel p S' = .done E' ∧ ∀ a,
      (∀ x, Tuple.lanes (abiRegs t (T a) (shape t (T a) (tag a))) (toRegs (B.C a) t (T a) _ ((E a).v x)) =
        Tuple.lanes (abiRegs t (T a) (shape t (T a) (tag a))) (toRegs (B'.C a) t (T a) _ ((E' a).v x))) ∧
      (∀ x, MaskSplit.lanes _ (toData (B.C a) t (T a) _ ((E a).m x)) = MaskSplit.lanes _ (toData (B'.C a) t (T a) _ ((E' a).m x))) ∧
      ∀ j, ∀ i < (shape t (T a) (tag a)).size, (E a).mem j (base a j + i) = (E' a).mem j (base a j + i) := by
  have h := C68_build_partial ht hT hK hv W Y ops hE hcv hn hops base p hp hq hl B hB S L hS fuel
  have h' := C68_build_partial ht hT hK hv W Y ops hE hcv hn hops base p hp hq hl B' hB' S' L hS' fuel
  cases e : p.exec Y fuel L with
  | undef => exact absurd e hdef
  | running => exact .inl ⟨h.2 e, h'.2 e⟩
  | done L' =>
    obtain ⟨E, r, o, _⟩ := h.1 L' e
    obtain ⟨E', r', o', _⟩ := h'.1 L' e
    refine .inr ⟨E, E', r, r', fun a => ⟨fun x => ?_, fun x => ?_, fun j i hi => ?_⟩⟩
    · rw [((o a).v x).2, ((o' a).v x).2]
    · rw [((o a).m x).2, ((o' a).m x).2]
    · rw [(o a).mem j i hi, (o' a).mem j i hi]
end

/-! ## the cases that are excluded -/

/-- The compiler knows everything, or nothing. -/
def knows (b : Bool) (w : Nat) : Known w := ⟨fun _ _ _ _ => b, fun _ _ _ _ => b⟩

/-- **C68, finding.** `simd<int, _VecBuiltin<12>>(INT_MIN) / 2`, three elements in a register of four, with AVX.  With a divisor the compiler knows, as this one, the division is the operator of the vector
type after the padding of the divisor was made -1, which is undefined since the broadcast put `INT_MIN` into the padding, too (C23); with an unknown divisor each element is -2^30. -/
theorem C68_known_divisor_wrong :
    let x := Native.broadcast (.vec 32 3 4) (BitVec.intMin 32)
    let y := Native.broadcast (.vec 32 3 4) 2#32
    (∀ i < 3, ∃ a b, x[i]? = some a ∧ y[i]? = some b ∧ Spec.div true a b = some (BitVec.ofInt 32 (-2 ^ 30))) ∧
    (∀ c : X86Int32, c.Ok (.vec 32 3 4) → ∀ junk,
      (x86Known (knows true 32) junk (x86Int32 c true)).bin .div (.vec 32 3 4) x y = none ∧
      ∃ z, (x86Known (knows false 32) junk (x86Int32 c true)).bin .div (.vec 32 3 4) x y = some z ∧ ∀ i < 3, z[i]? = some (BitVec.ofInt 32 (-2 ^ 30))) := by
  have hl : ∀ i < 3, ∃ a b, (Native.broadcast (.vec 32 3 4) (BitVec.intMin 32))[i]? = some a ∧ (Native.broadcast (.vec 32 3 4) 2#32)[i]? = some b ∧
      Spec.div true a b = some (BitVec.ofInt 32 (-2 ^ 30)) := by
    intro i hi
    refine ⟨BitVec.intMin 32, 2#32, ?_, ?_, by decide +kernel⟩
    · show (List.replicate 4 _)[i]? = _
      rw [List.getElem?_replicate, if_pos (by omega)]
    · show (List.replicate 4 _)[i]? = _
      rw [List.getElem?_replicate, if_pos (by omega)]
  refine ⟨hl, fun c hc junk => ⟨?_, ?_⟩⟩
  · show Division.divides (.vec 32 3 4) (Spec.div true) _ _ = none
    decide +kernel
  · obtain ⟨z, h1, _, h3⟩ := (x86Int32_implements c true (g := .vec 32 3 4) (by decide) (fun _ => hc)).bin .div
      (Native.broadcast (.vec 32 3 4) (BitVec.intMin 32)) (Native.broadcast (.vec 32 3 4) 2#32) (fun _ => (BitVec.ofInt 32 (-2 ^ 30) : BitVec 32)) rfl rfl hl
    exact ⟨z, h1, h3⟩

/-- **C68, finding.** `v >> w` for `signed char` elements -1 and counts 8, which C++ defines as -1 after promotion.  If the compiler knows both operands, the library uses the operator of the vector type, which is undefined for such counts
(`junk`).  If not, the result is 0 on SSE registers and -1 with AVX2: whatever the compiler makes of the undefined operation, one of the targets has two builds with different elements. -/
theorem C68_known_shift_wrong (junk : BitVec 8 → Nat → BitVec 8) :
    let x := Native.broadcast (.vec 8 16 16) (-1#8)
    let y := Native.broadcast (.vec 8 16 16) 8#8
    let r (k : Bool) (c : X86Byte) := (x86Known (knows k 8) junk (x86Byte c true)).bin .shr (.vec 8 16 16) x y
    r true exSseByte = some (List.replicate 16 (junk (-1#8) 8)) ∧ r true exAvxByte = some (List.replicate 16 (junk (-1#8) 8)) ∧
    r false exSseByte = some (List.replicate 16 0#8) ∧ r false exAvxByte = some (List.replicate 16 (-1#8)) := by
  refine ⟨rfl, rfl, ?_, ?_⟩
  · show (some (X86.shr8v true .sse2 _ _) : Option (List (BitVec 8))) = _
    decide +kernel
  · show (some (X86.shr8v true .avx2 _ _) : Option (List (BitVec 8))) = _
    decide +kernel

/-! ## a concrete program in two builds -/

open ExX

/-- The operators without `/` and `%` of integers. -/
def exKOps (a : ExX) : BOp → Bool
  | .div => a == flts
  | .mod => a == flts
  | _ => true

def exKTypes : Types (fun a => (ty a).kind) (fun a => (ty a).kind.Bits) := { exXTypes with E := fun a => arithElem exArSem (exKOps a) (ty a) }

/-- `i0 = 1000 - 700 * i; i1 = i0 * 7 >> i2; c0 = static_simd_cast<signed char>(i1); c1 = c0 * c0; f0 = static_simd_cast<float>(c1); f1 = f0 / 2` where `i2` is `{6, 6, 6}` -/
def exKProg : Prog (fun a => (ty a).kind) :=
  .seq (.on ints (.base (.assign 0 (.gen fun i => (BitVec.ofInt 32 (1000 - 700 * i) : BitVec 32))))) <|
  .seq (.on ints (.base (.assign 1 (.bin .shr (.bin .mul (.var 0) (.const (7#32 : BitVec 32))) (.const (6#32 : BitVec 32)))))) <|
  .seq (.cast false ints bytes 0 (.var 1)) <|
  .seq (.on bytes (.base (.assign 1 (.bin .mul (.var 0) (.var 0))))) <|
  .seq (.cast false bytes flts 0 (.var 1)) <|
  (.on flts (.base (.assign 1 (.bin .div (.var 0) (.const (0x40000000#32 : BitVec 32))))))

def exKFinal : Option (List Int × List Int × List Nat) :=
  match exKProg.exec exKTypes 1 exXZero with
  | .done L => some (exXShow L)
  | _ => none

theorem exKFinal_eq : exKFinal = some ([109, 32, -44], [105, 0, -112], [0x42520000, 0, 0xc2600000]) := by decide +kernel

/-- One build knows all operands and masks, the other none. -/
def exKCfg (b : Bool) (a : ExX) : Cfg (ty a).kind (ty a).kind.Bits :=
  { exXCfg a with R := x86KnownReg (knows b) exXCodes exArSem exArCtx (ty a), c := fun _ => b }

def exKBuild (b : Bool) : Build exAvx2 ty (fun a => (ty a).kind.Bits) elem tag where
  known _ := knows b
  codes := exXCodes
  X := exArCtx
  C := exKCfg b
  ctx := exXCvt
  same a b := a == b
  ident a b := a == b
  c _ := b
  path _ := .generic
  wide _ := false
  isConst _ _ := b

theorem exKBuild_ok (b : Bool) : (exKBuild b).Ok exArSem exKTypes where
  flt _ _ _ := ⟨rfl, rfl⟩
  codes a g _ _ := exXCodes_fit a g
  ld _ := rfl
  st _ := rfl
  reg _ := rfl
  xfer a := ⟨elem a, by cases a <;> decide, true, rfl⟩
  raw _ _ _ h := by cases h
  cast a b x y h := by simp [exKBuild, exXCvt, h]
  same a b h := by rw [eq_of_beq (show (a == b) = true from h)]
  ident a b h := by rw [eq_of_beq (show (a == b) = true from h)]
  path a := by cases a <;> trivial

/-- Objects exist in both builds, the theorem applies. -/
example : ∃ (S : (exKBuild true).Objects) (S' : (exKBuild false).Objects) (E : _) (E' : _),
    (∀ a, ObservedAbi (exKCfg true a) exAvx2 (elem a) (shape exAvx2 (elem a) (tag a)) (fun j => 100 * j) (S a) (exXZero a)) ∧
    (∀ a, ObservedAbi (exKCfg false a) exAvx2 (elem a) (shape exAvx2 (elem a) (tag a)) (fun j => 100 * j) (S' a) (exXZero a)) ∧
    (exKBuild true).run exKTypes (fun _ j => 100 * j) 1 exKProg S = .done E ∧
    (exKBuild false).run exKTypes (fun _ j => 100 * j) 1 exKProg S' = .done E' ∧
    ∃ L, exXShow L = ([109, 32, -44], [105, 0, -112], [0x42520000, 0, 0xc2600000]) ∧
      (∀ a, ObservedAbi (exKCfg true a) exAvx2 (elem a) (shape exAvx2 (elem a) (tag a)) (fun j => 100 * j) (E a) (L a)) ∧
      ∀ a, ObservedAbi (exKCfg false a) exAvx2 (elem a) (shape exAvx2 (elem a) (tag a)) (fun j => 100 * j) (E' a) (L a) := by
  have hc : exAvx2.Consistent := exAvx2_ok
  have hT : ∀ a, (elem a).Ok := by intro a; cases a <;> decide
  have hv : ∀ a, Abi.valid exAvx2 (elem a) (tag a) = true := by intro a; cases a <;> decide
  have hK : ∀ a, TyOk (elem a) (ty a) := by intro a; cases a <;> trivial
  have hok := fun a => (shape_ok (hT a) (hv a)).1
  have hops : ∀ a : ExX, (exKOps a .div = true ∨ exKOps a .mod = true) →
      (∀ w, ty a ≠ .int true w) ∨ ∀ g ∈ abiRegs exAvx2 (elem a) (shape exAvx2 (elem a) (tag a)), g.size = g.full := by
    intro a h
    cases a
    · simp [exKOps] at h
    · simp [exKOps] at h
    · exact .inl (fun w h => by simp [ty] at h)
  have hS : ∀ b a, ∃ S, ObservedAbi (exKCfg b a) exAvx2 (elem a) (shape exAvx2 (elem a) (tag a)) (fun j => 100 * j) S (exXZero a) := by
    intro b a
    obtain ⟨S, hS⟩ := exists_rep (abi_correct hc (hT a) (hok a) (exKCfg b a) (E := exKTypes.E a)
      (fun g hg => x86KnownReg_implements hc (hT a) (hK a) (knows b) exXCodes exArSem exArCtx (fun _ _ _ => ⟨rfl, rfl⟩) _ (hv a) (fun g _ _ => exXCodes_fit a g) (hops a) g hg)
      (hT a) true rfl (fun _ _ h => by cases h))
      (fun j => 100 * j) (exXZero a)
    exact ⟨S, (observedAbi_iff hc (hT a) (hok a) _ _ _ _).2 hS⟩
  obtain ⟨L, hL, hs⟩ : ∃ L, exKProg.exec exKTypes 1 exXZero = .done L ∧ some (exXShow L) = exKFinal := by
    have h := exKFinal_eq
    unfold exKFinal at h ⊢
    split at h
    · rename_i L e; exact ⟨L, e, rfl⟩
    · cases h
  rw [exKFinal_eq] at hs
  have key := fun b => (C68_build_partial hc hT hK hv exArSem exKTypes exKOps (fun a => rfl) (fun a b => rfl) (by intro a; cases a <;> rfl) hops (fun _ j => 100 * j) exKProg
    ⟨trivial, trivial, rfl, trivial, rfl, trivial⟩ ⟨trivial, trivial, nofun, trivial, nofun, trivial⟩ (fun a h => by cases a <;> exact absurd h (by decide))
    (exKBuild b) (exKBuild_ok b) (fun a => (hS b a).choose) exXZero (fun a => (hS b a).choose_spec) 1).1 L hL
  obtain ⟨E, r, o, _⟩ := key true
  obtain ⟨E', r', o', _⟩ := key false
  exact ⟨_, _, E, E', fun a => (hS true a).choose_spec, fun a => (hS false a).choose_spec, r, r', L, Option.some.inj hs, o, o'⟩

end StdSimd.Props
