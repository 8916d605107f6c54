import Verif.Model.ArithX86
import Verif.Proofs.SimdPpc
import Verif.Props.ArithTypes
import Verif.Props.SimdX86
/-!
# C65 on x86 and PowerPC: programs that mix integer and floating-point types

The operators of `_SimdImplX86` and `_SimdImplPpc` for integers, those of IEEE 754 for floating-point types.
-/
namespace StdSimd.Props
open StdSimd Spec Spec.Program Spec.Control Spec.Multi SimdClass Tuple Native MaskSplit
variable {ι : Type} [DecidableEq ι] {t : Abi.Target}

theorem implements_mono {K : Kind} {R : RegImpl K} {E E' : Program.Elem K} {g : Geo} (h : Implements R E g) (hu : E'.un = E.un)
    (hb : ∀ o a b r, E'.bin o a b = some r → E.bin o a b = some r) (hs : ∀ l a s r, E'.shift l a s = some r → E.shift l a s = some r)
    (hw : E'.width ≤ E.width) (hf : E'.fn = E.fn) : Implements R E' g := by
  refine ⟨fun o x r hx hr => h.un o x r hx (by rw [← hu]; exact hr), fun o x y r hx hy hr => h.bin o x y r hx hy (fun i hi => ?_),
    fun l x s r hx hl hr => h.shift l x s r hx (lt_of_lt_of_le hl hw) (fun i hi => ?_), hf ▸ h.fn⟩
  · obtain ⟨a, b, h1, h2, h3⟩ := hr i hi
    exact ⟨a, b, h1, h2, hb _ _ _ _ h3⟩
  · obtain ⟨a, h1, h2⟩ := hr i hi
    exact ⟨a, h1, hs _ _ _ _ h2⟩

theorem only_bin {K : Kind} {E : Program.Elem K} {p : BOp → Bool} {o : BOp} {a b r : K.Bits} (h : (E.only p).bin o a b = some r) :
    p o = true ∧ E.bin o a b = some r := by
  by_cases ho : p o = true
  · exact ⟨ho, by simpa only [Elem.only, if_pos ho] using h⟩
  · simp only [Elem.only, if_neg ho] at h; exact absurd h (by simp)

theorem implements_only {K : Kind} {R : RegImpl K} {E : Program.Elem K} {g : Geo} (h : Implements R E g) (p : BOp → Bool) : Implements R (E.only p) g :=
  implements_mono h rfl (fun _ _ _ _ h => (only_bin h).2) (fun _ _ _ _ h => h) le_rfl rfl

theorem intElem_lim {s : Bool} {w l l' : Nat} (hl : l ≤ l') {o : BOp} {a b r : BitVec w} (h : (intElem s w l).bin o a b = some r) :
    (intElem s w l').bin o a b = some r := by
  have key : ∀ {P : Option (BitVec w)}, (if 0 ≤ Spec.value s b ∧ Spec.value s b < l then P else none) = some r →
      (if 0 ≤ Spec.value s b ∧ Spec.value s b < l' then P else none) = some r := by
    intro P h
    split at h
    · rename_i hc; rw [if_pos ⟨hc.1, by omega⟩]; exact h
    · cases h
  cases o
  case shl => exact key h
  case shr => exact key h
  all_goals exact h

theorem implements_lim {s : Bool} {w l l' : Nat} (hl : l ≤ l') {R : RegImpl (.int s w)} {p : BOp → Bool} {g : Geo}
    (h : Implements R ((intElem s w l').only p) g) : Implements R ((intElem s w l).only p) g := by
  refine implements_mono h rfl (fun o a b r hr => ?_) (fun left a k r hr => ?_) le_rfl rfl
  · obtain ⟨h1, h2⟩ := only_bin hr
    show (if p o = true then (intElem s w l').bin o a b else none) = some r
    rw [if_pos h1]
    exact intElem_lim hl h2
  · have : (if k < l then some (if left then Spec.shl (a : BitVec w) k else Spec.shr s (a : BitVec w) k) else none) = some r := hr
    split at this
    · rename_i hk
      show (if k < l' then some (if left then Spec.shl (a : BitVec w) k else Spec.shr s (a : BitVec w) k) else none) = some r
      rw [if_pos (by omega)]; exact this
    · cases this

/-- The code paths for the elements of an integer type are those that exist (`X86Byte.Ok`, ...). -/
def X86Codes.Fit (c : X86Codes) (g : Geo) : ArithTy → Prop
  | .int s 8 => c.byte.Ok s 8 g
  | .int _ 16 => c.short.Ok g
  | .int _ 32 => c.int.Ok g
  | _ => True

theorem x86Reg_implements (ht : t.Consistent) {T : Abi.Elem} (hT : T.Ok) {y : ArithTy} (hK : TyOk T y) (c : X86Codes) (W : FloatSem) (X : ArithCtx)
    (hF : ∀ f h g, (X.flt f h g).env = W.env f h ∧ (X.flt f h g).lib = W.lib f) (ops : BOp → Bool) {tag : Abi.Tag} (hv : Abi.valid t T tag = true)
    (hc : ∀ g ∈ abiRegs t T (shape t T tag), g ≠ .scalar → X86Codes.Fit c g y)
    (ho : (ops .div = true ∨ ops .mod = true) → y ≠ .int true 64 ∨ ∀ g ∈ abiRegs t T (shape t T tag), g.size = g.full) :
    ∀ g ∈ abiRegs t T (shape t T tag), Implements (x86Reg c W X y) (arithElem W ops y) g := by
  intro g hg
  have hg' : g.Ok := (abiRegs_facts ht hT (shape_ok hT hv).1).1 g hg
  cases y with
  | int s w =>
    obtain ⟨hw, hs⟩ := hK
    refine Implements.withFuns ?_ (intRegFuns_implements s (by simp at hs; omega) (X.abs _) (X.cmp s _) hg' (fun _ => by
      subst hw; exact abi_fits ht hT hs hv g hg))
    have hcases : w = 8 ∨ w = 16 ∨ w = 32 ∨ w = 64 := by simp at hs; omega
    rcases hcases with rfl | rfl | rfl | rfl
    · exact implements_only (x86Byte_implements c.byte s hg' (hc g hg) (by omega)) ops
    · exact implements_only (x86Short_implements c.short s hg' (hc g hg)) ops
    · exact implements_only (x86Int32_implements c.int s hg' (hc g hg)) ops
    · refine x86Int64_implements c.long s hg' ops (fun h => ?_)
      rcases ho h with h | h
      · left
        cases s
        · rfl
        · exact absurd rfl h
      · exact .inr (h g hg)
  | float f h1 h2 => exact floatReg_implements h1 h2 (W.env f h1) (W.lib f) (X.flt f h1) hg' (hF f h1 g).1 (hF f h1 g).2

theorem ppcReg_implements (ht : t.Consistent) {T : Abi.Elem} (hT : T.Ok) {y : ArithTy} (hK : TyOk T y) (W : FloatSem) (X : ArithCtx)
    (hF : ∀ f h g, (X.flt f h g).env = W.env f h ∧ (X.flt f h g).lib = W.lib f) (ops : BOp → Bool) {tag : Abi.Tag} (hv : Abi.valid t T tag = true)
    (ho : (ops .div = true ∨ ops .mod = true) → (∀ w, y ≠ .int true w) ∨ ∀ g ∈ abiRegs t T (shape t T tag), g.size = g.full) :
    ∀ g ∈ abiRegs t T (shape t T tag), Implements (ppcReg W X y) (arithElem W ops y) g := by
  intro g hg
  have hg' : g.Ok := (abiRegs_facts ht hT (shape_ok hT hv).1).1 g hg
  cases y with
  | int s w =>
    obtain ⟨hw, hs⟩ := hK
    refine Implements.withFuns ?_ (intRegFuns_implements s (by simp at hs; omega) (X.abs _) (X.cmp s _) hg' (fun _ => by
      subst hw; exact abi_fits ht hT hs hv g hg))
    refine implements_lim (le_max_left w 32) (ppcInt_implements s (by simp at hs; omega) hg' ops (fun h => ?_))
    rcases ho h with h | h
    · left
      cases s
      · rfl
      · exact absurd rfl (h _)
    · exact .inr (h g hg)
  | float f h1 h2 => exact floatReg_implements h1 h2 (W.env f h1) (W.lib f) (X.flt f h1) hg' (hF f h1 g).1 (hF f h1 g).2

/-- **C65** on x86 for all arithmetic types of any ABI, partial: as `C65_abi_partial`, and without `/` and `%` of signed 64-bit integers with partially filled
registers.  Division of the other integers, through floating-point numbers, is right for them, too. -/
theorem C65_x86_partial (ty : ι → ArithTy) {β : ι → Type} (ht : t.Consistent) {T : ι → Abi.Elem} (hT : ∀ a, (T a).Ok)
    (hK : ∀ a, TyOk (T a) (ty a))
    (k : X86Codes) (W : FloatSem) (X : ArithCtx) (hF : ∀ f h g, (X.flt f h g).env = W.env f h ∧ (X.flt f h g).lib = W.lib f) (Y : Types (fun a => (ty a).kind) β) (ops : ι → BOp → Bool)
    (hE : ∀ a, Y.E a = arithElem W (ops a) (ty a)) (hcv : ∀ a b, Y.cv a b = arithCast W (ty a) (ty b))
    (tag : ι → Abi.Tag) (hv : ∀ a, Abi.valid t (T a) (tag a) = true) (hn : ∀ a, Y.n a = Abi.size (T a) (tag a))
    (hk : ∀ a, ∀ g ∈ abiRegs t (T a) (shape t (T a) (tag a)), g ≠ .scalar → X86Codes.Fit k g (ty a))
    (hops : ∀ a, (ops a .div = true ∨ ops a .mod = true) → ty a ≠ .int true 64 ∨ ∀ g ∈ abiRegs t (T a) (shape t (T a) (tag a)), g.size = g.full)
    (C : ∀ a, Cfg (ty a).kind (β a)) (hld : ∀ a, (C a).ld = Y.ld a) (hst : ∀ a, (C a).st = Y.st a) (hC : ∀ a, (C a).R = x86Reg k W X (ty a)) {U : ι → Abi.Elem}
    (hU : ∀ a, (U a).Ok) (memSame : ι → Bool) (hX : ∀ a, (C a).xfer = Xfer.of t (U a) (memSame a))
    (hraw : ∀ a g, shape t (T a) (tag a) = .native g → (C a).path g = .raw → Exact g)
    (ctx : ∀ a b, Convert.Ctx (ty a).kind.Bits (ty b).kind.Bits)
    (hcast : ∀ a b x y, arithCast W (ty a) (ty b) x = some y → (ctx a b).cast x = y) (same ident : ι → ι → Bool)
    (hsame : ∀ a b, same a b = true → T a = T b) (hident : ∀ a b, ident a b = true → T a = T b) (c : ι → Bool) (path : ι → VecPath) (wide : ι → Bool)
    (hf : ∀ a, AbiFit (path a) (wide a) (shape t (T a) (tag a))) (isConst : ∀ a, (abiImpl (C a) t (T a) (shape t (T a) (tag a))).M → Bool)
    (base : ι → Nat → Nat) (p : Prog (fun a => (ty a).kind)) (hp : p.WellFormed Y)
    (hq : p.Convs (fun a b => IsFixed (shape t (T a) (tag a)) ∧ IsFixed (shape t (T b) (tag b))) (fun a b => T a = T b)
      (fun a b => Resizable (shape t (T a) (tag a)) (shape t (T b) (tag b))))
    (hl : ∀ a, p.usesLast a = true → AbiLast (shape t (T a) (tag a)))
    (S : ∀ a, State (abiImpl (C a) t (T a) (shape t (T a) (tag a)))) (L : ∀ a, Nat → Lane (ty a).kind (β a))
    (hS : ∀ a, ObservedAbi (C a) t (T a) (shape t (T a) (tag a)) (base a) (S a) (L a)) (fuel : Nat) :
    (∀ L', p.exec Y fuel L = .done L' →
      ∃ S', runMulti (fun a => abiRed (C a) t (T a) (Y.A a) (path a) (wide a) (c a) (shape t (T a) (tag a)) (isConst a))
          (abiCasts t T tag C ctx same ident) (fun a => (Y.E a).width) base fuel p S = .done S' ∧
        (∀ a, ObservedAbi (C a) t (T a) (shape t (T a) (tag a)) (base a) (S' a) (L' a)) ∧
        ∀ a j x, (x < base a j ∨ base a j + Y.n a ≤ x) → (S' a).mem j x = (S a).mem j x) ∧
    (p.exec Y fuel L = .running →
      runMulti (fun a => abiRed (C a) t (T a) (Y.A a) (path a) (wide a) (c a) (shape t (T a) (tag a)) (isConst a))
        (abiCasts t T tag C ctx same ident) (fun a => (Y.E a).width) base fuel p S = .running) := by
  refine C65_abi_partial ht hT Y tag hv hn C hld hst (fun a g hg => ?_) hU memSame hX hraw ctx
    (fun a b x y h => hcast a b x y (by rw [← hcv]; exact h)) same ident hsame hident c path wide hf isConst base p hp hq hl S L hS fuel
  rw [hC a, hE a]
  exact x86Reg_implements ht (hT a) (hK a) k W X hF (ops a) (hv a) (hk a) (hops a) g hg

/-- **C65** on PowerPC for all arithmetic types of any ABI, partial as `C65_arithmetic_partial`. -/
theorem C65_ppc_partial (ty : ι → ArithTy) {β : ι → Type} (ht : t.Consistent) {T : ι → Abi.Elem} (hT : ∀ a, (T a).Ok)
    (hK : ∀ a, TyOk (T a) (ty a))
    (W : FloatSem) (X : ArithCtx) (hF : ∀ f h g, (X.flt f h g).env = W.env f h ∧ (X.flt f h g).lib = W.lib f) (Y : Types (fun a => (ty a).kind) β) (ops : ι → BOp → Bool)
    (hE : ∀ a, Y.E a = arithElem W (ops a) (ty a)) (hcv : ∀ a b, Y.cv a b = arithCast W (ty a) (ty b))
    (tag : ι → Abi.Tag) (hv : ∀ a, Abi.valid t (T a) (tag a) = true) (hn : ∀ a, Y.n a = Abi.size (T a) (tag a))
    (hops : ∀ a, (ops a .div = true ∨ ops a .mod = true) → (∀ w, ty a ≠ .int true w) ∨ ∀ g ∈ abiRegs t (T a) (shape t (T a) (tag a)), g.size = g.full)
    (C : ∀ a, Cfg (ty a).kind (β a)) (hld : ∀ a, (C a).ld = Y.ld a) (hst : ∀ a, (C a).st = Y.st a) (hC : ∀ a, (C a).R = ppcReg W X (ty a)) {U : ι → Abi.Elem}
    (hU : ∀ a, (U a).Ok) (memSame : ι → Bool) (hX : ∀ a, (C a).xfer = Xfer.of t (U a) (memSame a))
    (hraw : ∀ a g, shape t (T a) (tag a) = .native g → (C a).path g = .raw → Exact g)
    (ctx : ∀ a b, Convert.Ctx (ty a).kind.Bits (ty b).kind.Bits)
    (hcast : ∀ a b x y, arithCast W (ty a) (ty b) x = some y → (ctx a b).cast x = y) (same ident : ι → ι → Bool)
    (hsame : ∀ a b, same a b = true → T a = T b) (hident : ∀ a b, ident a b = true → T a = T b) (c : ι → Bool) (path : ι → VecPath) (wide : ι → Bool)
    (hf : ∀ a, AbiFit (path a) (wide a) (shape t (T a) (tag a))) (isConst : ∀ a, (abiImpl (C a) t (T a) (shape t (T a) (tag a))).M → Bool)
    (base : ι → Nat → Nat) (p : Prog (fun a => (ty a).kind)) (hp : p.WellFormed Y)
    (hq : p.Convs (fun a b => IsFixed (shape t (T a) (tag a)) ∧ IsFixed (shape t (T b) (tag b))) (fun a b => T a = T b)
      (fun a b => Resizable (shape t (T a) (tag a)) (shape t (T b) (tag b))))
    (hl : ∀ a, p.usesLast a = true → AbiLast (shape t (T a) (tag a)))
    (S : ∀ a, State (abiImpl (C a) t (T a) (shape t (T a) (tag a)))) (L : ∀ a, Nat → Lane (ty a).kind (β a))
    (hS : ∀ a, ObservedAbi (C a) t (T a) (shape t (T a) (tag a)) (base a) (S a) (L a)) (fuel : Nat) :
    (∀ L', p.exec Y fuel L = .done L' →
      ∃ S', runMulti (fun a => abiRed (C a) t (T a) (Y.A a) (path a) (wide a) (c a) (shape t (T a) (tag a)) (isConst a))
          (abiCasts t T tag C ctx same ident) (fun a => (Y.E a).width) base fuel p S = .done S' ∧
        (∀ a, ObservedAbi (C a) t (T a) (shape t (T a) (tag a)) (base a) (S' a) (L' a)) ∧
        ∀ a j x, (x < base a j ∨ base a j + Y.n a ≤ x) → (S' a).mem j x = (S a).mem j x) ∧
    (p.exec Y fuel L = .running →
      runMulti (fun a => abiRed (C a) t (T a) (Y.A a) (path a) (wide a) (c a) (shape t (T a) (tag a)) (isConst a))
        (abiCasts t T tag C ctx same ident) (fun a => (Y.E a).width) base fuel p S = .running) := by
  refine C65_abi_partial ht hT Y tag hv hn C hld hst (fun a g hg => ?_) hU memSame hX hraw ctx
    (fun a b x y h => hcast a b x y (by rw [← hcv]; exact h)) same ident hsame hident c path wide hf isConst base p hp hq hl S L hS fuel
  rw [hC a, hE a]
  exact ppcReg_implements ht (hT a) (hK a) W X hF (ops a) (hv a) (hops a) g hg

/-! ## a concrete program with signed division in partially filled registers -/

/-- `fixed_size_simd<int, 3>`, `fixed_size_simd<signed char, 3>` and `fixed_size_simd<float, 3>`. -/
inductive ExX
  | ints | bytes | flts
  deriving DecidableEq

namespace ExX
abbrev ty : ExX → ArithTy
  | ints => .int true 32
  | bytes => .int true 8
  | flts => .float ⟨8, 23⟩ (by decide) (by decide)
abbrev elem : ExX → Abi.Elem
  | ints => ⟨4, false⟩
  | bytes => ⟨1, false⟩
  | flts => ⟨4, true⟩
abbrev tag (_ : ExX) : Abi.Tag := .fixed 3
end ExX

open ExX in
def exXTypes : Types (fun a => (ty a).kind) (fun a => (ty a).kind.Bits) where
  E a := arithElem exArSem (fun _ => true) (ty a)
  A
    | ints => ⟨fun (x y : BitVec 32) => (x + y : BitVec 32), fun (x y : BitVec 32) => (x * y : BitVec 32), (1#32 : BitVec 32)⟩
    | bytes => ⟨fun (x y : BitVec 8) => (x + y : BitVec 8), fun (x y : BitVec 8) => (x * y : BitVec 8), (1#8 : BitVec 8)⟩
    | flts => ⟨fun (x _ : BitVec 32) => x, fun (x _ : BitVec 32) => x, (1#32 : BitVec 32)⟩
  ld _ := id
  st _ := id
  n _ := 3
  cv a b := arithCast exArSem (ty a) (ty b)

open ExX in
/-- `i0 = 1000 - 700 * i; i1 = i0 / 7 % 100; c0 = static_simd_cast<signed char>(i1); c1 = c0 / -3; f0 = static_simd_cast<float>(c1); f1 = f0 / 2` -/
def exXProg : Prog (fun a => (ty a).kind) :=
  .seq (.on ints (.base (.assign 0 (.gen fun i => (BitVec.ofInt 32 (1000 - 700 * i) : BitVec 32))))) <|
  .seq (.on ints (.base (.assign 1 (.bin .mod (.bin .div (.var 0) (.const (7#32 : BitVec 32))) (.const (100#32 : BitVec 32)))))) <|
  .seq (.cast false ints bytes 0 (.var 1)) <|
  .seq (.on bytes (.base (.assign 1 (.bin .div (.var 0) (.const (0xfd#8 : BitVec 8)))))) <|
  .seq (.cast false bytes flts 0 (.var 1)) <|
  (.on flts (.base (.assign 1 (.bin .div (.var 0) (.const (0x40000000#32 : BitVec 32))))))

open ExX in
def exXZero (a : ExX) (_ : Nat) : Lane (ty a).kind (ty a).kind.Bits where
  v := fun _ => match a with
    | ints => (0#32 : BitVec 32)
    | bytes => (0#8 : BitVec 8)
    | flts => (0#32 : BitVec 32)
  m := fun _ => false
  arr := fun _ => match a with
    | ints => (0#32 : BitVec 32)
    | bytes => (0#8 : BitVec 8)
    | flts => (0#32 : BitVec 32)

open ExX in
/-- `i1`, `c1`, `f1` at the end. -/
def exXShow (L : ∀ a, Nat → Lane (ty a).kind (ty a).kind.Bits) : List Int × List Int × List Nat :=
  ((List.range 3).map fun i => BitVec.toInt ((L ints i).v 1 : BitVec 32),
   (List.range 3).map fun i => BitVec.toInt ((L bytes i).v 1 : BitVec 8),
   (List.range 3).map fun i => BitVec.toNat ((L flts i).v 1 : BitVec 32))

def exXFinal : Option (List Int × List Int × List Nat) :=
  match exXProg.exec exXTypes 1 exXZero with
  | .done L => some (exXShow L)
  | _ => none

theorem exXFinal_eq : exXFinal = some ([42, 42, -57], [-14, -14, 19], [0xc0e00000, 0xc0e00000, 0x41180000]) := by decide +kernel

open ExX

/-- AVX2. -/
def exXCodes : X86Codes where
  byte := exAvxByte
  short := ⟨⟨roundNearest 24, 0#16, fun _ => 16⟩, fun _ => .avx2, fun _ => .avx2, fun a _ => a⟩
  int := ⟨⟨roundNearest 53, 0#32, fun _ => 32⟩, true, true, fun a _ => a⟩
  long := ⟨true, fun a _ => a⟩

theorem exXCodes_fit (a : ExX) (g : Geo) : X86Codes.Fit exXCodes g (ty a) := by
  cases a
  · exact ⟨roundNearest_isRounding (by omega), .inr (.inl rfl), fun h => by simp [exXCodes] at h⟩
  · exact ⟨fun h => by simp [exXCodes, exAvxByte] at h, roundNearest_isRounding (by omega), .inl rfl, by omega, fun _ _ => by omega⟩
  · trivial

theorem exXProg_wf : exXProg.WellFormed exXTypes := ⟨trivial, trivial, rfl, trivial, rfl, trivial⟩

theorem exXProg_convs : exXProg.Convs (fun a b => IsFixed (shape exAvx2 (elem a) (tag a)) ∧ IsFixed (shape exAvx2 (elem b) (tag b)))
    (fun a b => elem a = elem b) (fun a b => Resizable (shape exAvx2 (elem a) (tag a)) (shape exAvx2 (elem b) (tag b))) :=
  ⟨trivial, trivial, nofun, trivial, nofun, trivial⟩

def exXCfg (a : ExX) : Cfg (ty a).kind (ty a).kind.Bits where
  R := x86Reg exXCodes exArSem exArCtx (ty a)
  c _ := true
  ctx _ := ⟨true, false, [], []⟩
  xfer := Xfer.of exAvx2 (elem a) true
  path _ := .iter
  junk := (exXZero a 0).v 0
  ld := id
  st := id

def exXCvt (a b : ExX) : Convert.Ctx (ty a).kind.Bits (ty b).kind.Bits where
  cast x := (arithCast exArSem (ty a) (ty b) x).getD ((exXZero b 0).v 0)
  zeroA := (exXZero a 0).v 0
  zeroB := (exXZero b 0).v 0
  junkA _ := (exXZero a 0).v 0
  junkB _ := (exXZero b 0).v 0
  x86 := fun l => l.length == 1

/-- The objects at the beginning exist, the theorem applies, and the user sees the numbers above in the objects at the end. -/
example : ∃ S : ∀ a, State (abiImpl (exXCfg a) exAvx2 (elem a) (shape exAvx2 (elem a) (tag a))), ∃ S',
    (∀ a, ObservedAbi (exXCfg a) exAvx2 (elem a) (shape exAvx2 (elem a) (tag a)) (fun j => 100 * j) (S a) (exXZero a)) ∧
    runMulti (fun a => abiRed (exXCfg a) exAvx2 (elem a) (exXTypes.A a) .generic false true (shape exAvx2 (elem a) (tag a)) (fun _ => false))
      (abiCasts exAvx2 elem tag exXCfg exXCvt (fun a b => a == b) (fun a b => a == b)) (fun a => (exXTypes.E a).width) (fun _ j => 100 * j) 1
      exXProg S = .done S' ∧
    ∃ L, (∀ a, ObservedAbi (exXCfg a) exAvx2 (elem a) (shape exAvx2 (elem a) (tag a)) (fun j => 100 * j) (S' a) (L a)) ∧
      exXShow L = ([42, 42, -57], [-14, -14, 19], [0xc0e00000, 0xc0e00000, 0x41180000]) := by
  have hc : exAvx2.Consistent := exAvx2_ok
  have hT : ∀ a, (elem a).Ok := by intro a; cases a <;> decide
  have hv : ∀ a, Abi.valid exAvx2 (elem a) (tag a) = true := by intro a; cases a <;> decide
  have hK : ∀ a, TyOk (elem a) (ty a) := by intro a; cases a <;> trivial
  have hok := fun a => (shape_ok (hT a) (hv a)).1
  have hops : ∀ a : ExX, (true = true ∨ true = true) → ty a ≠ .int true 64 ∨ ∀ g ∈ abiRegs exAvx2 (elem a) (shape exAvx2 (elem a) (tag a)), g.size = g.full :=
    fun a _ => .inl (by cases a <;> simp [ty])
  have hS : ∀ a, ∃ S, ObservedAbi (exXCfg a) exAvx2 (elem a) (shape exAvx2 (elem a) (tag a)) (fun j => 100 * j) S (exXZero a) := by
    intro a
    obtain ⟨S, hS⟩ := exists_rep (abi_correct hc (hT a) (hok a) (exXCfg a) (E := exXTypes.E a)
      (fun g hg => x86Reg_implements hc (hT a) (hK a) exXCodes exArSem exArCtx (fun _ _ _ => ⟨rfl, rfl⟩) _ (hv a) (fun g _ _ => exXCodes_fit a g) (hops a) g hg)
      (hT a) true rfl (fun _ _ h => by cases h))
      (fun j => 100 * j) (exXZero a)
    exact ⟨S, (observedAbi_iff hc (hT a) (hok a) _ _ _ _).2 hS⟩
  obtain ⟨L, hL, hs⟩ : ∃ L, exXProg.exec exXTypes 1 exXZero = .done L ∧ some (exXShow L) = exXFinal := by
    have h := exXFinal_eq
    unfold exXFinal at h ⊢
    split at h
    · rename_i L e; exact ⟨L, e, rfl⟩
    · cases h
  rw [exXFinal_eq] at hs
  refine ⟨fun a => (hS a).choose, ?_⟩
  obtain ⟨S', e, o, _⟩ := (C65_x86_partial ty hc hT hK exXCodes exArSem exArCtx (fun _ _ _ => ⟨rfl, rfl⟩) exXTypes (fun _ _ => true)
    (fun a => rfl) (fun a b => rfl) tag hv (by intro a; cases a <;> rfl) (fun a g _ _ => exXCodes_fit a g) hops exXCfg (fun a => rfl) (fun a => rfl) (fun a => rfl) hT
    (fun _ => true) (fun a => rfl) (fun _ _ _ h => by cases h) exXCvt (fun a b x y h => by simp [exXCvt, h])
    (fun a b => a == b) (fun a b => a == b) (fun a b h => by rw [eq_of_beq h]) (fun a b h => by rw [eq_of_beq h]) (fun _ => true)
    (fun _ => .generic) (fun _ => false) (by intro a; cases a <;> trivial)
    (fun _ _ => false) (fun _ j => 100 * j) exXProg exXProg_wf exXProg_convs (fun a h => by cases a <;> exact absurd h (by decide)) _ exXZero
    (fun a => (hS a).choose_spec) 1).1 L hL
  exact ⟨S', fun a => (hS a).choose_spec, e, L, o, Option.some.inj hs⟩

-- the register of the integers is partially filled: three of four elements
example : abiRegs exAvx2 (elem ints) (shape exAvx2 (elem ints) (tag ints)) = [.vec 32 3 4] := by decide +kernel

end StdSimd.Props
