import Verif.Props.SimdNative
import Verif.Proofs.SimdX86
/-!
# C63 on x86: programs on objects of 8-, 16-, 32- and 64-bit integers

`x86Byte`, `x86Short`, `x86Int32` and `x86Int64` (Model/SimdX86.lean) are the operators of `_SimdImplX86`: multiplication of bytes through wider products, division
through floating-point numbers, shifts by multiplication and blending.  What a register holds behind the last element never matters.
-/
namespace StdSimd.Props
open StdSimd.SimdClass Spec Spec.Program Native Tuple

variable {β : Type} {t : Abi.Target} {T : Abi.Elem} {n : Nat} {g : Geo}

/-- **C63** for 8-bit integers on x86 with `fixed_size<n>`.  Shift counts less than `lim`: up to 32 for unsigned elements and with AVX2, up to 8 for
signed elements on SSE registers (`X86Byte.Ok`; see `C63_x86_bytes_wrong`).  Division is correct for signed elements in partially filled registers,
too. -/
theorem C63_x86_bytes (signed : Bool) {lim : Nat} (hlim : lim ≤ 32) (ht : t.Consistent) (hT : T.Ok) (h1 : 1 ≤ n) (h64 : n ≤ 64)
    (C : Cfg (.int signed 8) β) (c : X86Byte) (hC : C.R = x86Byte c signed)
    (hc : ∀ g ∈ regs t T n, g ≠ .scalar → c.Ok signed lim g) {U : Abi.Elem} (hU : U.Ok) (same : Bool)
    (hX : C.xfer = Xfer.of t U same) (base : Nat → Nat) (p : Stmt (.int signed 8)) (hp : p.WellFormed)
    (S : State (fixedImpl C (regs t T n) n)) (L L' : Nat → Lane (.int signed 8) β) (hS : Observed C t T n base S L)
    (hL : ∀ i < n, p.exec (intElem signed 8 lim) C.ld C.st n i (L i) = some (L' i)) :
    ∃ S', run (fixedImpl C (regs t T n) n) 32 base p S = some S' ∧ Observed C t T n base S' L' ∧
      ∀ j a, (a < base j ∨ base j + n ≤ a) → S'.mem j a = S.mem j a :=
  C63_program ht hT h1 h64 (E := intElem signed 8 lim) C (fun g hg => by
    rw [hC]
    exact x86Byte_implements c signed ((regs_facts ht hT h1).2.1 g hg) (hc g hg) hlim) hU same hX base p hp S L L' hS hL

/-- **C63** for 16-bit integers on x86, shift counts less than 16. -/
theorem C63_x86_shorts (signed : Bool) (ht : t.Consistent) (hT : T.Ok) (h1 : 1 ≤ n) (h64 : n ≤ 64)
    (C : Cfg (.int signed 16) β) (c : X86Short) (hC : C.R = x86Short c signed)
    (hc : ∀ g ∈ regs t T n, g ≠ .scalar → c.Ok g) {U : Abi.Elem} (hU : U.Ok) (same : Bool)
    (hX : C.xfer = Xfer.of t U same) (base : Nat → Nat) (p : Stmt (.int signed 16)) (hp : p.WellFormed)
    (S : State (fixedImpl C (regs t T n) n)) (L L' : Nat → Lane (.int signed 16) β) (hS : Observed C t T n base S L)
    (hL : ∀ i < n, p.exec (intElem signed 16 16) C.ld C.st n i (L i) = some (L' i)) :
    ∃ S', run (fixedImpl C (regs t T n) n) 32 base p S = some S' ∧ Observed C t T n base S' L' ∧
      ∀ j a, (a < base j ∨ base j + n ≤ a) → S'.mem j a = S.mem j a :=
  C63_program ht hT h1 h64 (E := intElem signed 16 16) C (fun g hg => by
    rw [hC]
    exact x86Short_implements c signed ((regs_facts ht hT h1).2.1 g hg) (hc g hg)) hU same hX base p hp S L L' hS hL

/-- **C63** for 32-bit integers on x86, all shift counts C++ defines. -/
theorem C63_x86_ints (signed : Bool) (ht : t.Consistent) (hT : T.Ok) (h1 : 1 ≤ n) (h64 : n ≤ 64)
    (C : Cfg (.int signed 32) β) (c : X86Int32) (hC : C.R = x86Int32 c signed)
    (hc : ∀ g ∈ regs t T n, g ≠ .scalar → c.Ok g) {U : Abi.Elem} (hU : U.Ok) (same : Bool)
    (hX : C.xfer = Xfer.of t U same) (base : Nat → Nat) (p : Stmt (.int signed 32)) (hp : p.WellFormed)
    (S : State (fixedImpl C (regs t T n) n)) (L L' : Nat → Lane (.int signed 32) β) (hS : Observed C t T n base S L)
    (hL : ∀ i < n, p.exec (intElem signed 32 32) C.ld C.st n i (L i) = some (L' i)) :
    ∃ S', run (fixedImpl C (regs t T n) n) 32 base p S = some S' ∧ Observed C t T n base S' L' ∧
      ∀ j a, (a < base j ∨ base j + n ≤ a) → S'.mem j a = S.mem j a :=
  C63_program ht hT h1 h64 (E := intElem signed 32 32) C (fun g hg => by
    rw [hC]
    exact x86Int32_implements c signed ((regs_facts ht hT h1).2.1 g hg) (hc g hg)) hU same hX base p hp S L L' hS hL

/-- **C63** for 64-bit integers on x86, all shift counts C++ defines.  A program on signed elements that divides needs registers without padding (C23). -/
theorem C63_x86_longs_partial (signed : Bool) (ops : BOp → Bool) (ht : t.Consistent) (hT : T.Ok) (h1 : 1 ≤ n) (h64 : n ≤ 64)
    (hd : ops .div = true ∨ ops .mod = true → signed = false ∨ ∀ g ∈ regs t T n, g.size = g.full)
    (C : Cfg (.int signed 64) β) (c : X86Int64) (hC : C.R = x86Int64 c signed) {U : Abi.Elem} (hU : U.Ok) (same : Bool)
    (hX : C.xfer = Xfer.of t U same) (base : Nat → Nat) (p : Stmt (.int signed 64)) (hp : p.WellFormed)
    (S : State (fixedImpl C (regs t T n) n)) (L L' : Nat → Lane (.int signed 64) β) (hS : Observed C t T n base S L)
    (hL : ∀ i < n, p.exec ((intElem signed 64 64).only ops) C.ld C.st n i (L i) = some (L' i)) :
    ∃ S', run (fixedImpl C (regs t T n) n) 64 base p S = some S' ∧ Observed C t T n base S' L' ∧
      ∀ j a, (a < base j ∨ base j + n ≤ a) → S'.mem j a = S.mem j a :=
  C63_program ht hT h1 h64 (E := (intElem signed 64 64).only ops) C (fun g hg => by
    rw [hC]
    exact x86Int64_implements c signed ((regs_facts ht hT h1).2.1 g hg) ops (fun h => (hd h).imp id (fun h => h g hg)))
    hU same hX base p hp S L L' hS hL

/-- **C63** for native 8-bit integers on x86; partial as `C63_native_partial` (masked loads of partially filled registers). -/
theorem C63_x86_native_bytes_partial (signed : Bool) {lim : Nat} (hlim : lim ≤ 32) (hg : g.Ok) (C : Cfg (.int signed 8) β) (c : X86Byte)
    (hC : C.R = x86Byte c signed) (hc : g ≠ .scalar → c.Ok signed lim g) {U : Abi.Elem} (hU : U.Ok) (same : Bool)
    (hX : C.xfer = Xfer.of t U same) (hp : C.path g = .raw → Exact g) (base : Nat → Nat) (p : Stmt (.int signed 8)) (hpw : p.WellFormed)
    (S : State (nativeImpl C g)) (L L' : Nat → Lane (.int signed 8) β) (hS : ObservedNative C g base S L)
    (hL : ∀ i < g.size, p.exec (intElem signed 8 lim) C.ld C.st g.size i (L i) = some (L' i)) :
    ∃ S', run (nativeImpl C g) 32 base p S = some S' ∧ ObservedNative C g base S' L' ∧
      ∀ j a, (a < base j ∨ base j + g.size ≤ a) → S'.mem j a = S.mem j a :=
  C63_native_partial hg (E := intElem signed 8 lim) C (by rw [hC]; exact x86Byte_implements c signed hg hc hlim) hU same hX hp base p hpw S L L' hS hL

/-- **C63** for native 16-bit integers on x86; partial as `C63_native_partial`. -/
theorem C63_x86_native_shorts_partial (signed : Bool) (hg : g.Ok) (C : Cfg (.int signed 16) β) (c : X86Short)
    (hC : C.R = x86Short c signed) (hc : g ≠ .scalar → c.Ok g) {U : Abi.Elem} (hU : U.Ok) (same : Bool)
    (hX : C.xfer = Xfer.of t U same) (hp : C.path g = .raw → Exact g) (base : Nat → Nat) (p : Stmt (.int signed 16)) (hpw : p.WellFormed)
    (S : State (nativeImpl C g)) (L L' : Nat → Lane (.int signed 16) β) (hS : ObservedNative C g base S L)
    (hL : ∀ i < g.size, p.exec (intElem signed 16 16) C.ld C.st g.size i (L i) = some (L' i)) :
    ∃ S', run (nativeImpl C g) 32 base p S = some S' ∧ ObservedNative C g base S' L' ∧
      ∀ j a, (a < base j ∨ base j + g.size ≤ a) → S'.mem j a = S.mem j a :=
  C63_native_partial hg (E := intElem signed 16 16) C (by rw [hC]; exact x86Short_implements c signed hg hc) hU same hX hp base p hpw S L L' hS hL

/-- **C63** for native 32-bit integers on x86; partial as `C63_native_partial`. -/
theorem C63_x86_native_ints_partial (signed : Bool) (hg : g.Ok) (C : Cfg (.int signed 32) β) (c : X86Int32)
    (hC : C.R = x86Int32 c signed) (hc : g ≠ .scalar → c.Ok g) {U : Abi.Elem} (hU : U.Ok) (same : Bool)
    (hX : C.xfer = Xfer.of t U same) (hp : C.path g = .raw → Exact g) (base : Nat → Nat) (p : Stmt (.int signed 32)) (hpw : p.WellFormed)
    (S : State (nativeImpl C g)) (L L' : Nat → Lane (.int signed 32) β) (hS : ObservedNative C g base S L)
    (hL : ∀ i < g.size, p.exec (intElem signed 32 32) C.ld C.st g.size i (L i) = some (L' i)) :
    ∃ S', run (nativeImpl C g) 32 base p S = some S' ∧ ObservedNative C g base S' L' ∧
      ∀ j a, (a < base j ∨ base j + g.size ≤ a) → S'.mem j a = S.mem j a :=
  C63_native_partial hg (E := intElem signed 32 32) C (by rw [hC]; exact x86Int32_implements c signed hg hc) hU same hX hp base p hpw S L L' hS hL

/-- **C63** for native 64-bit integers on x86; partial as `C63_native_partial` and `C63_x86_longs_partial`. -/
theorem C63_x86_native_longs_partial (signed : Bool) (ops : BOp → Bool) (hg : g.Ok)
    (hd : ops .div = true ∨ ops .mod = true → signed = false ∨ g.size = g.full) (C : Cfg (.int signed 64) β) (c : X86Int64)
    (hC : C.R = x86Int64 c signed) {U : Abi.Elem} (hU : U.Ok) (same : Bool)
    (hX : C.xfer = Xfer.of t U same) (hp : C.path g = .raw → Exact g) (base : Nat → Nat) (p : Stmt (.int signed 64)) (hpw : p.WellFormed)
    (S : State (nativeImpl C g)) (L L' : Nat → Lane (.int signed 64) β) (hS : ObservedNative C g base S L)
    (hL : ∀ i < g.size, p.exec ((intElem signed 64 64).only ops) C.ld C.st g.size i (L i) = some (L' i)) :
    ∃ S', run (nativeImpl C g) 64 base p S = some S' ∧ ObservedNative C g base S' L' ∧
      ∀ j a, (a < base j ∨ base j + g.size ≤ a) → S'.mem j a = S.mem j a :=
  C63_native_partial hg (E := (intElem signed 64 64).only ops) C (by rw [hC]; exact x86Int64_implements c signed hg ops hd) hU same hX hp base p hpw S L L' hS hL

/-! ## concrete programs -/

/-- SSE2, registers of 16 bytes. -/
def exSseByte : X86Byte where
  mul _ := .or
  div := ⟨roundNearest 24, 0#8, fun _ => 16⟩
  shl _ := .sse
  shr _ := .sse2
  shlInt _ := .sse
  shrConst _ := false

/-- AVX2, the same registers. -/
def exAvxByte : X86Byte := { exSseByte with mul := fun _ => .wideU, shr := fun _ => .avx2, shlInt := fun _ => .avx2 }

-- the hypotheses are met
example (signed : Bool) (g : Geo) : exAvxByte.Ok signed 32 g :=
  ⟨fun h => by simp [exAvxByte] at h, roundNearest_isRounding (by omega), .inl rfl, by omega, fun _ h => by simp [exAvxByte] at h⟩
example (g : Geo) : exSseByte.Ok false 32 g :=
  ⟨fun h => by simp [exSseByte] at h, roundNearest_isRounding (by omega), .inl rfl, by omega, fun h => by simp at h⟩
example (g : Geo) : exSseByte.Ok true 8 g :=
  ⟨fun h => by simp [exSseByte] at h, roundNearest_isRounding (by omega), .inl rfl, by omega, fun _ _ => by omega⟩

/-- `v1 = (v0 * v0 >> 1) & 31; v0 = (v0 << v1) >> 20` -/
def exByteProg (signed : Bool) : Stmt (.int signed 8) :=
  .seq (.assign 1 (.bin .and (.shift false (.bin .mul (.var 0) (.var 0)) 1) (.const 31#8))) (.assign 0 (.shift false (.bin .shl (.var 0) (.var 1)) 20))

def exByteCfg (signed : Bool) (c : X86Byte) : Cfg (.int signed 8) (BitVec 8) where
  R := x86Byte c signed
  c _ := false
  ctx _ := ⟨true, false, [], []⟩
  xfer := Xfer.of exAvx2 ⟨1, false⟩ true
  path _ := .raw
  junk := 0#8
  ld a := a
  st a := a

def exByteLane (signed : Bool) (i : Nat) : Lane (.int signed 8) (BitVec 8) where
  v := fun (x : Nat) => (if x = 0 then BitVec.ofNat 8 (255 - i) else 8#8 : BitVec 8)
  m := fun _ => false
  arr := fun _ => 7#8

def exByteState (signed : Bool) (c : X86Byte) : State (nativeImpl (exByteCfg signed c) (.vec 8 16 16)) where
  v := fun (x : Nat) => ((List.range 16).map fun i => if x = 0 then BitVec.ofNat 8 (255 - i) else 8#8 : List (BitVec 8))
  m := fun (_ : Nat) => (List.replicate 16 0#8 : VMask 8)
  mem := fun _ a => if a < 20 then some 7#8 else none

theorem exByteObserved (signed : Bool) (c : X86Byte) :
    ObservedNative (exByteCfg signed c) (.vec 8 16 16) (fun _ => 4) (exByteState signed c) (exByteLane signed) := by
  refine ⟨fun x => ⟨by rfl, ?_⟩, fun x => ⟨⟨rfl, ?_⟩, by rfl⟩, fun j i hi => ?_⟩
  · by_cases h : x = 0
    · subst h; rfl
    · simp only [exByteState, exByteLane, h, if_false]; rfl
  · intro v hv
    left
    exact List.eq_of_mem_replicate (List.mem_of_mem_take hv)
  · simp only [exByteState, exByteLane]; rw [if_pos (by simp at hi; omega)]

example : ∀ i < 16, ((exByteProg true).exec (intElem true 8 32) id id 16 i (exByteLane true i)).isSome := by
  intro i hi
  interval_cases i <;> decide +kernel

/-- `v0 >>= v1` -/
def exShr : Stmt (.int true 8) := .compound .shr 0 (.var 1)

/-- **C63, finding.** On SSE2, `v0 >>= v1` with signed bytes -1, -2, ... and counts 8: C++ gives -1 for each element; the program on the register
gives 0 (C27). -/
theorem C63_x86_bytes_wrong :
    (∀ i < 16, (exShr.exec (intElem true 8 32) id id 16 i (exByteLane true i)).map (fun L => (L.v 0 : BitVec 8)) = some (-1#8)) ∧
    ObservedNative (exByteCfg true exSseByte) (.vec 8 16 16) (fun _ => 4) (exByteState true exSseByte) (exByteLane true) ∧
    (run (nativeImpl (exByteCfg true exSseByte) (.vec 8 16 16)) 32 (fun _ => 4) exShr (exByteState true exSseByte)).map
      (fun S => (S.v 0 : List (BitVec 8))) = some (List.replicate 16 0#8) := by
  refine ⟨?_, exByteObserved true exSseByte, by decide +kernel⟩
  intro i hi
  interval_cases i <;> decide +kernel

/-- SSE2, registers of 16 bytes. -/
def exSseShort : X86Short where
  div := ⟨roundNearest 24, 0#16, fun _ => 16⟩
  shl _ := .sse
  shr _ := .sse2
  junk a _ := a

example (g : Geo) : exSseShort.Ok g := ⟨roundNearest_isRounding (by omega), .inl rfl⟩

example : (⟨⟨roundNearest 53, 0#32, fun _ => 16⟩, false, true, fun a _ => a⟩ : X86Int32).Ok (.vec 32 3 4) :=
  ⟨roundNearest_isRounding (by omega), .inl rfl, fun _ => by decide⟩

def exShortCfg : Cfg (.int false 16) (BitVec 16) where
  R := x86Short exSseShort false
  c _ := false
  ctx _ := ⟨true, false, [], []⟩
  xfer := Xfer.of exAvx2 ⟨2, false⟩ true
  path _ := .raw
  junk := 0#16
  ld a := a
  st a := a

/-- Elements 1, 1, ..., counts `k`, 0, 0, ... -/
def exShortLane (k i : Nat) : Lane (.int false 16) (BitVec 16) where
  v := fun (x : Nat) => (if x = 0 then 1#16 else if i = 0 then BitVec.ofNat 16 k else 0#16 : BitVec 16)
  m := fun _ => false
  arr := fun _ => 7#16

def exShortState (k : Nat) : State (nativeImpl exShortCfg (.vec 16 8 8)) where
  v := fun (x : Nat) => ((List.range 8).map fun i => if x = 0 then 1#16 else if i = 0 then BitVec.ofNat 16 k else 0#16 : List (BitVec 16))
  m := fun (_ : Nat) => (List.replicate 8 0#16 : VMask 16)
  mem := fun _ _ => some 7#16

/-- `v0 <<= v1` -/
def exShl : Stmt (.int false 16) := .compound .shl 0 (.var 1)

/-- **C63, finding.** On SSE, elements of 16 bits influence each other: `v0 <<= v1` with counts `{17, 0, 0, ...}`, which C++ defines for each element, gives 3
instead of 1 in element 1 (C26); with `{3, 0, 0, ...}` element 1 is 1. -/
theorem C63_x86_shorts_wrong :
    (∀ k, k = 17 ∨ k = 3 → ObservedNative exShortCfg (.vec 16 8 8) (fun _ => 4) (exShortState k) (exShortLane k) ∧
      ∀ i < 8, (exShl.exec (intElem false 16 32) id id 8 i (exShortLane k i)).map (fun L => (L.v 0 : BitVec 16)) =
        some (if i = 0 then Spec.shl 1#16 k else 1#16)) ∧
    (run (nativeImpl exShortCfg (.vec 16 8 8)) 32 (fun _ => 4) exShl (exShortState 17)).map (fun S => (S.v 0 : List (BitVec 16))[1]?) = some (some 3#16) ∧
    (run (nativeImpl exShortCfg (.vec 16 8 8)) 32 (fun _ => 4) exShl (exShortState 3)).map (fun S => (S.v 0 : List (BitVec 16))[1]?) = some (some 1#16) := by
  refine ⟨?_, by decide +kernel, by decide +kernel⟩
  intro k hk
  refine ⟨⟨fun x => ⟨by rfl, ?_⟩, fun x => ⟨⟨rfl, ?_⟩, by rfl⟩, fun j i hi => rfl⟩, ?_⟩
  · by_cases h : x = 0
    · subst h; rfl
    · simp only [exShortState, exShortLane, h, if_false]; rfl
  · intro v hv
    left
    exact List.eq_of_mem_replicate (List.mem_of_mem_take hv)
  · intro i hi
    rcases hk with rfl | rfl <;> interval_cases i <;> decide +kernel

/-! 64-bit elements on SSE2: `v0 = (v0 << v1) >> 3; v0 /= v1` with elements -1, -2 and counts 5, 6. -/

def exLongCfg : Cfg (.int true 64) (BitVec 64) where
  R := x86Int64 ⟨false, fun a _ => a⟩ true
  c _ := false
  ctx _ := ⟨true, false, [], []⟩
  xfer := Xfer.of exAvx2 ⟨8, false⟩ true
  path _ := .raw
  junk := 0#64
  ld a := a
  st a := a

def exLongLane (i : Nat) : Lane (.int true 64) (BitVec 64) where
  v := fun (x : Nat) => (if x = 0 then 0#64 - BitVec.ofNat 64 (i + 1) else BitVec.ofNat 64 (i + 5) : BitVec 64)
  m := fun _ => false
  arr := fun _ => 7#64

def exLongState : State (nativeImpl exLongCfg (.vec 64 2 2)) where
  v := fun (x : Nat) => ((List.range 2).map fun i => if x = 0 then 0#64 - BitVec.ofNat 64 (i + 1) else BitVec.ofNat 64 (i + 5) : List (BitVec 64))
  m := fun (_ : Nat) => (List.replicate 2 0#64 : VMask 64)
  mem := fun _ _ => some 7#64

def exLongProg : Stmt (.int true 64) :=
  .seq (.assign 0 (.shift false (.bin .shl (.var 0) (.var 1)) 3)) (.compound .div 0 (.var 1))

example : ObservedNative exLongCfg (.vec 64 2 2) (fun _ => 4) exLongState exLongLane := by
  refine ⟨fun x => ⟨by rfl, ?_⟩, fun x => ⟨⟨rfl, ?_⟩, by rfl⟩, fun j i hi => rfl⟩
  · by_cases h : x = 0
    · subst h; rfl
    · simp only [exLongState, exLongLane, h, if_false]; rfl
  · intro v hv
    left
    exact List.eq_of_mem_replicate (List.mem_of_mem_take hv)
example : ∀ i < 2, (exLongProg.exec ((intElem true 64 64).only (fun _ => true)) id id 2 i (exLongLane i)).map (fun L => (L.v 0 : BitVec 64)) =
    some (if i = 0 then 0#64 else 0#64 - 2#64) := by
  intro i hi
  interval_cases i <;> decide +kernel
example : (run (nativeImpl exLongCfg (.vec 64 2 2)) 64 (fun _ => 4) exLongProg exLongState).map (fun S => (S.v 0 : List (BitVec 64))) =
    some [0#64, 0#64 - 2#64] := by decide +kernel

end StdSimd.Props
