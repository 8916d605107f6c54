import Verif.Model.WhereExpr
import Verif.Props.FixedSize
import Verif.Props.NativeValues
/-!
# Property theorems about where expressions (C62)
-/
namespace StdSimd.Props
open Native Tuple WhereExpr

variable {α : Type} {t : Abi.Target} {T : Abi.Elem} {n : Nat}

/-- C62 (partial). `where(k, v) op= x` for `op` one of `+ - * / % & | ^` and `fixed_size`: the elements selected by `k` become
`v[i] op x[i]`, the others stay.  `sem op a b` is what the operator of the element type does, here defined for all operands.
Missing: `<<=` and `>>=` (`C62_shift_ill_formed`), operations undefined for some operands (`C15_division_in_unselected_lane`). -/
theorem C62_compound_partial (ht : t.Consistent) (hT : T.Ok) (h1 : 1 ≤ n) (h64 : n ≤ 64) (c : Nat → Bool) (sem : Op → α → α → α)
    (op : Op) (hop : op ≠ .shiftLeft ∧ op ≠ .shiftRight) (k : BitMask n true) (hk : k.Clean) {v x : Tup α} (hv : Wf (regs t T n) v)
    (hx : Wf (regs t T n) x) :
    ∃ r, WhereExpr.cassign (fun o a b => some (sem o a b)) c (regs t T n) op k v x = some r ∧ Wf (regs t T n) r ∧
      lanes (regs t T n) r = Spec.select k.lanes (List.zipWith (sem op) (lanes (regs t T n) v) (lanes (regs t T n) x))
        (lanes (regs t T n) v) := by
  have hc : compound .simd op = some op := by
    cases op <;> first | rfl | exact absurd rfl hop.1 | exact absurd rfl hop.2
  unfold WhereExpr.cassign
  rw [hc]
  exact C15_compound_partial ht hT h1 h64 c (sem op) k hk hv hx

/-- C62 (partial). The same for one register of a native ABI, any contents of the padding of mask and values. -/
theorem C62_native_compound_partial {g : Geo} (hg : g.Ok) (c : Bool) (sem : Op → α → α → α) (op : Op)
    (hop : op ≠ .shiftLeft ∧ op ≠ .shiftRight) (k : MaskM g) (hk : MaskOk g k) (v x : List α) (hv : v.length = g.full)
    (hx : x.length = g.full) :
    ∃ r, WhereExpr.nativeCassign (fun o a b => some (sem o a b)) c g op k v x = some r ∧ r.length = g.full ∧
      r.take g.size = Spec.select (maskLanes g k) (List.zipWith (sem op) (v.take g.size) (x.take g.size)) (v.take g.size) := by
  have hc : compound .simd op = some op := by
    cases op <;> first | rfl | exact absurd rfl hop.1 | exact absurd rfl hop.2
  unfold WhereExpr.nativeCassign
  rw [hc]
  exact C15_native_compound_partial hg c (sem op) k hk v x hv hx

/-- C62, negation: no call of `where(k, v) <<= x` or `where(k, v) >>= x` compiles, for values of any ABI. -/
theorem C62_shift_ill_formed (sem : Op → α → α → Option α) (op : Op) (hop : op = .shiftLeft ∨ op = .shiftRight) :
    (∀ (c : Nat → Bool) (gs : List Geo) (m : Nat) (k : BitMask m true) (v x : Tup α), WhereExpr.cassign sem c gs op k v x = none) ∧
      ∀ (c : Bool) (g : Geo) (k : MaskM g) (v x : List α), WhereExpr.nativeCassign sem c g op k v x = none := by
  rcases hop with rfl | rfl <;> exact ⟨fun _ _ _ _ _ _ => rfl, fun _ _ _ _ _ => rfl⟩

/-- C62, negation: no compound assignment of masks through `where` compiles. -/
theorem C62_mask_ill_formed (op : Op) : compound .mask op = none := rfl

/-- C62. `-where(k, v)` and the value of `v` after `++where(k, v)`, `where(k, v)++`, `--where(k, v)`, `where(k, v)--`: selected elements
are negated, incremented, decremented. -/
theorem C62_unary (ht : t.Consistent) (hT : T.Ok) (h1 : 1 ≤ n) (h64 : n ≤ 64) (c : Nat → Bool) (neg inc dec : α → α)
    (k : BitMask n true) (hk : k.Clean) {v : Tup α} (hv : Wf (regs t T n) v) :
    let sem : UFn → α → Option α := fun f a => some (match f with | .negate => neg a | .increment => inc a | .decrement => dec a)
    ∀ op f, (op, f) ∈ [(UOp.minus, neg), (.preInc, inc), (.postInc, inc), (.preDec, dec), (.postDec, dec)] →
      ∃ r, WhereExpr.unary sem c (regs t T n) op k v = some r ∧ Wf (regs t T n) r ∧
        lanes (regs t T n) r = Spec.select k.lanes ((lanes (regs t T n) v).map f) (lanes (regs t T n) v) := by
  intro sem op f hm
  simp only [List.mem_cons, Prod.mk.injEq, List.not_mem_nil, or_false] at hm
  rcases hm with ⟨rfl, rfl⟩ | ⟨rfl, rfl⟩ | ⟨rfl, rfl⟩ | ⟨rfl, rfl⟩ | ⟨rfl, rfl⟩ <;>
    exact C15_unary ht hT h1 h64 c _ k hk hv

/-- C62. `where(b, s)` with `bool` and an arithmetic type: everything happens if and only if `b`, in particular the memory is accessed and
the operator evaluated only then. -/
theorem C62_bool {β : Type} (sem : Op → α → α → Option α) (usem : UFn → α → Option α) (ld : β → α) (st : α → β) (op : Op) (uop : UOp)
    (v x : α) (mem : Mem β) (base : Nat) :
    WhereExpr.boolAssign false v x = v ∧ WhereExpr.boolAssign true v x = x ∧
    WhereExpr.boolCassign sem op false v x = some v ∧ WhereExpr.boolCassign sem op true v x = sem op v x ∧
    WhereExpr.boolUnary usem uop false v = some v ∧ WhereExpr.boolUnary usem uop true v = usem uop.fn v ∧
    WhereExpr.boolCopyFrom ld false v mem base = some v ∧ WhereExpr.boolCopyFrom ld true v mem base = (mem base).map ld ∧
    WhereExpr.boolCopyTo st false v mem base = some mem ∧
    ((mem base).isSome → ∃ mem', WhereExpr.boolCopyTo st true v mem base = some mem' ∧ mem' base = some (st v) ∧
      ∀ a, a ≠ base → mem' a = mem a) := by
  refine ⟨rfl, rfl, rfl, rfl, rfl, rfl, rfl, rfl, rfl, fun h => ?_⟩
  obtain ⟨b, hb⟩ := Option.isSome_iff_exists.1 h
  simp [WhereExpr.boolCopyTo, Mem.write, hb]
  intro a ha h
  exact absurd h ha

/-- C62. The conditional operator `k ? x : y` of `fixed_size` values selects element-wise. -/
theorem C62_conditional (ht : t.Consistent) (hT : T.Ok) (h1 : 1 ≤ n) (h64 : n ≤ 64) (c : Nat → Bool) (k : BitMask n true)
    (hk : k.Clean) {x y : Tup α} (hx : Wf (regs t T n) x) (hy : Wf (regs t T n) y) :
    ∃ r, WhereExpr.cond c (regs t T n) k x y = some r ∧ Wf (regs t T n) r ∧
      lanes (regs t T n) r = Spec.select k.lanes (lanes (regs t T n) x) (lanes (regs t T n) y) :=
  C15_assign ht hT h1 h64 c k hk hy hx

/-! ## examples -/

/-- An interpretation of the operators. -/
def exSem : Op → Nat → Nat → Nat
  | .plus => (· + ·) | .minus => (· - ·) | .multiplies => (· * ·) | .divides => (· / ·) | .modulus => (· % ·) | .bitAnd => (· &&& ·)
  | .bitOr => (· ||| ·) | .bitXor => (· ^^^ ·) | .shiftLeft => (· <<< ·) | .shiftRight => (· >>> ·)

-- `where(k, v) *= v` with the elements 1 and 9 selected, in two registers
example : ∃ r, WhereExpr.cassign (fun o a b => some (exSem o a b)) (fun _ => false) (regs exAvx2 ⟨4, true⟩ 11) .multiplies
      (BitMask.ofULL 11 true 0x202#64) exTup exTup = some r ∧
    lanes (regs exAvx2 ⟨4, true⟩ 11) r = [1, 4, 3, 4, 5, 6, 7, 8, 9, 100, 11] := by
  have hl : lanes (regs exAvx2 ⟨4, true⟩ 11) exTup = [1, 2, 3, 4, 5, 6, 7, 8, 9, 10, 11] := by rw [exRegs_avx2]; rfl
  obtain ⟨r, e, _, hr⟩ := C62_compound_partial exAvx2_ok (T := ⟨4, true⟩) (n := 11) (by decide) (by decide) (by decide) (fun _ => false)
    exSem .multiplies (by decide) (BitMask.ofULL 11 true 0x202#64) (fun i hi => by
      by_cases h : i < 16
      · have : ∀ j < 16, 11 ≤ j → (BitMask.ofULL 11 true 0x202#64).lane j = false := by decide
        exact this i h hi
      · exact BitMask.lane_oob _ (by rw [show arraySize 11 = 1 by decide, show wordBits 11 = 16 by decide]; omega)) exTup_wf exTup_wf
  refine ⟨r, e, ?_⟩
  rw [hr, hl, show (BitMask.ofULL 11 true 0x202#64).lanes = [false, true, false, false, false, false, false, false, false, true, false] by
    decide]
  rfl
-- one register with padding
example : (Geo.vec 32 3 4).Ok ∧ WhereExpr.nativeCassign (fun o a b => some (exSem o a b)) false (.vec 32 3 4) .bitXor
    ([-1#32, 0#32, -1#32, 7#32] : VMask 32) [1, 2, 3, 4] [8, 8, 8, 8] = some [9, 2, 11, 12] := by decide
example : compound .simd .modulus = some .modulus ∧ compound .simd .shiftLeft = none := by decide

end StdSimd.Props
