import Verif.Proofs.SmartRef
/-!
# C39: element references

`Cls` lists every type with element references: native and `fixed_size` values and masks, in every storage form.  The statements see an object through
`lanes`, the list of its elements; `view h r` is the element of the store `h` that `r` refers to, `none` if there is no such element.
References may refer to the same object, and to the same element.
-/
namespace StdSimd.Props
open SmartRef

variable {α : Type} {c : Cls}

/-- **C39** `swap(v[i], w[j])` exchanges the two elements; nothing else changes.  `a = b` and `a.obj = b.obj` are allowed. -/
theorem C39_swap (hc : c.Ok) (h : Store α c) (hv : Valid h) (a b : Ref) (ha : a.idx < c.size) (hb : b.idx < c.size) :
    ∃ h', swap h a b = some h' ∧ Valid h' ∧ view h' a = view h b ∧ view h' b = view h a ∧ ∀ q, q ≠ a → q ≠ b → view h' q = view h q := by
  obtain ⟨x, vx, rx⟩ := read_view hc hv ha
  obtain ⟨y, vy, ry⟩ := read_view hc hv hb
  obtain ⟨hv1, s1, o1⟩ := write_view hc hv ha y
  obtain ⟨hv2, s2, o2⟩ := write_view hc hv1 hb x
  refine ⟨write (write h a y) b x, by simp [swap, rx, ry], hv2, ?_, by rw [s2, vx], fun q q1 q2 => by rw [o2 q q2, o1 q q1]⟩
  by_cases e : a = b
  · subst e; rw [s2, vx]
  · rw [o2 a e, s1, vy]

/-- **C39** `swap(x, v[i])`: `x` receives the element, the element receives `x`. -/
theorem C39_swap_left (hc : c.Ok) (h : Store α c) (hv : Valid h) (x : Val α c) (b : Ref) (hb : b.idx < c.size) :
    ∃ x' h', swapLeft h x b = some (x', h') ∧ Valid h' ∧ some x' = view h b ∧ view h' b = some x ∧ ∀ q, q ≠ b → view h' q = view h q := by
  obtain ⟨y, vy, ry⟩ := read_view hc hv hb
  obtain ⟨hv1, s1, o1⟩ := write_view hc hv hb x
  exact ⟨y, write h b x, by simp [swapLeft, ry], hv1, vy.symm, s1, o1⟩

/-- **C39** `swap(v[i], x)`. -/
theorem C39_swap_right (hc : c.Ok) (h : Store α c) (hv : Valid h) (a : Ref) (ha : a.idx < c.size) (x : Val α c) :
    ∃ h' x', swapRight h a x = some (h', x') ∧ Valid h' ∧ some x' = view h a ∧ view h' a = some x ∧ ∀ q, q ≠ a → view h' q = view h q := by
  obtain ⟨y, vy, ry⟩ := read_view hc hv ha
  obtain ⟨hv1, s1, o1⟩ := write_view hc hv ha x
  exact ⟨write h a x, y, by simp [swapRight, ry], hv1, vy.symm, s1, o1⟩

/-- **C39** Swapping twice restores every element. -/
theorem C39_swap_twice (hc : c.Ok) (h : Store α c) (hv : Valid h) (a b : Ref) (ha : a.idx < c.size) (hb : b.idx < c.size) :
    ∃ h' h'', swap h a b = some h' ∧ swap h' a b = some h'' ∧ ∀ q, view h'' q = view h q := by
  obtain ⟨h', e1, v1, p1, p2, p3⟩ := C39_swap hc h hv a b ha hb
  obtain ⟨h'', e2, _, q1, q2, q3⟩ := C39_swap hc h' v1 a b ha hb
  refine ⟨h', h'', e1, e2, fun q => ?_⟩
  by_cases ea : q = a
  · subst ea; rw [q1, p2]
  · by_cases eb : q = b
    · subst eb; rw [q2, p1]
    · rw [q3 q ea eb, p3 q ea eb]

/-- **C39** `v[i] = x`; the returned reference refers to the element assigned to. -/
theorem C39_assign (hc : c.Ok) (h : Store α c) (hv : Valid h) (r : Ref) (hr : r.idx < c.size) (x : Val α c) :
    Valid (assign h r x).1 ∧ (assign h r x).2 = r ∧ view (assign h r x).1 r = some x ∧ ∀ q, q ≠ r → view (assign h r x).1 q = view h q := by
  obtain ⟨hv1, s1, o1⟩ := write_view hc hv hr x
  exact ⟨hv1, rfl, s1, o1⟩

/-- **C39** Reading a reference gives the element. -/
theorem C39_read (hc : c.Ok) (h : Store α c) (hv : Valid h) (r : Ref) (hr : r.idx < c.size) : read h r = view h r ∧ (view h r).isSome := by
  obtain ⟨y, vy, ry⟩ := read_view hc hv hr
  exact ⟨by rw [ry, vy], by rw [vy]; rfl⟩

/-- **C39** `v[i] op= x` is `v[i] = v[i] op x`, undefined exactly if that operation on the values is. -/
theorem C39_compound {β : Type} (op : Val α c → β → Option (Val α c)) (hc : c.Ok) (h : Store α c) (hv : Valid h) (r : Ref) (hr : r.idx < c.size) (x : β) :
    ∃ y, view h r = some y ∧ (op y x = none → compound op h r x = none) ∧
      ∀ z, op y x = some z → ∃ h', compound op h r x = some (h', r) ∧ Valid h' ∧ view h' r = some z ∧ ∀ q, q ≠ r → view h' q = view h q := by
  obtain ⟨y, vy, ry⟩ := read_view hc hv hr
  refine ⟨y, vy, fun e => by simp [compound, ry, e], fun z e => ?_⟩
  obtain ⟨hv1, s1, o1⟩ := write_view hc hv hr z
  exact ⟨write h r z, by simp [compound, ry, e], hv1, s1, o1⟩

/-- **C39** `++v[i]`, `--v[i]` (`f` is the operation on a value): the returned reference refers to the element, which has its new value. -/
theorem C39_pre_increment (f : Val α c → Option (Val α c)) (hc : c.Ok) (h : Store α c) (hv : Valid h) (r : Ref) (hr : r.idx < c.size) :
    ∃ y, view h r = some y ∧ (f y = none → preInc f h r = none) ∧
      ∀ z, f y = some z → ∃ h', preInc f h r = some (h', r) ∧ Valid h' ∧ view h' r = some z ∧ ∀ q, q ≠ r → view h' q = view h q := by
  obtain ⟨y, vy, ry⟩ := read_view hc hv hr
  refine ⟨y, vy, fun e => by simp [preInc, ry, e], fun z e => ?_⟩
  obtain ⟨hv1, s1, o1⟩ := write_view hc hv hr z
  exact ⟨write h r z, by simp [preInc, ry, e], hv1, s1, o1⟩

/-- **C39** `v[i]++`, `v[i]--`: the old value is returned. -/
theorem C39_post_increment (f : Val α c → Option (Val α c)) (hc : c.Ok) (h : Store α c) (hv : Valid h) (r : Ref) (hr : r.idx < c.size) :
    ∃ y, view h r = some y ∧ (f y = none → postInc f h r = none) ∧
      ∀ z, f y = some z → ∃ h', postInc f h r = some (h', y) ∧ Valid h' ∧ view h' r = some z ∧ ∀ q, q ≠ r → view h' q = view h q := by
  obtain ⟨y, vy, ry⟩ := read_view hc hv hr
  refine ⟨y, vy, fun e => by simp [postInc, ry, e], fun z e => ?_⟩
  obtain ⟨hv1, s1, o1⟩ := write_view hc hv hr z
  exact ⟨write h r z, by simp [postInc, ry, e], hv1, s1, o1⟩

/-! ## Cases -/

/-- two objects, vector masks of three 16-bit lanes: `swap(m[0], k[2])` -/
private abbrev masks : Store Unit (.mask (.vec 16 3 4)) := fun o => if o = 0 then [-1#16, 0#16, 0#16, 7#16] else [0#16, 0#16, 0#16, 0#16]
example : (swap masks ⟨0, 0⟩ ⟨1, 2⟩).map (fun h => [0, 1].map fun o => Native.maskLanes (.vec 16 3 4) (h o)) =
    some [[false, false, false], [false, false, true]] := by decide
example : Cls.Ok (.mask (.vec 16 3 4)) ∧ Valid masks := by
  refine ⟨show StdSimd.Geo.Ok (.vec 16 3 4) by decide, fun o => ?_⟩
  by_cases e : o = 0
  · subst e; show VMask.Wf 3 4 [-1#16, 0#16, 0#16, 7#16]; exact ⟨rfl, by simp⟩
  · show VMask.Wf 3 4 (if o = 0 then _ else _)
    rw [if_neg e]; exact ⟨rfl, by simp⟩

/-- a `fixed_size<7>` mask: swap of elements 1 and 6 of one object, swap of an element with itself -/
private abbrev bits : Store Unit (.bits 7) := fun _ => (BitMask.set (BitMask.zero 7 true) 1 true : BitMask 7 true)
example : (swap bits ⟨0, 1⟩ ⟨0, 6⟩).map (fun h => BitMask.lanes (h 0)) = some [false, false, false, false, false, false, true] := by decide +kernel
example : (swap bits ⟨0, 1⟩ ⟨0, 1⟩).map (fun h => BitMask.lanes (h 0)) = some [false, true, false, false, false, false, false] := by decide +kernel

/-- `fixed_size<7>` of 4-byte elements for SSE: registers 4 + 2 + 1; both forms of access reach the last register -/
example : (swap (α := Nat) (c := .tuple [.vec 32 4 4, .vec 32 2 2, .scalar] false) (fun _ => [[0, 1, 2, 3], [4, 5], [6]]) ⟨0, 6⟩ ⟨0, 1⟩).map (fun h => h 0) =
    some [[0, 6, 2, 3], [4, 5], [1]] := by decide
example : (swap (α := Nat) (c := .tuple [.vec 32 4 4, .vec 32 2 2, .scalar] true) (fun _ => [[0, 1, 2, 3], [4, 5], [6]]) ⟨0, 6⟩ ⟨0, 1⟩).map (fun h => h 0) =
    some [[0, 6, 2, 3], [4, 5], [1]] := by decide
/-- `v[3]++` -/
example : (postInc (α := Nat) (c := .value (.vec 32 4 4)) (fun x => some (x + 1)) (fun _ => [0, 1, 2, 3]) ⟨0, 3⟩).map (fun p => (p.1 0, p.2)) = some ([0, 1, 2, 4], 3) := by decide

end StdSimd.Props
