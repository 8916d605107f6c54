import Verif.Proofs.SplitFixed
import Verif.Props.Split
/-!
# C19: `split` of fixed_size objects compiles

`C19_split_sizes` and `C19_split_parts_partial` (Props/Split.lean) leave open, for fixed_size objects, whether the call compiles.  It
does on all targets but i386, where 5 to 8 bytes of 1- or 2-byte elements have a native ABI of one register but are stored in two
registers at the end of a fixed_size object (C07), and `__extract_part` then returns the two registers.
-/
namespace StdSimd.Props
open Abi Split

private theorem exc_iff {t : Target} {T : Elem} {n : Nat} (h : t.i386 = true → n * T.size ≤ 4 ∨ 8 < n * T.size) : ¬ Exc t T n := by
  rintro ⟨h1, h2⟩
  have := bitCeil_eq8 h2
  have := h h1
  omega

private theorem fx_of {t : Target} (hc : t.Consistent) {T : Elem} (hT : T.Ok) {n : Nat} (hv : valid t T (.fixed n) = true) {x : Obj}
    (hx : HasAbi t T (.fixed n) x) : Fx t T x := by
  have := (hasAbi_good hc hT hv hx).2.1
  unfold Fx; rw [this]; exact hx

/-- C19, C20 (partial). `split<Sizes...>(v)` of a fixed_size object compiles for all lists of positive sizes with the right sum, and
returns the consecutive lane ranges of `v`.
Missing: on i386 parts of 5 to 8 bytes (`C19_split_sizes_i386_rejected`). -/
theorem C19_split_sizes_fixed_partial {t : Target} (hc : t.Consistent) {T : Elem} (hT : T.Ok) {n : Nat}
    (hv : valid t T (.fixed n) = true) {x : Obj} (hx : HasAbi t T (.fixed n) x) (cp : List Nat → Bool) (addr : List Nat → Nat)
    (junk : MaskVec.Reg) (sizes : List Nat) (hpos : ∀ k ∈ sizes, 0 < k) (hsum : sizes.sum = n)
    (haddr : ∀ l, addr l % objAlign t T (.fixed l.sum) = 0)
    (hi : t.i386 = true → ∀ k ∈ sizes, k * T.size ≤ 4 ∨ 8 < k * T.size) :
    splitSizes t T cp addr junk true sizes x = .ok (Spec.split sizes (lanes T.size x)) := by
  refine (C19_split_sizes hc hT hv hx cp addr junk sizes hpos hsum (by have := haddr sizes; rwa [hsum] at this)
    (fun _ => haddr)).resolve_left ?_
  obtain ⟨_, g2, g3, _⟩ := hasAbi_good hc hT hv hx
  exact splitSizes_noill_fixed hc hT cp addr junk sizes x (fx_of hc hT hv hx) g3 (by rw [g2]; exact hsum) hpos
    (fun k hk => exc_iff (fun h => hi h k hk))

/-- C19, C20 (partial). `split<V>(v)` of a fixed_size object of `n` elements, `V` the `simd` of the ABI deduced for a divisor `k` of
`n`: the call compiles and returns the consecutive groups of `k` lanes.
Missing: on i386 parts of 5 to 8 bytes (`C19_split_parts_i386_rejected`), and scalar parts of a type whose size is not a power of two
(`C20_split_i386_false_promise`). -/
theorem C19_split_parts_fixed_partial {t : Target} (hc : t.Consistent) {T : Elem} (hT : T.Ok) {n : Nat}
    (hv : valid t T (.fixed n) = true) {x : Obj} (hx : HasAbi t T (.fixed n) x) (cp : Bool) (addr : Nat) (junk : MaskVec.Reg)
    {kind : Kind} {k : Nat} (hkind : kindOf t T k = some kind) (hk : k ∣ n) (hobj : addr % objAlign t T (.fixed n) = 0)
    (hpow : kind = .scalar → T.size ≠ 12) (hi : t.i386 = true → k * T.size ≤ 4 ∨ 8 < k * T.size) :
    splitV t T cp addr junk true kind k x = .ok (Spec.split (List.replicate (n / k) k) (lanes T.size x)) := by
  obtain ⟨_, g2, g3, _⟩ := hasAbi_good hc hT hv hx
  have g2' : Split.size x = n := g2
  have hk0 : 0 < k := by
    rcases Nat.eq_zero_or_pos k with h | h
    · subst h; have := Nat.eq_zero_of_zero_dvd hk; omega
    · exact h
  have hsc : kind = .scalar → k = 1 := by
    rintro rfl
    have h1 := elem_pos hT
    unfold kindOf deduce firstValidAbi at hkind
    split at hkind
    · rename_i a ha
      split at ha
      · cases ha; simp at hkind
      · split at ha
        · cases ha; simp at hkind
        · split at ha
          · rename_i h
            have : T.size * k = T.size * 1 := by omega
            exact Nat.eq_of_mul_eq_mul_left h1 this
          · cases ha
    · split at hkind <;> simp at hkind
  refine (C19_split_parts_partial hc hT hv hx cp addr junk kind k hk0 hsc hobj (fun _ => hpow)).resolve_left ?_
  exact splitV_noill_fixed hc hT cp addr junk kind k x (fx_of hc hT hv hx) g3 (by rw [g2']; exact hk)
    (fun h => ⟨by rw [hkind, h], exc_iff hi⟩)

/-! ## i386 -/

private def i386U : Target := { sse := true, sse2 := true, i386 := true }
private def byteE : Elem := ⟨1, false⟩
private def ramp8 (off : Nat) : MaskVec.Reg := fun j => BitVec.ofNat 8 (off + j)
/-- A `fixed_size<24>` object of 1-byte elements: 16, 4 and 4 lanes. -/
private def obj24 : Obj := [⟨16, 16, ramp8 0⟩, ⟨4, 4, ramp8 16⟩, ⟨4, 4, ramp8 20⟩]

private theorem obj24_parts (junk : MaskVec.Reg) : ∃ r0 r1,
    extractTuple i386U byteE false junk 0 3 1 obj24 = .ok r0 ∧ extractTuple i386U byteE false junk 1 3 1 obj24 = .ok r1 ∧
      extractTuple i386U byteE false junk 2 3 1 obj24 = .ill := by
  have h0 : ∃ r, extractTuple i386U byteE false junk 0 3 1 obj24 = .ok r := by simp [obj24, extractTuple, Split.size]
  have h1 : ∃ r, extractTuple i386U byteE false junk 1 3 1 obj24 = .ok r := by
    simp [obj24, extractTuple, Split.size, extractNative, extractBody, shiftRight, byteE, Res.bind]
    split <;> simp
  obtain ⟨r0, h0⟩ := h0
  obtain ⟨r1, h1⟩ := h1
  exact ⟨r0, r1, h0, h1, by simp [obj24, extractTuple, Split.size]⟩

/-- C19, negation. On i386 `split<8, 8, 8>` of a `fixed_size<24>` object of 1-byte elements does not compile. -/
theorem C19_split_sizes_i386_rejected :
    i386U.Consistent ∧ valid i386U byteE (.fixed 24) = true ∧ HasAbi i386U byteE (.fixed 24) obj24 ∧
      deduce i386U byteE 8 = some (.builtin 8) ∧
      ∀ (addr : List Nat → Nat) (junk : MaskVec.Reg),
        splitSizes i386U byteE (fun _ => false) addr junk true [8, 8, 8] obj24 = .ill := by
  refine ⟨by constructor <;> decide, by decide, by decide +kernel, by decide +kernel, fun addr junk => ?_⟩
  have h8 : kindOf i386U byteE 8 = some .native := by decide +kernel
  have hs : Split.size obj24 = 24 := by decide
  obtain ⟨r0, r1, h0, h1, h2⟩ := obj24_parts junk
  have hc : obj24 = ⟨16, 16, ramp8 0⟩ :: [⟨4, 4, ramp8 16⟩, ⟨4, 4, ramp8 20⟩] := rfl
  unfold splitSizes
  simp only [hs]
  rw [hc]
  simp [splitSizes.patterns, h8, ← hc, extractPart, h0, h1, h2, Res.all, fromReg, Res.bind]

/-- C19, negation. On i386 `split<V>` of a `fixed_size<24>` object of 1-byte elements into three `V` of the ABI deduced for 8 elements
does not compile. -/
theorem C19_split_parts_i386_rejected :
    kindOf i386U byteE 8 = some .native ∧
      ∀ (addr : Nat) (junk : MaskVec.Reg), splitV i386U byteE false addr junk true .native 8 obj24 = .ill := by
  refine ⟨by decide +kernel, fun addr junk => ?_⟩
  have hs : Split.size obj24 = 24 := by decide
  obtain ⟨r0, r1, h0, h1, h2⟩ := obj24_parts junk
  have hr : List.range 3 = [0, 1, 2] := rfl
  unfold splitV
  simp [hs, extractPart, hr, h0, h1, h2, Res.all, fromReg, Res.bind]

/-! ## examples: the hypotheses are met -/

private def sseU : Target := { sse := true, sse2 := true, x86_64 := true }
private def fltE : Elem := ⟨4, true⟩
/-- A `fixed_size<11>` object of floats: registers of 4, 4 and 3 lanes. -/
private def obj11 : Obj := [⟨4, 4, ramp8 0⟩, ⟨4, 4, ramp8 16⟩, ⟨3, 4, ramp8 32⟩]

-- 11 floats, split 4 + 3 + 1 + 3: the first register, then loads
example : splitSizes sseU fltE (fun _ => false) (fun l => bitCeil (l.sum * 4)) MaskVec.zero true [4, 3, 1, 3] obj11 =
    .ok (Spec.split [4, 3, 1, 3] (lanes 4 obj11)) :=
  C19_split_sizes_fixed_partial (n := 11) (t := sseU) (T := fltE) (by constructor <;> decide) (by decide) (by decide)
    (by decide +kernel) (fun _ => false) _ MaskVec.zero [4, 3, 1, 3] (by decide) (by decide) (fun _ => Nat.mod_self _) (by decide)

-- 12 floats as 4 x 3: parts inside a register and across two of them
private def obj12 : Obj := [⟨4, 4, ramp8 0⟩, ⟨4, 4, ramp8 16⟩, ⟨4, 4, ramp8 32⟩]
example : splitV sseU fltE false 128 MaskVec.zero true .native 3 obj12 =
    .ok (Spec.split [3, 3, 3, 3] (lanes 4 obj12)) :=
  C19_split_parts_fixed_partial (n := 12) (t := sseU) (T := fltE) (by constructor <;> decide) (by decide) (by decide)
    (by decide +kernel) false 128 MaskVec.zero (by decide +kernel) (by decide) (by decide +kernel) (by decide) (by decide)

-- on i386 parts of 4 bytes are no problem
example : splitV i386U byteE false 128 MaskVec.zero true .native 4 obj24 =
    .ok (Spec.split [4, 4, 4, 4, 4, 4] (lanes 1 obj24)) :=
  C19_split_parts_fixed_partial (n := 24) (t := i386U) (T := byteE) (by constructor <;> decide) (by decide) (by decide)
    (by decide +kernel) false 128 MaskVec.zero (by decide +kernel) (by decide) (by decide +kernel) (by decide) (by decide)

end StdSimd.Props
