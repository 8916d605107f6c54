import Verif.Proofs.X86Mul
import Verif.Proofs.X86Shr
import Verif.Spec.Arith
/-!
# C24, C26, C27, C28: 8-bit multiplication and shifts on x86

A register is the list of its lanes.  `mulBytes`, `shl8Int`, `shl8v`, `shl16v`, `shr8v`, `shr16v`, ... are the models of the
code paths (`Model.X86Int`); `Spec.mul`, `Spec.shl`, `Spec.shr` are the C++ operators on one element.
-/
namespace StdSimd.Props
open StdSimd.X86

private theorem mul_spec {w : Nat} (a b : BitVec w) : a * b = Spec.mul a b := by
  apply BitVec.eq_of_toNat_eq; simp [Spec.mul]

private theorem shl_spec {w : Nat} (a : BitVec w) (s : Nat) : a <<< s = Spec.shl a s := by
  apply BitVec.eq_of_toNat_eq; simp [Spec.shl, Nat.shiftLeft_eq]

private theorem shrU_spec {w : Nat} (a : BitVec w) (s : Nat) : a >>> s = Spec.shr false a s := by
  apply BitVec.eq_of_toNat_eq
  simp only [Spec.shr, BitVec.toNat_ushiftRight, Nat.shiftRight_eq_div_pow, BitVec.toNat_ofNat, Bool.false_eq_true, if_false]
  exact (Nat.mod_eq_of_lt (Nat.lt_of_le_of_lt (Nat.div_le_self _ _) a.isLt)).symm

private theorem shrS_spec {w : Nat} (a : BitVec w) (s : Nat) : a.sshiftRight s = Spec.shr true a s := by
  simp only [Spec.shr, if_true, BitVec.sshiftRight, Int.shiftRight_eq_div_pow]
  norm_cast

/-- **C24.** Multiplication of 8-bit lanes through 16- and 32-bit products is, in every lane, the product modulo 256, on
every code path and for any number of lanes.  The path for three lanes works on a register of four bytes, the last of which is
padding.  Missing: for three and four lanes the products are taken to wrap, `C24_signed_overflow`. -/
theorem C24_multiplication_partial (p : MulPath) (xs ys : List (BitVec 8)) (hl : xs.length = ys.length) (j : Nat) (a b : BitVec 8)
    (h3 : p = .three → j < 3 ∧ xs.length ≤ 4) (ha : xs[j]? = some a) (hb : ys[j]? = some b) :
    (mulBytes p xs ys)[j]? = some (Spec.mul a b) := by
  rw [mulBytes_lane p xs ys hl j a b h3 ha hb, mul_spec]

example : mulBytes .or [0xff#8, 0x80#8, 3#8, 0x7f#8] [0xff#8, 0xff#8, 0x80#8, 2#8] = [1#8, 0x80#8, 0x80#8, 0xfe#8] := by
  decide +kernel

/-- **C24, finding.** In the paths for three and four lanes the product `__xi * __yi` is a product of `int`s that can
overflow although every lane product is harmless; the theorem above takes it to wrap. -/
theorem C24_signed_overflow : ∃ x y : BitVec 32, (∀ i < 4, (lane 8 x i).toNat ≤ 1 ∧ (lane 8 y i).toNat ≤ 1) ∧
    2 ^ 31 ≤ x.toInt * y.toInt := ⟨0x01010101#32, 0x01010101#32, by decide +kernel, by decide +kernel⟩

/-- **C26.** `v << s` for 8-bit lanes: every lane is shifted, no bit of a neighbour enters, on every code path and for all
amounts from 0 to 31. -/
theorem C26_shl8_scalar (p : ShlPath) (xs : List (BitVec 8)) (s : Nat) (_hs : s < 32) :
    shl8Int p xs s = xs.map (fun x => Spec.shl x s) := by
  have hm : (fun x : BitVec 8 => Spec.shl x s) = fun x : BitVec 8 => x <<< s := by funext x; exact (shl_spec x s).symm
  rw [hm]
  have constCase : ∀ q, (q = .const ∨ q = .const4 ∨ q = .const2) → shl8Int q xs s = xs.map (fun x : BitVec 8 => x <<< s) := by
    intro q hq
    have e : shl8Int q xs s = if s = 0 then xs
        else if s = 1 then xs.map (fun x => x + x)
        else if s = 2 then (xs.map (fun x => x + x)).map (fun x => x + x)
        else if s < 8 then
          match q with
          | .const2 => overGroups1 16 2 (shl8Const2 s) xs
          | .const4 => overGroups1 32 4 (shl8Const4 s) xs
          | _ => overGroups1 32 4 (shl8Const s) xs
        else xs.map (fun _ => 0#8) := by
      rcases hq with rfl | rfl | rfl <;> rfl
    rw [e]
    by_cases h0 : s = 0
    · rw [if_pos h0, h0]; simp
    rw [if_neg h0]
    by_cases h1 : s = 1
    · rw [if_pos h1, h1]; exact List.map_congr_left (fun a _ => dbl_shl a)
    rw [if_neg h1]
    by_cases h2 : s = 2
    · rw [if_pos h2, h2, List.map_map]
      apply List.map_congr_left
      intro a _
      simp only [Function.comp_apply, dbl_shl, ← BitVec.shiftLeft_add]
    rw [if_neg h2]
    by_cases h8 : s < 8
    · rw [if_pos h8]
      rcases hq with rfl | rfl | rfl
      · exact overGroups1_eq 32 4 (by omega) (by omega) (by omega) _ _ (fun g i hi => shl8Const_lane s g i hi) xs
      · exact overGroups1_eq 32 4 (by omega) (by omega) (by omega) _ _ (fun g i hi => shl8Const4_lane s h8 g i hi) xs
      · exact overGroups1_eq 16 2 (by omega) (by omega) (by omega) _ _ (fun g i hi => shl8Const2_lane s h8 g i hi) xs
    · rw [if_neg h8]
      apply List.map_congr_left
      intro a _
      rw [BitVec.shiftLeft_eq_zero (by omega)]
  cases p
  · exact constCase _ (.inl rfl)
  · exact constCase _ (.inr (.inl rfl))
  · exact constCase _ (.inr (.inr rfl))
  · exact List.map_congr_left (fun a _ => shl8Avx512_eq s a)
  · exact overGroups1_eq 32 4 (by omega) (by omega) (by omega) _ _ (fun g i hi => shl8Avx2_lane s g i hi) xs
  · exact overGroups1_eq 16 2 (by omega) (by omega) (by omega) _ _ (fun g i hi => shl8Sse_lane s g i hi) xs

example : shl8Int .sse [0xff#8, 0xff#8, 1#8] 3 = [0xf8#8, 0xf8#8, 8#8] := by decide +kernel

/-- **C26.** `v << w` for 8-bit lanes. -/
theorem C26_shl8_vector (p : ShlvPath) (xs ys : List (BitVec 8)) (hl : xs.length = ys.length) :
    shl8v p xs ys = List.zipWith (fun x y => Spec.shl x y.toNat) xs ys := by
  have hm : (fun x y : BitVec 8 => Spec.shl x y.toNat) = fun x y => x <<< y.toNat := by
    funext x y; exact (shl_spec x _).symm
  rw [hm]
  cases p
  · exact congrArg (fun f => List.zipWith f xs ys) (by funext a b; exact shl8vAvx512_eq a b)
  · exact overGroups2_eq 16 2 (by omega) (by omega) (by omega) shl8vSse _ (fun _ => True) trivial
      (fun g y i _ hi => shl8vSse_lane g y i hi) xs ys hl (fun _ _ => trivial)

example : shl8v .sse [0xff#8, 0xff#8, 0x81#8] [7#8, 0#8, 31#8] = [0x80#8, 0xff#8, 0#8] := by decide +kernel

/-- **C26.** `v << w` for 16-bit lanes, with AVX2 or better. -/
theorem C26_shl16_vector (p : Shl16Path) (hp : p ≠ .sse) (xs ys : List (BitVec 16)) (hl : xs.length = ys.length) :
    shl16v p xs ys = List.zipWith (fun x y => Spec.shl x y.toNat) xs ys := by
  have hm : (fun x y : BitVec 16 => Spec.shl x y.toNat) = fun x y => x <<< y.toNat := by
    funext x y; exact (shl_spec x _).symm
  rw [hm]
  cases p
  · rfl
  · exact overGroups2_eq 32 2 (by omega) (by omega) (by omega) shl16vAvx2 _ (fun _ => True) trivial
      (fun g y i _ hi => shl16vAvx2_lane g y i hi) xs ys hl (fun _ _ => trivial)
  · exact absurd rfl hp

/-- **C26, partial.** `v << w` for 16-bit lanes without AVX2, when every amount is below 16.  Missing: the amounts 16 to 31,
which C++ defines for the promoted type (see `C26_shl16_sse_wrong`). -/
theorem C26_shl16_sse_partial (xs ys : List (BitVec 16)) (hl : xs.length = ys.length) (hy : ∀ y ∈ ys, y.toNat < 16) :
    shl16v .sse xs ys = List.zipWith (fun x y => Spec.shl x y.toNat) xs ys := by
  have hm : (fun x y : BitVec 16 => Spec.shl x y.toNat) = fun x y => x <<< y.toNat := by
    funext x y; exact (shl_spec x _).symm
  rw [hm]
  exact overGroups2_eq 32 2 (by omega) (by omega) (by omega) shl16vSse _ (fun y => y.toNat < 16) (by decide)
      (fun g y i h hi => shl16vSse_lane g y i hi h) xs ys hl hy

example : shl16v .sse [0xffff#16, 0xffff#16, 5#16] [15#16, 0#16, 3#16] = [0x8000#16, 0xffff#16, 40#16] := by
  rw [C26_shl16_sse_partial [0xffff#16, 0xffff#16, 5#16] [15#16, 0#16, 3#16] rfl (by simp)]; decide +kernel

/-- **C26, finding.** Without AVX2 an amount of 16 or more in an even lane changes the result of the odd lane next to it:
`{1, 1} << {17, 0}` is `{0, 3}`. -/
theorem C26_shl16_sse_wrong : ∃ xs ys : List (BitVec 16), xs.length = ys.length ∧ (∀ y ∈ ys, y.toNat < 32) ∧
    shl16v .sse xs ys ≠ List.zipWith (fun x y => Spec.shl x y.toNat) xs ys :=
  ⟨[1#16, 1#16], [17#16, 0#16], rfl, by simp, by
    intro h
    have h1 : (shl16v .sse [1#16, 1#16] [17#16, 0#16])[1]? = some 1#16 := by rw [h]; rfl
    have h2 : (shl16v .sse [1#16, 1#16] [17#16, 0#16])[1]? =
        some (lane 16 (shl16vSse (group 32 2 [1#16, 1#16] 0) (group 32 2 [17#16, 0#16] 0)) 1) := rfl
    rw [h2, shl16vSse_factor _ _ 1 (by omega) (by decide +kernel)] at h1
    revert h1
    decide +kernel⟩

/-- **C26.** `v << w` for 32-bit lanes without AVX2. -/
theorem C26_shl32_sse (xs ys : List (BitVec 32)) (hy : ∀ y ∈ ys, y.toNat < 32) :
    List.zipWith shl32vSse xs ys = List.zipWith (fun x y => Spec.shl x y.toNat) xs ys := by
  induction xs generalizing ys with
  | nil => rw [List.zipWith_nil_left, List.zipWith_nil_left]
  | cons x xs ih =>
    cases ys with
    | nil => rw [List.zipWith_nil_right, List.zipWith_nil_right]
    | cons y ys =>
      rw [List.zipWith_cons_cons, List.zipWith_cons_cons, ih ys (fun z hz => hy z (by simp [hz])),
        shl32vSse_eq x y (hy y (by simp)), shl_spec]

example : List.zipWith shl32vSse [3#32, 0xffffffff#32] [31#32, 0#32] = [0x80000000#32, 0xffffffff#32] := by decide +kernel

/-- **C26.** `v << w` for 64-bit lanes without AVX2. -/
theorem C26_shl64_sse (x0 x1 y0 y1 : BitVec 64) :
    shl64vSse [x0, x1] [y0, y1] = [Spec.shl x0 y0.toNat, Spec.shl x1 y1.toNat] := by
  rw [← shl_spec, ← shl_spec]; rfl

/-- **C27.** `v >> s` for 8-bit lanes. -/
theorem C27_shr8_scalar_unsigned (const : Bool) (xs : List (BitVec 8)) (s : Nat) :
    shr8u const s xs = xs.map (fun x => Spec.shr false x s) := by
  have hm : (fun x : BitVec 8 => Spec.shr false x s) = fun x : BitVec 8 => x >>> s := by funext x; exact (shrU_spec x s).symm
  rw [hm, shr8u]
  by_cases h : const = true ∧ 8 ≤ s
  · rw [if_pos h]
    apply List.map_congr_left
    intro a _
    apply BitVec.eq_of_getLsbD_eq
    intro j hj
    simp [BitVec.getLsbD_of_ge a (s + j) (by omega)]
  · rw [if_neg h]
    apply List.ext_getElem (by simp [overGroups1])
    intro j h1 h2
    have hj : j < xs.length := by simpa using h2
    simp only [overGroups1, List.getElem_map, List.getElem_range]
    rw [shr8uGroup_lane s _ _ (by omega), group, lane_join (by omega) 2 _ _ (by omega) (by omega), Nat.div_add_mod,
      List.getD_eq_getElem?_getD, List.getElem?_eq_getElem hj]
    rfl

/-- **C27.** `v >> s` for signed 8-bit lanes. -/
theorem C27_shr8_scalar_signed (xs : List (BitVec 8)) (s : Nat) :
    shr8s s xs = xs.map (fun x => Spec.shr true x s) := by
  have hm : (fun x : BitVec 8 => Spec.shr true x s) = fun x => x.sshiftRight s := by funext x; exact (shrS_spec x s).symm
  rw [hm]
  exact overGroups1_eq 16 2 (by omega) (by omega) (by omega) _ _ (fun g i hi => shr8sGroup_lane s g i hi) xs

example : shr8s 3 [0x80#8, 0x7f#8, 0xff#8] = [0xf0#8, 0x0f#8, 0xff#8] := by decide +kernel
example : shr8u false 3 [0x80#8, 0x7f#8, 0xff#8] = [0x10#8, 0x0f#8, 0x1f#8] := by decide +kernel

/-- **C27.** `v >> w` for unsigned 8-bit lanes, every code path. -/
theorem C27_shr8_vector_unsigned (p : Shr8Path) (xs ys : List (BitVec 8)) (hl : xs.length = ys.length) :
    shr8v false p xs ys = List.zipWith (fun x y => Spec.shr false x y.toNat) xs ys := by
  have hm : (fun x y : BitVec 8 => Spec.shr false x y.toNat) = fun x y => x >>> y.toNat := by
    funext x y; exact (shrU_spec x _).symm
  rw [hm]
  cases p
  · exact congrArg (fun f => List.zipWith f xs ys) (by funext a b; exact shr8vWideU_eq a b)
  · exact overGroups2_eq 16 2 (by omega) (by omega) (by omega) shr8vZmmU _ (fun _ => True) trivial
      (fun g y i _ hi => shr8vZmmU_lane g y i hi) xs ys hl (fun _ _ => trivial)
  · exact overGroups2_eq 32 4 (by omega) (by omega) (by omega) shr8vAvx2U _ (fun _ => True) trivial
      (fun g y i _ hi => shr8vAvx2U_lane g y i hi) xs ys hl (fun _ _ => trivial)
  · exact overGroups2_eq 16 2 (by omega) (by omega) (by omega) shr8vSseU _ (fun _ => True) trivial
      (fun g y i _ hi => shr8vSseU_lane g y i hi) xs ys hl (fun _ _ => trivial)
  · exact overGroups2_eq 16 2 (by omega) (by omega) (by omega) shr8vSseU _ (fun _ => True) trivial
      (fun g y i _ hi => shr8vSseU_lane g y i hi) xs ys hl (fun _ _ => trivial)

/-- **C27.** `v >> w` for signed 8-bit lanes with AVX2 or better. -/
theorem C27_shr8_vector_signed (p : Shr8Path) (hp : p ≠ .sse41 ∧ p ≠ .sse2) (xs ys : List (BitVec 8))
    (hl : xs.length = ys.length) (hy : ∀ y ∈ ys, y.toNat < 32) :
    shr8v true p xs ys = List.zipWith (fun x y => Spec.shr true x y.toNat) xs ys := by
  have hm : (fun x y : BitVec 8 => Spec.shr true x y.toNat) = fun x y => x.sshiftRight y.toNat := by
    funext x y; exact (shrS_spec x _).symm
  rw [hm]
  cases p
  · show List.zipWith shr8vWideS xs ys = _
    clear hl
    induction xs generalizing ys with
    | nil => rfl
    | cons x xs ih =>
      cases ys with
      | nil => rfl
      | cons y ys =>
        rw [List.zipWith_cons_cons, List.zipWith_cons_cons, ih ys (fun z hz => hy z (by simp [hz])),
          shr8vWideS_eq x y (by have := hy y (by simp); omega)]
  · exact overGroups2_eq 16 2 (by omega) (by omega) (by omega) shr8vZmmS _ (fun y => y.toNat < 32) (by decide)
      (fun g y i h hi => shr8vZmmS_lane g y i hi (fun k hk => by have := h k hk; omega)) xs ys hl hy
  · exact overGroups2_eq 32 4 (by omega) (by omega) (by omega) shr8vAvx2S _ (fun _ => True) trivial
      (fun g y i _ hi => shr8vAvx2S_lane g y i hi) xs ys hl (fun _ _ => trivial)
  · exact absurd rfl hp.1
  · exact absurd rfl hp.2

/-- **C27, partial.** `v >> w` for signed 8-bit lanes without AVX2, when every amount is below 8.  Missing: 8 to 31, which C++
defines (`C27_shr8_sse_wrong`). -/
theorem C27_shr8_sse_partial (p : Shr8Path) (hp : p = .sse41 ∨ p = .sse2) (xs ys : List (BitVec 8))
    (hl : xs.length = ys.length) (hy : ∀ y ∈ ys, y.toNat < 8) :
    shr8v true p xs ys = List.zipWith (fun x y => Spec.shr true x y.toNat) xs ys := by
  have hm : (fun x y : BitVec 8 => Spec.shr true x y.toNat) = fun x y => x.sshiftRight y.toNat := by
    funext x y; exact (shrS_spec x _).symm
  rw [hm]
  rcases hp with rfl | rfl
  · exact overGroups2_eq 16 2 (by omega) (by omega) (by omega) shr8vSse41S _ (fun y => y.toNat < 8) (by decide)
      (fun g y i h hi => by rw [shr8vSse41S_lane g y i hi, if_pos (h i hi)]) xs ys hl hy
  · exact overGroups2_eq 16 2 (by omega) (by omega) (by omega) shr8vSse2S _ (fun y => y.toNat < 8) (by decide)
      (fun g y i h hi => by rw [shr8vSse2S_lane g y i hi, if_pos (h i hi)]) xs ys hl hy

example : shr8v true .sse2 [0x80#8, 0x81#8] [7#8, 1#8] = [0xff#8, 0xc0#8] := by decide +kernel

/-- **C27, finding.** Without AVX2, `v >> w` on signed 8-bit lanes gives 0 instead of -1 for a negative lane and an amount of
8 or more, e.g. `-1 >> 8`. -/
theorem C27_shr8_sse_wrong (p : Shr8Path) (hp : p = .sse41 ∨ p = .sse2) : ∃ xs ys : List (BitVec 8),
    xs.length = ys.length ∧ (∀ y ∈ ys, y.toNat < 32) ∧
    shr8v true p xs ys ≠ List.zipWith (fun x y => Spec.shr true x y.toNat) xs ys := by
  refine ⟨[0xff#8], [8#8], rfl, by simp, ?_⟩
  rcases hp with rfl | rfl <;> decide +kernel

/-- **C27.** `v >> w` for 16-bit lanes: all paths for unsigned lanes, AVX2 or better for signed lanes. -/
theorem C27_shr16_vector (signed : Bool) (p : Shr16Path) (hp : signed = true → p = .avx512 ∨ p = .avx2)
    (xs ys : List (BitVec 16)) (hl : xs.length = ys.length) (hy : ∀ y ∈ ys, y.toNat < 32) :
    shr16v signed p xs ys = List.zipWith (fun x y => Spec.shr signed x y.toNat) xs ys := by
  have hm : (fun x y : BitVec 16 => Spec.shr signed x y.toNat) = fun x y => shrLane signed x y.toNat := by
    funext x y
    cases signed
    · exact (shrU_spec x _).symm
    · exact (shrS_spec x _).symm
  rw [hm]
  have pw : ∀ (F : BitVec 16 → BitVec 16 → BitVec 16),
      (∀ x y, y.toNat < 32 → F x y = if y.toNat < 16 then shrLane false x y.toNat else 0#16) →
      List.zipWith F xs ys = List.zipWith (fun x y => shrLane false x y.toNat) xs ys := by
    intro F hF
    clear hl
    induction xs generalizing ys with
    | nil => rfl
    | cons x xs ih =>
      cases ys with
      | nil => rfl
      | cons y ys =>
        rw [List.zipWith_cons_cons, List.zipWith_cons_cons, ih ys (fun z hz => hy z (by simp [hz])), hF x y (hy y (by simp))]
        by_cases h : y.toNat < 16
        · rw [if_pos h]
        · rw [if_neg h]
          congr 1
          apply BitVec.eq_of_getLsbD_eq
          intro j hj
          simp [shrLane, BitVec.getLsbD_of_ge x (y.toNat + j) (by omega)]
  cases p
  · rfl
  · cases signed
    · exact overGroups2_eq 32 2 (by omega) (by omega) (by omega) shr16vAvx2U _ (fun _ => True) trivial
        (fun g y i _ hi => shr16vAvx2U_lane g y i hi) xs ys hl (fun _ _ => trivial)
    · exact overGroups2_eq 32 2 (by omega) (by omega) (by omega) shr16vAvx2S _ (fun y => y.toNat < 32) (by decide)
        (fun g y i h hi => shr16vAvx2S_lane g y i hi (fun k hk => by have := h k hk; omega)) xs ys hl hy
  · cases signed
    · exact pw _ (fun x y h => shr16vSse41_eq false x y h)
    · exact absurd (hp rfl) (by simp)
  · cases signed
    · exact pw _ (fun x y h => shr16vSse2_eq false x y h)
    · exact absurd (hp rfl) (by simp)

example : shr16v true .avx2 [0x8000#16, 0x8001#16] [31#16, 1#16] = [0xffff#16, 0xc000#16] := by decide +kernel

/-- **C27, partial.** `v >> w` for signed 16-bit lanes without AVX2, when every amount is below 16.  Missing: 16 to 31
(`C27_shr16_sse_wrong`). -/
theorem C27_shr16_sse_partial (p : Shr16Path) (hp : p = .sse41 ∨ p = .sse2) (xs ys : List (BitVec 16))
    (hy : ∀ y ∈ ys, y.toNat < 16) :
    shr16v true p xs ys = List.zipWith (fun x y => Spec.shr true x y.toNat) xs ys := by
  have pw : ∀ (F : BitVec 16 → BitVec 16 → BitVec 16),
      (∀ x y, y.toNat < 32 → F x y = if y.toNat < 16 then shrLane true x y.toNat else 0#16) →
      List.zipWith F xs ys = List.zipWith (fun x y => Spec.shr true x y.toNat) xs ys := by
    intro F hF
    induction xs generalizing ys with
    | nil => rfl
    | cons x xs ih =>
      cases ys with
      | nil => rfl
      | cons y ys =>
        have h := hy y (by simp)
        rw [List.zipWith_cons_cons, List.zipWith_cons_cons, ih ys (fun z hz => hy z (by simp [hz])), hF x y (by omega),
          if_pos h, ← shrS_spec]
        rfl
  rcases hp with rfl | rfl
  · exact pw _ (fun x y h => shr16vSse41_eq true x y h)
  · exact pw _ (fun x y h => shr16vSse2_eq true x y h)

/-- **C27, finding.** Without AVX2, `v >> w` on signed 16-bit lanes gives 0 instead of -1 for negative lanes and amounts of
16 or more ("do __x128 = 0 where __y[4] is set"). -/
theorem C27_shr16_sse_wrong (p : Shr16Path) (hp : p = .sse41 ∨ p = .sse2) : ∃ xs ys : List (BitVec 16),
    xs.length = ys.length ∧ (∀ y ∈ ys, y.toNat < 32) ∧
    shr16v true p xs ys ≠ List.zipWith (fun x y => Spec.shr true x y.toNat) xs ys := by
  refine ⟨[0xffff#16], [16#16], rfl, by simp, ?_⟩
  rcases hp with rfl | rfl <;> decide +kernel

/-- **C27.** `v >> w` for unsigned 32-bit lanes without AVX2 (through multiplication with powers of two). -/
theorem C27_shr32_unsigned (sse41 : Bool) (xs ys : List (BitVec 32)) (hl : xs.length = ys.length)
    (hy : ∀ y ∈ ys, y.toNat < 32) :
    shr32v sse41 xs ys = List.zipWith (fun x y => Spec.shr false x y.toNat) xs ys := by
  have hm : (fun x y : BitVec 32 => Spec.shr false x y.toNat) = fun x y => x >>> y.toNat := by
    funext x y; exact (shrU_spec x _).symm
  rw [hm]
  exact overGroups2_eq 64 2 (by omega) (by omega) (by omega) (shr32vU sse41) _ (fun y => y.toNat < 32) (by decide)
    (fun g y i h hi => shr32vU_lane sse41 g y i hi h) xs ys hl hy

example : shr32v true [0xffffffff#32, 0x80000000#32, 7#32] [31#32, 0#32, 1#32] = [1#32, 0x80000000#32, 3#32] := by
  rw [C27_shr32_unsigned true [0xffffffff#32, 0x80000000#32, 7#32] [31#32, 0#32, 1#32] rfl (by simp)]; decide +kernel

/-- **C27.** `v >> w` for signed 32-bit lanes without AVX2. -/
theorem C27_shr32_signed (sse41 : Bool) (x0 x1 x2 x3 y0 y1 y2 y3 : BitVec 32) :
    shr32vS sse41 [x0, x1, x2, x3] [y0, y1, y2, y3] =
      [Spec.shr true x0 y0.toNat, Spec.shr true x1 y1.toNat, Spec.shr true x2 y2.toNat, Spec.shr true x3 y3.toNat] := by
  rw [shr32vS_eq]; simp only [shrS_spec]

/-- **C28.** `v >> s` for signed 64-bit lanes, built from 32-bit arithmetic shifts and 64-bit logical shifts. -/
theorem C28_shr64 (s : Nat) (hs : s < 64) (xs : List (BitVec 64)) :
    xs.map (shr64s s) = xs.map (fun x => Spec.shr true x s) :=
  List.map_congr_left (fun x _ => by rw [shr64s_eq s hs x, shrS_spec])

example : [0x8000000000000000#64, 0x7fffffffffffffff#64].map (shr64s 33) = [0xffffffffc0000000#64, 0x3fffffff#64] := by
  decide +kernel

end StdSimd.Props
