import Verif.Proofs.Division
import Verif.Props.X86Int
/-!
# Properties of division: C23 (padding never matters) and C25 (integer division through floating-point)

Specification: `Spec.div`, `Spec.mod` (C++ `/` and `%` on one element, `none` where undefined), `Spec.IsRounding`.
-/
namespace StdSimd.Props
open StdSimd.Division

/-! ## C23 -/

private theorem inRange_unsigned {w : Nat} (a b : BitVec w) :
    Spec.InRange false w ((Spec.value false a).tdiv (Spec.value false b)) := by
  have h : (Spec.value false a).tdiv (Spec.value false b) = ((a.toNat / b.toNat : Nat) : Int) := by
    simp [Spec.value]
  have h1 : a.toNat / b.toNat < 2 ^ w := Nat.lt_of_le_of_lt (Nat.div_le_self _ _) a.isLt
  rw [h]
  simp only [Spec.InRange, Bool.false_eq_true, if_false]
  exact ⟨by positivity, by exact_mod_cast h1⟩

private theorem div_ne_none {w : Nat} (signed : Bool) (a b : BitVec w) (hb : b ≠ 0#w)
    (h : Spec.InRange signed w ((Spec.value signed a).tdiv (Spec.value signed b))) :
    Spec.div signed a b ≠ none ∧ Spec.mod signed a b ≠ none := by
  unfold Spec.div Spec.mod
  dsimp only
  rw [if_neg (by push Not; exact ⟨hb, h⟩), if_neg (by push Not; exact ⟨hb, h⟩)]
  simp

/-- The lane-wise specification of `x / y` (`m = false`) and `x % y` (`m = true`). -/
abbrev divOp (m signed : Bool) {w : Nat} : BitVec w → BitVec w → Option (BitVec w) :=
  if m then Spec.mod signed else Spec.div signed

/-- **C23.** Unsigned `x / y` and `x % y`: if every lane is defined, the operation on the register is defined and gives the
lane-wise results, whatever the padding contains and for every native ABI. -/
theorem C23_unsigned {w : Nat} (hw : 0 < w) (g : Geo) (hg : g.Ok) (m : Bool) (x y : List (BitVec w))
    (hx : x.length = g.full) (hy : y.length = g.full) (r : Nat → BitVec w)
    (hl : ∀ i < g.size, ∃ a b, x[i]? = some a ∧ y[i]? = some b ∧ divOp m false a b = some (r i)) :
    ∃ z, divides g (divOp m false) x y = some z ∧ z.length = g.full ∧ ∀ i < g.size, z[i]? = some (r i) := by
  refine divides_of g hg _ x y hx hy r hl ?_
  intro i a b h1 h2 _ h4
  have hb := makePaddingNonzero_padding hw g y (by omega) i h1 b h4
  have := div_ne_none false a b hb (inRange_unsigned a b)
  cases m
  · exact this.1
  · exact this.2

-- three `unsigned short` lanes in a register of four, padding of the divisor zero
example : divides (.vec 16 3 4) (divOp false false) [7#16, 9#16, 100#16, 5#16] [2#16, 3#16, 7#16, 0#16]
    = some [3#16, 3#16, 14#16, 0#16] := by decide +kernel

/-- **C23.** Signed `x / y` and `x % y` on registers without padding. -/
theorem C23_signed_full {w : Nat} (g : Geo) (hg : g.Ok) (hf : g.size = g.full) (m : Bool) (x y : List (BitVec w))
    (hx : x.length = g.full) (hy : y.length = g.full) (r : Nat → BitVec w)
    (hl : ∀ i < g.size, ∃ a b, x[i]? = some a ∧ y[i]? = some b ∧ divOp m true a b = some (r i)) :
    ∃ z, divides g (divOp m true) x y = some z ∧ z.length = g.full ∧ ∀ i < g.size, z[i]? = some (r i) := by
  refine divides_of g hg _ x y hx hy r hl ?_
  intro i a b h1 h2
  omega

example : divides (.vec 32 4 4) (divOp true true) [0x80000000#32, 0xfffffff9#32, 100#32, 5#32] [2#32, 2#32, 7#32, 0xffffffff#32]
    = some [0#32, 0xffffffff#32, 2#32, 0#32] := by decide +kernel

private theorem inRange_signed {w : Nat} (hw : 0 < w) (a b : BitVec w) (ha : a ≠ BitVec.intMin w) (hb : b ≠ 0#w) :
    Spec.InRange true w ((Spec.value true a).tdiv (Spec.value true b)) := by
  simp only [Spec.InRange, Spec.value, if_true]
  have h1 := BitVec.le_toInt a
  have h2 := BitVec.toInt_lt (x := a)
  have h0 : b.toInt ≠ 0 := fun h => hb (BitVec.eq_of_toInt_eq (by simpa using h))
  have h3 : a.toInt ≠ -2 ^ (w - 1) := by
    intro h
    apply ha
    apply BitVec.eq_of_toInt_eq
    rw [h, BitVec.toInt_intMin_of_pos hw]
  have h4 : (a.toInt.tdiv b.toInt).natAbs ≤ a.toInt.natAbs := by
    rw [Int.natAbs_tdiv]; exact Nat.div_le_self _ _
  omega

/-- **C23, partial.** Signed division with padding is defined if no padding element of the dividend is the most negative
number. -/
theorem C23_signed_padding_partial {w : Nat} (hw : 0 < w) (g : Geo) (hg : g.Ok) (m : Bool) (x y : List (BitVec w))
    (hx : x.length = g.full) (hy : y.length = g.full) (r : Nat → BitVec w)
    (hl : ∀ i < g.size, ∃ a b, x[i]? = some a ∧ y[i]? = some b ∧ divOp m true a b = some (r i))
    (hp : ∀ i, g.size ≤ i → x[i]? ≠ some (BitVec.intMin w)) :
    ∃ z, divides g (divOp m true) x y = some z ∧ z.length = g.full ∧ ∀ i < g.size, z[i]? = some (r i) := by
  refine divides_of g hg _ x y hx hy r hl ?_
  intro i a b h1 h2 h3 h4
  have hb := makePaddingNonzero_padding hw g y (by omega) i h1 b h4
  have := div_ne_none true a b hb (inRange_signed hw a b (fun h => hp i h1 (by rw [h3, h])) hb)
  cases m
  · exact this.1
  · exact this.2

example : divides (.vec 64 3 4) (divOp false true) [-9#64, 9#64, 100#64, 77#64] [2#64, 3#64, -7#64, 0#64]
    = some [-4#64, 3#64, -14#64, -77#64] := by decide +kernel

/-- The most negative number divided by -1 is undefined. -/
private theorem divOp_min (hw : 0 < w) (m : Bool) : divOp m true (BitVec.intMin w) (BitVec.allOnes w) = none := by
  have h1 : (BitVec.intMin w).toInt = -2 ^ (w - 1) := BitVec.toInt_intMin_of_pos hw
  have h2 : (BitVec.allOnes w).toInt = -1 := BitVec.toInt_allOnes.trans (if_pos hw)
  have h3 : ¬ Spec.InRange true w ((Spec.value true (BitVec.intMin w)).tdiv (Spec.value true (BitVec.allOnes w))) := by
    simp only [Spec.InRange, Spec.value, if_true, h1, h2]
    rw [Int.tdiv_neg, Int.tdiv_one]
    omega
  cases m
  · show Spec.div true _ _ = none
    unfold Spec.div
    rw [if_pos (Or.inr h3)]
  · show Spec.mod true _ _ = none
    unfold Spec.mod
    rw [if_pos (Or.inr h3)]

private theorem mapM_none {α β : Type} {f : α → Option β} {l : List α} {a : α} (h : a ∈ l) (hf : f a = none) : l.mapM f = none := by
  cases e : l.mapM f with
  | none => rfl
  | some z =>
    exfalso
    induction l generalizing z with
    | nil => cases h
    | cons b l ih =>
      rw [List.mapM_cons] at e
      cases hb : f b with
      | none => rw [hb] at e; cases e
      | some c =>
        rw [hb] at e
        cases hl : l.mapM f with
        | none => rw [hl] at e; cases e
        | some z' =>
          rcases List.mem_cons.1 h with rfl | h
          · rw [hf] at hb; cases hb
          · exact ih h z' hl

/-- **C23, exact condition.** Signed division of a `_VecBuiltin` with padding, every lane being defined, is undefined exactly if some padding element
of the dividend is the most negative number. -/
theorem C23_signed_padding_exact {w u n f : Nat} (hw : 0 < w) (hg : (Geo.vec u n f).Ok) (hnf : n ≠ f) (m : Bool) (x y : List (BitVec w))
    (hx : x.length = f) (hy : y.length = f)
    (hl : ∀ i < n, ∃ a b, x[i]? = some a ∧ y[i]? = some b ∧ divOp m true a b ≠ none) :
    divides (.vec u n f) (divOp m true) x y = none ↔ ∃ i, n ≤ i ∧ x[i]? = some (BitVec.intMin w) := by
  constructor
  · intro h
    by_contra hc
    have hr : ∀ i, ∃ r, i < n → ∃ a b, x[i]? = some a ∧ y[i]? = some b ∧ divOp m true a b = some r := by
      intro i
      by_cases hi : i < n
      · obtain ⟨a, b, h1, h2, h3⟩ := hl i hi
        obtain ⟨r, hr⟩ := Option.ne_none_iff_exists'.1 h3
        exact ⟨r, fun _ => ⟨a, b, h1, h2, hr⟩⟩
      · exact ⟨0#w, fun h => absurd h hi⟩
    choose r hr using hr
    obtain ⟨z, h1, _⟩ := C23_signed_padding_partial hw (.vec u n f) hg m x y hx hy r (fun i hi => hr i hi)
      (fun i hi he => hc ⟨i, hi, he⟩)
    rw [h] at h1; cases h1
  · rintro ⟨i, hi, he⟩
    have hif : i < x.length := (List.getElem?_eq_some_iff.1 he).1
    unfold divides Native.map2
    refine mapM_none (a := (BitVec.intMin w, BitVec.allOnes w)) ?_ (divOp_min hw m)
    rw [List.mem_iff_getElem?]
    refine ⟨i, ?_⟩
    rw [List.getElem?_zip_eq_some]
    refine ⟨he, ?_⟩
    simp only [makePaddingNonzero, if_neg hnf]
    rw [List.getElem?_mapIdx, List.getElem?_eq_getElem (by omega)]
    simp [show ¬ i < n by omega]

example : divides (.vec 64 3 4) (divOp true true) [-9#64, 9#64, 100#64, 0x8000000000000000#64] [2#64, 3#64, -7#64, 0#64] = none :=
  (C23_signed_padding_exact (w := 64) (u := 64) (n := 3) (f := 4) (by decide) (by decide) (by decide) true
    [-9#64, 9#64, 100#64, 0x8000000000000000#64] [2#64, 3#64, -7#64, 0#64] rfl rfl (by
    intro i hi
    match i, hi with
    | 0, _ => exact ⟨_, _, rfl, rfl, by decide +kernel⟩
    | 1, _ => exact ⟨_, _, rfl, rfl, by decide +kernel⟩
    | 2, _ => exact ⟨_, _, rfl, rfl, by decide +kernel⟩)).2 ⟨3, by decide, by decide +kernel⟩

/-- **C23, finding.** `simd<long, _VecBuiltin<24>>(LONG_MIN) / 2`: every lane is defined, but the broadcasts fill the padding
too and the padding of the divisor is made -1, so the register operation divides `LONG_MIN` by -1. -/
theorem C23_signed_padding_wrong :
    let t : Abi.Target := { sse := true, sse2 := true, avx := true, avx2 := true, x86_64 := true }
    let x := Native.broadcast (.vec 64 3 4) (BitVec.intMin 64)
    let y := Native.broadcast (.vec 64 3 4) 2#64
    t.Consistent ∧ Abi.deduce t ⟨8, false⟩ 3 = some (.builtin 24) ∧ Geo.ofTag t ⟨8, false⟩ (.builtin 24) = .vec 64 3 4 ∧
      (∀ i < 3, ∃ a b, x[i]? = some a ∧ y[i]? = some b ∧ Spec.div true a b = some (BitVec.ofInt 64 (-2 ^ 62))) ∧
      divides (.vec 64 3 4) (Spec.div true) x y = none := by
  refine ⟨?_, by decide +kernel, by decide +kernel, ?_, by decide +kernel⟩
  · constructor <;> decide
  · intro i hi
    refine ⟨BitVec.intMin 64, 2#64, ?_, ?_, by decide +kernel⟩
    · show (List.replicate 4 _)[i]? = _
      rw [List.getElem?_replicate, if_pos (by omega)]
    · show (List.replicate 4 _)[i]? = _
      rw [List.getElem?_replicate, if_pos (by omega)]

/-- **C23, finding.** The same for the AVX-512 ABI with divisor -2, whose padding becomes `-2 | 1`. -/
theorem C23_signed_padding_wrong_avx512 :
    let t : Abi.Target := { sse := true, sse2 := true, avx := true, avx2 := true, avx512f := true, avx512bw := true,
                            avx512vl := true, x86_64 := true }
    let x := Native.broadcast (.bitmask 3 4) (BitVec.intMin 64)
    let y := Native.broadcast (.bitmask 3 4) (-2#64)
    t.Consistent ∧ Abi.deduce t ⟨8, false⟩ 3 = some (.btmsk 24) ∧ Geo.ofTag t ⟨8, false⟩ (.btmsk 24) = .bitmask 3 4 ∧
      (∀ i < 3, ∃ a b, x[i]? = some a ∧ y[i]? = some b ∧ Spec.div true a b = some (BitVec.ofInt 64 (2 ^ 62))) ∧
      divides (.bitmask 3 4) (Spec.div true) x y = none := by
  refine ⟨?_, by decide +kernel, by decide +kernel, ?_, by decide +kernel⟩
  · constructor <;> decide
  · intro i hi
    refine ⟨BitVec.intMin 64, -2#64, ?_, ?_, by decide +kernel⟩
    · show (List.replicate 4 _)[i]? = _
      rw [List.getElem?_replicate, if_pos (by omega)]
    · show (List.replicate 4 _)[i]? = _
      rw [List.getElem?_replicate, if_pos (by omega)]

/-- **C23.** Floating-point: the padding of the divisor is one, so an operation that would trap on a zero divisor never does so
because of padding. -/
theorem C23_floating {α : Type} (g : Geo) (hg : g.Ok) (one zero : α) (h10 : one ≠ zero) (op : α → α → Option α)
    (hop : ∀ a b, b ≠ zero → op a b ≠ none) (x y : List α) (hx : x.length = g.full) (hy : y.length = g.full) (r : Nat → α)
    (hl : ∀ i < g.size, ∃ a b, x[i]? = some a ∧ y[i]? = some b ∧ op a b = some (r i)) :
    ∃ z, dividesFloat g one op x y = some z ∧ z.length = g.full ∧ ∀ i < g.size, z[i]? = some (r i) := by
  have hsz : g.size ≤ g.full := by cases g <;> simp [Geo.Ok] at hg ⊢ <;> omega
  rcases Nat.lt_or_ge g.size g.full with hlt | hge
  · refine map2_of g hg op x y _ hx (by rw [length_makePaddingOne, hy]) ?_ r hl ?_
    · intro i hi
      rw [makePaddingOne_get one g y hlt]
      simp [hi]
    · intro i a b h1 h2 h3 h4
      rw [makePaddingOne_get one g y hlt] at h4
      cases hyi : y[i]? with
      | none => simp [hyi] at h4
      | some c =>
        rw [hyi, Option.map_some, if_neg (by omega)] at h4
        cases h4
        exact hop a one h10
  · have he : g.size = g.full := by omega
    refine map2_of g hg op x y _ hx (by rw [length_makePaddingOne, hy]) ?_ r hl (by intro i; omega)
    intro i _
    rw [makePaddingOne_full one g y he]

-- five lanes of eight, rational numbers; zero divisor in the padding
example : dividesFloat (.bitmask 3 4) (1 : ℚ) (fun a b => if b = 0 then none else some (a / b)) [1, 2, 3, 4] [2, 2, 4, 0]
    = some [1 / 2, 1, 3 / 4, 4] := by
  decide +kernel

/-! ## C25 -/

/-- **C25.** Division of 8-, 16- and 32-bit integers through `float` (24 significant bits) and `double` (53): every lane whose
C++ quotient is defined is that quotient, for every rounding direction `R` of the floating-point environment, every number of
lanes, every size of floating-point register, whatever the other lanes and the padding contain. -/
theorem C25_division {w : Nat} (hw : w = 8 ∨ w = 16 ∨ w = 32) (R : ℚ → ℚ)
    (hR : Spec.IsRounding (if w = 32 then 53 else 24) R) (g : Geo) (hg : g.Ok) (signed : Bool) (ind : BitVec w) (bytes : Nat)
    (hb : bytes = 16 ∨ bytes = 32 ∨ bytes = 64) (x y : List (BitVec w)) (i : Nat) (hi : i < g.size) (a b q : BitVec w)
    (ha : x[i]? = some a) (hbb : y[i]? = some b) (hq : Spec.div signed a b = some q) :
    (x86Divides R g signed ind bytes x y)[i]? = some q := by
  rw [x86Divides_get R g hg signed ind bytes (by omega) x y i hi a b ha hbb]
  refine congrArg some (quotient_exact hR signed ?_ ?_ ind a b q hq)
  · omega
  · rcases hw with h | h | h <;> subst h <;> decide

/-- The default rounding of the floating-point environment meets the hypothesis. -/
theorem roundNearest_ok (w : Nat) : Spec.IsRounding (if w = 32 then 53 else 24) (Spec.roundNearest (if w = 32 then 53 else 24)) :=
  Spec.roundNearest_isRounding (by split <;> omega)

-- `0xffffffff / 3` and `-7 / 2` in 32-bit lanes, three lanes of four, two `double`s per register
example : (x86Divides (Spec.roundNearest 53) (.vec 32 3 4) true 0x80000000#32 16 [-7#32, 100#32, 5#32, 0#32]
    [2#32, 7#32, 1#32, 0#32])[0]? = some (-3#32) :=
  C25_division (w := 32) (by omega) _ (roundNearest_ok 32) _ (by decide) _ _ _ (by omega) _ _ 0 (by decide) (-7#32) 2#32 _ rfl rfl
    (by decide +kernel)

example : Spec.div false 0xffffffff#32 3#32 = some 0x55555555#32 := by decide +kernel

/-- **C25.** The remainder of 16- and 32-bit lanes is consistent with the quotient. -/
theorem C25_modulus {w : Nat} (hw : w = 16 ∨ w = 32) (R : ℚ → ℚ)
    (hR : Spec.IsRounding (if w = 32 then 53 else 24) R) (g : Geo) (hg : g.Ok) (signed : Bool) (ind : BitVec w) (bytes : Nat)
    (hb : bytes = 16 ∨ bytes = 32 ∨ bytes = 64) (x y : List (BitVec w)) (i : Nat) (hi : i < g.size) (a b r : BitVec w)
    (ha : x[i]? = some a) (hbb : y[i]? = some b) (hr : Spec.mod signed a b = some r) :
    (x86Modulus R g signed ind bytes x y)[i]? = some r := by
  obtain ⟨q, hq⟩ := mod_of_div signed a b r hr
  have h := C25_division (w := w) (by omega) R hR g hg signed ind bytes hb x y i hi a b q ha hbb hq
  unfold x86Modulus modulusWith
  rw [List.getElem?_zipWith, List.getElem?_zipWith, h, ha, hbb]
  exact congrArg some (modulus_exact signed a b q r hq hr)

/-- **C25.** The remainder of 8-bit lanes, with every multiplication path (the path for three lanes is used for registers of
four bytes). -/
theorem C25_modulus8 (path : X86.MulPath) (R : ℚ → ℚ) (hR : Spec.IsRounding 24 R) (g : Geo) (hg : g.Ok)
    (h3 : path = .three → g.size = 3 ∧ g.full = 4) (signed : Bool) (ind : BitVec 8) (bytes : Nat)
    (hb : bytes = 16 ∨ bytes = 32 ∨ bytes = 64) (x y : List (BitVec 8)) (hy : y.length = g.full) (i : Nat) (hi : i < g.size)
    (a b r : BitVec 8) (ha : x[i]? = some a) (hbb : y[i]? = some b) (hr : Spec.mod signed a b = some r) :
    (x86Modulus8 path R g signed ind bytes x y)[i]? = some r := by
  obtain ⟨q, hq⟩ := mod_of_div signed a b r hr
  have h := C25_division (w := 8) (by omega) R hR g hg signed ind bytes hb x y i hi a b q ha hbb hq
  unfold x86Modulus8 modulusWith
  have hl : y.length = (x86Divides R g signed ind bytes x y).length := by rw [hy]; simp [x86Divides]
  have hm := X86.mulBytes_lane path y _ hl i b q (fun hp => by have := h3 hp; omega) hbb h
  rw [List.getElem?_zipWith, hm, ha]
  exact congrArg some (modulus_exact signed a b q r hq hr)

example : (x86Modulus8 .three (Spec.roundNearest 24) (.vec 8 3 4) true 0#8 16 [-7#8, 100#8, 0x80#8, 0#8]
    [2#8, 7#8, 3#8, 0#8])[2]? = some (-2#8) :=
  C25_modulus8 .three _ (roundNearest_ok 8) _ (by decide) (by decide) _ _ _ (by omega) _ _ rfl 2 (by decide) 0x80#8 3#8 _ rfl rfl
    (by decide +kernel)

end StdSimd.Props
