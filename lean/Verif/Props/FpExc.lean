import Verif.Proofs.FpExc
import Verif.Props.Rounding
/-!
# Property theorems about floating-point exceptions (C66)

For every binary interchange format (`Spec.Fmt`), every rounding direction, and every contents of the registers, including padding.
-/
namespace StdSimd.Props
open Spec FloatBits FpExc Rounding

variable {f : Fmt}

/-! ## comparisons -/

/-- C66. `isless`, ..., `isunordered` of native vectors on x86: the results are those of the elements, and the only exception is invalid, raised exactly
if one of the compared elements is a signalling NaN.  With AVX-512 these are the `n` elements, otherwise all elements of the register. -/
theorem C66_comparison_functions (hf : f.Ok) (p : FloatBits.Path) (avx512 : Bool) (n : Nat) (c : CmpFn) (x y : List f.Bits) :
    (lanes (active avx512 n) (cmpX86 f p c) x y).val = List.zipWith (fun a b => c.eval f a b) x y ∧
      (lanes (active avx512 n) (cmpX86 f p c) x y).exc =
        Exc.any (List.zipWith f.quietExc (if avx512 then x.take n else x) (if avx512 then y.take n else y)) := by
  rw [lanes_val, lanes_exc]
  simp only [cmpX86_val hf, cmpX86_exc]
  exact ⟨trivial, trivial⟩

/-- No exception if no element is a signalling NaN. -/
theorem any_quiet {x y : List f.Bits} (hx : ∀ a ∈ x, ¬ f.isSignalling a) (hy : ∀ a ∈ y, ¬ f.isSignalling a) :
    Exc.any (List.zipWith f.quietExc x y) = Exc.clear := by
  apply any_clear
  intro e he
  rw [← List.map_uncurry_zip_eq_zipWith, List.mem_map] at he
  obtain ⟨⟨a, b⟩, hab, rfl⟩ := he
  exact quiet_clear (hx a (List.of_mem_zip hab).1) (hy b (List.of_mem_zip hab).2)

/-- C66. The generic comparison functions (other targets): the same; with `__SUPPORT_SNAN__` a signalling NaN may raise nothing. -/
theorem C66_comparison_functions_generic (hf : f.Ok) (snan : Bool) (c : CmpFn) (x y : List f.Bits) :
    (lanes (active false 0) (cmpG f (isunorderedG f snan) c) x y).val = List.zipWith (fun a b => c.eval f a b) x y ∧
      (snan = false → (lanes (active false 0) (cmpG f (isunorderedG f snan) c) x y).exc = Exc.any (List.zipWith f.quietExc x y)) ∧
      ((∀ a ∈ x, ¬ f.isSignalling a) → (∀ a ∈ y, ¬ f.isSignalling a) →
        (lanes (active false 0) (cmpG f (isunorderedG f snan) c) x y).exc = Exc.clear) := by
  rw [lanes_val, lanes_exc]
  simp only [cmpG_val hf _ (isunorderedG_val hf snan), Bool.false_eq_true, if_false]
  refine ⟨trivial, fun h => ?_, fun hx hy => ?_⟩
  · subst h
    have : ∀ a b, FP.exc (cmpG f (isunorderedG f false) c a b) = f.quietExc a b := fun a b => cmpG_exc _ (fun x y => by simp [isunorderedG_exc]) c a b
    simp only [this]
  · apply any_clear
    intro e he
    rw [← List.map_uncurry_zip_eq_zipWith, List.mem_map] at he
    obtain ⟨⟨a, b⟩, hab, rfl⟩ := he
    have hq := quiet_clear (hx a (List.of_mem_zip hab).1) (hy b (List.of_mem_zip hab).2)
    have hu : FP.exc (isunorderedG f snan a b) = Exc.clear := by rw [isunorderedG_exc, hq]; simp
    show FP.exc (cmpG f (isunorderedG f snan) c a b) = _
    cases c <;> simp [cmpG, hu, hq]

/-- C66. `fixed_size` objects: no exception if no element and no padding of the registers is a signalling NaN; the bits are those of the elements. -/
theorem C66_comparison_functions_fixed_size (hf : f.Ok) (c : CmpFn) (ks : List (Chunk f))
    (hs : ∀ k ∈ ks, (∀ a ∈ k.x, ¬ f.isSignalling a) ∧ ∀ a ∈ k.y, ¬ f.isSignalling a) :
    (cmpFixed c ks).val = ks.flatMap (fun k => List.zipWith (fun a b => c.eval f a b) (k.x.take k.n) (k.y.take k.n)) ∧
      (cmpFixed c ks).exc = Exc.clear := by
  induction ks with
  | nil => exact ⟨rfl, rfl⟩
  | cons k ks ih =>
    obtain ⟨i1, i2⟩ := ih (fun k hk => hs k (List.mem_cons_of_mem _ hk))
    obtain ⟨hx, hy⟩ := hs k (List.mem_cons_self ..)
    have hk : (cmpChunk c k).val = List.zipWith (fun a b => c.eval f a b) k.x k.y ∧ (cmpChunk c k).exc = Exc.clear := by
      unfold cmpChunk
      cases h : k.code with
      | none =>
        have e : (fun _ : Nat => true) = active false 0 := by funext i; rfl
        dsimp only
        rw [e, lanes_val, lanes_exc]
        exact ⟨rfl, any_quiet hx hy⟩
      | some q =>
        obtain ⟨p, avx512⟩ := q
        refine ⟨(C66_comparison_functions hf p avx512 k.n c k.x k.y).1, ?_⟩
        rw [(C66_comparison_functions hf p avx512 k.n c k.x k.y).2]
        cases avx512
        · exact any_quiet hx hy
        · exact any_quiet (fun a ha => hx a (List.mem_of_mem_take ha)) (fun a ha => hy a (List.mem_of_mem_take ha))
    constructor
    · show (cmpChunk c k).val.take k.n ++ (cmpFixed c ks).val = _
      rw [hk.1, i1, List.take_zipWith, List.flatMap_cons]
    · show (cmpChunk c k).exc.or ((cmpFixed c ks).exc.or Exc.clear) = _
      rw [hk.2, i2]; rfl

/-- C66. The operators: the exceptions are those of the operator on the elements (all elements of the register; with AVX-512 the `n` elements). -/
theorem C66_comparison_operators (avx512 : Bool) (n : Nat) (o : CmpOp) (x y : List f.Bits) :
    (lanes (active avx512 n) (if avx512 then cmpP f (opPred o) else opG f o) x y).val = List.zipWith (fun a b => o.eval f a b) x y ∧
      (lanes (active avx512 n) (if avx512 then cmpP f (opPred o) else opG f o) x y).exc =
        Exc.any (List.zipWith (fun a b => o.exc f a b) (if avx512 then x.take n else x) (if avx512 then y.take n else y)) := by
  rw [lanes_val, lanes_exc]
  cases avx512 <;> cases o <;> exact ⟨rfl, rfl⟩

/-- C66 fails for padding: three elements in a register of four; without AVX-512 a signalling NaN in the padding raises invalid. -/
theorem C66_comparison_padding_wrong :
    (lanes (active false 3) (cmpX86 b32 .cmp .isless) [0#32, 0#32, 0#32, 0x7f800001#32] [0#32, 0#32, 0#32, 0#32]).exc.invalid = true ∧
      Exc.any (List.zipWith b32.quietExc [0#32, 0#32, 0#32] [0#32, 0#32, 0#32]) = Exc.clear := by
  decide +kernel

/-- C66 fails for padding, continued: where signalling NaNs matter (`snan`), `_SimdWrapper` means to initialise the padding of new registers, but the condition is
inverted.  A register with padding keeps what the memory held, so that comparing an object with itself, all of whose elements were assigned zero, may raise invalid. -/
theorem C66_padding_init_wrong : (∀ (size full : Nat) (junk : List b32.Bits), size ≠ full → defaultInit true size full junk = junk) ∧
    ∃ junk : List b32.Bits, junk.length = 4 ∧
      (let v : List b32.Bits := assignAll (defaultInit true 3 4 junk) [0#32, 0#32, 0#32]
       v.take 3 = [0#32, 0#32, 0#32] ∧ (lanes (active false 3) (cmpX86 b32 .cmp .isless) v v).exc.invalid = true) := by
  refine ⟨fun size full junk h => ?_, [0#32, 0#32, 0#32, 0x7f800001#32], rfl, ?_⟩
  · unfold defaultInit
    rw [if_neg (by simpa using h)]
  · decide +kernel

/-- C66. Registers without padding need no initialisation: after all elements are assigned, the register holds them whatever the memory held. -/
theorem C66_full_register_init (snan : Bool) (f : Fmt) (junk xs : List f.Bits) (h : junk.length = xs.length) :
    assignAll (defaultInit snan xs.length xs.length junk) xs = xs := by
  have key : ∀ (k : Nat) (r : List f.Bits), r.length = xs.length → k ≤ xs.length →
      (List.range k).foldl (fun (r : List f.Bits) (i : Nat) => r.set i (xs.getD i 0)) r = xs.take k ++ r.drop k := by
    intro k
    induction k with
    | zero => intro r _ _; simp
    | succ k ih =>
      intro r hr hk
      rw [List.range_succ, List.foldl_append, ih r hr (by omega)]
      simp only [List.foldl_cons, List.foldl_nil]
      rw [List.set_append_right _ _ (by simp), List.length_take, Nat.min_eq_left (by omega), Nat.sub_self,
        List.drop_eq_getElem_cons (by omega : k < r.length), List.set_cons_zero, List.take_succ_eq_append_getElem (by omega), List.append_assoc]
      have hg : xs.getD k 0 = xs[k]'(by omega) := by simp [List.getD, List.getElem?_eq_getElem (show k < xs.length by omega)]
      rw [hg]
      rfl
  have hl : (defaultInit snan xs.length xs.length junk).length = xs.length := by
    unfold defaultInit
    split
    · rw [List.length_replicate]
    · exact h
  unfold assignAll
  rw [key _ _ hl le_rfl, List.take_length, List.drop_of_length_le (by omega), List.append_nil]

/-! ## classification -/

theorem sig_mag {x y : f.Bits} (h : mag f x = mag f y) : f.isSignalling x ↔ f.isSignalling y := by
  unfold Fmt.isSignalling
  rw [isNaN_iff, isNaN_iff, mant_eq, mant_eq, h]

theorem inf_not_sig (hf : f.Ok) : ¬ f.isSignalling (infBits f) := by
  rintro ⟨h, -⟩
  rw [isNaN_iff] at h
  have h1 := (inf_toInt hf).1
  unfold mag at h
  rw [h1, Nat.mod_eq_of_lt (inf_lt hf).1] at h
  exact lt_irrefl _ h

/-- C66. The classification functions: the result is right, and no exception is raised, unless `isnan` or `isinf` is applied to a signalling NaN.
(IEEE 754 wants none in this case either, `C66_isnan_signalling_wrong`.) -/
theorem C66_classification_partial (hf : f.Ok) (p : ClassPath) (c : ClassFn) (x : f.Bits) :
    (classify f p c x).val = c.eval f x ∧
      ((c ≠ .isnan ∧ c ≠ .isinf) ∨ ¬ f.isSignalling x → (classify f p c x).exc = Exc.clear) := by
  have n1 := C34_isnan hf x
  have n2 := C34_isinf hf x
  have n3 := C34_isfinite hf x
  have n4 := C34_isnormal hf x
  have n5 := C34_signbit (f := f) x
  have hq : ¬ f.isSignalling x → f.quietExc (FloatBits.abs f x) (infBits f) = Exc.clear := fun h =>
    quiet_clear (fun h2 => h ((sig_mag (mag_abs x)).1 h2)) (inf_not_sig hf)
  cases c
  · refine ⟨?_, fun h => ?_⟩
    · rcases p with s | _ | _ | _
      · cases s
        · exact n1.1
        · exact n1.2.1
      · exact n1.2.2
      · exact n1.2.2
      · exact n1.2.2
    · have hs : ¬ f.isSignalling x := by rcases h with h | h; exact absurd rfl h.1; exact h
      have := quiet_clear hs hs
      rcases p with s | _ | _ | _
      · cases s
        · simpa [classify, isnanG] using this
        · rfl
      · exact this
      · exact this
      · exact this
  · refine ⟨?_, fun h => ?_⟩
    · rcases p with s | _ | _ | _
      · exact n2.1
      · exact n2.2
      · exact n2.1
      · exact n2.1
    · have hs : ¬ f.isSignalling x := by rcases h with h | h; exact absurd rfl h.2; exact h
      rcases p with s | _ | _ | _
      · exact hq hs
      · rfl
      · exact hq hs
      · exact hq hs
  · rcases p with s | _ | _ | _
    · exact ⟨n3.1, fun _ => rfl⟩
    · exact ⟨n3.2.1, fun _ => rfl⟩
    · exact ⟨n3.2.2, fun _ => rfl⟩
    · exact ⟨n3.1, fun _ => rfl⟩
  · rcases p with s | _ | _ | _
    · exact ⟨n4.1, fun _ => rfl⟩
    · exact ⟨n4.2.1, fun _ => rfl⟩
    · exact ⟨n4.2.2, fun _ => rfl⟩
    · exact ⟨n4.1, fun _ => rfl⟩
  · rcases p with s | _ | _ | _
    · exact ⟨n5.1, fun _ => rfl⟩
    · exact ⟨n5.2, fun _ => rfl⟩
    · exact ⟨n5.2, fun _ => rfl⟩
    · exact ⟨n5.2, fun _ => rfl⟩

/-- C66 fails for signalling NaNs: `isnan` and `isinf` raise invalid. -/
theorem C66_isnan_signalling_wrong :
    b32.isSignalling 0x7f800001#32 ∧ (classify b32 (.base false) .isnan 0x7f800001#32).exc.invalid = true ∧
      (classify b32 .dq .isnan 0x7f800001#32).exc.invalid = true ∧ (classify b32 .x86 .isinf 0x7f800001#32).exc.invalid = true := by
  decide +kernel

theorem zero_mag : mag f (0 : f.Bits) = 0 := by unfold mag; simp

theorem mag_inf (hf : f.Ok) : mag f (infBits f) = inf f := by
  have h1 := (inf_toInt hf).1
  unfold mag
  rw [h1, Nat.mod_eq_of_lt (inf_lt hf).1]

/-- C66 fails for `frexp` with AVX-512 but without AVX512DQ and AVX512VL: the test for finite numbers other than zero raises invalid exactly for zeros,
infinities and signalling NaNs; `frexp` of a zero or an infinity raises nothing (C Annex F.10.3.4).  Operations return quiet NaNs (`hq`). -/
theorem C66_frexp_invalid (env : f.Env) (hf : f.Ok) (hq : ∀ x y, ¬ f.isSignalling (env.nan x y)) (x : f.Bits) :
    (isnonzerovalue env x).exc = { invalid := decide (f.isZero x ∨ f.isInf x ∨ f.isSignalling x) } := by
  have hl := inf_lt hf
  have i1 : f.isInf (infBits f) := by rw [isInf_iff, mag_inf hf]
  have i2 : ¬ f.isNaN (infBits f) := by rw [isNaN_iff, mag_inf hf]; omega
  have i3 : ¬ f.isZero (infBits f) := by rw [isZero_iff, mag_inf hf]; omega
  have z1 : f.isZero (0 : f.Bits) := by rw [isZero_iff, zero_mag]
  have z2 : ¬ f.isNaN (0 : f.Bits) := by rw [isNaN_iff, zero_mag]; omega
  have z3 : ¬ f.isInf (0 : f.Bits) := by rw [isInf_iff, zero_mag]; omega
  have z4 : f.ratValue (0 : f.Bits) = 0 := by rw [ratValue_mag, zero_mag]; simp [unit]
  have nsig : ∀ s n, n ≤ inf f → ¬ f.isSignalling (f.ofMag s n) := fun s n hn h => by
    have := (isNaN_iff _).1 h.1
    rw [mag_ofMag s (by omega)] at this; omega
  have e1 : f.mulExc env.mode x (infBits f) = { invalid := decide (f.isZero x ∨ f.isSignalling x) } := by
    unfold Fmt.mulExc
    by_cases hn : f.isNaN x
    · have : ¬ f.isZero x := by rw [isZero_iff]; rw [isNaN_iff] at hn; omega
      rw [if_pos (Or.inl hn)]; unfold Fmt.quietExc; simp [this, inf_not_sig hf]
    · have : ¬ f.isSignalling x := fun h => hn h.1
      rw [if_neg (by simp [hn, i2]), if_pos (Or.inr i1)]; simp [i3, this]
  have e2 : f.mulExc env.mode x 0 = { invalid := decide (f.isInf x ∨ f.isSignalling x) } := by
    unfold Fmt.mulExc
    by_cases hn : f.isNaN x
    · have : ¬ f.isInf x := by rw [isInf_iff]; rw [isNaN_iff] at hn; omega
      rw [if_pos (Or.inl hn)]; unfold Fmt.quietExc
      have : ¬ f.isSignalling (0 : f.Bits) := fun h => z2 h.1
      simp_all
    · have : ¬ f.isSignalling x := fun h => hn h.1
      rw [if_neg (fun h => h.elim hn z2)]
      by_cases hi : f.isInf x
      · rw [if_pos (Or.inl hi)]; simp [show f.isZero 0#f.width from z1, hi]
      · rw [if_neg (fun h => h.elim hi z3), z4, mul_zero, roundExc_exact _ (by simpa using rep_int hf (n := 0) (by simp)) (by simp)]
        simp [hi, this, Exc.clear]
  have s1 : ¬ f.isSignalling (Fmt.mul env x (infBits f)) := by
    unfold Fmt.mul
    split
    · exact hq _ _
    · rw [if_pos (Or.inr i1)]
      split
      · exact hq _ _
      · exact nsig _ _ (le_of_eq infMag_eq)
  have s2 : ¬ f.isSignalling (Fmt.mul env x 0) := by
    unfold Fmt.mul
    split
    · exact hq _ _
    · split
      · split
        · exact hq _ _
        · exact nsig _ _ (le_of_eq infMag_eq)
      · rw [z4, mul_zero]
        have := round_exact hf env.mode (f.sign x ^^ f.sign 0) (q := 0) (by simpa using rep_int hf (n := 0) (by simp)) (by simp)
        exact fun h => (finite_not hf this.1).1 h.1
  show (f.mulExc env.mode x (infBits f)).or ((f.mulExc env.mode x 0).or (f.quietExc (Fmt.mul env x (infBits f)) (Fmt.mul env x 0))) = _
  rw [e1, e2, quiet_clear s1 s2, or_clear]
  unfold Exc.or
  by_cases a : f.isZero x <;> by_cases b : f.isInf x <;> by_cases c : f.isSignalling x <;> simp [a, b, c]

/-! ## rounding -/

/-- C66. `nearbyint` and `rint` by an instruction (SSE4.1, AVX, AVX-512): the exceptions are those of `std::nearbyint` and `std::rint` of the elements: `nearbyint` never
raises inexact, `rint` exactly if an element is not an integer. -/
theorem C66_nearbyint_instruction (env : f.Env) (x : List f.Bits) :
    (lanes1 (nearbyintX86 env .instr) x).val = x.map (x86Nearbyint env .instr) ∧
      (lanes1 (nearbyintX86 env .instr) x).exc = Exc.any (x.map f.nearbyintExc) ∧
      (lanes1 (rintX86 env .instr) x).val = x.map (x86Nearbyint env .instr) ∧
      (lanes1 (rintX86 env .instr) x).exc = Exc.any (x.map f.rintExc) := by
  have h1 : ∀ a, FP.exc (nearbyintX86 env .instr a) = f.nearbyintExc a := fun a => by
    show Exc.mk _ _ _ _ _ = _
    unfold Fmt.nearbyintExc
    simp [show Nat.testBit 0x0c 3 = true from rfl]
  have h2 : ∀ a, FP.exc (rintX86 env .instr a) = f.rintExc a := fun a => by
    show Exc.mk _ _ _ _ _ = _
    unfold Fmt.rintExc
    simp [show Nat.testBit 0x04 3 = false from rfl]
  refine ⟨?_, ?_, ?_, ?_⟩
  · show (x.map _).map _ = _
    rw [List.map_map]; rfl
  · show Exc.any ((x.map _).map _) = _
    rw [List.map_map]; congr 1; exact List.map_congr_left (fun a _ => h1 a)
  · show (x.map _).map _ = _
    rw [List.map_map]; rfl
  · show Exc.any ((x.map _).map _) = _
    rw [List.map_map]; congr 1; exact List.map_congr_left (fun a _ => h2 a)

/-- C66, C35. `trunc`, `floor` and `ceil` on x86 with an instruction that rounds: the values are right in every rounding direction, invalid is raised for
signalling NaNs only, inexact never for 64 bytes and else exactly for numbers that are not integers (C leaves inexact open), nothing else. -/
theorem C66_round_instructions (env : f.Env) (hf : f.Ok) (hw : f.mbits < f.bias) (zmm : Bool) :
    (Fmt.RoundsTo f (fun x => (truncI env zmm x).val) truncZ ∧ Fmt.RoundsTo f (fun x => (floorI env zmm x).val) Int.floor ∧
      Fmt.RoundsTo f (fun x => (ceilI env zmm x).val) Int.ceil) ∧
    ∀ x : f.Bits, (truncI env zmm x).exc = (if zmm then f.nearbyintExc x else f.rintExc x) ∧
      (floorI env zmm x).exc = (if zmm then f.nearbyintExc x else f.rintExc x) ∧
      (ceilI env zmm x).exc = (if zmm then f.nearbyintExc x else f.rintExc x) := by
  obtain ⟨_, h1, h2, h3⟩ := C35_x86 env hf hw .instr (by decide) id
  cases zmm
  · refine ⟨⟨h1, h2, h3⟩, fun x => ?_⟩
    have t1 : Nat.testBit 3 3 = false := by decide
    have t2 : Nat.testBit 1 3 = false := by decide
    have t3 : Nat.testBit 2 3 = false := by decide
    simp [truncI, floorI, ceilI, roundImm, FP.exc, Fmt.rintExc, t1, t2, t3]
  · refine ⟨⟨h1, h2, h3⟩, fun x => ?_⟩
    have t1 : Nat.testBit 11 3 = true := by decide
    have t2 : Nat.testBit 9 3 = true := by decide
    have t3 : Nat.testBit 10 3 = true := by decide
    simp [truncI, floorI, ceilI, roundImm, FP.exc, Fmt.nearbyintExc, t1, t2, t3]

-- non-vacuity: binary32, `floor(1.5f)` in a 32-byte register raises inexact, in a 64-byte register nothing
example (m : RMode) : b32.Ok ∧ b32.mbits < b32.bias ∧ (floorI (env32 m) false 0x3fc00000#32).exc = { inexact := true } ∧
    (floorI (env32 m) true 0x3fc00000#32).exc = Exc.clear := by
  have h := C66_round_instructions (env32 m) b32_ok.1 b32_ok.2
  rw [((h false).2 _).2.1, ((h true).2 _).2.1]
  exact ⟨b32_ok.1, b32_ok.2, by decide +kernel, by decide +kernel⟩

/-- C66. The generic `rint` of numbers with magnitude below `2 ^ mbits`: right. -/
theorem C66_rint_generic_partial (env : f.Env) (hf : f.Ok) (hw : f.mbits < f.bias) (p : Rounding.Path) (hp : p ≠ .instr) (x : f.Bits)
    (hx : f.isFinite x) (hs : |f.ratValue x| < 2 ^ f.mbits) :
    (rintX86 env p x).val = nearbyint env x ∧ (rintX86 env p x).exc = f.rintExc x := by
  have h := nearbyintG_exc env hf hw hx hs
  have e : f.rintExc x = { inexact := decide (¬ f.isIntegral x) } := by
    unfold Fmt.rintExc
    have : ¬ f.isSignalling x := fun h => (finite_not hf hx).1 h.1
    simp [this, hx]
  cases p
  · exact absurd rfl hp
  · exact ⟨rfl, h.trans e.symm⟩
  · exact ⟨rfl, h.trans e.symm⟩

/-- C66 fails for the generic `nearbyint`: it raises inexact for every number that is not an integer. -/
theorem C66_nearbyint_inexact (env : f.Env) (hf : f.Ok) (hw : f.mbits < f.bias) (p : Rounding.Path) (hp : p ≠ .instr) (x : f.Bits)
    (hx : f.isFinite x) (hi : ¬ f.isIntegral x) : (nearbyintX86 env p x).exc = { inexact := true } ∧ f.nearbyintExc x = Exc.clear := by
  have hs : |f.ratValue x| < 2 ^ f.mbits := by
    by_contra hc
    obtain ⟨n, hn⟩ := rep_big hf (rep_ratValue hf x) (not_lt.1 hc)
    exact hi (by unfold Fmt.isIntegral; rw [hn, Int.floor_intCast])
  have h := nearbyintG_exc env hf hw hx hs
  simp only [hi, not_false_eq_true, decide_true] at h
  have e : f.nearbyintExc x = Exc.clear := by
    unfold Fmt.nearbyintExc Exc.clear
    have : ¬ f.isSignalling x := fun h => (finite_not hf hx).1 h.1
    simp [this]
  cases p
  · exact absurd rfl hp
  · exact ⟨h, e⟩
  · exact ⟨h, e⟩

/-- C66 fails for the generic `rint`: it raises inexact for odd integers from `2 ^ mbits`, which are exact. -/
theorem C66_rint_inexact (env : f.Env) (hf : f.Ok) (hw : f.mbits < f.bias) (p : Rounding.Path) (hp : p ≠ .instr) (x : f.Bits)
    (hx : f.isFinite x) (n : ℤ) (hn : f.ratValue x = n) (ho : n % 2 = 1) (h1 : 2 ^ f.mbits ≤ |n|) (h2 : |n| < 2 ^ (f.mbits + 1)) :
    (rintX86 env p x).exc.inexact = true ∧ f.rintExc x = Exc.clear := by
  have hm := hf.2
  have hy := or_num (x := x) (shifter_num env hf hw)
  have e : f.rintExc x = Exc.clear := by
    unfold Fmt.rintExc Exc.clear
    have : ¬ f.isSignalling x := fun h => (finite_not hf hx).1 h.1
    have hi : f.isIntegral x := by unfold Fmt.isIntegral; rw [hn, Int.floor_intCast]
    simp [this, hi]
  have key : (FP.exc (nearbyintG env x)).inexact = true := by
    have hsg := ratValue_sign (x := x)
    rw [hn] at hsg
    have hpp : (2 : ℤ) ^ (f.mbits + 1) = 2 * 2 ^ f.mbits := by rw [pow_succ]; ring
    have hpp2 : (2 : ℤ) ^ (f.mbits + 2) = 4 * 2 ^ f.mbits := by rw [pow_add]; ring
    obtain ⟨k, hk⟩ : ∃ k, f.mbits = k + 1 := ⟨f.mbits - 1, by omega⟩
    have hev : (2 : ℤ) ^ f.mbits = 2 * 2 ^ k := by rw [hk, pow_succ]; ring
    obtain ⟨m, hm1, hm2, hm3, hm4⟩ : ∃ m : ℤ, (n : ℚ) + (if (f.sign x && !false) = true then -2 ^ f.mbits else 2 ^ f.mbits) = (m : ℚ) ∧ m % 2 = 1 ∧
        2 ^ (f.mbits + 1) ≤ |m| ∧ |m| < 2 ^ (f.mbits + 2) := by
      cases hs : f.sign x
      · have h0 : 0 ≤ n := by exact_mod_cast hsg.1 hs
        rw [abs_of_nonneg h0] at h1 h2
        exact ⟨n + 2 ^ f.mbits, by simp, by omega, by rw [abs_of_nonneg (by omega)]; omega, by rw [abs_of_nonneg (by omega)]; omega⟩
      · have h0 : n ≤ 0 := by exact_mod_cast hsg.2 hs
        rw [abs_of_nonpos h0] at h1 h2
        exact ⟨n - 2 ^ f.mbits, by simp; ring, by omega, by rw [abs_of_nonpos (by omega)]; omega, by rw [abs_of_nonpos (by omega)]; omega⟩
    have ha : (f.addExc env.mode x ((signMask f &&& x) ||| shifter env)).inexact = true := by
      rw [addExc_finite hf _ hx hy.1, hn, hy.2, hm1]
      exact roundExc_odd hf env.mode hm2 hm3 hm4
    show (((f.addExc env.mode x ((signMask f &&& x) ||| shifter env)).or _).or _).inexact = true
    simp [Exc.or, ha]
  cases p
  · exact absurd rfl hp
  · exact ⟨key, e⟩
  · exact ⟨key, e⟩

theorem signal_nan {x y : f.Bits} (h : f.isNaN x ∨ f.isNaN y) : (f.signalExc x y).invalid = true := by
  unfold Fmt.signalExc; simp [h]

theorem or_invalid (a b : Exc) : (a.or b).invalid = (a.invalid || b.invalid) := rfl

/-- C66 fails for the generic `nearbyint`, `rint`, `trunc`, `floor` and `ceil`: they raise invalid for every NaN (C Annex F: quiet NaNs raise nothing). -/
theorem C66_rounding_quiet_nan (env : f.Env) (tr : f.Bits → FP f.Bits) (x : f.Bits) (hx : f.isNaN x) :
    (nearbyintG env x).exc.invalid = true ∧ (truncG env x).exc.invalid = true ∧ (floorG env tr x).exc.invalid = true ∧ (ceilG env tr x).exc.invalid = true := by
  have ha : f.isNaN (x &&& absMask f) := by rw [and_absMask]; rwa [isNaN_iff, mag_abs, ← isNaN_iff]
  have h1 : (f.signalExc (x &&& absMask f) (shifter env)).invalid = true := signal_nan (Or.inl ha)
  have h2 : (f.signalExc x (Fmt.ofInt env 0)).invalid = true := signal_nan (Or.inl hx)
  refine ⟨?_, ?_, ?_, ?_⟩
  · unfold nearbyintG; simp [exc_bind, exc_cmpS, or_invalid, h1]
  · unfold truncG; simp [exc_bind, exc_cmpS, or_invalid, h1]
  · unfold floorG; simp [exc_bind, exc_cmpS, or_invalid, h2]
  · unfold ceilG; simp [exc_bind, exc_cmpS, or_invalid, h2]

/-- C66. `round` by an instruction raises nothing for numbers. -/
theorem C66_round_instruction_partial (env : f.Env) (hf : f.Ok) (hw : f.mbits < f.bias) (x : f.Bits) (hx : f.isFinite x) :
    (roundI env x).exc = Exc.clear := by
  have h := rint_num env hf hw .zero hx
  have hs : ¬ f.isSignalling x := fun h => (finite_not hf hx).1 h.1
  have e1 : FP.exc (roundImm env 0x0b x) = Exc.clear := by
    show Exc.mk _ _ _ _ _ = _
    simp [hs, show Nat.testBit 0x0b 3 = true from rfl, Exc.clear]
  show (FP.exc (roundImm env 0x0b x)).or (FP.exc (roundTailE env (Fmt.rint env .zero x) x)) = _
  rw [e1, roundTailE_exc env hf hw hx h.1 h.2, or_clear]

/-- C66 fails for `round` by an instruction: `inf - inf` raises invalid for infinities, the comparison for every NaN; `std::round` raises nothing for
infinities and quiet NaNs (C Annex F.10.6.6). -/
theorem C66_round_invalid (env : f.Env) (hf : f.Ok) (x : f.Bits) (hx : f.isInf x ∨ f.isNaN x) :
    (roundI env x).exc.invalid = true := by
  show (Exc.or _ ((f.subExc env.mode x (Fmt.rint env .zero x)).or ((f.signalExc (absMask f &&& Fmt.sub env x (Fmt.rint env .zero x)) (half env)).or _))).invalid = true
  have hn : f.isNaN (Fmt.sub env x (Fmt.rint env .zero x)) := by
    rcases hx with hx | hx
    · have : ¬ f.isNaN x := by rw [isInf_iff] at hx; rw [isNaN_iff]; omega
      unfold Fmt.rint
      rw [if_neg this, if_pos hx]
      exact sub_inf env hf hx hx rfl
    · unfold Fmt.sub
      rw [if_pos (Or.inl hx)]
      exact env.isNaN _ _
  have h1 : (f.signalExc (absMask f &&& Fmt.sub env x (Fmt.rint env .zero x)) (half env)).invalid = true :=
    signal_nan (Or.inl (by rw [absMask_and, isNaN_iff, mag_abs, ← isNaN_iff]; exact hn))
  simp [or_invalid, h1]

theorem rep_min : Rep b32 (-2147483648) := by
  have := rep_ratValue b32_ok.1 (0xcf000000#32 : b32.Bits)
  rwa [show b32.ratValue (0xcf000000#32 : b32.Bits) = -2147483648 by decide +kernel] at this

/-- C66. `trunc` of `float` with SSE2 only: nothing or inexact for numbers in the range of `int`; invalid for every other element, although the result of
the conversion is not used for it. -/
theorem C66_trunc_sse2 (env : b32.Env) (x : b32.Bits) :
    (truncS env x).exc = if b32.isFinite x ∧ -(2 ^ 31) ≤ truncZ (b32.ratValue x) ∧ truncZ (b32.ratValue x) < 2 ^ 31
      then { inexact := decide (¬ b32.isIntegral x) } else { invalid := true } := by
  show (FP.exc (cvttpsE x)).or ((b32.roundExc env.mode (cvttps x).toInt).or Exc.clear) = _
  have e : b32.roundExc env.mode (cvttps x).toInt = Exc.clear := by
    unfold cvttps
    by_cases h : b32.isFinite x ∧ -(2 ^ 31) ≤ truncZ (b32.ratValue x) ∧ truncZ (b32.ratValue x) < 2 ^ 31
    · rw [if_pos h, BitVec.toInt_ofInt_eq_self (by decide) (by simpa using h.2.1) (by simpa using h.2.2)]
      obtain ⟨a, b⟩ := rep_trunc env b32_ok.1 b32_ok.2 h.1
      exact roundExc_exact _ a b
    · rw [if_neg h, show (BitVec.intMin 32).toInt = -2147483648 from rfl]
      refine roundExc_exact _ (by simpa using rep_min) ?_
      rw [show b32.bias + 1 = 128 from rfl]; norm_num
  rw [e, or_clear, or_clear]
  rfl

/-! ## division -/

theorem divExc_one (hf : f.Ok) (m : RMode) {one : f.Bits} (h1 : IsNum f one false 1) (x : f.Bits) :
    f.divExc m x one = { invalid := decide (f.isSignalling x) } := by
  have hn := finite_not hf h1.1
  have hs : ¬ f.isSignalling one := fun h => hn.1 h.1
  have hz : ¬ f.isZero one := fun h => by
    have := h1.2
    rw [ratValue_mag, (isZero_iff _).1 h] at this
    simp [unit] at this
  unfold Fmt.divExc
  by_cases a : f.isNaN x
  · rw [if_pos (Or.inl a)]; unfold Fmt.quietExc; simp [hs]
  · have hx : ¬ f.isSignalling x := fun h => a h.1
    rw [if_neg (fun h => h.elim a hn.1)]
    by_cases b : f.isInf x
    · rw [if_pos (Or.inl b)]; simp [hn.2, hx]
    · rw [if_neg (fun h => h.elim b hn.2), if_neg hz, h1.2, div_one]
      have hfin : f.isFinite x := by rw [isFinite_iff]; rw [isNaN_iff] at a; rw [isInf_iff] at b; omega
      rw [roundExc_exact _ (rep_ratValue hf x) (ratValue_lt hf hfin)]
      simp [hx, Exc.clear]

theorem any_divExc_one (hf : f.Ok) (m : RMode) {one : f.Bits} (h1 : IsNum f one false 1) (x : List f.Bits) :
    Exc.any (List.zipWith (f.divExc m) x (List.replicate x.length one)) = { invalid := x.any (fun a => decide (f.isSignalling a)) } := by
  induction x with
  | nil => rfl
  | cons a x ih =>
    rw [List.length_cons, List.replicate_succ, List.zipWith_cons_cons, any_cons, ih, divExc_one hf m h1]
    simp [Exc.or]

theorem makePaddingOne_eq {α : Type} (one : α) (g : Geo) (y : List α) (hy : y.length = g.full) (hg : g.size ≤ g.full) :
    Division.makePaddingOne one g y = y.take g.size ++ List.replicate (y.length - g.size) one := by
  have key : ∀ n full, y.length = full → n ≤ full →
      (if n = full then y else y.mapIdx (fun i a => if i < n then a else one)) = y.take n ++ List.replicate (y.length - n) one := by
    intro n full h1 h2
    split
    · rename_i e
      rw [e, ← h1, List.take_length, Nat.sub_self, List.replicate_zero, List.append_nil]
    · apply List.ext_getElem
      · simp; omega
      · intro i hi _
        simp only [List.length_mapIdx] at hi
        rw [List.getElem_mapIdx, List.getElem_append]
        by_cases c : i < n
        · simp only [c, if_true, List.length_take, List.getElem_take]
          rw [dif_pos (by omega)]
        · simp [c]
  cases g with
  | scalar =>
    simp only [Geo.full, Geo.size] at *
    unfold Division.makePaddingOne
    rw [← hy, List.take_length, Nat.sub_self, List.replicate_zero, List.append_nil]
  | vec w n full => exact key n full hy hg
  | bitmask n full => exact key n full hy hg

/-- C66. `x / y` of registers with padding: the exceptions of the elements, and invalid for a signalling NaN in the padding of `x`; the padding of `y` has no effect. -/
theorem C66_division_padding (env : f.Env) (hf : f.Ok) (g : Geo) (hg : g.size ≤ g.full) (one : f.Bits) (h1 : IsNum f one false 1) (x y : List f.Bits)
    (hx : x.length = g.full) (hy : y.length = g.full) :
    (dividesE env g one x y).val.take g.size = List.zipWith (Fmt.div env) (x.take g.size) (y.take g.size) ∧
      (dividesE env g one x y).exc = (Exc.any (List.zipWith (f.divExc env.mode) (x.take g.size) (y.take g.size))).or
        { invalid := (x.drop g.size).any (fun a => decide (f.isSignalling a)) } := by
  unfold dividesE
  rw [makePaddingOne_eq one g y hy hg]
  have hxs : x = x.take g.size ++ x.drop g.size := (List.take_append_drop _ _).symm
  have hl : (x.take g.size).length = (y.take g.size).length := by simp [hx, hy]
  constructor
  · rw [lanes_val]
    conv_lhs => rw [hxs]
    rw [List.zipWith_append hl, List.take_left' (by simp [hx, hy]; omega)]
    rfl
  · have e := lanes_exc false 0 (fdiv env) x (y.take g.size ++ List.replicate (y.length - g.size) one)
    simp only [Bool.false_eq_true, if_false] at e
    refine (show _ = _ from e).trans ?_
    conv_lhs => rw [hxs]
    rw [List.zipWith_append hl, any_append]
    have : y.length - g.size = (x.drop g.size).length := by simp [hx, hy]
    rw [this]
    exact congrArg _ (any_divExc_one hf env.mode h1 _)

theorem any_divByZero {l : List Exc} {e : Exc} (h : e ∈ l) (he : e.divByZero = true) : (Exc.any l).divByZero = true := by
  induction l with
  | nil => cases h
  | cons a l ih =>
    rw [any_cons]
    rcases List.mem_cons.1 h with rfl | h
    · simp [Exc.or, he]
    · simp [Exc.or, ih h]

/-- C66 fails for masked division: `where(k, x) /= y` raises divide-by-zero for an element that is not selected, for example with `k = (y != 0)`. -/
theorem C66_masked_division_wrong (env : f.Env) (hf : f.Ok) (g : Geo) (hg : g.size ≤ g.full) (one : f.Bits) (h1 : IsNum f one false 1) (k : List Bool)
    (x y : List f.Bits) (hx : x.length = g.full) (hy : y.length = g.full) (i : Nat) (hi : i < g.size)
    (hxi : f.isFinite (x[i]'(by omega)) ∧ ¬ f.isZero (x[i]'(by omega))) (hyi : f.isZero (y[i]'(by omega))) :
    (maskedCassignE (dividesE env g one) k x y).exc.divByZero = true := by
  have h := (C66_division_padding env hf g hg one h1 x y hx hy).2
  have e : (maskedCassignE (dividesE env g one) k x y).exc = (dividesE env g one x y).exc := or_clear _
  rw [e, h]
  have hz := (isZero_iff _).1 hyi
  have hi0 := (inf_lt hf).2.2
  have hd : f.divExc env.mode (x[i]'(by omega)) (y[i]'(by omega)) = { divByZero := true } := by
    obtain ⟨a, b⟩ := finite_not hf hxi.1
    unfold Fmt.divExc
    rw [if_neg (fun h => h.elim a (fun h => by rw [isNaN_iff] at h; omega)), if_neg (fun h => h.elim b (fun h => by rw [isInf_iff] at h; omega)), if_pos hyi,
      if_neg hxi.2]
  have hm : f.divExc env.mode (x[i]'(by omega)) (y[i]'(by omega)) ∈ List.zipWith (f.divExc env.mode) (x.take g.size) (y.take g.size) := by
    rw [List.mem_iff_getElem]
    exact ⟨i, by simp; omega, by simp⟩
  have := any_divByZero hm (by rw [hd])
  simp [Exc.or, this]

/-- C66. The values of the masked division: quotients where the mask is set, other elements unchanged. -/
theorem C66_masked_division_values (env : f.Env) (hf : f.Ok) (g : Geo) (hg : g.size ≤ g.full) (one : f.Bits) (h1 : IsNum f one false 1) (k : List Bool)
    (x y : List f.Bits) (hk : k.length = g.full) (hx : x.length = g.full) (hy : y.length = g.full) (i : Nat) (hi : i < g.size) :
    (maskedCassignE (dividesE env g one) k x y).val[i]? =
      some (if k[i]'(by omega) then Fmt.div env (x[i]'(by omega)) (y[i]'(by omega)) else x[i]'(by omega)) := by
  have h := congrArg (fun l : List f.Bits => l[i]?) (C66_division_padding env hf g hg one h1 x y hx hy).1
  simp only [List.getElem?_take_of_lt hi, List.getElem?_zipWith, List.getElem?_eq_getElem (show i < x.length by omega),
    List.getElem?_eq_getElem (show i < y.length by omega)] at h
  show (List.zipWith (fun (c : Bool) (p : f.Bits × f.Bits) => if c then p.2 else p.1) k (x.zip (dividesE env g one x y).val))[i]? = _
  rw [List.getElem?_zipWith, List.getElem?_eq_getElem (show i < k.length by omega), List.zip, List.getElem?_zipWith, h,
    List.getElem?_eq_getElem (show i < x.length by omega)]

/-! ## cases that meet the hypotheses -/

/-- `isless` of a quiet NaN and a number: false, no exception; `<` raises invalid. -/
example : (lanes (active false 2) (cmpX86 b32 .sse2Float .isless) [0x7fc00000#32, 0x3f800000#32] [0x3f800000#32, 0x40000000#32]).val = [false, true] ∧
    (lanes (active false 2) (cmpX86 b32 .sse2Float .isless) [0x7fc00000#32, 0x3f800000#32] [0x3f800000#32, 0x40000000#32]).exc = Exc.clear ∧
    (lanes (active false 2) (opG b32 .lt) [0x7fc00000#32, 0x3f800000#32] [0x3f800000#32, 0x40000000#32]).exc = { invalid := true } := by
  decide +kernel
/-- Five elements in registers of four and one. -/
def fpexcChunks : List (Chunk b32) :=
  [⟨some (.cmp, false), 4, [0x7fc00000#32, 0#32, 0#32, 0#32], [0#32, 0x3f800000#32, 0#32, 0#32]⟩, ⟨none, 1, [0#32], [0x7f800000#32]⟩]
example : ∀ k ∈ fpexcChunks, (∀ a ∈ k.x, ¬ b32.isSignalling a) ∧ ∀ a ∈ k.y, ¬ b32.isSignalling a := by
  have h : fpexcChunks.all (fun k => k.x.all (fun a => decide (¬ b32.isSignalling a)) && k.y.all (fun a => decide (¬ b32.isSignalling a))) = true := by decide +kernel
  simpa [List.all_eq_true] using h
example : (cmpFixed .isless fpexcChunks).val = [false, true, false, false, true] ∧ (cmpFixed .isless fpexcChunks).exc = Exc.clear := by
  decide +kernel
/-- The operations of `env32` return a quiet NaN. -/
example (m : RMode) : ∀ x y, ¬ b32.isSignalling ((env32 m).nan x y) := fun _ _ => by
  show ¬ b32.isSignalling (0x7fc00000#32 : b32.Bits)
  decide +kernel
example : b32.isZero (0#32 : b32.Bits) ∧ b32.isInf (0x7f800000#32 : b32.Bits) := by decide +kernel
/-- 0.5: `nearbyint` must raise nothing. -/
example : b32.isFinite (0x3f000000#32 : b32.Bits) ∧ ¬ b32.isIntegral (0x3f000000#32 : b32.Bits) ∧ |b32.ratValue (0x3f000000#32 : b32.Bits)| < 2 ^ b32.mbits := by
  decide +kernel
/-- 8388609. -/
example : b32.isFinite (0x4b000001#32 : b32.Bits) ∧ b32.ratValue (0x4b000001#32 : b32.Bits) = (8388609 : ℤ) ∧ (8388609 : ℤ) % 2 = 1 ∧ 2 ^ b32.mbits ≤ |(8388609 : ℤ)| ∧
    |(8388609 : ℤ)| < 2 ^ (b32.mbits + 1) := by
  decide +kernel
example : b32.isNaN (0x7fc00000#32 : b32.Bits) ∧ ¬ b32.isSignalling (0x7fc00000#32 : b32.Bits) := by decide +kernel
/-- The conversion of 1e20 raises invalid in the SSE2 `trunc`, that of 1.5 inexact. -/
example (m : RMode) : (truncS (env32 m) 0x60ad78ec#32).exc = { invalid := true } ∧ (truncS (env32 m) 0x3fc00000#32).exc = { inexact := true } := by
  constructor
  · rw [C66_trunc_sse2]; decide +kernel
  · rw [C66_trunc_sse2]; decide +kernel
/-- Division of three elements in a register of four: `1 / 0` in the padding raises nothing. -/
example (m : RMode) : (dividesE (env32 m) (.vec 32 3 4) 0x3f800000#32 [0x3f800000#32, 0x40000000#32, 0x3f800000#32, 0x3f800000#32]
    [0x3f800000#32, 0x3f800000#32, 0x40000000#32, 0#32]).exc = Exc.clear := by
  have h1 : IsNum b32 (0x3f800000#32 : b32.Bits) false 1 := by
    constructor <;> decide +kernel
  rw [(C66_division_padding (env32 m) b32_ok.1 (.vec 32 3 4) (by decide) _ h1 _ _ rfl rfl).2]
  cases m <;> decide +kernel
/-- `where(y != 0, x) /= y` with `x = {1, 1}`, `y = {2, 0}`. -/
example (m : RMode) : (maskedCassignE (dividesE (env32 m) (.vec 32 2 2) 0x3f800000#32) [true, false] [0x3f800000#32, 0x3f800000#32] [0x40000000#32, 0#32]).exc.divByZero = true := by
  have h1 : IsNum b32 (0x3f800000#32 : b32.Bits) false 1 := by
    constructor <;> decide +kernel
  exact C66_masked_division_wrong (env32 m) b32_ok.1 (.vec 32 2 2) (by decide) _ h1 _ _ _ rfl rfl 1 (by decide) (by decide +kernel) (by decide +kernel)

end StdSimd.Props
