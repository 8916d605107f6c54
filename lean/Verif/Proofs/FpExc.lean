import Verif.Model.FpExc
import Verif.Props.FloatBits
import Verif.Proofs.Rounding
/-!
# Lemmas about exceptions
-/
namespace StdSimd.FpExc
open Spec FloatBits Rounding

variable {f : Fmt}

/-! ## sets of exceptions -/

@[simp] theorem or_clear (a : Exc) : a.or Exc.clear = a := by cases a; simp [Exc.or, Exc.clear]
@[simp] theorem clear_or (a : Exc) : Exc.clear.or a = a := by cases a; simp [Exc.or, Exc.clear]
theorem or_assoc (a b c : Exc) : (a.or b).or c = a.or (b.or c) := by simp [Exc.or, Bool.or_assoc]
@[simp] theorem or_self (a : Exc) : a.or a = a := by cases a; simp [Exc.or]
theorem any_cons (a : Exc) (l : List Exc) : Exc.any (a :: l) = a.or (Exc.any l) := rfl
theorem any_append (l m : List Exc) : Exc.any (l ++ m) = (Exc.any l).or (Exc.any m) := by
  induction l with
  | nil => exact (clear_or _).symm
  | cons a l ih => rw [List.cons_append, any_cons, any_cons, ih, or_assoc]
theorem any_clear {l : List Exc} (h : ∀ e ∈ l, e = Exc.clear) : Exc.any l = Exc.clear := by
  induction l with
  | nil => rfl
  | cons a l ih =>
    rw [any_cons, ih (fun e he => h e (List.mem_cons_of_mem _ he)), h a (List.mem_cons_self ..), or_clear]
theorem any_flatten (l : List (List Exc)) : Exc.any l.flatten = Exc.any (l.map Exc.any) := by
  induction l with
  | nil => rfl
  | cons a l ih => rw [List.flatten_cons, any_append, List.map_cons, any_cons, ih]

/-! ## sequences -/

@[simp] theorem val_pure {α : Type} (a : α) : FP.val (pure a : FP α) = a := rfl
@[simp] theorem exc_pure {α : Type} (a : α) : FP.exc (pure a : FP α) = Exc.clear := rfl
@[simp] theorem val_bind {α β : Type} (r : FP α) (k : α → FP β) : FP.val (r >>= k) = FP.val (k (FP.val r)) := rfl
@[simp] theorem exc_bind {α β : Type} (r : FP α) (k : α → FP β) : FP.exc (r >>= k) = (FP.exc r).or (FP.exc (k (FP.val r))) := rfl
@[simp] theorem val_cmpQ (p) (x y : f.Bits) : FP.val (cmpQ f p x y) = p x y := rfl
@[simp] theorem exc_cmpQ (p) (x y : f.Bits) : FP.exc (cmpQ f p x y) = f.quietExc x y := rfl
@[simp] theorem val_cmpS (p) (x y : f.Bits) : FP.val (cmpS f p x y) = p x y := rfl
@[simp] theorem exc_cmpS (p) (x y : f.Bits) : FP.exc (cmpS f p x y) = f.signalExc x y := rfl

theorem quiet_comm (x y : f.Bits) : f.quietExc x y = f.quietExc y x := by unfold Fmt.quietExc; simp only [or_comm]
theorem quiet_self_or (x y : f.Bits) : (f.quietExc x x).or (f.quietExc y y) = f.quietExc x y := by
  unfold Fmt.quietExc Exc.or
  simp
theorem quiet_clear {x y : f.Bits} (hx : ¬ f.isSignalling x) (hy : ¬ f.isSignalling y) : f.quietExc x y = Exc.clear := by
  unfold Fmt.quietExc Exc.clear; simp [hx, hy]

/-! ## comparisons -/

theorem cmpG_val (hf : f.Ok) (un : f.Bits → f.Bits → FP Bool) (hun : ∀ x y, FP.val (un x y) = f.unordered x y) (c : CmpFn) (x y : f.Bits) :
    FP.val (cmpG f un c x y) = c.eval f x y := by
  have hg := Props.C33_generic hf (fun x y => FP.val (un x y)) hun x y
  cases c
  · exact hun x y
  · exact hg.2.2.1
  · exact hg.2.2.2.1
  · exact hg.1
  · exact hg.2.1
  · exact hg.2.2.2.2

theorem cmpG_exc (un : f.Bits → f.Bits → FP Bool) (hun : ∀ x y, FP.exc (un x y) = f.quietExc x y) (c : CmpFn) (x y : f.Bits) :
    FP.exc (cmpG f un c x y) = f.quietExc x y := by
  cases c <;> simp [cmpG, hun]

theorem isunorderedG_val (hf : f.Ok) (snan : Bool) (x y : f.Bits) : FP.val (isunorderedG f snan x y) = f.unordered x y := by
  have h := Props.C33_isunordered hf x y
  cases snan
  · exact h.1
  · exact h.2.1

theorem isunorderedG_exc (snan : Bool) (x y : f.Bits) :
    FP.exc (isunorderedG f snan x y) = if snan then Exc.clear else f.quietExc x y := by
  cases snan <;> simp [isunorderedG, isnanG, quiet_self_or]

theorem cmpX86_val (hf : f.Ok) (p : FloatBits.Path) (c : CmpFn) (x y : f.Bits) : FP.val (cmpX86 f p c x y) = c.eval f x y := by
  have h := Props.C33_x86 hf p x y
  cases p <;> cases c <;> first | rfl | exact h.1 | exact h.2.1 | exact h.2.2.1 | exact h.2.2.2.1 | exact h.2.2.2.2

theorem cmpX86_exc (p : FloatBits.Path) (c : CmpFn) (x y : f.Bits) : FP.exc (cmpX86 f p c x y) = f.quietExc x y := by
  cases p <;> cases c <;> simp [cmpX86, cmpP, cmpPred, cmpG, quiet_comm y x]

/-! ## registers -/

theorem lanes_val {α : Type} (act : Nat → Bool) (g : f.Bits → f.Bits → FP α) (x y : List f.Bits) :
    FP.val (lanes act g x y) = List.zipWith (fun a b => FP.val (g a b)) x y := by
  unfold lanes FP.val
  rw [List.map_zipWith]

theorem any_mapIdx {α : Type} (n : Nat) (l : List (FP α)) :
    Exc.any (l.mapIdx (fun i r => if i < n then FP.exc r else Exc.clear)) = Exc.any ((l.take n).map FP.exc) := by
  induction l generalizing n with
  | nil => simp
  | cons a l ih =>
    rw [List.mapIdx_cons, any_cons]
    cases n with
    | zero => simpa using ih 0
    | succ n =>
      rw [List.take_succ_cons, List.map_cons, any_cons, ← ih n]
      simp

theorem lanes_exc {α : Type} (avx512 : Bool) (n : Nat) (g : f.Bits → f.Bits → FP α) (x y : List f.Bits) :
    FP.exc (lanes (active avx512 n) g x y) =
      Exc.any (List.zipWith (fun a b => FP.exc (g a b)) (if avx512 then x.take n else x) (if avx512 then y.take n else y)) := by
  show Exc.any _ = _
  cases avx512
  · simp only [Bool.false_eq_true, if_false]
    congr 1
    have : (fun (i : Nat) (r : FP α) => if active false n i then FP.exc r else Exc.clear) = fun (_ : Nat) (r : FP α) => FP.exc r := by
      funext i r; simp [active]
    rw [this]
    apply List.ext_getElem <;> simp
  · simp only [if_true]
    have : (fun (i : Nat) (r : FP α) => if active true n i then FP.exc r else Exc.clear) = fun (i : Nat) (r : FP α) => if i < n then FP.exc r else Exc.clear := by
      funext i r; simp [active]
    rw [this, any_mapIdx, List.take_zipWith, List.map_zipWith]

/-! ## arithmetic -/

theorem roundExc_exact (m : RMode) {q : ℚ} (hr : Rep f q) (h : |q| < 2 ^ (f.bias + 1)) : f.roundExc m q = Exc.clear := by
  unfold Fmt.roundExc Exc.clear
  rw [roundTo_rep m hr]
  simp [h]

theorem signal_finite (hf : f.Ok) {x y : f.Bits} (hx : f.isFinite x) (hy : f.isFinite y) : f.signalExc x y = Exc.clear := by
  unfold Fmt.signalExc Exc.clear
  simp [(finite_not hf hx).1, (finite_not hf hy).1]

theorem quiet_finite (hf : f.Ok) {x y : f.Bits} (hx : f.isFinite x) (hy : f.isFinite y) : f.quietExc x y = Exc.clear :=
  quiet_clear (fun h => (finite_not hf hx).1 h.1) (fun h => (finite_not hf hy).1 h.1)

theorem addExc_finite (hf : f.Ok) (m : RMode) {x y : f.Bits} (hx : f.isFinite x) (hy : f.isFinite y) :
    f.addExc m x y = f.roundExc m (f.ratValue x + f.ratValue y) := by
  unfold Fmt.addExc
  rw [if_neg (by simp [(finite_not hf hx).1, (finite_not hf hy).1]), if_neg (by simp [(finite_not hf hx).2, (finite_not hf hy).2])]

theorem subExc_finite (hf : f.Ok) (m : RMode) {x y : f.Bits} (hx : f.isFinite x) (hy : f.isFinite y) :
    f.subExc m x y = f.roundExc m (f.ratValue x - f.ratValue y) := by
  unfold Fmt.subExc
  rw [if_neg (by simp [(finite_not hf hx).1, (finite_not hf hy).1]), if_neg (by simp [(finite_not hf hx).2, (finite_not hf hy).2])]

/-- Exceptions of the addition in `_S_plus_minus`: inexact unless `v` is an integer. -/
theorem roundExc_shift (hf : f.Ok) (hw : f.mbits < f.bias) (m : RMode) {v : ℚ} {n : ℤ} (hv : |v| < 2 ^ f.mbits) (hn : |n| = 2 ^ f.mbits)
    (h : (0 ≤ v ∧ 0 ≤ n) ∨ (v ≤ 0 ∧ n ≤ 0)) : f.roundExc m (v + n) = { inexact := decide (v ≠ ⌊v⌋) } := by
  have hp := one_le_pow f.mbits
  have hpp : (2 : ℤ) ^ (f.mbits + 1) = 2 * 2 ^ f.mbits := by rw [pow_succ]; ring
  have hrt := roundTo_shift hf m hv hn h
  have hk1 : |m.toInt v| ≤ 2 ^ f.mbits := toInt_abs_le m v _ (by push_cast; exact hv.le)
  have hkn : |m.toInt v + n| ≤ 2 ^ (f.mbits + 1) := by
    have := abs_add_le (m.toInt v) n
    omega
  have hlt := int_lt hw hkn
  have hnq : |(n : ℚ)| = 2 ^ f.mbits := by rw [← Int.cast_abs, hn]; push_cast; rfl
  have habs : |v + n| = |v| + |(n : ℚ)| := by
    rcases h with ⟨h1, h2⟩ | ⟨h1, h2⟩
    · have h2' : (0 : ℚ) ≤ n := by exact_mod_cast h2
      rw [abs_of_nonneg h1, abs_of_nonneg h2', abs_of_nonneg (by linarith)]
    · have h2' : (n : ℚ) ≤ 0 := by exact_mod_cast h2
      rw [abs_of_nonpos h1, abs_of_nonpos h2', abs_of_nonpos (by linarith)]; ring
  have hbig : ¬ |v + n| < (2 : ℚ) ^ (1 - (f.bias : ℤ)) := by
    have h1 : (1 : ℚ) ≤ |v + n| := by
      have := abs_nonneg v
      have h2 : (1 : ℚ) ≤ 2 ^ f.mbits := one_le_pow₀ (by norm_num)
      rw [habs, hnq]; linarith
    have h3 : (2 : ℚ) ^ (1 - (f.bias : ℤ)) ≤ 2 ^ (0 : ℤ) := zpow_le_zpow_right₀ (by norm_num) (by have := (bias_eq hf).2; omega)
    rw [zpow_zero] at h3
    linarith
  have hne : f.roundTo m (v + n) ≠ v + n ↔ v ≠ ⌊v⌋ := by
    rw [hrt]; push_cast
    constructor
    · intro h1 h2; apply h1; rw [h2, toInt_int]
    · intro h1 h2
      have h3 : (m.toInt v : ℚ) = v := by linarith
      apply h1; rw [← h3, Int.floor_intCast]
  have hov : ¬ (2 : ℚ) ^ (f.bias + 1) ≤ |f.roundTo m (v + n)| := by rw [hrt]; exact not_le.2 hlt
  unfold Fmt.roundExc
  simp only [hbig, hov, hne, false_and, decide_false, or_false]

/-- Exceptions of `_S_plus_minus`. -/
theorem plusMinus_exc (env : f.Env) (hf : f.Ok) (hw : f.mbits < f.bias) {x y : f.Bits} {s : Bool} {v : ℚ} (hx : IsNum f x s v)
    (hy : IsNum f y s (if s then -2 ^ f.mbits else 2 ^ f.mbits)) (hv : |v| < 2 ^ f.mbits) :
    FP.exc (plusMinus env x y) = { inexact := decide (v ≠ ⌊v⌋) } := by
  have hp := one_le_pow f.mbits
  have hpp : (2 : ℤ) ^ (f.mbits + 1) = 2 * 2 ^ f.mbits := by rw [pow_succ]; ring
  obtain ⟨n, hn1, hn2, hn3⟩ : ∃ n : ℤ, (n : ℚ) = (if s then -2 ^ f.mbits else 2 ^ f.mbits) ∧ |n| = 2 ^ f.mbits ∧
      ((s = true ∧ n < 0) ∨ (s = false ∧ 0 < n)) := by
    cases s
    · exact ⟨2 ^ f.mbits, by simp, abs_of_pos (by omega), Or.inr ⟨rfl, by omega⟩⟩
    · exact ⟨-2 ^ f.mbits, by simp, by rw [abs_neg, abs_of_pos (by omega)], Or.inl ⟨rfl, by omega⟩⟩
  rw [← hn1] at hy
  have hvs : (0 ≤ v ∧ 0 ≤ n) ∨ (v ≤ 0 ∧ n ≤ 0) := by
    have h1 := ratValue_sign (x := x)
    rw [hx.2, hx.3] at h1
    rcases hn3 with ⟨a, b⟩ | ⟨a, b⟩
    · exact Or.inr ⟨h1.2 a, b.le⟩
    · exact Or.inl ⟨h1.1 a, b.le⟩
  have hk1 : |env.mode.toInt v| ≤ 2 ^ f.mbits := toInt_abs_le env.mode v _ (by push_cast; exact hv.le)
  have hkn : |env.mode.toInt v + n| ≤ 2 ^ (f.mbits + 1) := by
    have := abs_add_le (env.mode.toInt v) n
    omega
  have hrt := roundTo_shift hf env.mode hv hn2 hvs
  have hsum : f.isFinite (Fmt.add env x y) ∧ f.ratValue (Fmt.add env x y) = ((env.mode.toInt v + n : ℤ) : ℚ) := by
    rw [add_finite env hf hx.1 hy.1, hx.2, hy.2, hx.3, hy.3]
    have := round_spec hf env.mode (if s = s then s else decide (env.mode = .down)) (q := v + n) (by rw [hrt]; exact int_lt hw hkn)
    rw [hrt] at this
    exact ⟨this.1, this.2⟩
  have hd : ((env.mode.toInt v + n : ℤ) : ℚ) - n = (env.mode.toInt v : ℚ) := by push_cast; ring
  have hk2 : |env.mode.toInt v| ≤ 2 ^ (f.mbits + 1) := by omega
  show (f.addExc env.mode x y).or (f.subExc env.mode (Fmt.add env x y) y) = _
  rw [addExc_finite hf _ hx.1 hy.1, subExc_finite hf _ hsum.1 hy.1, hx.2, hy.2, hsum.2, hd,
    roundExc_exact env.mode (rep_int hf hk2) (int_lt hw hk2), or_clear, roundExc_shift hf hw env.mode hv hn2 hvs]

theorem val_plusMinus (env : f.Env) (x y : f.Bits) : FP.val (plusMinus env x y) = Rounding.plusMinus env x y := rfl

/-- Exceptions of the generic `nearbyint` of a number with a fraction field. -/
theorem nearbyintG_exc (env : f.Env) (hf : f.Ok) (hw : f.mbits < f.bias) {x : f.Bits} (hx : f.isFinite x) (hs : |f.ratValue x| < 2 ^ f.mbits) :
    FP.exc (nearbyintG env x) = { inexact := decide (¬ f.isIntegral x) } := by
  have hy := or_num (x := x) (shifter_num env hf hw)
  have h1 := plusMinus_exc env hf hw (self_num hx) (by simpa using hy) hs
  unfold nearbyintG
  simp only [exc_bind, exc_pure, or_clear, exc_cmpS, h1]
  rw [and_absMask, signal_finite hf ((finite_abs x).2 hx) (shifter_num env hf hw).1, or_clear]
  rfl

theorem nearbyintG_val (env : f.Env) (x : f.Bits) : FP.val (nearbyintG env x) = nearbyint env x := rfl
theorem truncG_val (env : f.Env) (x : f.Bits) : FP.val (truncG env x) = trunc env x := rfl
theorem roundG_val (env : f.Env) (tr : f.Bits → FP f.Bits) (x : f.Bits) : FP.val (roundG env tr x) = round env (fun x => FP.val (tr x)) x := rfl
theorem floorG_val (env : f.Env) (tr : f.Bits → FP f.Bits) (x : f.Bits) : FP.val (floorG env tr x) = floor env (fun x => FP.val (tr x)) x := rfl
theorem ceilG_val (env : f.Env) (tr : f.Bits → FP f.Bits) (x : f.Bits) : FP.val (ceilG env tr x) = ceil env (fun x => FP.val (tr x)) x := rfl
theorem roundI_val (env : f.Env) (x : f.Bits) : FP.val (roundI env x) = roundInstr env x := rfl
theorem truncS_val (env : b32.Env) (x : b32.Bits) : FP.val (truncS env x) = truncSse2 env x := rfl
theorem nearbyintX86_val (env : f.Env) (p : Rounding.Path) (x : f.Bits) :
    FP.val (nearbyintX86 env p x) = x86Nearbyint env p x ∧ FP.val (rintX86 env p x) = x86Nearbyint env p x := by
  cases p <;> exact ⟨rfl, rfl⟩

/-- The truncated number is a number of the format. -/
theorem rep_trunc (env : f.Env) (hf : f.Ok) (hw : f.mbits < f.bias) {x : f.Bits} (hx : f.isFinite x) :
    Rep f (truncZ (f.ratValue x) : ℚ) ∧ |(truncZ (f.ratValue x) : ℚ)| < 2 ^ (f.bias + 1) := by
  have h := rint_num env hf hw .zero hx
  have h2 := rep_ratValue hf (Fmt.rint env .zero x)
  have h3 := ratValue_lt hf h.1
  rw [h.2] at h2 h3
  exact ⟨h2, h3⟩

/-- The end of `_S_round` raises nothing for numbers. -/
theorem roundTailE_exc (env : f.Env) (hf : f.Ok) (hw : f.mbits < f.bias) {t x : f.Bits} (hx : f.isFinite x) (ht : f.isFinite t)
    (htv : f.ratValue t = truncZ (f.ratValue x)) : FP.exc (roundTailE env t x) = Exc.clear := by
  obtain ⟨hr, hab⟩ := trunc_diff hf x hx
  have hval := roundTail_value env hf hw hx ht htv
  set v := f.ratValue x with hv
  have hfr1 := Int.fract_lt_one |v|
  have hb1 : (1 : ℚ) ≤ 2 ^ (f.bias + 1) := one_le_pow₀ (by norm_num)
  have hn : IsNum f t (f.sign t) (truncZ v : ℚ) := ⟨ht, htv, rfl⟩
  have hsub := sub_exact env hf (self_num hx) hn (by rw [← hv]; exact hr) (by rw [← hv, hab]; linarith)
  rw [← hv] at hsub
  have hsa := abs_num hsub.1
  have hh := half_num env hf hw
  have e1 : f.subExc env.mode x t = Exc.clear := by
    rw [subExc_finite hf _ hx ht, htv, ← hv]; exact roundExc_exact _ hr (by rw [hab]; linarith)
  have e2 : f.signalExc (absMask f &&& Fmt.sub env x t) (half env) = Exc.clear := signal_finite hf hsa.1 hh.1
  show (f.subExc env.mode x t).or ((f.signalExc (absMask f &&& Fmt.sub env x t) (half env)).or
    (f.addExc env.mode t (if f.le (half env) (absMask f &&& Fmt.sub env x t) then (signMask f &&& x) ||| Fmt.ofInt env 1 else Fmt.ofInt env 0))) = _
  rw [e1, e2, clear_or, clear_or]
  have hle : f.le (half env) (absMask f &&& Fmt.sub env x t) = decide (1 / 2 ≤ Int.fract |v|) := by
    rw [absMask_and, le_finite hf hh.1 hsa.1, hh.2, hsa.2, hsub.2, hab]
  rw [hle]
  by_cases hc : 1 / 2 ≤ Int.fract |v|
  · rw [if_pos (by simpa using hc)]
    have hs : |v| < 2 ^ f.mbits := by
      by_contra hcc
      obtain ⟨n, hn⟩ := rep_big hf (rep_ratValue hf x).abs (by rw [abs_abs, ← hv]; exact not_lt.1 hcc)
      rw [← hv] at hn
      rw [hn, Int.fract_intCast] at hc; norm_num at hc
    have ho := or_num (x := x) (one_num env hf hw)
    rw [addExc_finite hf _ ht ho.1, htv, ho.2]
    obtain ⟨k, hk, hkb⟩ : ∃ k : ℤ, (truncZ v : ℚ) + (if (f.sign x && !false) = true then -1 else 1) = (k : ℚ) ∧ |k| ≤ 2 ^ (f.mbits + 1) := by
      have h1 := truncZ_small hs
      have h2 := one_le_pow f.mbits
      cases f.sign x
      · refine ⟨truncZ v + 1, by simp, ?_⟩
        rw [pow_succ]; rw [abs_le] at *; omega
      · refine ⟨truncZ v - 1, by simp; ring, ?_⟩
        rw [pow_succ]; rw [abs_le] at *; omega
    rw [hk]
    exact roundExc_exact _ (rep_int hf hkb) (int_lt hw hkb)
  · rw [if_neg (by simpa using hc), addExc_finite hf _ ht (zero_num env hf hw).1, (zero_num env hf hw).2, add_zero]
    exact roundExc_exact _ (rep_ratValue hf t) (ratValue_lt hf ht)

theorem fract_abs_iff (v : ℚ) : |v| ≠ ⌊|v|⌋ ↔ v ≠ ⌊v⌋ := by
  have key : ∀ v : ℚ, v = ⌊v⌋ ↔ ∃ n : ℤ, v = n := fun v => ⟨fun h => ⟨_, h⟩, fun ⟨n, h⟩ => by rw [h, Int.floor_intCast]⟩
  rw [not_iff_not, key, key]
  rcases abs_choice v with e | e <;> rw [e]
  exact ⟨fun ⟨n, h⟩ => ⟨-n, by push_cast; linarith⟩, fun ⟨n, h⟩ => ⟨-n, by push_cast; linarith⟩⟩

/-- Exceptions of the generic `trunc` of a number with a fraction field. -/
theorem truncG_exc (env : f.Env) (hf : f.Ok) (hw : f.mbits < f.bias) {x : f.Bits} (hx : f.isFinite x) (hs : |f.ratValue x| < 2 ^ f.mbits) :
    FP.exc (truncG env x) = { inexact := decide (¬ f.isIntegral x) } := by
  have ha := abs_num hx
  have hsh := shifter_num env hf hw
  have h1 := plusMinus_exc env hf hw ha (by simpa using hsh) (by rwa [abs_abs])
  have ht := plusMinus_num env hf hw ha (by simpa using hsh) (by rwa [abs_abs])
  set v := f.ratValue x with hv
  have hfl := floor_abs_le hs
  have hp := one_le_pow f.mbits
  have hpp : (2 : ℤ) ^ (f.mbits + 1) = 2 * 2 ^ f.mbits := by rw [pow_succ]; ring
  have hkb : |(env.mode.toInt (|v|))| ≤ 2 ^ f.mbits := toInt_abs_le env.mode |v| _ (by push_cast; rw [abs_abs]; exact hs.le)
  have hk0 : 0 ≤ env.mode.toInt |v| := (toInt_sign env.mode).1 (abs_nonneg v)
  rw [abs_of_nonneg hk0] at hkb
  unfold truncG
  simp only [exc_bind, exc_pure, or_clear, exc_cmpS, val_cmpS, val_plusMinus]
  rw [and_absMask, h1, signal_finite hf ht.1 ha.1, signal_finite hf ha.1 hsh.1, clear_or, or_clear]
  have e : ∀ b : Bool, FP.exc (fsub env (Rounding.plusMinus env (FloatBits.abs f x) (shifter env)) (if b then Fmt.ofInt env 1 else Fmt.ofInt env 0)) = Exc.clear := by
    intro b
    show f.subExc _ _ _ = _
    cases b
    · rw [if_neg (by simp), subExc_finite hf _ ht.1 (zero_num env hf hw).1, (zero_num env hf hw).2, ht.2, sub_zero]
      have hb : |(env.mode.toInt (|v|))| ≤ 2 ^ (f.mbits + 1) := by rw [abs_of_nonneg hk0]; omega
      exact roundExc_exact _ (rep_int hf hb) (int_lt hw hb)
    · rw [if_pos rfl, subExc_finite hf _ ht.1 (one_num env hf hw).1, (one_num env hf hw).2, ht.2]
      have hb : |env.mode.toInt |v| - 1| ≤ 2 ^ (f.mbits + 1) := by rw [abs_le]; omega
      have hc : ((env.mode.toInt |v| : ℤ) : ℚ) - 1 = ((env.mode.toInt |v| - 1 : ℤ) : ℚ) := by push_cast; ring
      rw [hc]
      exact roundExc_exact _ (rep_int hf hb) (int_lt hw hb)
  refine (congrArg _ (e _)).trans ?_
  rw [or_clear]
  have : (|v| ≠ ⌊|v|⌋) = ¬ f.isIntegral x := propext (fract_abs_iff v)
  simp only [this]

/-- A number that is an odd integer above the range of fractions: the sum with the shifter is not exact. -/
theorem roundExc_odd (hf : f.Ok) (m : RMode) {n : ℤ} (ho : n % 2 = 1) (h1 : 2 ^ (f.mbits + 1) ≤ |n|) (h2 : |n| < 2 ^ (f.mbits + 2)) :
    (f.roundExc m n).inexact = true := by
  have hq : f.qexp n = 1 := by
    have he := emin_le hf
    have c1 : (2 : ℚ) ^ (f.mbits + 1) ≤ |(n : ℚ)| := by rw [← Int.cast_abs]; exact_mod_cast h1
    have c2 : |(n : ℚ)| < (2 : ℚ) ^ (f.mbits + 2) := by rw [← Int.cast_abs]; exact_mod_cast h2
    have : Int.log 2 |(n : ℚ)| = (f.mbits + 1 : ℕ) := log_unique (by rw [zpow_natCast]; exact c1) (by
      have : (((f.mbits + 1 : ℕ) : ℤ) + 1) = ((f.mbits + 2 : ℕ) : ℤ) := by push_cast; ring
      rw [this, zpow_natCast]; exact c2)
    unfold Fmt.qexp
    rw [this]; push_cast; omega
  have hne : f.roundTo m n ≠ n := by
    unfold Fmt.roundTo
    rw [hq, zpow_one]
    intro hc
    have : m.toInt ((n : ℚ) / 2) * 2 = n := by exact_mod_cast hc
    omega
  unfold Fmt.roundExc
  simp [hne]

end StdSimd.FpExc
