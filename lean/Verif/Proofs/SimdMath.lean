import Verif.Model.SimdMath
import Verif.Proofs.SimdReg
import Verif.Proofs.IntAbs
import Verif.Proofs.MathCall
import Verif.Props.FloatBits
import Verif.Props.Rounding
import Verif.Props.Math
import Verif.Props.IntAbs
import Verif.Proofs.Compare
/-!
# Programs with functions: lemmas
-/
namespace StdSimd.SimdClass
open Spec Spec.Program Native

/-! ## combinators -/

theorem Implements.withFuns {K : Kind} {R : RegImpl K} {E : Program.Elem K} {g : Geo} (h : Implements R E g) {F : RegFuns K} {S : Funs K}
    (hF : ImplementsFn F S g) : Implements (R.withFuns F) (E.withFuns S) g :=
  ⟨h.un, h.bin, h.shift, hF⟩

theorem pick_eq (g : Geo) {α : Type} {p : α → Prop} {a b : α} (ha : p a) (hb : p b) : p (pick g a b) := by
  cases g
  · exact ha
  · exact hb
  · exact hb

/-- A function of the C library. -/
theorem libCall_implements {V : Type} (zero : V) {g : Geo} (hg : g.Ok) (call : List V → V) (xs : List (List V)) (fs : List (Nat → V))
    (h : List.Forall₂ (fun x f => ∀ i < g.size, x[i]? = some (f i)) xs fs) :
    ∃ z, libCall call zero g xs = some z ∧ z.length = g.full ∧ ∀ i < g.size, z[i]? = some (call (fs.map (fun f => f i))) := by
  have hh : List.Forall₂ (MathCall.Holds g.size) (xs.map MathCall.Arg.reg) fs := by
    rw [List.forall₂_map_left_iff]
    refine h.imp (fun x f hx => MathCall.Holds.reg _ _ ?_)
    apply List.ext_getElem?
    intro i
    rw [List.getElem?_take]
    by_cases hi : i < g.size
    · rw [if_pos hi, hx i hi]; simp [hi]
    · rw [if_neg hi]; simp [hi]
  have e := MathCall.fallback_eq (m := Id) call zero hg hh
  have hsz := hg.size_le
  refine ⟨(List.range g.size).map (fun i => call (fs.map (fun f => f i))) ++ List.replicate (g.full - g.size) zero, e.trans ?_, ?_, ?_⟩
  · have : ∀ l : List Nat, (l.mapM (m := Id) (fun i => call (fs.map (fun f => f i)))) = l.map (fun i => call (fs.map (fun f => f i))) := by
      intro l
      induction l with
      | nil => rfl
      | cons a l ih => rw [List.mapM_cons, ih]; rfl
    rw [this]; rfl
  · simp; omega
  · intro i hi
    rw [List.getElem?_append_left (by simpa using hi)]
    simp [hi]

/-! ## min, max -/

theorem least_ok {K : Kind} (g : Geo) (a b c : K.Bits) (h : least K a b = some c) : Compare.elemMin K g a b = c := by
  unfold least at h
  split at h
  · exact absurd h (by simp)
  have hl : ∀ x y : K.Bits, Compare.elem K .less x y = K.holds .lt x y := fun x y => Compare.elem_spec K .less x y
  have hasym : K.holds .lt a b = true → K.holds .lt b a = true → False := by
    unfold Kind.holds
    cases K.value a <;> cases K.value b <;> simp [Kind.Rel.ofNumbers]
    exact fun h1 => le_of_lt h1
  cases g <;> simp only [Compare.elemMin, Compare.scalarMin, Compare.vecMin, hl] <;> revert h hasym <;>
    by_cases h1 : K.holds .lt a b = true <;> by_cases h2 : K.holds .lt b a = true <;> simp [h1, h2] <;> intro e <;> simp [e]

theorem greatest_ok {K : Kind} (g : Geo) (a b c : K.Bits) (h : greatest K a b = some c) : Compare.elemMax K g a b = c := by
  unfold greatest at h
  split at h
  · exact absurd h (by simp)
  have hl : ∀ x y : K.Bits, Compare.elem K .less x y = K.holds .lt x y := fun x y => Compare.elem_spec K .less x y
  have hasym : K.holds .lt a b = true → K.holds .lt b a = true → False := by
    unfold Kind.holds
    cases K.value a <;> cases K.value b <;> simp [Kind.Rel.ofNumbers]
    exact fun h1 => le_of_lt h1
  cases g <;> simp only [Compare.elemMax, Compare.scalarMax, Compare.vecMax, hl] <;> revert h hasym <;>
    by_cases h1 : K.holds .lt a b = true <;> by_cases h2 : K.holds .lt b a = true <;> simp [h1, h2] <;> intro e <;> simp [e]

/-! ## integers -/

theorem abs_elem {w : Nat} (x : List (BitVec w)) (i : Nat) (b r : BitVec w) (h : x[i]? = some b) (hr : r = BitVec.ofInt w |b.toInt|) :
    (x.map IntAbs.pabs)[i]? = some r := by
  rw [List.getElem?_map, h, hr, Option.map_some, IntAbs.pabs_ofInt, Int.natCast_natAbs]

theorem abs_some {w : Nat} {b r : BitVec w} (h : (intFuns true w).f1 .abs b = some r) : b ≠ BitVec.intMin w ∧ r = BitVec.ofInt w |b.toInt| := by
  unfold intFuns at h
  dsimp only at h
  split at h
  · rename_i hc; exact ⟨hc.2, (Option.some.inj h).symm⟩
  · exact absurd h (by simp)

theorem intRegFuns_implements (signed : Bool) {w : Nat} (hw : 0 < w) (a : Geo → IntAbs.Ctx w) (c : Geo → Compare.Ctx (.int signed w)) {g : Geo}
    (hg : g.Ok) (hf : signed = true → IntAbs.Fits w g) : ImplementsFn (intRegFuns signed w a c) (intFuns signed w) g where
  f1 o x r hx h := by
    cases o
    case abs =>
      obtain ⟨_, _, e⟩ := h 0 hg.one_le
      have hs : signed = true := by
        by_contra hs
        simp [intFuns, hs] at e
      subst hs
      have hnz : ∀ i < g.size, ∃ b : BitVec w, x[i]? = some b ∧ b ≠ BitVec.intMin w ∧ r i = BitVec.ofInt w |b.toInt| := by
        intro i hi
        obtain ⟨b, hb, e⟩ := h i hi
        refine ⟨b, hb, ?_⟩
        exact abs_some e
      have hm : g = .scalar → ∀ b ∈ (x : List (BitVec w)), b ≠ BitVec.intMin w := by
        rintro rfl b hb
        obtain ⟨i, hi, rfl⟩ := List.mem_iff_getElem.1 hb
        have hx1 : x.length = 1 := hx
        obtain ⟨b, e, hn, _⟩ := hnz i (by show i < 1; omega)
        rw [List.getElem?_eq_getElem hi] at e
        rw [Option.some.inj e]; exact hn
      refine ⟨(x : List (BitVec w)).map IntAbs.pabs, IntAbs.abs_spec (hf rfl) (a g) hx hm, by simpa using hx, fun i hi => ?_⟩
      obtain ⟨b, e, hn, er⟩ := hnz i hi
      exact abs_elem x i b _ e er
    all_goals (obtain ⟨_, _, e⟩ := h 0 hg.one_le; exact absurd e (by simp [intFuns]))
  f2 o x y r hx hy h := by
    cases o
    case min => exact map2_implements hg (Compare.elemMin (.int signed w) g) _ (fun a b c => least_ok g a b c) x y r hx hy h
    case max => exact map2_implements hg (Compare.elemMax (.int signed w) g) _ (fun a b c => greatest_ok g a b c) x y r hx hy h
    all_goals (obtain ⟨_, _, _, _, e⟩ := h 0 hg.one_le; exact absurd e (by simp [intFuns]))
  f3 o x y z r hx hy hz h := by obtain ⟨_, _, _, _, _, _, e⟩ := h 0 hg.one_le; exact absurd e (by simp [intFuns])
  t1 o p x h hx := by
    cases o
    case signbit =>
      have hp : (fun b : BitVec w => decide (Spec.value signed b < 0)) = p := Option.some.inj h
      subst hp
      exact Props.C61_signbit hg signed (c g) hx
    all_goals exact absurd h (by simp [intFuns])
  t2 o p x y h := absurd h (by simp [intFuns])

/-! ## floating-point numbers -/

section
variable {f : Fmt}
open FloatBits

theorem withSign_facts (s : Bool) (a : f.Bits) : f.sign (withSign s a) = s ∧ mag f (withSign s a) = mag f a := by
  have h : a.toNat % 2 ^ (f.ebits + f.mbits) < 2 ^ (f.ebits + f.mbits) := Nat.mod_lt _ (Nat.two_pow_pos _)
  exact ⟨sign_ofMag s h, mag_ofMag s h⟩

theorem abs_withSign (a : f.Bits) : FloatBits.abs f a = withSign false a :=
  bits_ext (by rw [sign_abs, (withSign_facts false a).1]) (by rw [mag_abs, (withSign_facts false a).2])

theorem copysign_withSign (a b : f.Bits) : Math.copysign a b = withSign (f.sign b) a :=
  bits_ext (by rw [Math.sign_copysign, (withSign_facts _ a).1]) (by rw [Math.mag_copysign, (withSign_facts _ a).2])

/-- A finite number other than zero is known from its value. -/
theorem ofMag_of_value (hf : f.Ok) {y : f.Bits} (h0 : f.ratValue y ≠ 0) :
    f.ofMag (decide (f.ratValue y < 0)) (f.encode |f.ratValue y|) = y := by
  have hq := quantum_pos (f := f)
  have hr := ratValue_mag y
  have hu : (0 : ℚ) ≤ (unit f.mbits (mag f y) : ℚ) * quantum f := mul_nonneg (Nat.cast_nonneg _) hq.le
  have habs : |f.ratValue y| = (unit f.mbits (mag f y) : ℚ) * quantum f := by
    rw [hr]; cases f.sign y <;> simp [abs_of_nonneg hu]
  have he := encode_unit (rep_ratValue hf y).abs (abs_nonneg _)
  rw [habs] at he
  have hm : f.encode ((unit f.mbits (mag f y) : ℚ) * quantum f) = mag f y := by
    have := mul_right_cancel₀ hq.ne' he
    exact (unit_mono f.mbits).injective (by exact_mod_cast this)
  have hlt : mag f y < 2 ^ (f.ebits + f.mbits) := Nat.mod_lt _ (Nat.two_pow_pos _)
  rw [habs, hm]
  apply bits_ext
  · rw [sign_ofMag _ hlt]
    rw [hr] at h0
    have hpos : 0 < (unit f.mbits (mag f y) : ℚ) * quantum f := lt_of_le_of_ne hu (fun e => h0 (by rw [← e]; simp))
    rw [hr]
    cases f.sign y <;> simp
    · exact hu
    · exact hpos
  · rw [mag_ofMag _ hlt]

/-- A function that rounds gives the numbers of the specification. -/
theorem integral_ok (hf : f.Ok) {G : f.Bits → f.Bits} {z : ℚ → ℤ} (h : Fmt.RoundsTo f G z) (a b : f.Bits) (e : integral z a = some b) : G a = b := by
  unfold integral at e
  split at e
  · rename_i hi
    rw [h.inf a hi]; exact Option.some.inj e
  rename_i hi
  split at e
  · exact absurd e (by simp)
  rename_i hn
  have hfin : f.isFinite a := by
    have h1 : ¬ f.isNaN a := fun hh => hn (Or.inl hh)
    rw [isFinite_iff]
    rw [isNaN_iff] at h1
    rw [isInf_iff] at hi
    omega
  obtain ⟨h1, h2⟩ := h.finite a hfin
  rw [← Option.some.inj e, ← ofMag_of_value hf (y := G a) (by rw [h2]; exact fun hz => hn (Or.inr (by exact_mod_cast hz))), h2]
  congr 1
  simp

namespace FloatCtx
variable (c : FloatCtx f)

theorem rounds (hf : f.Ok) (hw : f.mbits < f.bias) :
    Fmt.RoundsTo f c.nearbyint c.env.mode.toInt ∧ Fmt.RoundsTo f c.trunc truncZ ∧ Fmt.RoundsTo f c.floor Int.floor ∧
      Fmt.RoundsTo f c.ceil Int.ceil ∧ Fmt.RoundsTo f c.round roundAway := by
  by_cases hp : c.path = .sse2
  · have h : c.rnd = .sse2 ∧ f = Rounding.b32 := by
      unfold path at hp
      split at hp
      · exact absurd hp (by simp)
      · rename_i hc; refine ⟨hp, ?_⟩; by_contra hne; exact hc ⟨hp, hne⟩
    obtain ⟨_, rfl⟩ := h
    have := Props.C35_sse2 c.env
    unfold nearbyint trunc floor ceil round
    rw [hp]
    exact ⟨this.1, this.2.1, this.2.2.1, this.2.2.2, Props.C35_sse2_round c.env⟩
  · have := Props.C35_x86 c.env hf hw c.path hp c.sse2Trunc
    refine ⟨this.1, this.2.1, this.2.2.1, this.2.2.2, ?_⟩
    unfold round
    cases h : c.path
    · exact Props.C35_x86_round c.env hf hw
    · exact absurd h hp
    · exact Props.C35_round c.env hf hw

theorem isnan_eq (hf : f.Ok) : c.isnan = fun a => decide (f.isNaN a) := by
  funext a
  have := Props.C34_isnan hf a
  unfold isnan
  split
  · exact this.2.2
  split
  · exact this.2.1
  · exact this.1

theorem isunordered_eq (hf : f.Ok) : c.isunordered = f.unordered := by
  funext a b
  unfold isunordered
  split
  · exact (Props.C33_isunordered hf a b).2.2
  · rw [isnan_eq c hf]
    have := (Props.C33_isunordered hf a b).1
    unfold FloatBits.isunordered at this ⊢
    rw [(Props.C34_isnan hf a).1, (Props.C34_isnan hf b).1] at this
    exact this

theorem isfinite_eq (hf : f.Ok) : c.isfinite = fun a => decide (f.isFinite a) := by
  funext a
  have := Props.C34_isfinite hf a
  unfold isfinite
  cases c.cls
  · exact this.1
  · exact this.2.1
  · exact this.2.2

theorem isnormal_eq (hf : f.Ok) : c.isnormal = fun a => decide (f.isNormal a) := by
  funext a
  have := Props.C34_isnormal hf a
  unfold isnormal
  cases c.cls
  · exact this.1
  · exact this.2.1
  · exact this.2.2

theorem rel_eq (hf : f.Ok) (o : Test2) : c.rel o = stdRel f o := by
  funext a b
  have h1 := Props.C33_x86 hf c.cmp a b
  have h2 := Props.C33_generic hf c.isunordered (fun x y => by rw [isunordered_eq c hf]) a b
  cases o <;> simp only [rel, stdRel]
  · split
    · exact h1.1
    · exact h2.1
  · split
    · exact h1.2.1
    · exact h2.2.1
  · split
    · exact h1.2.2.1
    · exact h2.2.2.1
  · split
    · exact h1.2.2.2.1
    · exact h2.2.2.2.1
  · split
    · exact h1.2.2.2.2
    · exact h2.2.2.2.2
  · rw [isunordered_eq c hf]

end FloatCtx

theorem pick_same (g : Geo) {α : Type} {a b : α} (h : b = a) : pick g a b = a := by
  rw [h]; cases g <;> rfl

theorem round_std (env : f.Env) (hf : f.Ok) (hw : f.mbits < f.bias) : Fmt.RoundsTo f (NeonMath.rintAway env) roundAway :=
  (Props.C35_neon env hf hw .a32 (by simp) id).2.1

/-- The functions of registers of floating-point numbers. -/
theorem floatRegFuns_implements (hf : f.Ok) (hw : f.mbits < f.bias) (env : f.Env) (lib : Lib f) (C : Geo → FloatCtx f) {g : Geo} (hg : g.Ok)
    (he : (C g).env = env) (hl : (C g).lib = lib) : ImplementsFn (floatRegFuns C) (floatFuns env lib) g := by
  subst he hl
  have hr := (C g).rounds hf hw
  have hs := Props.C35_x86 (C g).env hf hw .instr (by simp) id
  have lib1 : ∀ (F : f.Bits → f.Bits) (x : List f.Bits) (r : Nat → f.Bits), (∀ i < g.size, ∃ a, x[i]? = some a ∧ some (F a) = some (r i)) →
      ∃ z, libCall (fun l => F (l.headD 0)) (0 : f.Bits) g [x] = some z ∧ z.length = g.full ∧ ∀ i < g.size, z[i]? = some (r i) := by
    intro F x r h
    choose! a ha hr using h
    obtain ⟨z, h1, h2, h3⟩ := libCall_implements (0 : f.Bits) hg (fun l => F (l.headD 0)) [x] [a] (.cons ha .nil)
    exact ⟨z, h1, h2, fun i hi => (h3 i hi).trans (hr i hi)⟩
  have lib2 : ∀ (F : f.Bits → f.Bits → f.Bits) (x y : List f.Bits) (r : Nat → f.Bits),
      (∀ i < g.size, ∃ a b, x[i]? = some a ∧ y[i]? = some b ∧ some (F a b) = some (r i)) →
      ∃ z, libCall (fun l => F (l.headD 0) (l.tail.headD 0)) (0 : f.Bits) g [x, y] = some z ∧ z.length = g.full ∧
        ∀ i < g.size, z[i]? = some (r i) := by
    intro F x y r h
    choose! a b ha hb hr using h
    obtain ⟨z, h1, h2, h3⟩ := libCall_implements (0 : f.Bits) hg (fun l => F (l.headD 0) (l.tail.headD 0)) [x, y] [a, b] (.cons ha (.cons hb .nil))
    exact ⟨z, h1, h2, fun i hi => (h3 i hi).trans (hr i hi)⟩
  have lib3 : ∀ (F : f.Bits → f.Bits → f.Bits → f.Bits) (x y z : List f.Bits) (r : Nat → f.Bits),
      (∀ i < g.size, ∃ a b c, x[i]? = some a ∧ y[i]? = some b ∧ z[i]? = some c ∧ some (F a b c) = some (r i)) →
      ∃ w, libCall (fun l => F (l.headD 0) (l.tail.headD 0) (l.tail.tail.headD 0)) (0 : f.Bits) g [x, y, z] = some w ∧ w.length = g.full ∧
        ∀ i < g.size, w[i]? = some (r i) := by
    intro F x y z r h
    choose! a b c ha hb hc hr using h
    obtain ⟨w, h1, h2, h3⟩ := libCall_implements (0 : f.Bits) hg (fun l => F (l.headD 0) (l.tail.headD 0) (l.tail.tail.headD 0)) [x, y, z] [a, b, c]
      (.cons ha (.cons hb (.cons hc .nil)))
    exact ⟨w, h1, h2, fun i hi => (h3 i hi).trans (hr i hi)⟩
  refine ⟨?_, ?_, ?_, ?_, ?_⟩
  · intro o x r hx h
    cases o
    case abs =>
      exact map1_implements (α := f.Bits) hg _ (fun a => some (withSign false a))
        (fun a b e => (congrFun (pick_same g (funext abs_withSign)) a).trans (Option.some.inj e)) x r hx h
    case fabs =>
      exact map1_implements (α := f.Bits) hg _ (fun a => some (withSign false a))
        (fun a b e => (congrFun (pick_same g (funext abs_withSign)) a).trans (Option.some.inj e)) x r hx h
    case sqrt =>
      by_cases hq : (C g).sqrtInstr = true
      · obtain ⟨z, h1, h2⟩ := map1_implements (α := f.Bits) hg (Fmt.sqrt (C g).env) (fun a => some (Fmt.sqrt (C g).env a))
          (fun a b e => Option.some.inj e) x r hx h
        exact ⟨z, (if_pos hq).trans h1, h2⟩
      · obtain ⟨z, h1, h2⟩ := lib1 (Fmt.sqrt (C g).env) x r h
        exact ⟨z, (if_neg hq).trans h1, h2⟩
    case trunc =>
      exact map1_implements (α := f.Bits) hg _ (integral truncZ)
        (pick_eq g (p := fun F : f.Bits → f.Bits => ∀ a b : f.Bits, integral truncZ a = some b → F a = b) (integral_ok hf hs.2.1) (integral_ok hf hr.2.1)) x r hx h
    case floor =>
      exact map1_implements (α := f.Bits) hg _ (integral Int.floor)
        (pick_eq g (p := fun F : f.Bits → f.Bits => ∀ a b : f.Bits, integral Int.floor a = some b → F a = b) (integral_ok hf hs.2.2.1) (integral_ok hf hr.2.2.1)) x r hx h
    case ceil =>
      exact map1_implements (α := f.Bits) hg _ (integral Int.ceil)
        (pick_eq g (p := fun F : f.Bits → f.Bits => ∀ a b : f.Bits, integral Int.ceil a = some b → F a = b) (integral_ok hf hs.2.2.2) (integral_ok hf hr.2.2.2.1)) x r hx h
    case rint =>
      exact map1_implements (α := f.Bits) hg _ (integral (C g).env.mode.toInt)
        (pick_eq g (p := fun F : f.Bits → f.Bits => ∀ a b : f.Bits, integral (C g).env.mode.toInt a = some b → F a = b) (integral_ok hf hs.1) (integral_ok hf hr.1)) x r hx h
    case nearbyint =>
      exact map1_implements (α := f.Bits) hg _ (integral (C g).env.mode.toInt)
        (pick_eq g (p := fun F : f.Bits → f.Bits => ∀ a b : f.Bits, integral (C g).env.mode.toInt a = some b → F a = b) (integral_ok hf hs.1) (integral_ok hf hr.1)) x r hx h
    case round =>
      exact map1_implements (α := f.Bits) hg _ (integral roundAway)
        (pick_eq g (p := fun F : f.Bits → f.Bits => ∀ a b : f.Bits, integral roundAway a = some b → F a = b) (integral_ok hf (round_std _ hf hw)) (integral_ok hf hr.2.2.2.2))
        x r hx h
    case lib k => exact lib1 ((C g).lib.l1 k) x r h
  · intro o x y r hx hy h
    cases o
    case min => exact map2_implements hg (Compare.elemMin (.float f) g) _ (fun a b c => least_ok g a b c) x y r hx hy h
    case max => exact map2_implements hg (Compare.elemMax (.float f) g) _ (fun a b c => greatest_ok g a b c) x y r hx hy h
    case copysign =>
      exact map2_implements (α := f.Bits) hg _ (fun a b => some (withSign (f.sign b) a))
        (fun a b c e => (congrFun (congrFun (pick_same g (funext fun a => funext fun b => copysign_withSign a b)) a) b).trans (Option.some.inj e)) x y r hx hy h
    case lib k => exact lib2 ((C g).lib.l2 k) x y r h
  · intro o x y z r hx hy hz h
    cases o
    case fma => exact lib3 (Fmt.fma (C g).env) x y z r h
    case lib k => exact lib3 ((C g).lib.l3 k) x y z r h
  · intro o p x hp hx
    cases o
    case isfinite =>
      have hp : (fun a : f.Bits => decide (f.isFinite a)) = p := Option.some.inj hp
      subst hp
      obtain ⟨k, h1, h2⟩ := classify_spec (fun a : f.Bits => decide (f.isFinite a)) hg x hx
      exact ⟨k, (congrArg (fun q => classify q g x) (pick_same g ((C g).isfinite_eq hf))).trans h1, h2⟩
    case isinf =>
      have hp : (fun a : f.Bits => decide (f.isInf a)) = p := Option.some.inj hp
      subst hp
      have e1 : pick g (fun a : f.Bits => decide (f.isInf a)) (FloatBits.x86IsinfDq f) = fun a => decide (f.isInf a) :=
        pick_same g (funext fun a => (Props.C34_isinf hf a).2)
      have e2 : pick g (fun a : f.Bits => decide (f.isInf a)) (FloatBits.isinf f) = fun a => decide (f.isInf a) :=
        pick_same g (funext fun a => (Props.C34_isinf hf a).1)
      show ∃ k, (match (C g).cls with
        | .dq => classifyRaw (pick g (fun a : f.Bits => decide (f.isInf a)) (FloatBits.x86IsinfDq f)) g x
        | _ => classify (pick g (fun a : f.Bits => decide (f.isInf a)) (FloatBits.isinf f)) g x) = some k ∧ _
      cases (C g).cls <;> dsimp only
      · rw [e2]; exact classify_spec _ hg x hx
      · rw [e1]; exact classifyRaw_spec _ hg x hx
      · rw [e2]; exact classify_spec _ hg x hx
    case isnan =>
      have hp : (fun a : f.Bits => decide (f.isNaN a)) = p := Option.some.inj hp
      subst hp
      obtain ⟨k, h1, h2⟩ := classify_spec (fun a : f.Bits => decide (f.isNaN a)) hg x hx
      exact ⟨k, (congrArg (fun q => classify q g x) (pick_same g ((C g).isnan_eq hf))).trans h1, h2⟩
    case isnormal =>
      have hp : (fun a : f.Bits => decide (f.isNormal a)) = p := Option.some.inj hp
      subst hp
      obtain ⟨k, h1, h2⟩ := classify_spec (fun a : f.Bits => decide (f.isNormal a)) hg x hx
      exact ⟨k, (congrArg (fun q => classify q g x) (pick_same g ((C g).isnormal_eq hf))).trans h1, h2⟩
    case signbit =>
      have hp : (fun a : f.Bits => f.sign a) = p := Option.some.inj hp
      subst hp
      have e1 : pick g f.sign (FloatBits.x86Signbit f) = fun a : f.Bits => f.sign a := pick_same g (funext fun a => (Props.C34_signbit a).2)
      have e2 : pick g f.sign (FloatBits.signbit f) = fun a : f.Bits => f.sign a := pick_same g (funext fun a => (Props.C34_signbit a).1)
      by_cases hx8 : (C g).x86 = true
      · obtain ⟨k, h1, h2⟩ := classifyRaw_spec (fun a : f.Bits => f.sign a) hg x hx
        exact ⟨k, (if_pos hx8).trans ((congrArg (fun q => classifyRaw q g x) e1).trans h1), h2⟩
      · obtain ⟨k, h1, h2⟩ := classify_spec (fun a : f.Bits => f.sign a) hg x hx
        exact ⟨k, (if_neg hx8).trans ((congrArg (fun q => classify q g x) e2).trans h1), h2⟩
  · intro o p x y hp hx hy
    have hp' : stdRel f o = p := by cases o <;> exact Option.some.inj hp
    subst hp'
    obtain ⟨k, h1, h2⟩ := cmp_spec (stdRel f o) hg x y hx hy
    exact ⟨k, (congrArg (fun q => Native.cmp q g x y) (pick_same g ((C g).rel_eq hf o))).trans h1, h2⟩

/-- Fewer programs. -/
theorem Implements.weaken {K : Kind} {R : RegImpl K} {E E' : Program.Elem K} {g : Geo} (h : Implements R E g)
    (hu : ∀ o a r, E'.un o a = some r → E.un o a = some r) (hb : ∀ o a b r, E'.bin o a b = some r → E.bin o a b = some r)
    (hs : ∀ l a s r, E'.shift l a s = some r → E.shift l a s = some r) (hw : E'.width = E.width) (hf : E'.fn = E.fn) : Implements R E' g where
  un o x r hx hr := h.un o x r hx (fun i hi => by obtain ⟨a, h1, h2⟩ := hr i hi; exact ⟨a, h1, hu _ _ _ h2⟩)
  bin o x y r hx hy hr := h.bin o x y r hx hy (fun i hi => by obtain ⟨a, b, h1, h2, h3⟩ := hr i hi; exact ⟨a, b, h1, h2, hb _ _ _ _ h3⟩)
  shift l x s r hx hsw hr := h.shift l x s r hx (hw ▸ hsw) (fun i hi => by obtain ⟨a, h1, h2⟩ := hr i hi; exact ⟨a, h1, hs _ _ _ _ h2⟩)
  fn := hf ▸ h.fn

theorem floatReg_implements (hf : f.Ok) (hw : f.mbits < f.bias) (env : f.Env) (lib : Lib f) (C : Geo → FloatCtx f) {g : Geo} (hg : g.Ok)
    (he : (C g).env = env) (hl : (C g).lib = lib) : Implements (floatReg env C) (ieeeElem env lib) g := by
  refine ((builtinFloat_implements (K := .float f) (Fmt.ofInt env 1 : f.Bits) (floatUn env) (floatBin env) hg).withFuns
    (floatRegFuns_implements hf hw env lib C hg he hl)).weaken ?_ ?_ ?_ rfl rfl
  · intro o a r h
    cases o
    case compl => exact absurd h (by simp [ieeeElem])
    all_goals exact h
  · intro o a b r h
    cases o
    case add => exact h
    case sub => exact h
    case mul => exact h
    case div => exact h
    all_goals exact absurd h (by simp [ieeeElem])
  · intro l a s r h; exact absurd h (by simp [ieeeElem])

end

end StdSimd.SimdClass
