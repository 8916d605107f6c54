import Verif.Proofs.MathCall
import Verif.Props.FixedSize
/-!
# C59: math functions without a vector implementation

`call` is the C library function, with side effects in any monad (`errno`, exception flags, ...); `MathCall.Holds n a f` says that the
argument `a` (a register or a tuple of registers, with arbitrary padding) has the elements `f 0`, ..., `f (n - 1)`.  The right-hand sides
say: call the function for the elements 0, ..., n - 1 in this order, each once, with the elements of all arguments at this index, and make
an object of the results.  (`some`: no element out of bounds is accessed.)
-/
namespace StdSimd.Props
open StdSimd Tuple Native MathCall

variable {V : Type} {m : Type → Type} [Monad m] [LawfulMonad m] {t : Abi.Target} {T : Abi.Elem} {n : Nat}

/-- C59. Functions that return the element type (`acos`, ..., `fma`, `ldexp`, `scalbn`), on one register. -/
theorem C59_fallback (call : List V → m V) (zero : V) {g : Geo} (hg : g.Ok) {args : List (MathCall.Arg V)} {fs : List (Nat → V)}
    (h : List.Forall₂ (Holds g.size) args fs) : (MathCall.fallback call zero g args).run = (do
      let rs ← (List.range g.size).mapM (fun i => call (fs.map (fun f => f i)))
      pure (some (rs ++ List.replicate (g.full - g.size) zero))) := fallback_eq call zero hg h

/-- C59. Functions that return another type (`ilogb`, `lrint`, ..., `llround`): the result is a `fixed_size` simd, on any target, with any
number of registers. -/
theorem C59_fallback_fixed (ht : t.Consistent) (hT : T.Ok) (h1 : 1 ≤ n) (zero : V) : ∃ F : List V → Tup V,
    (∀ rs, rs.length = n → Wf (regs t T n) (F rs) ∧ lanes (regs t T n) (F rs) = rs) ∧
    ∀ (call : List V → m V) (args : List (MathCall.Arg V)) (fs : List (Nat → V)), List.Forall₂ (Holds n) args fs →
      (fallbackFixed call zero (regs t T n) args).run = (do
        let rs ← (List.range n).mapM (fun i => call (fs.map (fun f => f i)))
        pure (some (F rs))) := by
  obtain ⟨_, hok, htot, _⟩ := regs_facts ht hT h1
  exact ⟨pack zero (regs t T n), fun rs hrs => pack_spec zero hok (by omega), fun call _ _ h => fallbackFixed_eq call ht hT h1 zero h⟩

/-- C59. `remquo`: remainders are returned, quotients are stored to the elements of the third argument; its previous value is of no
importance. -/
theorem C59_remquo (call : List V → m (V × V)) (zero : V) {g : Geo} (hg : g.Ok) (ht : t.Consistent) (hT : T.Ok) (h1 : 1 ≤ g.size)
    {x y : MathCall.Arg V} {a b : Nat → V} (hx : Holds g.size x a) (hy : Holds g.size y b) {z : Tup V} (hz : Wf (regs t T g.size) z) :
    ∃ Z : List (V × V) → Tup V,
      (∀ rs, rs.length = g.size → Wf (regs t T g.size) (Z rs) ∧ lanes (regs t T g.size) (Z rs) = rs.map Prod.snd) ∧
      (MathCall.remquo call zero g (regs t T g.size) x y z).run = (do
        let rs ← (List.range g.size).mapM (fun i => call [a i, b i])
        pure (some (rs.map Prod.fst ++ List.replicate (g.full - g.size) zero, Z rs))) := by
  refine ⟨_, fun rs hrs => ?_, remquo_eq call zero hg _ hx hy z⟩
  obtain ⟨_, hok, htot, _⟩ := regs_facts ht hT h1
  have h2 := C09_write_history ht hT h1 hz (((List.range g.size).zip rs).map (fun w => (w.1, w.2.2))) (by
    intro w hw
    obtain ⟨w', hw', rfl⟩ := List.mem_map.1 hw
    simpa using (List.of_mem_zip hw').1)
  rw [List.foldl_map, List.foldl_map] at h2
  refine ⟨h2.1, h2.2.trans ?_⟩
  have h3 := foldl_set (Prod.snd (α := V) (β := V)) rs (lanes (regs t T g.size) z) 0 (by rw [length_lanes hok hz, htot]; omega)
  rw [hrs, ← List.range_eq_range'] at h3
  rw [h3]
  simp

/-- C59. The special functions other than `sph_legendre` that can be called at all: every element is the function of namespace `std` with
the same name. -/
theorem C59_special_partial (ht : t.Consistent) (hT : T.Ok) (h1 : 1 ≤ n) (zero : V) : ∃ F : List V → Tup V,
    (∀ rs, rs.length = n → Wf (regs t T n) (F rs) ∧ lanes (regs t T n) (F rs) = rs) ∧
    ∀ (std : Special → List V → m V) (fn : Special), fn ≠ .sph_legendre →
      ∀ (args : List (MathCall.Arg V)) (fs : List (Nat → V)), List.Forall₂ (Holds n) args fs →
        ∀ p, MathCall.special std zero (regs t T n) fn args = some p → p.run = (do
          let rs ← (List.range n).mapM (fun i => std fn (fs.map (fun f => f i)))
          pure (some (F rs))) := by
  obtain ⟨_, hok, htot, _⟩ := regs_facts ht hT h1
  refine ⟨pack zero (regs t T n), fun rs hrs => pack_spec zero hok (by omega), fun std fn hfn args fs h p hp => ?_⟩
  have hc : fn.callee = none ∨ fn.callee = some fn := by cases fn <;> simp_all [Special.callee]
  unfold MathCall.special at hp
  rcases hc with hc | hc
  · rw [hc] at hp; cases hp
  · rw [hc] at hp
    cases hp
    exact special_eq (std fn) ht hT h1 zero h

/-- C59 fails for `sph_legendre`: the result is `std::assoc_legendre` of every element. -/
theorem C59_sph_legendre_false (ht : t.Consistent) (hT : T.Ok) (zero : V) (std : Special → List V → Id V) (args : List (MathCall.Arg V))
    (fs : List (Nat → V)) (h1 : 1 ≤ n) (h : List.Forall₂ (Holds n) args fs)
    (hd : std .sph_legendre (fs.map (fun f => f 0)) ≠ std .assoc_legendre (fs.map (fun f => f 0))) :
    ∃ p r, MathCall.special std zero (regs t T n) .sph_legendre args = some p ∧ p.run = pure (some r) ∧ Wf (regs t T n) r ∧
      (lanes (regs t T n) r)[0]? = some (std .assoc_legendre (fs.map (fun f => f 0))) ∧
      (lanes (regs t T n) r)[0]? ≠ some (std .sph_legendre (fs.map (fun f => f 0))) := by
  obtain ⟨_, hok, htot, _⟩ := regs_facts ht hT h1
  have hp := special_eq (m := Id) (std .assoc_legendre) ht hT h1 zero h
  have hm : ∀ l : List Nat, (l.mapM (m := Id) (fun i => std .assoc_legendre (fs.map (fun f => f i)))) =
      l.map (fun i => std .assoc_legendre (fs.map (fun f => f i))) := by
    intro l
    induction l with
    | nil => rfl
    | cons i l ih => rw [List.mapM_cons, ih]; rfl
  rw [hm] at hp
  have hs := pack_spec zero hok (xs := (List.range n).map (fun i => std .assoc_legendre (fs.map (fun f => f i)))) (by simp [htot])
  have h0 : (lanes (regs t T n) (pack zero (regs t T n) ((List.range n).map (fun i => std .assoc_legendre (fs.map (fun f => f i))))))[0]? =
      some (std .assoc_legendre (fs.map (fun f => f 0))) := by
    rw [hs.2]
    have : 0 < n := h1
    simp [this]
  refine ⟨_, _, rfl, hp, hs.1, h0, ?_⟩
  rw [h0]
  intro e
  exact hd (Option.some.inj e).symm

/-- These special functions cannot be called: no ABI implements them. -/
theorem C59_special_missing (std : Special → List V → m V) (zero : V) (gs : List Geo) (args : List (MathCall.Arg V)) (fn : Special)
    (h : fn ∈ [Special.beta, .comp_ellint_1, .comp_ellint_2, .comp_ellint_3, .cyl_bessel_i, .cyl_bessel_j, .cyl_bessel_k, .cyl_neumann,
      .ellint_1, .ellint_2, .ellint_3, .expint, .riemann_zeta]) : (MathCall.special std zero gs fn args).isNone = true := by
  simp only [List.mem_cons, List.not_mem_nil, or_false] at h
  rcases h with rfl | rfl | rfl | rfl | rfl | rfl | rfl | rfl | rfl | rfl | rfl | rfl | rfl <;> rfl

/-! ## concrete cases -/

/-- A register with three elements and padding. -/
theorem exHolds_reg : Holds 3 (.reg [10, 20, 30, 99]) (fun i => 10 * (i + 1)) := .reg _ _ (by decide)

/-- An 11-element `int` argument in two registers. -/
theorem exHolds_tup : Holds 11 (.tup (regs exAvx2 ⟨4, true⟩ 11) exTup) (fun i => i + 1) :=
  .tup exAvx2 ⟨4, true⟩ exAvx2_ok (by decide) (by decide) exTup _ exTup_wf (by rw [exRegs_avx2]; rfl)

-- three calls for three elements, in order, although the register has four
example : ((MathCall.fallback (m := StateM (List (List Nat))) (fun vs log => (vs.foldl (· + ·) 0, log ++ [vs])) 0 (.vec 32 3 4)
    [.reg [10, 20, 30, 99], .reg [10, 20, 30, 77]]).run []) = (some [20, 40, 60, 0], [[10, 10], [20, 20], [30, 30]]) := rfl

/-- A function without side effects. -/
def exSum (vs : List Nat) : Id Nat := pure (vs.foldl (· + ·) 0)

example : (MathCall.fallback exSum 0 (.vec 32 3 4) [.reg [10, 20, 30, 99], .reg [10, 20, 30, 99]]).run = (pure (some [20, 40, 60, 0]) : Id _) := by
  rw [C59_fallback exSum 0 (g := .vec 32 3 4) (by decide) (.cons exHolds_reg (.cons exHolds_reg .nil))]
  rfl

example : ∃ r, (fallbackFixed exSum 0 (regs exAvx2 ⟨4, true⟩ 11)
    [.tup (regs exAvx2 ⟨4, true⟩ 11) exTup, .tup (regs exAvx2 ⟨4, true⟩ 11) exTup]).run = (pure (some r) : Id _) ∧
    lanes (regs exAvx2 ⟨4, true⟩ 11) r = [2, 4, 6, 8, 10, 12, 14, 16, 18, 20, 22] := by
  obtain ⟨F, hF, h⟩ := C59_fallback_fixed (m := Id) (V := Nat) exAvx2_ok (T := ⟨4, true⟩) (n := 11) (by decide) (by decide) 0
  refine ⟨F [2, 4, 6, 8, 10, 12, 14, 16, 18, 20, 22], ?_, (hF _ rfl).2⟩
  rw [h exSum _ _ (.cons exHolds_tup (.cons exHolds_tup .nil))]
  rfl

-- the conditions of the counterexample: a vector of 11 elements, where the two functions differ
example : ∃ p r, MathCall.special (m := Id) (fun fn (_ : List Nat) => if fn = .sph_legendre then 28 else 100) 0 (regs exAvx2 ⟨4, true⟩ 11)
      .sph_legendre [.tup (regs exAvx2 ⟨4, true⟩ 11) exTup] = some p ∧ p.run = pure (some r) ∧
      (lanes (regs exAvx2 ⟨4, true⟩ 11) r)[0]? = some 100 := by
  obtain ⟨p, r, h1, h2, -, h3, -⟩ := C59_sph_legendre_false (V := Nat) exAvx2_ok (T := ⟨4, true⟩) (n := 11) (by decide) 0
    (fun fn (_ : List Nat) => if fn = .sph_legendre then 28 else 100) [.tup (regs exAvx2 ⟨4, true⟩ 11) exTup] _ (by decide)
    (.cons exHolds_tup .nil) (by show (28 : Nat) ≠ 100; decide)
  exact ⟨p, r, h1, h2, h3⟩

end StdSimd.Props
