import Verif.Model.MathCall
import Verif.Proofs.FixedSize
import Mathlib.Data.List.Forall2
/-! # Math functions without a vector implementation -/
namespace StdSimd.MathCall
open Native Tuple

variable {V : Type}

/-- The argument has the elements `f 0`, ..., `f (n - 1)`. -/
inductive Holds (n : Nat) : Arg V → (Nat → V) → Prop where
  | reg (x : List V) (f : Nat → V) (h : x.take n = (List.range n).map f) : Holds n (.reg x) f
  | tup (t : Abi.Target) (U : Abi.Elem) (ht : t.Consistent) (hU : U.Ok) (hn : 1 ≤ n) (x : Tup V) (f : Nat → V) (hx : Wf (regs t U n) x)
      (h : lanes (regs t U n) x = (List.range n).map f) : Holds n (.tup (regs t U n) x) f

theorem Holds.read {n : Nat} {a : Arg V} {f : Nat → V} (h : Holds n a f) {i : Nat} (hi : i < n) : a.read i = some (f i) := by
  cases h with
  | reg x f h =>
    have : (x.take n)[i]? = some (f i) := by rw [h]; simp [hi]
    rw [List.getElem?_take, if_pos hi] at this
    exact this
  | tup t U ht hU hn x f hx h =>
    obtain ⟨_, hok, htot, _⟩ := regs_facts ht hU hn
    show Tuple.get _ x i = _
    rw [Tuple.get_eq hok hx (by omega), h]
    simp [hi]

theorem reads {n : Nat} {as : List (Arg V)} {fs : List (Nat → V)} (h : List.Forall₂ (Holds n) as fs) {i : Nat} (hi : i < n) :
    as.mapM (Arg.read i) = some (fs.map (fun f => f i)) := by
  induction h with
  | nil => rfl
  | cons h _ ih => rw [List.mapM_cons, h.read hi, ih]; rfl

variable {m : Type → Type} [Monad m] [LawfulMonad m]

theorem callAt_eq (call : List V → m V) {n : Nat} {as : List (Arg V)} {fs : List (Nat → V)} (h : List.Forall₂ (Holds n) as fs) {i : Nat}
    (hi : i < n) : callAt call as i = OptionT.lift (call (fs.map (fun f => f i))) := by
  unfold callAt
  rw [reads h hi]
  exact pure_bind (m := OptionT m) _ _

theorem mapM_lift {α β : Type} (F : α → OptionT m β) (G : α → m β) :
    ∀ l : List α, (∀ a ∈ l, F a = OptionT.lift (G a)) → l.mapM F = OptionT.lift (l.mapM G)
  | [], _ => by
    apply OptionT.ext
    simp
  | a :: l, h => by
    rw [List.mapM_cons, List.mapM_cons, h a (by simp), mapM_lift F G l (fun b hb => h b (by simp [hb]))]
    apply OptionT.ext
    simp

theorem fallback_eq (call : List V → m V) (zero : V) {g : Geo} (hg : g.Ok) {as : List (Arg V)} {fs : List (Nat → V)}
    (h : List.Forall₂ (Holds g.size) as fs) : (fallback call zero g as).run = (do
      let rs ← (List.range g.size).mapM (fun i => call (fs.map (fun f => f i)))
      pure (some (rs ++ List.replicate (g.full - g.size) zero))) := by
  unfold fallback
  rw [generator_eq hg, mapM_lift _ (fun i => call (fs.map (fun f => f i))) _ (fun i hi => callAt_eq call h (by simpa using hi))]
  simp

theorem generator_congr {α : Type} {g : Geo} (hg : g.Ok) (zero : α) {F G : Nat → m α} (h : ∀ i < g.size, F i = G i) :
    Native.generator g zero F = Native.generator g zero G := by
  rw [generator_eq hg, generator_eq hg]
  have : ∀ l : List Nat, (∀ i ∈ l, i < g.size) → l.mapM F = l.mapM G := by
    intro l hl
    induction l with
    | nil => rfl
    | cons i l ih => rw [List.mapM_cons, List.mapM_cons, h i (hl i (by simp)), ih (fun j hj => hl j (by simp [hj]))]
  rw [this _ (fun i hi => by simpa using hi)]

theorem generate_congr {α : Type} {F G : Geo → Nat → m (List α)} (N : Nat) :
    ∀ (gs : List Geo) (off : Nat), (∀ g ∈ gs, ∀ o, F g o = G g o) → Tuple.generate F gs off = Tuple.generate G gs off
  | [], _, _ => rfl
  | [g], off, h => by simp only [Tuple.generate]; rw [h g (by simp)]
  | g :: g' :: gs, off, h => by
    simp only [Tuple.generate]
    rw [h g (by simp), generate_congr N (g' :: gs) _ (fun a ha o => h a (by simp [ha]) o)]

variable {t : Abi.Target} {T : Abi.Elem} {n : Nat}

theorem generator_lift (ht : t.Consistent) (hT : T.Ok) (h1 : 1 ≤ n) (zero : V) (gen : Nat → OptionT m V) (G : Nat → m V)
    (h : ∀ i < n, gen i = OptionT.lift (G i)) : (Tuple.generator (regs t T n) zero gen).run = (do
      let rs ← (List.range n).mapM G
      pure (some (pack zero (regs t T n) rs))) := by
  obtain ⟨hne, hok, htot, _⟩ := regs_facts ht hT h1
  unfold Tuple.generator
  rw [generate_gen zero gen (total (regs t T n)) (regs t T n) 0 hne hok (fun g hg => size_le_total hg), htot, ← List.range_eq_range',
    mapM_lift gen G _ (fun i hi => h i (by simpa using hi))]
  simp

theorem special_eq (call : List V → m V) (ht : t.Consistent) (hT : T.Ok) (h1 : 1 ≤ n) (zero : V) {as : List (Arg V)} {fs : List (Nat → V)}
    (h : List.Forall₂ (Holds n) as fs) : (Tuple.generator (regs t T n) zero (callAt call as)).run = (do
      let rs ← (List.range n).mapM (fun i => call (fs.map (fun f => f i)))
      pure (some (pack zero (regs t T n) rs))) :=
  generator_lift ht hT h1 zero _ _ (fun _ hi => callAt_eq call h hi)

theorem fallbackFixed_eq (call : List V → m V) (ht : t.Consistent) (hT : T.Ok) (h1 : 1 ≤ n) (zero : V) {as : List (Arg V)} {fs : List (Nat → V)}
    (h : List.Forall₂ (Holds n) as fs) : (fallbackFixed call zero (regs t T n) as).run = (do
      let rs ← (List.range n).mapM (fun i => call (fs.map (fun f => f i)))
      pure (some (pack zero (regs t T n) rs))) := by
  obtain ⟨_, hok, htot, _⟩ := regs_facts ht hT h1
  rw [← special_eq call ht hT h1 zero h]
  unfold fallbackFixed Tuple.generator
  congr 1
  refine generate_congr 0 _ _ (fun g hg o => generator_congr (hok g hg) zero (fun i hi => ?_))
  rw [if_pos (Nat.lt_of_lt_of_le hi (size_le_total hg))]

/-! ## remquo -/

theorem remquoAt_run (call : List V → m (V × V)) (gz : List Geo) {x y : Arg V} {a b : Nat → V} {n : Nat} (hx : Holds n x a) (hy : Holds n y b)
    {i : Nat} (hi : i < n) (z : Tup V) : ((remquoAt call gz x y i).run z).run = (do
      let r ← call [a i, b i]
      pure (some (r.1, Tuple.set gz z i r.2))) := by
  have hr : [x, y].mapM (Arg.read i) = some [a i, b i] := by
    rw [List.mapM_cons, hx.read hi, List.mapM_cons, hy.read hi]; rfl
  unfold remquoAt
  rw [hr]
  simp [StateT.run_bind, OptionT.run_bind]

theorem remquo_loop (call : List V → m (V × V)) (gz : List Geo) {x y : Arg V} {a b : Nat → V} {n : Nat} (hx : Holds n x a) (hy : Holds n y b) :
    ∀ (l : List Nat), (∀ i ∈ l, i < n) → ∀ (z : Tup V), ((l.mapM (remquoAt call gz x y)).run z).run = (do
      let rs ← l.mapM (fun i => call [a i, b i])
      pure (some (rs.map Prod.fst, (l.zip rs).foldl (fun z (w : Nat × (V × V)) => Tuple.set gz z w.1 w.2.2) z)))
  | [], _, z => by simp
  | i :: l, h, z => by
    have ih := fun z => remquo_loop call gz hx hy l (fun j hj => h j (by simp [hj])) z
    have h1 := remquoAt_run call gz hx hy (h i (by simp)) z
    rw [List.mapM_cons, List.mapM_cons, StateT.run_bind, OptionT.run_bind, Option.elimM, h1]
    simp [StateT.run_bind, OptionT.run_bind, Option.elimM, ih]

theorem remquo_eq (call : List V → m (V × V)) (zero : V) {g : Geo} (hg : g.Ok) (gz : List Geo) {x y : Arg V} {a b : Nat → V}
    (hx : Holds g.size x a) (hy : Holds g.size y b) (z : Tup V) : (remquo call zero g gz x y z).run = (do
      let rs ← (List.range g.size).mapM (fun i => call [a i, b i])
      pure (some (rs.map Prod.fst ++ List.replicate (g.full - g.size) zero,
        ((List.range g.size).zip rs).foldl (fun z (w : Nat × (V × V)) => Tuple.set gz z w.1 w.2.2) z))) := by
  unfold remquo
  rw [generator_eq hg, StateT.run_bind, OptionT.run_bind, Option.elimM, remquo_loop call gz hx hy _ (fun i hi => by simpa using hi)]
  simp

/-- Writing all elements of a list in turn. -/
theorem foldl_set {α β : Type} (p : β → α) : ∀ (rs : List β) (l : List α) (o : Nat), l.length = o + rs.length →
    ((List.range' o rs.length).zip rs).foldl (fun (l : List α) (w : Nat × β) => l.set w.1 (p w.2)) l = l.take o ++ rs.map p
  | [], l, o, h => by
    simp only [List.length_nil, Nat.add_zero] at h
    simp [← h]
  | r :: rs, l, o, h => by
    simp only [List.length_cons] at h
    rw [List.length_cons, List.range'_succ, List.zip_cons_cons, List.foldl_cons, foldl_set p rs _ (o + 1) (by rw [List.length_set]; omega)]
    rw [List.take_set, List.take_add_one, List.getElem?_eq_getElem (by omega), List.set_append_right _ _ (by simp; omega)]
    have : min o l.length = o := by omega
    simp [this]

end StdSimd.MathCall
