import Verif.Model.Control
import Verif.Proofs.SimdClass
/-!
# Programs whose control flow depends on masks, for any correct implementation class
-/
namespace StdSimd.SimdClass
open Spec Spec.Program Spec.Control Native

variable {K : Kind} {β : Type}

theorem mapM_range {α : Type} {n : Nat} {p : Nat → Option α} {l : List α} (h : (List.range n).mapM p = some l) :
    l.length = n ∧ ∀ i < n, p i = l[i]? := by
  have key : ∀ (m : Nat) (l : List α), (List.range' m n).mapM p = some l → l.length = n ∧ ∀ i < n, p (m + i) = l[i]? := by
    clear h
    induction n with
    | zero => intro m l h; simp at h; subst h; exact ⟨rfl, fun i hi => by omega⟩
    | succ n ih =>
      intro m l h
      rw [List.range'_succ] at h
      simp only [List.mapM_cons, Option.bind_eq_bind, Option.bind_eq_some_iff, Option.pure_def, Option.some.injEq] at h
      obtain ⟨a, ha, r, hr, rfl⟩ := h
      obtain ⟨h1, h2⟩ := ih (m + 1) r hr
      refine ⟨by simp [h1], fun i hi => ?_⟩
      cases i with
      | zero => simpa using ha
      | succ i =>
        rw [List.getElem?_cons_succ, ← h2 i (by omega)]
        congr 1; omega
  rw [List.range_eq_range'] at h
  simpa using key 0 l h

theorem list_eq_map {α : Type} {n : Nat} {l : List α} {f : Nat → α} (hl : l.length = n) (h : ∀ i < n, l[i]? = some (f i)) :
    l = (List.range n).map f := by
  apply List.ext_getElem?
  intro i
  by_cases hi : i < n
  · rw [h i hi]; simp [hi]
  · rw [List.getElem?_eq_none (by omega), List.getElem?_eq_none (by simp; omega)]

/-- What programs expect of the reductions and subscripts of an implementation class; `find_last_set` only if `lastOk`. -/
structure RedCorrect {I : Impl K β} (R : RedImpl I) (A : Arith K) (lastOk : Prop) (VR : I.V → (Nat → K.Bits) → Prop)
    (MR : I.M → (Nat → Bool) → Prop) : Prop where
  allOf : ∀ {k b}, MR k b → R.allOf k = some (((List.range I.size).map b).all id)
  anyOf : ∀ {k b}, MR k b → R.anyOf k = some (((List.range I.size).map b).any id)
  noneOf : ∀ {k b}, MR k b → R.noneOf k = some (!((List.range I.size).map b).any id)
  someOf : ∀ {k b}, MR k b → R.someOf k = some (((List.range I.size).map b).any id && !((List.range I.size).map b).all id)
  popcount : ∀ {k b}, MR k b → R.popcount k = some (Spec.popcount ((List.range I.size).map b) : Int)
  first : ∀ {k b i}, MR k b → (Spec.setLanes ((List.range I.size).map b)).head? = some i → R.first k = some (i : Int)
  last : lastOk → ∀ {k b i}, MR k b → (Spec.setLanes ((List.range I.size).map b)).getLast? = some i → R.last k = some (i : Int)
  mget : ∀ {k b i}, MR k b → i < I.size → R.mget k i = some (b i)
  get : ∀ {x f i}, VR x f → i < I.size → R.get x i = some (f i)
  reduce : ∀ {o x f}, o.Ok A → VR x f → R.reduce o x = Spec.foldOf (o.fn A) ((List.range I.size).map f)
  whereReduce : ∀ {o k b x f ident}, o.Ok A → (∀ a, o.fn A a ident = a) → MR k b → VR x f →
    R.whereReduce o k x ident =
      some ((Spec.selected ((List.range I.size).map b) ((List.range I.size).map f)).foldl (o.fn A) ident)

section
variable {I : Impl K β} {E : Elem K} {A : Arith K} {lastOk : Prop} {ld : β → K.Bits} {st : K.Bits → β} {VR : I.V → (Nat → K.Bits) → Prop}
  {MR : I.M → (Nat → Bool) → Prop} {base : Nat → Nat} {R : RedImpl I}

theorem Frame.trans {S S' S'' : State I} (h : Frame I base S S') (h' : Frame I base S' S'') : Frame I base S S'' :=
  fun j a ha => (h' j a ha).trans (h j a ha)

theorem Frame.refl (S : State I) : Frame I base S S := fun _ _ _ => rfl

theorem bools_spec (hI : Correct I E ld st VR MR) {S : State I} {L : Nat → Lane K β} (hS : Rep I VR MR base S L) {k : ME K} {l : List Bool}
    (h : bools E I.size L k = some l) :
    ∃ (b : Nat → Bool) (x : I.M), l = (List.range I.size).map b ∧ evalM I E.width S k = some x ∧ MR x b := by
  obtain ⟨hl, he⟩ := mapM_range h
  have hb : ∀ i < I.size, k.eval E i (L i) = some (l.getD i false) := fun i hi => by
    rw [he i hi, List.getElem?_eq_getElem (by omega)]; simp [List.getD, List.getElem?_eq_getElem (show i < l.length by omega)]
  obtain ⟨x, hx, hm⟩ := evalM_spec hI hS k _ hb
  exact ⟨_, x, list_eq_map hl (fun i hi => (he i hi).symm.trans (hb i hi)), hx, hm⟩

theorem vals_spec (hI : Correct I E ld st VR MR) {S : State I} {L : Nat → Lane K β} (hS : Rep I VR MR base S L) {e : VE K} {l : List K.Bits}
    (h : vals E I.size L e = some l) :
    ∃ (f : Nat → K.Bits) (x : I.V), l = (List.range I.size).map f ∧ evalV I E.width S e = some x ∧ VR x f := by
  obtain ⟨hl, he⟩ := mapM_range h
  have hb : ∀ i < I.size, e.eval E i (L i) = some (l.getD i 0#K.width) := fun i hi => by
    rw [he i hi, List.getElem?_eq_getElem (by omega)]; simp [List.getD, List.getElem?_eq_getElem (show i < l.length by omega)]
  obtain ⟨x, hx, hm⟩ := evalV_spec hI hS e _ hb
  exact ⟨_, x, list_eq_map hl (fun i hi => (he i hi).symm.trans (hb i hi)), hx, hm⟩

theorem at_map {α : Type} {n : Nat} {f : Nat → α} {i : Int} {a : α} (h : at? ((List.range n).map f) i = some a) :
    0 ≤ i ∧ i.toNat < n ∧ f i.toNat = a := by
  unfold at? at h
  split at h
  · rename_i h0
    by_cases hi : i.toNat < n
    · rw [List.getElem?_map, List.getElem?_range hi] at h
      exact ⟨h0, hi, Option.some.inj h⟩
    · rw [List.getElem?_eq_none (by simp; omega)] at h; cases h
  · cases h

theorem sub_spec (hR : RedCorrect R A lastOk VR MR) {k : I.M} {b : Nat → Bool} (hk : MR k b) {i : Int} {a : Bool}
    (h : at? ((List.range I.size).map b) i = some a) : R.sub k i = some a := by
  obtain ⟨h0, h1, rfl⟩ := at_map h
  unfold RedImpl.sub
  rw [if_neg (by omega), if_neg (by omega), hR.mget hk h1]

theorem elemAt_spec (hR : RedCorrect R A lastOk VR MR) {x : I.V} {f : Nat → K.Bits} (hx : VR x f) {i : Int} {a : K.Bits}
    (h : at? ((List.range I.size).map f) i = some a) : R.elemAt x i = some a := by
  obtain ⟨h0, h1, rfl⟩ := at_map h
  unfold RedImpl.elemAt
  rw [if_neg (by omega), hR.get hx h1]

theorem evalN_spec (hI : Correct I E ld st VR MR) (hR : RedCorrect R A lastOk VR MR) {S : State I} {L : Nat → Lane K β}
    (hS : Rep I VR MR base S L) (i : NE K) (hu : i.usesLast = true → lastOk) {j : Int} (h : i.eval E I.size L = some j) :
    evalN R E.width S i = some j := by
  cases i with
  | lit i => exact h
  | popcount k =>
    simp only [NE.eval, Option.map_eq_some_iff] at h
    obtain ⟨l, hl, rfl⟩ := h
    obtain ⟨b, x, rfl, hx, hm⟩ := bools_spec hI hS hl
    simp only [evalN, hx]
    exact hR.popcount hm
  | first k =>
    simp only [NE.eval, Option.bind_eq_some_iff, Option.map_eq_some_iff] at h
    obtain ⟨l, hl, m, hm', rfl⟩ := h
    obtain ⟨b, x, rfl, hx, hm⟩ := bools_spec hI hS hl
    simp only [evalN, hx]
    exact hR.first hm hm'
  | last k =>
    simp only [NE.eval, Option.bind_eq_some_iff, Option.map_eq_some_iff] at h
    obtain ⟨l, hl, m, hm', rfl⟩ := h
    obtain ⟨b, x, rfl, hx, hm⟩ := bools_spec hI hS hl
    simp only [evalN, hx]
    exact hR.last (hu rfl) hm hm'

theorem evalC_spec (hI : Correct I E ld st VR MR) (hR : RedCorrect R A lastOk VR MR) {S : State I} {L : Nat → Lane K β}
    (hS : Rep I VR MR base S L) (c : CE K) : (c.usesLast = true → lastOk) → ∀ {b : Bool}, c.eval E I.size L = some b →
    evalC R E.width S c = some b := by
  induction c with
  | allOf k =>
    intro _ r h
    simp only [CE.eval, Option.map_eq_some_iff] at h
    obtain ⟨l, hl, rfl⟩ := h
    obtain ⟨b, x, rfl, hx, hm⟩ := bools_spec hI hS hl
    simp only [evalC, hx]
    exact hR.allOf hm
  | anyOf k =>
    intro _ r h
    simp only [CE.eval, Option.map_eq_some_iff] at h
    obtain ⟨l, hl, rfl⟩ := h
    obtain ⟨b, x, rfl, hx, hm⟩ := bools_spec hI hS hl
    simp only [evalC, hx]
    exact hR.anyOf hm
  | noneOf k =>
    intro _ r h
    simp only [CE.eval, Option.map_eq_some_iff] at h
    obtain ⟨l, hl, rfl⟩ := h
    obtain ⟨b, x, rfl, hx, hm⟩ := bools_spec hI hS hl
    simp only [evalC, hx]
    exact hR.noneOf hm
  | someOf k =>
    intro _ r h
    simp only [CE.eval, Option.map_eq_some_iff] at h
    obtain ⟨l, hl, rfl⟩ := h
    obtain ⟨b, x, rfl, hx, hm⟩ := bools_spec hI hS hl
    simp only [evalC, hx]
    exact hR.someOf hm
  | bit k i =>
    intro hu r h
    simp only [CE.eval, Option.bind_eq_some_iff] at h
    obtain ⟨l, hl, j, hj, ha⟩ := h
    obtain ⟨b, x, rfl, hx, hm⟩ := bools_spec hI hS hl
    simp only [evalC, hx, evalN_spec hI hR hS i hu hj]
    exact sub_spec hR hm ha
  | num i p =>
    intro hu r h
    simp only [CE.eval, Option.map_eq_some_iff] at h
    obtain ⟨j, hj, rfl⟩ := h
    simp only [evalC, evalN_spec hI hR hS i hu hj]
    rfl
  | elem e i p =>
    intro hu r h
    simp only [CE.eval, Option.bind_eq_some_iff, Option.map_eq_some_iff] at h
    obtain ⟨l, hl, j, hj, a, ha, rfl⟩ := h
    obtain ⟨f, x, rfl, hx, hv⟩ := vals_spec hI hS hl
    simp only [evalC, hx, evalN_spec hI hR hS i hu hj, Option.bind_eq_bind, Option.bind_some, elemAt_spec hR hv ha]
    rfl
  | not c ih =>
    intro hu r h
    simp only [CE.eval, Option.map_eq_some_iff] at h
    obtain ⟨b, hb, rfl⟩ := h
    simp only [evalC, ih hu hb]
    rfl
  | and c d ihc ihd =>
    intro hu r h
    simp only [CE.usesLast, Bool.or_eq_true] at hu
    simp only [CE.eval, Option.bind_eq_some_iff] at h
    obtain ⟨b, hb, h⟩ := h
    simp only [evalC, ihc (fun h => hu (.inl h)) hb, Option.bind_eq_bind, Option.bind_some]
    cases b with
    | false => exact h
    | true => exact ihd (fun h => hu (.inr h)) h

/-- How the outcome on `simd` objects corresponds to the one specified. -/
def Sim (I : Impl K β) (VR : I.V → (Nat → K.Bits) → Prop) (MR : I.M → (Nat → Bool) → Prop) (base : Nat → Nat) (S : State I)
    (m : Outcome (State I)) : Outcome (Nat → Lane K β) → Prop
  | .done L' => ∃ S', m = .done S' ∧ Rep I VR MR base S' L' ∧ Frame I base S S'
  | .running => m = .running
  | .undef => True

theorem Sim.bind {S : State I} {m : Outcome (State I)} {o : Outcome (Nat → Lane K β)} (h : Sim I VR MR base S m o)
    {f : State I → Outcome (State I)} {F : (Nat → Lane K β) → Outcome (Nat → Lane K β)}
    (hf : ∀ S' L', Rep I VR MR base S' L' → Sim I VR MR base S' (f S') (F L')) : Sim I VR MR base S (m.bind f) (o.bind F) := by
  cases o with
  | undef => trivial
  | running =>
    have h : m = .running := h
    subst h
    rfl
  | done L' =>
    obtain ⟨S', rfl, hS', hfr⟩ := h
    have h2 := hf S' L' hS'
    simp only [Outcome.bind]
    cases hF : F L' with
    | undef => trivial
    | running => rw [hF] at h2; exact h2
    | done L'' =>
      rw [hF] at h2
      obtain ⟨S'', h3, h4, h5⟩ := h2
      exact ⟨S'', h3, h4, hfr.trans h5⟩

theorem Sim.loop {c : State I → Option Bool} {C : (Nat → Lane K β) → Option Bool} {f : State I → Outcome (State I)}
    {F : (Nat → Lane K β) → Outcome (Nat → Lane K β)} (hc : ∀ S L, Rep I VR MR base S L → ∀ b, C L = some b → c S = some b)
    (hf : ∀ S L, Rep I VR MR base S L → Sim I VR MR base S (f S) (F L)) (fuel : Nat) :
    ∀ S L, Rep I VR MR base S L → Sim I VR MR base S (Control.loop c f fuel S) (Control.loop C F fuel L) := by
  induction fuel with
  | zero => intro S L _; rfl
  | succ fuel ih =>
    intro S L hS
    simp only [Control.loop]
    cases hC : C L with
    | none => trivial
    | some b =>
      rw [hc S L hS b hC]
      cases b with
      | false => exact ⟨S, rfl, hS, Frame.refl S⟩
      | true => exact (hf S L hS).bind ih

theorem Sim.ofOption {S : State I} {m : Option (State I)} {o : Option (Nat → Lane K β)}
    (h : ∀ L', o = some L' → ∃ S', m = some S' ∧ Rep I VR MR base S' L' ∧ Frame I base S S') :
    Sim I VR MR base S (.ofOption m) (.ofOption o) := by
  cases o with
  | none => trivial
  | some L' =>
    obtain ⟨S', rfl, h1, h2⟩ := h L' rfl
    exact ⟨S', rfl, h1, h2⟩

/-- The program theorem. -/
theorem runCtl_spec (hI : Correct I E ld st VR MR) (hR : RedCorrect R A lastOk VR MR) (fuel : Nat) (p : Ctl K) :
    p.WellFormed A → (p.usesLast = true → lastOk) → ∀ (S : State I) (L : Nat → Lane K β), Rep I VR MR base S L →
    Sim I VR MR base S (runCtl R E.width base fuel p S) (p.exec E A ld st I.size fuel L) := by
  have setAll' : ∀ {S : State I} {L : Nat → Lane K β}, Rep I VR MR base S L → ∀ d a, Rep I VR MR base (setV I S d (I.broadcast a)) (setAll L d a) :=
    fun hS d a => hS.setV d (hI.broadcast a)
  have frameV : ∀ (S : State I) v x, Frame I base S (setV I S v x) := fun _ _ _ _ _ _ => rfl
  induction p with
  | base s =>
    intro hw _ S L hS
    apply Sim.ofOption
    intro L' h
    simp only [Option.map_eq_some_iff] at h
    obtain ⟨l, hl, rfl⟩ := h
    obtain ⟨hlen, he⟩ := mapM_range hl
    exact run_spec hI s hw hS fun i hi => by
      rw [he i hi, List.getElem?_eq_getElem (by omega)]; simp [List.getD, List.getElem?_eq_getElem (show i < l.length by omega)]
  | seq p q ihp ihq =>
    intro hw hu S L hS
    simp only [Ctl.usesLast, Bool.or_eq_true] at hu
    exact (ihp hw.1 (fun h => hu (.inl h)) S L hS).bind (fun S' L' h => ihq hw.2 (fun h => hu (.inr h)) S' L' h)
  | ite c p q ihp ihq =>
    intro hw hu S L hS
    simp only [Ctl.usesLast, Bool.or_eq_true] at hu
    simp only [Ctl.exec, runCtl]
    cases hc : c.eval E I.size L with
    | none => trivial
    | some b =>
      rw [evalC_spec hI hR hS c (fun h => hu (.inl (.inl h))) hc]
      cases b with
      | true => exact ihp hw.1 (fun h => hu (.inl (.inr h))) S L hS
      | false => exact ihq hw.2 (fun h => hu (.inr h)) S L hS
  | «while» c p ih =>
    intro hw hu S L hS
    simp only [Ctl.usesLast, Bool.or_eq_true] at hu
    exact Sim.loop (fun S L hS b hb => evalC_spec hI hR hS c (fun h => hu (.inl h)) hb)
      (fun S L hS => ih hw (fun h => hu (.inr h)) S L hS) fuel S L hS
  | pick d e i =>
    intro hw hu S L hS
    apply Sim.ofOption
    intro L' h
    simp only [Option.bind_eq_some_iff, Option.map_eq_some_iff] at h
    obtain ⟨l, hl, j, hj, a, ha, rfl⟩ := h
    obtain ⟨f, x, rfl, hx, hv⟩ := vals_spec hI hS hl
    refine ⟨setV I S d (I.broadcast a), ?_, setAll' hS d a, frameV _ _ _⟩
    simp only [hx, evalN_spec hI hR hS i hu hj, Option.bind_eq_bind, Option.bind_some, elemAt_spec hR hv ha]
    rfl
  | put d i e j =>
    intro hw hu S L hS
    simp only [Ctl.usesLast, Bool.or_eq_true] at hu
    apply Sim.ofOption
    intro L' h
    simp only [Option.bind_eq_some_iff] at h
    obtain ⟨l, hl, m, hm, a, ha, q, hq, h⟩ := h
    split at h
    · rename_i hr
      obtain rfl := Option.some.inj h
      obtain ⟨f, x, rfl, hx, hv⟩ := vals_spec hI hS hl
      refine ⟨setV I S d (I.set (S.v d) q.toNat a), ?_, ?_, frameV _ _ _⟩
      · simp only [hx, evalN_spec hI hR hS j (fun h => hu (.inr h)) hm, evalN_spec hI hR hS i (fun h => hu (.inl h)) hq, Option.bind_eq_bind,
          Option.bind_some, elemAt_spec hR hv ha]
        rw [if_pos hr]; rfl
      · have hqn : q.toNat < I.size := by omega
        refine (hS.setV d (hI.set a hqn (hS.v d))).congr hI fun y hy => ?_
        by_cases hyq : (y : Int) = q
        · have : y = q.toNat := by omega
          rw [if_pos hyq]; simp [upd, this]
        · have : ¬ y = q.toNat := by omega
          rw [if_neg hyq]; simp only [upd, if_neg this]
          have : upd (L y).v d ((L y).v d) = (L y).v := by
            funext j; unfold upd; split
            · rename_i h; rw [h]
            · rfl
          rw [this]
    · cases h
  | reduce d o e =>
    intro hw hu S L hS
    apply Sim.ofOption
    intro L' h
    simp only [Option.bind_eq_some_iff, Option.map_eq_some_iff] at h
    obtain ⟨l, hl, a, ha, rfl⟩ := h
    obtain ⟨f, x, rfl, hx, hv⟩ := vals_spec hI hS hl
    refine ⟨setV I S d (I.broadcast a), ?_, setAll' hS d a, frameV _ _ _⟩
    simp only [hx, Option.bind_eq_bind, Option.bind_some, hR.reduce hw hv, ha]
    rfl
  | whereReduce d o k v ident =>
    intro hw hu S L hS
    apply Sim.ofOption
    intro L' h
    simp only [Option.map_eq_some_iff] at h
    obtain ⟨l, hl, rfl⟩ := h
    obtain ⟨b, x, rfl, hx, hm⟩ := bools_spec hI hS hl
    refine ⟨_, ?_, setAll' hS d _, frameV _ _ _⟩
    simp only [hx, Option.bind_eq_bind, Option.bind_some, hR.whereReduce hw.1 hw.2 hm (hS.v v)]
    rfl

end

end StdSimd.SimdClass
