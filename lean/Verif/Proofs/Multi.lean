import Verif.Model.Multi
import Verif.Proofs.Control
import Verif.Proofs.ControlFuel
/-!
# Programs on objects of several element types, for any correct implementation classes and conversions
-/
namespace StdSimd.SimdClass
open Spec Spec.Program Spec.Control Spec.Multi Native

/-- How an outcome corresponds to the one specified, for a relation of states and a preorder on states. -/
def GSim {σ τ : Type} (Rel : σ → τ → Prop) (Fr : σ → σ → Prop) (s : σ) (m : Outcome σ) : Outcome τ → Prop
  | .done L' => ∃ s', m = .done s' ∧ Rel s' L' ∧ Fr s s'
  | .running => m = .running
  | .undef => True

section
variable {σ τ : Type} {Rel : σ → τ → Prop} {Fr : σ → σ → Prop} (htr : ∀ a b c, Fr a b → Fr b c → Fr a c) (hrf : ∀ a, Fr a a)

include htr in
theorem GSim.bind {s : σ} {m : Outcome σ} {o : Outcome τ} (h : GSim Rel Fr s m o) {f : σ → Outcome σ} {F : τ → Outcome τ}
    (hf : ∀ s' L', Rel s' L' → GSim Rel Fr s' (f s') (F L')) : GSim Rel Fr s (m.bind f) (o.bind F) := by
  cases o with
  | undef => trivial
  | running =>
    have h : m = .running := h
    subst h
    rfl
  | done L' =>
    obtain ⟨s', rfl, hs', hfr⟩ := h
    have h2 := hf s' L' hs'
    simp only [Outcome.bind]
    cases hF : F L' with
    | undef => trivial
    | running => rw [hF] at h2; exact h2
    | done L'' =>
      rw [hF] at h2
      obtain ⟨s'', h3, h4, h5⟩ := h2
      exact ⟨s'', h3, h4, htr _ _ _ hfr h5⟩

include htr hrf in
theorem GSim.loop {c : σ → Option Bool} {C : τ → Option Bool} {f : σ → Outcome σ} {F : τ → Outcome τ}
    (hc : ∀ s L, Rel s L → ∀ b, C L = some b → c s = some b) (hf : ∀ s L, Rel s L → GSim Rel Fr s (f s) (F L)) (fuel : Nat) :
    ∀ s L, Rel s L → GSim Rel Fr s (Control.loop c f fuel s) (Control.loop C F fuel L) := by
  induction fuel with
  | zero => intro s L _; rfl
  | succ fuel ih =>
    intro s L hs
    simp only [Control.loop]
    cases hC : C L with
    | none => trivial
    | some b =>
      rw [hc s L hs b hC]
      cases b with
      | false => exact ⟨s, rfl, hs, hrf s⟩
      | true => exact (hf s L hs).bind htr ih

theorem GSim.ofOption {s : σ} {m : Option σ} {o : Option τ} (h : ∀ L', o = some L' → ∃ s', m = some s' ∧ Rel s' L' ∧ Fr s s') :
    GSim Rel Fr s (.ofOption m) (.ofOption o) := by
  cases o with
  | none => trivial
  | some L' =>
    obtain ⟨s', rfl, h1, h2⟩ := h L' rfl
    exact ⟨s', rfl, h1, h2⟩

end

theorem set_same {ι : Type} [DecidableEq ι] {γ : ι → Type} (f : ∀ a, γ a) (a : ι) (x : γ a) : setAt f a x a = x := by simp [setAt]

theorem set_ne {ι : Type} [DecidableEq ι] {γ : ι → Type} (f : ∀ a, γ a) {a b : ι} (h : b ≠ a) (x : γ a) : setAt f a x b = f b := by simp [setAt, h]

/-- There are objects with any elements. -/
theorem exists_rep {K : Kind} {β : Type} {I : Impl K β} {E : Elem K} {ld : β → K.Bits} {st : K.Bits → β} {VR : I.V → (Nat → K.Bits) → Prop}
    {MR : I.M → (Nat → Bool) → Prop} (hI : Correct I E ld st VR MR) (base : Nat → Nat) (L : Nat → Lane K β) :
    ∃ S, Rep I VR MR base S L := by
  have hm : ∀ (b : Nat → Bool), ∃ x, MR x b := by
    intro b
    have key : ∀ m ≤ I.size, ∃ x, MR x (fun i => if i < m then b i else false) := by
      intro m
      induction m with
      | zero => intro _; exact ⟨I.mbroadcast false, hI.mcongr (hI.mbroadcast false) fun i _ => by simp⟩
      | succ m ih =>
        intro h
        obtain ⟨x, hx⟩ := ih (by omega)
        refine ⟨I.mset x m (b m), hI.mcongr (hI.mset (b m) (by omega) hx) fun i _ => ?_⟩
        by_cases e : i = m
        · simp [upd, e]
        · simp only [upd, if_neg e]
          by_cases h' : i < m
          · rw [if_pos h', if_pos (by omega)]
          · rw [if_neg h', if_neg (by omega)]
    obtain ⟨x, hx⟩ := key I.size (Nat.le_refl _)
    exact ⟨x, hI.mcongr hx fun i hi => by simp [hi]⟩
  refine ⟨⟨fun x => I.generator fun i => (L i).v x, fun x => (hm fun i => (L i).m x).choose,
    fun j a => if base j ≤ a ∧ a < base j + I.size then some ((L (a - base j)).arr j) else none⟩, fun x => hI.generator _,
    fun x => (hm fun i => (L i).m x).choose_spec, fun j i hi => ?_⟩
  dsimp only
  rw [if_pos (by omega), Nat.add_sub_cancel_left]

variable {ι : Type} {K : ι → Kind} {β : ι → Type}

/-- What programs expect of the conversions. -/
structure CastCorrect {I : ∀ a, Impl (K a) (β a)} (X : Casts I) (T : Types K β) (imp vres res : ι → ι → Prop) (VR : ∀ a, (I a).V → (Nat → (K a).Bits) → Prop)
    (MR : ∀ a, (I a).M → (Nat → Bool) → Prop) : Prop where
  size : ∀ a, (I a).size = T.n a
  val : ∀ {i a b x f g}, (i = true → imp a b) → T.n a = T.n b → VR a x f → (∀ j < T.n a, T.cv a b (f j) = some (g j)) → ∃ y, X.val i a b x = some y ∧ VR b y g
  mask : ∀ {i a b x f}, (i = true → imp a b) → T.n a = T.n b → MR a x f → ∃ y, X.mask i a b x = some y ∧ MR b y f
  maskResize : ∀ {a b x f}, res a b → MR a x f → ∃ y, X.maskResize a b x = some y ∧ MR b y (fun i => if i < T.n a then f i else false)
  resize : ∀ {a b x f} (h : K a = K b), vres a b → VR a x f →
    ∃ y, X.resize a b h x = some y ∧ VR b y (fun i => if i < T.n a then (h ▸ f i : (K b).Bits) else 0#(K b).width)

section
variable {I : ∀ a, Impl (K a) (β a)} {R : ∀ a, RedImpl (I a)} {X : Casts I} {T : Types K β} {VR : ∀ a, (I a).V → (Nat → (K a).Bits) → Prop}
  {MR : ∀ a, (I a).M → (Nat → Bool) → Prop} {lastOk : ι → Prop}
  {imp vres res : ι → ι → Prop} {base : ι → Nat → Nat}

/-- The objects of all types have the elements that `L` says. -/
def Reps (I : ∀ a, Impl (K a) (β a)) (VR : ∀ a, (I a).V → (Nat → (K a).Bits) → Prop) (MR : ∀ a, (I a).M → (Nat → Bool) → Prop)
    (base : ι → Nat → Nat) (S : ∀ a, State (I a)) (L : ∀ a, Nat → Lane (K a) (β a)) : Prop :=
  ∀ a, Rep (I a) (VR a) (MR a) (base a) (S a) (L a)

/-- The memory outside the arrays is as before. -/
def Frames (I : ∀ a, Impl (K a) (β a)) (base : ι → Nat → Nat) (S S' : ∀ a, State (I a)) : Prop := ∀ a, Frame (I a) (base a) (S a) (S' a)

theorem Frames.trans {S S' S'' : ∀ a, State (I a)} (h : Frames I base S S') (h' : Frames I base S' S'') : Frames I base S S'' :=
  fun a => (h a).trans (h' a)

theorem Frames.refl (S : ∀ a, State (I a)) : Frames I base S S := fun _ => Frame.refl _

theorem evalCond_spec [DecidableEq ι] (hI : ∀ a, Correct (I a) (T.E a) (T.ld a) (T.st a) (VR a) (MR a)) (hR : ∀ a, RedCorrect (R a) (T.A a) (lastOk a) (VR a) (MR a))
    (hsz : ∀ a, (I a).size = T.n a) {S : ∀ a, State (I a)} {L : ∀ a, Nat → Lane (K a) (β a)} (hS : Reps I VR MR base S L) (c : Cond K) :
    (∀ a, c.usesLast a = true → lastOk a) → ∀ b, c.eval T L = some b → evalCond R (fun a => (T.E a).width) S c = some b := by
  induction c with
  | on a c =>
    intro hl b h
    have h' : c.eval (T.E a) (I a).size (L a) = some b := by rw [hsz]; exact h
    exact evalC_spec (hI a) (hR a) (hS a) c (fun h => hl a (by simp [Cond.usesLast, h])) h'
  | not c ih =>
    intro hl r h
    simp only [Cond.eval, Option.map_eq_some_iff] at h
    obtain ⟨b, hb, rfl⟩ := h
    simp only [evalCond, ih hl b hb]
    rfl
  | and c d ihc ihd =>
    intro hl r h
    simp only [Cond.eval, Option.bind_eq_some_iff] at h
    obtain ⟨b, hb, h⟩ := h
    simp only [evalCond, ihc (fun a h => hl a (by simp [Cond.usesLast, h])) b hb, Option.bind_eq_bind, Option.bind_some]
    cases b with
    | false => exact h
    | true => exact ihd (fun a h => hl a (by simp [Cond.usesLast, h])) r h

variable [DecidableEq ι]

theorem Reps.set {S : ∀ a, State (I a)} {L : ∀ a, Nat → Lane (K a) (β a)} (hS : Reps I VR MR base S L) (a : ι) {s : State (I a)}
    {l : Nat → Lane (K a) (β a)} (h : Rep (I a) (VR a) (MR a) (base a) s l) : Reps I VR MR base (setAt S a s) (setAt L a l) := by
  intro b
  by_cases e : b = a
  · subst e; rw [set_same, set_same]; exact h
  · rw [set_ne _ e, set_ne _ e]; exact hS b

theorem Frames.set (S : ∀ a, State (I a)) (a : ι) {s : State (I a)} (h : Frame (I a) (base a) (S a) s) : Frames I base S (setAt S a s) := by
  intro b
  by_cases e : b = a
  · subst e; rw [set_same]; exact h
  · rw [set_ne _ e]; exact Frame.refl _

/-- The program theorem. -/
theorem runMulti_spec (hI : ∀ a, Correct (I a) (T.E a) (T.ld a) (T.st a) (VR a) (MR a)) (hR : ∀ a, RedCorrect (R a) (T.A a) (lastOk a) (VR a) (MR a))
    (hX : CastCorrect X T imp vres res VR MR) (fuel : Nat) (p : Prog K) : p.WellFormed T → p.Convs imp vres res →
    (∀ a, p.usesLast a = true → lastOk a) → ∀ (S : ∀ a, State (I a)) (L : ∀ a, Nat → Lane (K a) (β a)),
    Reps I VR MR base S L →
    GSim (Reps I VR MR base) (Frames I base) S (runMulti R X (fun a => (T.E a).width) base fuel p S) (p.exec T fuel L) := by
  have hsz := hX.size
  induction p with
  | on a p =>
    intro hw hq hl S L hS
    have h := runCtl_spec (hI a) (hR a) fuel p hw (fun h => hl a (by simp [Prog.usesLast, h])) (S a) (L a) (hS a)
    rw [hsz] at h
    simp only [Prog.exec, runMulti, Outcome.map]
    cases e : p.exec (T.E a) (T.A a) (T.ld a) (T.st a) (T.n a) fuel (L a) with
    | undef => trivial
    | running =>
      rw [e] at h
      have h : runCtl (R a) (T.E a).width (base a) fuel p (S a) = .running := h
      rw [h]; rfl
    | done l =>
      rw [e] at h
      obtain ⟨s', h1, h2, h3⟩ := h
      rw [h1]
      exact ⟨_, rfl, hS.set a h2, Frames.set S a h3⟩
  | cast i a b d e =>
    intro hw hq hl S L hS
    have hw : T.n a = T.n b := hw
    apply GSim.ofOption
    intro L' h
    simp only [Option.bind_eq_some_iff, Option.map_eq_some_iff] at h
    obtain ⟨l, hl, r, hr, rfl⟩ := h
    rw [← hsz] at hl
    obtain ⟨f, x, rfl, hx, hv⟩ := vals_spec (hI a) (hS a) hl
    have hr' : (List.range (I a).size).mapM (fun j => T.cv a b (f j)) = some r := by rw [← hr, List.mapM_map]; rfl
    obtain ⟨hlen, hget⟩ := mapM_range hr'
    obtain ⟨y, hy, hvy⟩ := hX.val (i := i) (b := b) (g := fun j => r.getD j ((L b j).v d)) hq hw hv (fun j hj => by
      rw [← hsz] at hj
      rw [hget j hj, List.getElem?_eq_getElem (by omega)]
      simp [List.getD, List.getElem?_eq_getElem (show j < r.length by omega)])
    refine ⟨_, ?_, hS.set b ((hS b).setV d hvy), Frames.set S b (fun _ _ _ => rfl)⟩
    simp only [hx, Option.bind_eq_bind, Option.bind_some, hy]
    rfl
  | mcast i a b d k =>
    intro hw hq hl S L hS
    have hw : T.n a = T.n b := hw
    apply GSim.ofOption
    intro L' h
    simp only [Option.map_eq_some_iff] at h
    obtain ⟨l, hl, rfl⟩ := h
    rw [← hsz] at hl
    obtain ⟨f, x, rfl, hx, hm⟩ := bools_spec (hI a) (hS a) hl
    obtain ⟨y, hy, hmy⟩ := hX.mask (i := i) (b := b) hq hw hm
    refine ⟨_, ?_, hS.set b ((hS b).setM d ((hI b).mcongr hmy fun j hj => ?_)), Frames.set S b (fun _ _ _ => rfl)⟩
    · simp only [hx, Option.bind_eq_bind, Option.bind_some, hy]
      rfl
    · rw [hsz, ← hw, ← hsz] at hj
      simp [List.getD, hj]
  | mresize a b d k =>
    intro hw hq hl S L hS
    apply GSim.ofOption
    intro L' h
    simp only [Option.map_eq_some_iff] at h
    obtain ⟨l, hl, rfl⟩ := h
    rw [← hsz] at hl
    obtain ⟨f, x, rfl, hx, hm⟩ := bools_spec (hI a) (hS a) hl
    obtain ⟨y, hy, hmy⟩ := hX.maskResize (b := b) hq hm
    refine ⟨_, ?_, hS.set b ((hS b).setM d ((hI b).mcongr hmy fun j hj => ?_)), Frames.set S b (fun _ _ _ => rfl)⟩
    · simp only [hx, Option.bind_eq_bind, Option.bind_some, hy]
      rfl
    · rw [hsz] at hj
      simp only [Spec.resize, List.getD]
      rw [List.getElem?_map, List.getElem?_range hj]
      simp only [Option.map_some, Option.getD_some]
      by_cases h : j < T.n a
      · have h' : j < (I a).size := by rw [hsz]; exact h
        rw [if_pos h, List.getElem?_map, List.getElem?_range h']; rfl
      · rw [if_neg h, List.getElem?_eq_none (by simp [hsz]; omega)]; rfl
  | resize a b h d e =>
    intro hw hq hl S L hS
    apply GSim.ofOption
    intro L' h'
    simp only [Option.map_eq_some_iff] at h'
    obtain ⟨l, hl, rfl⟩ := h'
    rw [← hsz] at hl
    obtain ⟨f, x, rfl, hx, hv⟩ := vals_spec (hI a) (hS a) hl
    obtain ⟨y, hy, hvy⟩ := hX.resize h hq hv
    refine ⟨_, ?_, hS.set b ((hS b).setV d ((hI b).vcongr hvy fun j hj => ?_)), Frames.set S b (fun _ _ _ => rfl)⟩
    · simp only [hx, Option.bind_eq_bind, Option.bind_some, hy]
      rfl
    · rw [hsz] at hj
      simp only [Spec.resize, List.getD]
      rw [List.getElem?_map, List.getElem?_range hj]
      simp only [Option.map_some, Option.getD_some]
      by_cases h : j < T.n a
      · have h' : j < (I a).size := by rw [hsz]; exact h
        rw [if_pos h, List.getElem?_map, List.getElem?_map, List.getElem?_range h']; rfl
      · rw [if_neg h, List.getElem?_eq_none (by simp [hsz]; omega)]; rfl
  | seq p q ihp ihq =>
    intro hw hq hl S L hS
    exact (ihp hw.1 hq.1 (fun a h => hl a (by simp [Prog.usesLast, h])) S L hS).bind (fun _ _ _ h h' => h.trans h')
      (fun S' L' h => ihq hw.2 hq.2 (fun a h => hl a (by simp [Prog.usesLast, h])) S' L' h)
  | ite c p q ihp ihq =>
    intro hw hq hl S L hS
    simp only [Prog.exec, runMulti]
    cases hc : c.eval T L with
    | none => trivial
    | some b =>
      rw [evalCond_spec hI hR hsz hS c (fun a h => hl a (by simp [Prog.usesLast, h])) b hc]
      cases b with
      | true => exact ihp hw.1 hq.1 (fun a h => hl a (by simp [Prog.usesLast, h])) S L hS
      | false => exact ihq hw.2 hq.2 (fun a h => hl a (by simp [Prog.usesLast, h])) S L hS
  | «while» c p ih =>
    intro hw hq hl S L hS
    exact GSim.loop (Rel := Reps I VR MR base) (Fr := Frames I base) (fun _ _ _ h h' => h.trans h') Frames.refl 
      (fun S L hS b hb => evalCond_spec hI hR hsz hS c (fun a h => hl a (by simp [Prog.usesLast, h])) b hb)
      (fun S L hS => ih hw hq (fun a h => hl a (by simp [Prog.usesLast, h])) S L hS) fuel S L hS

end

/-- More rounds do not change the outcome of a program that ends. -/
theorem multi_mono [DecidableEq ι] (T : Types K β) {m n : Nat} (h : m ≤ n) (p : Prog K) : ∀ L, (p.exec T m L).Le (p.exec T n L) := by
  induction p with
  | on a p => intro L; exact (exec_mono (T.E a) (T.A a) (T.ld a) (T.st a) (T.n a) h p (L a)).bind fun _ => .rfl
  | cast i a b d e => intro L; exact .rfl
  | mcast i a b d e => intro L; exact .rfl
  | mresize a b d e => intro L; exact .rfl
  | resize a b h d e => intro L; exact .rfl
  | seq p q ihp ihq => intro L; exact (ihp L).bind ihq
  | ite c p q ihp ihq =>
    intro L
    simp only [Prog.exec]
    cases c.eval T L with
    | none => exact .rfl
    | some b => cases b with
      | true => exact ihp L
      | false => exact ihq L
  | «while» c p ih => intro L; exact loop_mono ih m n h L

end StdSimd.SimdClass
