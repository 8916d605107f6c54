import Verif.Model.Pack
import Verif.Proofs.Multi
/-!
# Programs with `split` and `concat`, for any correct implementation classes and functions
-/
namespace StdSimd.SimdClass
open Spec Spec.Program Spec.Control Spec.Multi Spec.Pack Native

variable {ι : Type} {K : ι → Kind} {β : ι → Type}

section
variable {I : ∀ a, Impl (K a) (β a)} {R : ∀ a, RedImpl (I a)} {X : Casts I} {P : Packs I} {T : Types K β} {VR : ∀ a, (I a).V → (Nat → (K a).Bits) → Prop}
  {MR : ∀ a, (I a).M → (Nat → Bool) → Prop} {lastOk : ι → Prop} {rules : Rules ι} {base : ι → Nat → Nat}

/-- An object has the elements `l`. -/
def Holds (T : Types K β) (VR : ∀ a, (I a).V → (Nat → (K a).Bits) → Prop) {b : ι} (r : Arg I b) (l : List (K b).Bits) : Prop :=
  l.length = T.n r.ty ∧ VR r.ty r.val fun i => conv r.elem.symm (l.getD i 0#(K b).width)

/-- A mask has the elements `l`. -/
def MHolds (T : Types K β) (MR : ∀ a, (I a).M → (Nat → Bool) → Prop) (b : ι) (k : (I b).M) (l : List Bool) : Prop :=
  l.length = T.n b ∧ MR b k fun i => l.getD i false

/-- What programs expect of `split` and `concat`. -/
structure PackCorrect (P : Packs I) (T : Types K β) (rules : Rules ι) (VR : ∀ a, (I a).V → (Nat → (K a).Bits) → Prop)
    (MR : ∀ a, (I a).M → (Nat → Bool) → Prop) : Prop where
  concat : ∀ {b} {xs : List (Arg I b)} {ls : List (List (K b).Bits)}, rules.concat b (xs.map Arg.ty) → xs ≠ [] → (xs.map fun r => T.n r.ty).sum = T.n b →
    List.Forall₂ (Holds T VR) xs ls → ∃ y, P.concat b xs = some y ∧ VR b y fun i => ls.flatten.getD i 0#(K b).width
  split : ∀ {a} {tys : List {b : ι // K b = K a}} {x f}, rules.split a (tys.map Subtype.val) → tys ≠ [] → (tys.map fun b => T.n b.1).sum = T.n a → VR a x f →
    ∃ rs, P.split a tys x = some rs ∧ rs.map (fun r => (⟨r.ty, r.elem⟩ : {b : ι // K b = K a})) = tys ∧
      List.Forall₂ (Holds T VR) rs (Spec.split (tys.map fun b => T.n b.1) ((List.range (T.n a)).map f))
  splitTo : ∀ {a b} (h : K b = K a) {x f k}, rules.splitTo a b → T.n a = k * T.n b → VR a x f →
    ∃ rs, P.splitTo a b h x = some rs ∧
      List.Forall₂ (fun y l => Holds T VR (⟨b, h, y⟩ : Arg I a) l) rs (Spec.split (List.replicate k (T.n b)) ((List.range (T.n a)).map f))
  msplit : ∀ {a b x f k}, rules.msplit a b → T.n a = k * T.n b → MR a x f →
    ∃ rs, P.msplit a b x = some rs ∧ List.Forall₂ (MHolds T MR b) rs (Spec.split (List.replicate k (T.n b)) ((List.range (T.n a)).map f))

variable [DecidableEq ι]

theorem getD_map_conv {K K' : Kind} (h : K = K') (l : List K.Bits) (i : Nat) (hi : i < l.length) (d : K'.Bits) :
    (l.map (conv h)).getD i d = conv h (l.getD i 0#K.width) := by
  simp [List.getD, hi]

theorem storeAll_spec (hI : ∀ a, Correct (I a) (T.E a) (T.ld a) (T.st a) (VR a) (MR a)) (hsz : ∀ a, (I a).size = T.n a) {a : ι} :
    ∀ (ds : List (Part K a)) (rs : List (Arg I a)) (ls : List (List (K a).Bits)),
      rs.map (fun r => (⟨r.ty, r.elem⟩ : {b : ι // K b = K a})) = ds.map (fun p => ⟨p.ty, p.elem⟩) → List.Forall₂ (Holds T VR) rs ls →
      ∀ (S : ∀ a, State (I a)) (L : ∀ a, Nat → Lane (K a) (β a)), Reps I VR MR base S L →
        Reps I VR MR base (storeAll S ((ds.map Part.obj).zip rs)) (assign L (ds.zip ls)) ∧ Frames I base S (storeAll S ((ds.map Part.obj).zip rs)) := by
  intro ds
  induction ds with
  | nil => intro rs ls _ _ S L hS; exact ⟨hS, Frames.refl S⟩
  | cons p ds ih =>
    intro rs ls he hf S L hS
    match rs, ls, hf with
    | r :: rs, l :: ls, .cons hr hf =>
      simp only [List.map_cons, List.cons.injEq, Subtype.mk.injEq] at he
      obtain ⟨hty, he⟩ := he
      obtain ⟨pty, pe, pd⟩ := p
      obtain ⟨rty, re, rv⟩ := r
      dsimp only at hty
      subst hty
      obtain ⟨hlen, hr⟩ := hr
      dsimp only at hlen hr
      have hset : Reps I VR MR base (setAt S rty (setV (I rty) (S rty) pd rv)) (setObj L rty pd (l.map (conv re.symm))) := by
        refine hS.set rty ((hS rty).setV pd ((hI rty).vcongr hr fun i hi => ?_))
        rw [hsz] at hi
        rw [getD_map_conv _ _ _ (by omega)]
      obtain ⟨h1, h2⟩ := ih rs ls he hf _ _ hset
      exact ⟨h1, (Frames.set S rty (s := setV (I rty) (S rty) pd rv) (fun _ _ _ => rfl)).trans h2⟩

theorem mstoreAll_spec (hI : ∀ a, Correct (I a) (T.E a) (T.ld a) (T.st a) (VR a) (MR a)) (hsz : ∀ a, (I a).size = T.n a) {b : ι} :
    ∀ (ds : List Nat) (rs : List (I b).M) (ls : List (List Bool)), List.Forall₂ (MHolds T MR b) rs ls →
      ∀ (S : ∀ a, State (I a)) (L : ∀ a, Nat → Lane (K a) (β a)), Reps I VR MR base S L →
        Reps I VR MR base (mstoreAll S b (ds.zip rs)) (massign L b (ds.zip ls)) ∧ Frames I base S (mstoreAll S b (ds.zip rs)) := by
  intro ds
  induction ds with
  | nil => intro rs ls _ S L hS; exact ⟨hS, Frames.refl S⟩
  | cons d ds ih =>
    intro rs ls hf S L hS
    cases hf with
    | nil => exact ⟨hS, Frames.refl S⟩
    | @cons r l rs ls hr hf =>
      obtain ⟨hlen, hr⟩ := hr
      have hset : Reps I VR MR base (setAt S b (setM (I b) (S b) d r)) (setMask L b d l) := by
        refine hS.set b ((hS b).setM d ((hI b).mcongr hr fun i hi => ?_))
        rw [hsz] at hi
        simp [List.getD, hlen, hi]
      obtain ⟨h1, h2⟩ := ih rs ls hf _ _ hset
      exact ⟨h1, (Frames.set S b (s := setM (I b) (S b) d r) (fun _ _ _ => rfl)).trans h2⟩

/-- The program theorem. -/
theorem runPack_spec (hI : ∀ a, Correct (I a) (T.E a) (T.ld a) (T.st a) (VR a) (MR a)) (hR : ∀ a, RedCorrect (R a) (T.A a) (lastOk a) (VR a) (MR a))
    (hX : CastCorrect X T rules.imp rules.vres rules.res VR MR) (hP : PackCorrect P T rules VR MR) (fuel : Nat) (p : Pack.Prog K) :
    p.WellFormed T → p.Within rules → (∀ a, p.usesLast a = true → lastOk a) → ∀ (S : ∀ a, State (I a)) (L : ∀ a, Nat → Lane (K a) (β a)),
    Reps I VR MR base S L →
    GSim (Reps I VR MR base) (Frames I base) S (runPack R X P (fun a => (T.E a).width) base fuel p S) (p.exec T fuel L) := by
  have hsz := hX.size
  induction p with
  | run p => intro hw hq hl S L hS; exact runMulti_spec hI hR hX fuel p hw hq hl S L hS
  | concat b d xs =>
    intro hw hq _ S L hS
    obtain ⟨y, hy, hv⟩ := hP.concat (b := b) (xs := xs.map fun (p : Part K b) => ⟨p.ty, p.elem, (S p.ty).v p.obj⟩)
      (ls := xs.map fun (p : Part K b) => (elems T L p.ty p.obj).map (conv p.elem)) (by rw [List.map_map]; exact hq) (by simpa using hw.1)
      (by rw [List.map_map]; exact hw.2) (by
        rw [List.forall₂_map_left_iff, List.forall₂_map_right_iff, List.forall₂_same]
        intro p _
        refine ⟨by simp [elems], (hI p.ty).vcongr ((hS p.ty).v p.obj) fun i hi => ?_⟩
        rw [hsz] at hi
        obtain ⟨ty, e, o⟩ := p
        dsimp only at hi ⊢
        rw [getD_map_conv _ _ _ (by simpa [elems] using hi)]
        have hcc : ∀ {K K' : Kind} (h : K = K') (x : K.Bits), conv h.symm (conv h x) = x := by intro K K' h x; subst h; rfl
        rw [hcc]
        simp [elems, hi])
    have hlen : ((xs.map fun p => (elems T L p.ty p.obj).map (conv p.elem)).flatten).length = T.n b := by
      rw [← hw.2, List.length_flatten, List.map_map]
      congr 1
      apply List.map_congr_left
      intro p _
      simp [elems]
    refine ⟨_, by simp only [runPack, hy, Option.bind_eq_bind, Option.bind_some]; rfl,
      hS.set b ((hS b).setV d ((hI b).vcongr hv fun i hi => ?_)), Frames.set S b (fun _ _ _ => rfl)⟩
    rw [hsz] at hi
    simp only [List.getD]
    rw [List.getElem?_eq_getElem (by omega)]
    rfl
  | split a v ds =>
    intro hw hq _ S L hS
    obtain ⟨rs, h1, h2, h3⟩ := hP.split (a := a) (tys := ds.map fun (p : Part K a) => ⟨p.ty, p.elem⟩) (by rw [List.map_map]; exact hq) (by simpa using hw.1)
      (by rw [List.map_map]; exact hw.2) ((hS a).v v)
    rw [List.map_map] at h3
    obtain ⟨g1, g2⟩ := storeAll_spec hI hsz ds rs _ h2 h3 S L hS
    exact ⟨_, by simp only [runPack, h1, Option.bind_eq_bind, Option.bind_some]; rfl, g1, g2⟩
  | splitTo a v b h ds =>
    intro hw hq _ S L hS
    obtain ⟨rs, h1, h3⟩ := hP.splitTo (a := a) (b := b) h (k := ds.length) hq hw ((hS a).v v)
    have hlen : rs.length = ds.length := by
      rw [h3.length_eq]
      have key : ∀ {α : Type} (k m : Nat) (l : List α), (Spec.split (List.replicate k m) l).length = k := by
        intro α k m
        induction k with
        | zero => intro l; rfl
        | succ k ih => intro l; simp [List.replicate_succ, Spec.split, ih]
      exact key _ _ _
    have h2 : (rs.map fun y => (⟨b, h, y⟩ : Arg I a)).map (fun r => (⟨r.ty, r.elem⟩ : {b : ι // K b = K a})) =
        (ds.map fun d => (⟨b, h, d⟩ : Part K a)).map (fun p => ⟨p.ty, p.elem⟩) := by
      simp only [List.map_map]
      apply List.ext_getElem
      · simp [hlen]
      · intro i _ _; simp
    obtain ⟨g1, g2⟩ := storeAll_spec hI hsz (ds.map fun d => (⟨b, h, d⟩ : Part K a)) (rs.map fun y => (⟨b, h, y⟩ : Arg I a)) _ h2
      (by rw [List.forall₂_map_left_iff]; exact h3) S L hS
    rw [List.map_map, show (Part.obj ∘ fun d => (⟨b, h, d⟩ : Part K a)) = id from rfl, List.map_id] at g1 g2
    exact ⟨_, by simp only [runPack, h1, Option.bind_eq_bind, Option.bind_some]; rfl, g1, g2⟩
  | msplit a m b ds =>
    intro hw hq _ S L hS
    obtain ⟨rs, h1, h3⟩ := hP.msplit (a := a) (b := b) (k := ds.length) hq hw ((hS a).m m)
    obtain ⟨g1, g2⟩ := mstoreAll_spec hI hsz ds rs _ h3 S L hS
    exact ⟨_, by simp only [runPack, h1, Option.bind_eq_bind, Option.bind_some]; rfl, g1, g2⟩
  | seq p q ihp ihq =>
    intro hw hq hl S L hS
    exact (ihp hw.1 hq.1 (fun a h => hl a (by simp [Pack.Prog.usesLast, h])) S L hS).bind (fun _ _ _ h h' => h.trans h')
      (fun S' L' h => ihq hw.2 hq.2 (fun a h => hl a (by simp [Pack.Prog.usesLast, h])) S' L' h)
  | ite c p q ihp ihq =>
    intro hw hq hl S L hS
    simp only [Pack.Prog.exec, runPack]
    cases hc : c.eval T L with
    | none => trivial
    | some b =>
      rw [evalCond_spec hI hR hsz hS c (fun a h => hl a (by simp [Pack.Prog.usesLast, h])) b hc]
      cases b with
      | true => exact ihp hw.1 hq.1 (fun a h => hl a (by simp [Pack.Prog.usesLast, h])) S L hS
      | false => exact ihq hw.2 hq.2 (fun a h => hl a (by simp [Pack.Prog.usesLast, h])) S L hS
  | «while» c p ih =>
    intro hw hq hl S L hS
    exact GSim.loop (Rel := Reps I VR MR base) (Fr := Frames I base) (fun _ _ _ h h' => h.trans h') Frames.refl
      (fun S L hS b hb => evalCond_spec hI hR hsz hS c (fun a h => hl a (by simp [Pack.Prog.usesLast, h])) b hb)
      (fun S L hS => ih hw hq (fun a h => hl a (by simp [Pack.Prog.usesLast, h])) S L hS) fuel S L hS

end

/-- More rounds do not change the outcome of a program that ends. -/
theorem pack_mono [DecidableEq ι] (T : Types K β) {m n : Nat} (h : m ≤ n) (p : Pack.Prog K) : ∀ L, (p.exec T m L).Le (p.exec T n L) := by
  induction p with
  | run p => intro L; exact multi_mono T h p L
  | concat b d xs => intro L; exact .rfl
  | split a v ds => intro L; exact .rfl
  | splitTo a v b h ds => intro L; exact .rfl
  | msplit a m b ds => intro L; exact .rfl
  | seq p q ihp ihq => intro L; exact (ihp L).bind ihq
  | ite c p q ihp ihq =>
    intro L
    simp only [Pack.Prog.exec]
    cases c.eval T L with
    | none => exact .rfl
    | some b => cases b with
      | true => exact ihp L
      | false => exact ihq L
  | «while» c p ih => intro L; exact loop_mono ih m n h L

end StdSimd.SimdClass
