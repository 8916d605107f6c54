import Verif.Model.SimdClass
import Verif.Proofs.Compare
/-!
# Programs on `simd` objects: the operators of the class templates, for any correct implementation class
-/
namespace StdSimd.SimdClass
open Spec Spec.Program Native

variable {K : Kind} {β : Type}

/-- What the class templates expect of an implementation class. -/
structure Correct (I : Impl K β) (E : Elem K) (ld : β → K.Bits) (st : K.Bits → β) (VR : I.V → (Nat → K.Bits) → Prop)
    (MR : I.M → (Nat → Bool) → Prop) : Prop where
  pos : 0 < I.size
  vcongr : ∀ {x f g}, VR x f → (∀ i < I.size, f i = g i) → VR x g
  mcongr : ∀ {x f g}, MR x f → (∀ i < I.size, f i = g i) → MR x g
  broadcast : ∀ a, VR (I.broadcast a) (fun _ => a)
  generator : ∀ f, VR (I.generator f) f
  un : ∀ {o x f r}, VR x f → (∀ i < I.size, E.un o (f i) = some (r i)) → ∃ y, I.un o x = some y ∧ VR y r
  bin : ∀ {o x y f g r}, VR x f → VR y g → (∀ i < I.size, E.bin o (f i) (g i) = some (r i)) → ∃ z, I.bin o x y = some z ∧ VR z r
  shift : ∀ {l x s f r}, VR x f → s < E.width → (∀ i < I.size, E.shift l (f i) s = some (r i)) → ∃ z, I.shift l x s = some z ∧ VR z r
  f1 : ∀ {o x f r}, VR x f → (∀ i < I.size, E.fn.f1 o (f i) = some (r i)) → ∃ y, I.f1 o x = some y ∧ VR y r
  f2 : ∀ {o x y f g r}, VR x f → VR y g → (∀ i < I.size, E.fn.f2 o (f i) (g i) = some (r i)) → ∃ z, I.f2 o x y = some z ∧ VR z r
  f3 : ∀ {o x y z f g h r}, VR x f → VR y g → VR z h → (∀ i < I.size, E.fn.f3 o (f i) (g i) (h i) = some (r i)) →
    ∃ w, I.f3 o x y z = some w ∧ VR w r
  t1 : ∀ {o p x f}, E.fn.t1 o = some p → VR x f → ∃ k, I.t1 o x = some k ∧ MR k (fun i => p (f i))
  t2 : ∀ {o p x y f g}, E.fn.t2 o = some p → VR x f → VR y g → ∃ k, I.t2 o x y = some k ∧ MR k (fun i => p (f i) (g i))
  cmp : ∀ {o x y f g}, VR x f → VR y g → ∃ k, I.cmp o x y = some k ∧ MR k (fun i => K.holds o.rel (f i) (g i))
  negate : ∀ {x f}, VR x f → ∃ k, I.negate x = some k ∧ MR k (fun i => K.holds .eq (f i) 0#K.width)
  maskedAssign : ∀ {k v x b f g}, MR k b → VR v f → VR x g → ∃ r, I.maskedAssign k v x = some r ∧ VR r (fun i => if b i then g i else f i)
  maskedCassign : ∀ {o k v x b f g} {h : Nat → K.Bits}, o ≠ .shl → o ≠ .shr → MR k b → VR v f → VR x g →
    (∀ i < I.size, E.bin o (f i) (g i) = some (h i)) →
    ∃ r, I.maskedCassign (whereOp o) k v x = some r ∧ VR r (fun i => if b i then h i else f i)
  maskedUnary : ∀ {inc k v b f} {h : Nat → K.Bits}, MR k b → VR v f → (∀ i < I.size, E.un (stepOp inc) (f i) = some (h i)) →
    ∃ r, I.maskedUnary (if inc then .increment else .decrement) k v = some r ∧ VR r (fun i => if b i then h i else f i)
  set : ∀ {x f i} a, i < I.size → VR x f → VR (I.set x i a) (upd f i a)
  load : ∀ {mem b} {c : Nat → β}, (∀ i < I.size, mem (b + i) = some (c i)) → ∃ r, I.load mem b = some r ∧ VR r (fun i => ld (c i))
  store : ∀ {x f mem b}, VR x f → (∀ i < I.size, (mem (b + i)).isSome) → ∃ mem', I.store x mem b = some mem' ∧
    (∀ i < I.size, mem' (b + i) = some (st (f i))) ∧ ∀ a, (a < b ∨ b + I.size ≤ a) → mem' a = mem a
  maskedLoad : ∀ {x f k s mem b} {c : Nat → β}, VR x f → MR k s → (∀ i < I.size, s i = true → mem (b + i) = some (c i)) →
    ∃ r, I.maskedLoad x k mem b = some r ∧ VR r (fun i => if s i then ld (c i) else f i)
  maskedStore : ∀ {x f k s mem b}, VR x f → MR k s → (∀ i < I.size, s i = true → (mem (b + i)).isSome) →
    ∃ mem', I.maskedStore x mem b k = some mem' ∧ (∀ i < I.size, mem' (b + i) = if s i then some (st (f i)) else mem (b + i)) ∧
      ∀ a, (a < b ∨ b + I.size ≤ a) → mem' a = mem a
  mbroadcast : ∀ b, MR (I.mbroadcast b) (fun _ => b)
  mnot : ∀ {x f}, MR x f → MR (I.mnot x) (fun i => !f i)
  mbin : ∀ {o x y f g}, MR x f → MR y g → MR (I.mbin o x y) (fun i => o.eval (f i) (g i))
  mset : ∀ {x f i} b, i < I.size → MR x f → MR (I.mset x i b) (upd f i b)
  mmaskedAssign : ∀ {k x y s f g}, MR k s → MR x f → MR y g → MR (I.mmaskedAssign k x y) (fun i => if s i then g i else f i)

/-- The objects have the elements that the `L i` say. -/
structure Rep (I : Impl K β) (VR : I.V → (Nat → K.Bits) → Prop) (MR : I.M → (Nat → Bool) → Prop) (base : Nat → Nat) (S : State I)
    (L : Nat → Lane K β) : Prop where
  v : ∀ x, VR (S.v x) (fun i => (L i).v x)
  m : ∀ x, MR (S.m x) (fun i => (L i).m x)
  mem : ∀ j, ∀ i < I.size, S.mem j (base j + i) = some ((L i).arr j)

section
variable {I : Impl K β} {E : Elem K} {ld : β → K.Bits} {st : K.Bits → β} {VR : I.V → (Nat → K.Bits) → Prop}
  {MR : I.M → (Nat → Bool) → Prop} {base : Nat → Nat}

/-- A function that has the values a partial one has. -/
theorem choice {α : Type} {n : Nat} {p : Nat → Option α} (h : ∀ i < n, (p i).isSome) (d : α) : ∃ f : Nat → α, ∀ i < n, p i = some (f i) :=
  ⟨fun i => (p i).getD d, fun i hi => by obtain ⟨a, ha⟩ := Option.isSome_iff_exists.1 (h i hi); simp [ha]⟩

theorem shiftInt_eq {width : Nat} (l : Bool) (x : I.V) {s : Int} (h : 0 ≤ s ∧ s < width) : shiftInt I width l x s = I.shift l x s.toNat := by
  unfold shiftInt
  rw [if_neg (by omega), if_neg (by omega)]

theorem evalV_spec (hI : Correct I E ld st VR MR) {S : State I} {L : Nat → Lane K β} (hS : Rep I VR MR base S L) (e : VE K) :
    ∀ (r : Nat → K.Bits), (∀ i < I.size, e.eval E i (L i) = some (r i)) → ∃ x, evalV I E.width S e = some x ∧ VR x r := by
  induction e with
  | var v =>
    intro r hr
    exact ⟨_, rfl, hI.vcongr (hS.v v) (fun i hi => by have := hr i hi; simpa [VE.eval] using this)⟩
  | const a => intro r hr; exact ⟨_, rfl, hI.vcongr (hI.broadcast a) (fun i hi => by have := hr i hi; simpa [VE.eval] using this)⟩
  | gen f => intro r hr; exact ⟨_, rfl, hI.vcongr (hI.generator f) (fun i hi => by have := hr i hi; simpa [VE.eval] using this)⟩
  | neg e ih =>
    intro r hr
    obtain ⟨f, hf⟩ := choice (n := I.size) (p := fun i => e.eval E i (L i)) (fun i hi => by
      have := hr i hi; simp only [VE.eval, Option.bind_eq_some_iff] at this; obtain ⟨a, ha, _⟩ := this; simp [ha]) 0#K.width
    obtain ⟨x, hx, hv⟩ := ih f hf
    obtain ⟨y, hy, hy'⟩ := hI.un (o := .neg) (r := r) hv (fun i hi => by have := hr i hi; simpa [VE.eval, hf i hi] using this)
    exact ⟨y, by simp [evalV, hx, hy], hy'⟩
  | compl e ih =>
    intro r hr
    obtain ⟨f, hf⟩ := choice (n := I.size) (p := fun i => e.eval E i (L i)) (fun i hi => by
      have := hr i hi; simp only [VE.eval, Option.bind_eq_some_iff] at this; obtain ⟨a, ha, _⟩ := this; simp [ha]) 0#K.width
    obtain ⟨x, hx, hv⟩ := ih f hf
    obtain ⟨y, hy, hy'⟩ := hI.un (o := .compl) (r := r) hv (fun i hi => by have := hr i hi; simpa [VE.eval, hf i hi] using this)
    exact ⟨y, by simp [evalV, hx, hy], hy'⟩
  | pos e ih => intro r hr; exact ih r hr
  | bin o e₁ e₂ ih₁ ih₂ =>
    intro r hr
    obtain ⟨f, hf⟩ := choice (n := I.size) (p := fun i => e₁.eval E i (L i)) (fun i hi => by
      have := hr i hi; simp only [VE.eval, Option.bind_eq_some_iff] at this; obtain ⟨a, ha, _⟩ := this; simp [ha]) 0#K.width
    obtain ⟨g, hg⟩ := choice (n := I.size) (p := fun i => e₂.eval E i (L i)) (fun i hi => by
      have := hr i hi; simp only [VE.eval, Option.bind_eq_some_iff] at this; obtain ⟨a, ha, b, hb, _⟩ := this; simp [hb]) 0#K.width
    obtain ⟨x, hx, hv⟩ := ih₁ f hf
    obtain ⟨y, hy, hw⟩ := ih₂ g hg
    obtain ⟨z, hz, hz'⟩ := hI.bin (o := o) (r := r) hv hw (fun i hi => by have := hr i hi; simpa [VE.eval, hf i hi, hg i hi] using this)
    exact ⟨z, by simp [evalV, hx, hy, hz], hz'⟩
  | shift l e s ih =>
    intro r hr
    obtain ⟨f, hf⟩ := choice (n := I.size) (p := fun i => e.eval E i (L i)) (fun i hi => by
      have := hr i hi; simp only [VE.eval, Option.bind_eq_some_iff] at this; obtain ⟨a, ha, _⟩ := this; simp [ha]) 0#K.width
    obtain ⟨x, hx, hv⟩ := ih f hf
    have h0 := hr 0 hI.pos
    simp only [VE.eval, Option.bind_eq_some_iff] at h0
    obtain ⟨_, _, h0⟩ := h0
    have hs : 0 ≤ s ∧ s < E.width := by
      by_cases h : 0 ≤ s ∧ s < E.width
      · exact h
      · rw [if_neg h] at h0; exact absurd h0 (by simp)
    obtain ⟨y, hy, hy'⟩ := hI.shift (l := l) (s := s.toNat) (r := r) hv (by omega) (fun i hi => by
      have := hr i hi; simpa [VE.eval, hf i hi, hs] using this)
    exact ⟨y, by simp only [evalV, hx]; rw [← hy]; exact shiftInt_eq l x hs, hy'⟩
  | call1 o e ih =>
    intro r hr
    obtain ⟨f, hf⟩ := choice (n := I.size) (p := fun i => e.eval E i (L i)) (fun i hi => by
      have := hr i hi; simp only [VE.eval, Option.bind_eq_some_iff] at this; obtain ⟨a, ha, _⟩ := this; simp [ha]) 0#K.width
    obtain ⟨x, hx, hv⟩ := ih f hf
    obtain ⟨y, hy, hy'⟩ := hI.f1 (o := o) (r := r) hv (fun i hi => by have := hr i hi; simpa [VE.eval, hf i hi] using this)
    exact ⟨y, by simp [evalV, hx, hy], hy'⟩
  | call2 o e₁ e₂ ih₁ ih₂ =>
    intro r hr
    obtain ⟨f, hf⟩ := choice (n := I.size) (p := fun i => e₁.eval E i (L i)) (fun i hi => by
      have := hr i hi; simp only [VE.eval, Option.bind_eq_some_iff] at this; obtain ⟨a, ha, _⟩ := this; simp [ha]) 0#K.width
    obtain ⟨g, hg⟩ := choice (n := I.size) (p := fun i => e₂.eval E i (L i)) (fun i hi => by
      have := hr i hi; simp only [VE.eval, Option.bind_eq_some_iff] at this; obtain ⟨a, ha, b, hb, _⟩ := this; simp [hb]) 0#K.width
    obtain ⟨x, hx, hv⟩ := ih₁ f hf
    obtain ⟨y, hy, hw⟩ := ih₂ g hg
    obtain ⟨z, hz, hz'⟩ := hI.f2 (o := o) (r := r) hv hw (fun i hi => by have := hr i hi; simpa [VE.eval, hf i hi, hg i hi] using this)
    exact ⟨z, by simp [evalV, hx, hy, hz], hz'⟩
  | call3 o e₁ e₂ e₃ ih₁ ih₂ ih₃ =>
    intro r hr
    obtain ⟨f, hf⟩ := choice (n := I.size) (p := fun i => e₁.eval E i (L i)) (fun i hi => by
      have := hr i hi; simp only [VE.eval, Option.bind_eq_some_iff] at this; obtain ⟨a, ha, _⟩ := this; simp [ha]) 0#K.width
    obtain ⟨g, hg⟩ := choice (n := I.size) (p := fun i => e₂.eval E i (L i)) (fun i hi => by
      have := hr i hi; simp only [VE.eval, Option.bind_eq_some_iff] at this; obtain ⟨a, ha, b, hb, _⟩ := this; simp [hb]) 0#K.width
    obtain ⟨h, hh⟩ := choice (n := I.size) (p := fun i => e₃.eval E i (L i)) (fun i hi => by
      have := hr i hi; simp only [VE.eval, Option.bind_eq_some_iff] at this; obtain ⟨a, ha, b, hb, c, hc, _⟩ := this; simp [hc]) 0#K.width
    obtain ⟨x, hx, hv⟩ := ih₁ f hf
    obtain ⟨y, hy, hw⟩ := ih₂ g hg
    obtain ⟨z, hz, hu⟩ := ih₃ h hh
    obtain ⟨w, hw1, hw2⟩ := hI.f3 (o := o) (r := r) hv hw hu (fun i hi => by
      have := hr i hi; simpa [VE.eval, hf i hi, hg i hi, hh i hi] using this)
    exact ⟨w, by simp [evalV, hx, hy, hz, hw1], hw2⟩
  | clamp e₁ e₂ e₃ ih₁ ih₂ ih₃ =>
    intro r hr
    obtain ⟨f, hf⟩ := choice (n := I.size) (p := fun i => e₁.eval E i (L i)) (fun i hi => by
      have := hr i hi; simp only [VE.eval, Option.bind_eq_some_iff] at this; obtain ⟨a, ha, _⟩ := this; simp [ha]) 0#K.width
    obtain ⟨g, hg⟩ := choice (n := I.size) (p := fun i => e₂.eval E i (L i)) (fun i hi => by
      have := hr i hi; simp only [VE.eval, Option.bind_eq_some_iff] at this; obtain ⟨a, ha, b, hb, _⟩ := this; simp [hb]) 0#K.width
    obtain ⟨h, hh⟩ := choice (n := I.size) (p := fun i => e₃.eval E i (L i)) (fun i hi => by
      have := hr i hi; simp only [VE.eval, Option.bind_eq_some_iff] at this; obtain ⟨a, ha, b, hb, c, hc, _⟩ := this; simp [hc]) 0#K.width
    obtain ⟨x, hx, hv⟩ := ih₁ f hf
    obtain ⟨y, hy, hw⟩ := ih₂ g hg
    obtain ⟨z, hz, hu⟩ := ih₃ h hh
    obtain ⟨m, hm⟩ := choice (n := I.size) (p := fun i => E.fn.f2 .max (g i) (f i)) (fun i hi => by
      have := hr i hi
      simp only [VE.eval, hf i hi, hg i hi, hh i hi, Option.bind_some, Option.bind_eq_some_iff] at this
      obtain ⟨a, ha, _⟩ := this; simp [ha]) 0#K.width
    obtain ⟨w, hw1, hw2⟩ := hI.f2 (o := .max) (r := m) hw hv hm
    obtain ⟨u, hu1, hu2⟩ := hI.f2 (o := .min) (r := r) hu hw2 (fun i hi => by
      have := hr i hi
      simpa [VE.eval, hf i hi, hg i hi, hh i hi, hm i hi] using this)
    exact ⟨u, by simp [evalV, hx, hy, hz, hw1, hu1], hu2⟩

theorem rel_spec (hI : Correct I E ld st VR MR) {x y : I.V} {f g : Nat → K.Bits} (hx : VR x f) (hy : VR y g) (r : Kind.Rel) :
    ∃ k, rel I r x y = some k ∧ MR k (fun i => K.holds r (f i) (g i)) := by
  cases r with
  | eq => exact hI.cmp (o := .equal) hx hy
  | ne => exact hI.cmp (o := .notEqual) hx hy
  | lt => exact hI.cmp (o := .less) hx hy
  | le => exact hI.cmp (o := .lessEqual) hx hy
  | gt =>
    obtain ⟨k, e, h⟩ := hI.cmp (o := .less) hy hx
    exact ⟨k, e, hI.mcongr h (fun i _ => ((Compare.holds_swap K (f i) (g i)).1).symm)⟩
  | ge =>
    obtain ⟨k, e, h⟩ := hI.cmp (o := .lessEqual) hy hx
    exact ⟨k, e, hI.mcongr h (fun i _ => ((Compare.holds_swap K (f i) (g i)).2).symm)⟩

theorem evalM_spec (hI : Correct I E ld st VR MR) {S : State I} {L : Nat → Lane K β} (hS : Rep I VR MR base S L) (k : ME K) :
    ∀ (r : Nat → Bool), (∀ i < I.size, k.eval E i (L i) = some (r i)) → ∃ x, evalM I E.width S k = some x ∧ MR x r := by
  have vals : ∀ (e : VE K), (∀ i < I.size, (e.eval E i (L i)).isSome) →
      ∃ (f : Nat → K.Bits) (x : I.V), (∀ i < I.size, e.eval E i (L i) = some (f i)) ∧ evalV I E.width S e = some x ∧ VR x f := by
    intro e he
    obtain ⟨f, hf⟩ := choice he 0#K.width
    obtain ⟨x, hx, hv⟩ := evalV_spec hI hS e f hf
    exact ⟨f, x, hf, hx, hv⟩
  induction k with
  | var m => intro r hr; exact ⟨_, rfl, hI.mcongr (hS.m m) (fun i hi => by have := hr i hi; simpa [ME.eval] using this)⟩
  | const b => intro r hr; exact ⟨_, rfl, hI.mcongr (hI.mbroadcast b) (fun i hi => by have := hr i hi; simpa [ME.eval] using this)⟩
  | cmp o e₁ e₂ =>
    intro r hr
    obtain ⟨f, x, hf, hx, hv⟩ := vals e₁ (fun i hi => by
      have := hr i hi; simp only [ME.eval, Option.bind_eq_some_iff] at this; obtain ⟨a, ha, _⟩ := this; simp [ha])
    obtain ⟨g, y, hg, hy, hw⟩ := vals e₂ (fun i hi => by
      have := hr i hi; simp only [ME.eval, Option.bind_eq_some_iff] at this; obtain ⟨a, ha, b, hb, _⟩ := this; simp [hb])
    obtain ⟨k, hk, hk'⟩ := rel_spec hI hv hw o
    exact ⟨k, by simp [evalM, hx, hy, hk], hI.mcongr hk' (fun i hi => by have := hr i hi; simpa [ME.eval, hf i hi, hg i hi] using this)⟩
  | isZero e =>
    intro r hr
    obtain ⟨f, x, hf, hx, hv⟩ := vals e (fun i hi => by
      have := hr i hi; simp only [ME.eval, Option.bind_eq_some_iff] at this; obtain ⟨a, ha, _⟩ := this; simp [ha])
    obtain ⟨k, hk, hk'⟩ := hI.negate hv
    exact ⟨k, by simp [evalM, hx, hk], hI.mcongr hk' (fun i hi => by have := hr i hi; simpa [ME.eval, hf i hi] using this)⟩
  | not k ih =>
    intro r hr
    obtain ⟨x, hx, hv⟩ := ih (fun i => !r i) (fun i hi => by
      have := hr i hi; simp only [ME.eval, Option.bind_eq_some_iff, Option.some.injEq] at this; obtain ⟨a, ha, e⟩ := this; simp [ha, ← e])
    exact ⟨_, by simp [evalM, hx], hI.mcongr (hI.mnot hv) (by simp)⟩
  | bin o k l ih₁ ih₂ =>
    intro r hr
    obtain ⟨f, hf⟩ := choice (n := I.size) (p := fun i => k.eval E i (L i)) (fun i hi => by
      have := hr i hi; simp only [ME.eval, Option.bind_eq_some_iff] at this; obtain ⟨a, ha, _⟩ := this; simp [ha]) false
    obtain ⟨g, hg⟩ := choice (n := I.size) (p := fun i => l.eval E i (L i)) (fun i hi => by
      have := hr i hi; simp only [ME.eval, Option.bind_eq_some_iff] at this; obtain ⟨a, ha, b, hb, _⟩ := this; simp [hb]) false
    obtain ⟨x, hx, hv⟩ := ih₁ f hf
    obtain ⟨y, hy, hw⟩ := ih₂ g hg
    exact ⟨_, by simp [evalM, hx, hy], hI.mcongr (hI.mbin (o := o) hv hw) (fun i hi => by
      have := hr i hi; simpa [ME.eval, hf i hi, hg i hi] using this)⟩
  | eq k l ih₁ ih₂ =>
    intro r hr
    obtain ⟨f, hf⟩ := choice (n := I.size) (p := fun i => k.eval E i (L i)) (fun i hi => by
      have := hr i hi; simp only [ME.eval, Option.bind_eq_some_iff] at this; obtain ⟨a, ha, _⟩ := this; simp [ha]) false
    obtain ⟨g, hg⟩ := choice (n := I.size) (p := fun i => l.eval E i (L i)) (fun i hi => by
      have := hr i hi; simp only [ME.eval, Option.bind_eq_some_iff] at this; obtain ⟨a, ha, b, hb, _⟩ := this; simp [hb]) false
    obtain ⟨x, hx, hv⟩ := ih₁ f hf
    obtain ⟨y, hy, hw⟩ := ih₂ g hg
    refine ⟨_, by simp [evalM, hx, hy]; rfl, hI.mcongr (hI.mnot (hI.mbin (o := .xor) hv hw)) (fun i hi => ?_)⟩
    have := hr i hi
    simp only [ME.eval, hf i hi, hg i hi, Option.bind_some, Option.some.injEq] at this
    rw [← this]
    simp [MOp.eval, bne]
  | ne k l ih₁ ih₂ =>
    intro r hr
    obtain ⟨f, hf⟩ := choice (n := I.size) (p := fun i => k.eval E i (L i)) (fun i hi => by
      have := hr i hi; simp only [ME.eval, Option.bind_eq_some_iff] at this; obtain ⟨a, ha, _⟩ := this; simp [ha]) false
    obtain ⟨g, hg⟩ := choice (n := I.size) (p := fun i => l.eval E i (L i)) (fun i hi => by
      have := hr i hi; simp only [ME.eval, Option.bind_eq_some_iff] at this; obtain ⟨a, ha, b, hb, _⟩ := this; simp [hb]) false
    obtain ⟨x, hx, hv⟩ := ih₁ f hf
    obtain ⟨y, hy, hw⟩ := ih₂ g hg
    exact ⟨_, by simp [evalM, hx, hy]; rfl, hI.mcongr (hI.mbin (o := .xor) hv hw) (fun i hi => by
      have := hr i hi; simpa [ME.eval, hf i hi, hg i hi, MOp.eval] using this)⟩
  | test1 o e =>
    intro r hr
    have h0 := hr 0 hI.pos
    simp only [ME.eval, Option.bind_eq_some_iff] at h0
    obtain ⟨p, hp, _⟩ := h0
    obtain ⟨f, x, hf, hx, hv⟩ := vals e (fun i hi => by
      have := hr i hi; simp only [ME.eval, Option.bind_eq_some_iff] at this; obtain ⟨_, _, a, ha, _⟩ := this; simp [ha])
    obtain ⟨k, hk, hk'⟩ := hI.t1 hp hv
    exact ⟨k, by simp [evalM, hx, hk], hI.mcongr hk' (fun i hi => by have := hr i hi; simpa [ME.eval, hp, hf i hi] using this)⟩
  | test2 o e₁ e₂ =>
    intro r hr
    have h0 := hr 0 hI.pos
    simp only [ME.eval, Option.bind_eq_some_iff] at h0
    obtain ⟨p, hp, _⟩ := h0
    obtain ⟨f, x, hf, hx, hv⟩ := vals e₁ (fun i hi => by
      have := hr i hi; simp only [ME.eval, Option.bind_eq_some_iff] at this; obtain ⟨_, _, a, ha, _⟩ := this; simp [ha])
    obtain ⟨g, y, hg, hy, hw⟩ := vals e₂ (fun i hi => by
      have := hr i hi; simp only [ME.eval, Option.bind_eq_some_iff] at this; obtain ⟨_, _, a, ha, b, hb, _⟩ := this; simp [hb])
    obtain ⟨k, hk, hk'⟩ := hI.t2 hp hv hw
    exact ⟨k, by simp [evalM, hx, hy, hk], hI.mcongr hk' (fun i hi => by have := hr i hi; simpa [ME.eval, hp, hf i hi, hg i hi] using this)⟩

theorem Rep.congr (hI : Correct I E ld st VR MR) {S : State I} {L L' : Nat → Lane K β} (hS : Rep I VR MR base S L)
    (h : ∀ i < I.size, L i = L' i) : Rep I VR MR base S L' :=
  ⟨fun x => hI.vcongr (hS.v x) (fun i hi => by rw [h i hi]), fun x => hI.mcongr (hS.m x) (fun i hi => by rw [h i hi]),
    fun j i hi => by rw [hS.mem j i hi, h i hi]⟩

theorem Rep.setV {S : State I} {L : Nat → Lane K β} (hS : Rep I VR MR base S L) (v : Nat) {x : I.V}
    {f : Nat → K.Bits} (hx : VR x f) : Rep I VR MR base (setV I S v x) (fun i => { L i with v := upd (L i).v v (f i) }) := by
  refine ⟨fun y => ?_, hS.m, hS.mem⟩
  simp only [SimdClass.setV, upd]
  by_cases h : y = v
  · simpa [h] using hx
  · simpa [h] using hS.v y

theorem Rep.setM {S : State I} {L : Nat → Lane K β} (hS : Rep I VR MR base S L) (m : Nat) {x : I.M}
    {f : Nat → Bool} (hx : MR x f) : Rep I VR MR base (setM I S m x) (fun i => { L i with m := upd (L i).m m (f i) }) := by
  refine ⟨hS.v, fun y => ?_, hS.mem⟩
  simp only [SimdClass.setM, upd]
  by_cases h : y = m
  · simpa [h] using hx
  · simpa [h] using hS.m y

theorem Rep.setMem {S : State I} {L : Nat → Lane K β} (hS : Rep I VR MR base S L) (j : Nat) {x : Mem β}
    {f : Nat → β} (hx : ∀ i < I.size, x (base j + i) = some (f i)) :
    Rep I VR MR base (setMem I S j x) (fun i => { L i with arr := upd (L i).arr j (f i) }) := by
  refine ⟨hS.v, hS.m, fun k i hi => ?_⟩
  simp only [SimdClass.setMem, upd]
  by_cases h : k = j
  · simpa [h] using hx i hi
  · simpa [h] using hS.mem k i hi

/-- The memory outside the arrays is as before. -/
def Frame (I : Impl K β) (base : Nat → Nat) (S S' : State I) : Prop :=
  ∀ j a, (a < base j ∨ base j + I.size ≤ a) → S'.mem j a = S.mem j a

theorem upd_self {α : Type} (f : Nat → α) (i : Nat) : upd f i (f i) = f := by
  funext j; unfold upd; split
  · rename_i h; rw [h]
  · rfl

/-- The program theorem. -/
theorem run_spec (hI : Correct I E ld st VR MR) (p : Stmt K) : p.WellFormed → ∀ {S : State I} {L L' : Nat → Lane K β},
    Rep I VR MR base S L → (∀ i < I.size, p.exec E ld st I.size i (L i) = some (L' i)) →
    ∃ S', run I E.width base p S = some S' ∧ Rep I VR MR base S' L' ∧ Frame I base S S' := by
  have frameV : ∀ (S : State I) v x, Frame I base S (setV I S v x) := fun _ _ _ _ _ _ => rfl
  have frameM : ∀ (S : State I) v x, Frame I base S (setM I S v x) := fun _ _ _ _ _ _ => rfl
  have vals : ∀ {S : State I} {L : Nat → Lane K β}, Rep I VR MR base S L → ∀ (e : VE K), (∀ i < I.size, (e.eval E i (L i)).isSome) →
      ∃ (f : Nat → K.Bits) (x : I.V), (∀ i < I.size, e.eval E i (L i) = some (f i)) ∧ evalV I E.width S e = some x ∧ VR x f := by
    intro S L hS e he
    obtain ⟨f, hf⟩ := choice he 0#K.width
    obtain ⟨x, hx, hv⟩ := evalV_spec hI hS e f hf
    exact ⟨f, x, hf, hx, hv⟩
  have bools : ∀ {S : State I} {L : Nat → Lane K β}, Rep I VR MR base S L → ∀ (e : ME K), (∀ i < I.size, (e.eval E i (L i)).isSome) →
      ∃ (f : Nat → Bool) (x : I.M), (∀ i < I.size, e.eval E i (L i) = some (f i)) ∧ evalM I E.width S e = some x ∧ MR x f := by
    intro S L hS e he
    obtain ⟨f, hf⟩ := choice he false
    obtain ⟨x, hx, hv⟩ := evalM_spec hI hS e f hf
    exact ⟨f, x, hf, hx, hv⟩
  induction p with
  | assign v e =>
    intro _ S L L' hS h
    simp only [Stmt.exec, Option.bind_eq_some_iff, Option.some.injEq] at h
    obtain ⟨f, x, hf, hx, hv⟩ := vals hS e (fun i hi => by obtain ⟨a, ha, _⟩ := h i hi; simp [ha])
    refine ⟨_, by simp only [run, hx]; rfl, (hS.setV v hv).congr hI fun i hi => ?_, frameV _ _ _⟩
    obtain ⟨a, ha, e⟩ := h i hi
    rw [hf i hi] at ha
    rw [← e, Option.some.inj ha]
  | compound o v e =>
    intro _ S L L' hS h
    simp only [Stmt.exec, Option.bind_eq_some_iff, Option.some.injEq] at h
    obtain ⟨f, x, hf, hx, hv⟩ := vals hS e (fun i hi => by obtain ⟨a, ha, _⟩ := h i hi; simp [ha])
    obtain ⟨g, hg⟩ := choice (n := I.size) (p := fun i => E.bin o ((L i).v v) (f i)) (fun i hi => by
      obtain ⟨a, ha, b, hb, _⟩ := h i hi
      rw [hf i hi] at ha; rw [Option.some.inj ha, hb]; rfl) 0#K.width
    obtain ⟨y, hy, hw⟩ := hI.bin (hS.v v) hv hg
    refine ⟨_, by simp only [run, hx, Option.bind_eq_bind, Option.bind_some, hy]; rfl, (hS.setV v hw).congr hI fun i hi => ?_, frameV _ _ _⟩
    obtain ⟨a, ha, b, hb, e⟩ := h i hi
    rw [hf i hi] at ha
    rw [← Option.some.inj ha, hg i hi] at hb
    rw [← e, Option.some.inj hb]
  | compoundShift l v s =>
    intro _ S L L' hS h
    have hs : 0 ≤ s ∧ s < E.width := by
      have := h 0 hI.pos
      simp only [Stmt.exec] at this
      split at this
      · assumption
      · exact absurd this (by simp)
    simp only [Stmt.exec, if_pos hs, Option.bind_eq_some_iff, Option.some.injEq] at h
    obtain ⟨g, hg⟩ := choice (n := I.size) (p := fun i => E.shift l ((L i).v v) s.toNat) (fun i hi => by
      obtain ⟨a, ha, _⟩ := h i hi; simp [ha]) 0#K.width
    obtain ⟨y, hy, hw⟩ := hI.shift (hS.v v) (by omega) hg
    refine ⟨_, by simp only [run, shiftInt_eq l _ hs, hy]; rfl, (hS.setV v hw).congr hI fun i hi => ?_, frameV _ _ _⟩
    obtain ⟨a, ha, e⟩ := h i hi
    rw [hg i hi] at ha
    rw [← e, Option.some.inj ha]
  | step inc v =>
    intro _ S L L' hS h
    simp only [Stmt.exec, Option.bind_eq_some_iff, Option.some.injEq] at h
    obtain ⟨g, hg⟩ := choice (n := I.size) (p := fun i => E.un (stepOp inc) ((L i).v v)) (fun i hi => by
      obtain ⟨a, ha, _⟩ := h i hi; simp [ha]) 0#K.width
    obtain ⟨y, hy, hw⟩ := hI.un (hS.v v) hg
    have hy' : stepV I inc (S.v v) = some y := hy
    refine ⟨_, by simp only [run, hy']; rfl, (hS.setV v hw).congr hI fun i hi => ?_, frameV _ _ _⟩
    obtain ⟨a, ha, e⟩ := h i hi
    rw [hg i hi] at ha
    rw [← e, Option.some.inj ha]
  | preStep inc d v =>
    intro _ S L L' hS h
    simp only [Stmt.exec, Option.bind_eq_some_iff, Option.some.injEq] at h
    obtain ⟨g, hg⟩ := choice (n := I.size) (p := fun i => E.un (stepOp inc) ((L i).v v)) (fun i hi => by
      obtain ⟨a, ha, _⟩ := h i hi; simp [ha]) 0#K.width
    obtain ⟨y, hy, hw⟩ := hI.un (hS.v v) hg
    have hy' : stepV I inc (S.v v) = some y := hy
    refine ⟨_, by simp only [run, hy']; rfl, ((hS.setV v hw).setV d hw).congr hI fun i hi => ?_, frameV _ _ _⟩
    obtain ⟨a, ha, e⟩ := h i hi
    rw [hg i hi] at ha
    rw [← e, Option.some.inj ha]
  | postStep inc d v =>
    intro _ S L L' hS h
    simp only [Stmt.exec, Option.bind_eq_some_iff, Option.some.injEq] at h
    obtain ⟨g, hg⟩ := choice (n := I.size) (p := fun i => E.un (stepOp inc) ((L i).v v)) (fun i hi => by
      obtain ⟨a, ha, _⟩ := h i hi; simp [ha]) 0#K.width
    obtain ⟨y, hy, hw⟩ := hI.un (hS.v v) hg
    have hy' : stepV I inc (S.v v) = some y := hy
    refine ⟨_, by simp only [run, hy']; rfl, ((hS.setV v hw).setV d (hS.v v)).congr hI fun i hi => ?_, frameV _ _ _⟩
    obtain ⟨a, ha, e⟩ := h i hi
    rw [hg i hi] at ha
    rw [← e, Option.some.inj ha]
  | massign m k =>
    intro _ S L L' hS h
    simp only [Stmt.exec, Option.bind_eq_some_iff, Option.some.injEq] at h
    obtain ⟨f, x, hf, hx, hv⟩ := bools hS k (fun i hi => by obtain ⟨a, ha, _⟩ := h i hi; simp [ha])
    refine ⟨_, by simp only [run, hx]; rfl, (hS.setM m hv).congr hI fun i hi => ?_, frameM _ _ _⟩
    obtain ⟨a, ha, e⟩ := h i hi
    rw [hf i hi] at ha
    rw [← e, Option.some.inj ha]
  | mcompound o m k =>
    intro _ S L L' hS h
    simp only [Stmt.exec, Option.bind_eq_some_iff, Option.some.injEq] at h
    obtain ⟨f, x, hf, hx, hv⟩ := bools hS k (fun i hi => by obtain ⟨a, ha, _⟩ := h i hi; simp [ha])
    refine ⟨_, by simp only [run, hx]; rfl, (hS.setM m (hI.mbin (o := o) (hS.m m) hv)).congr hI fun i hi => ?_, frameM _ _ _⟩
    obtain ⟨a, ha, e⟩ := h i hi
    rw [hf i hi] at ha
    rw [← e, Option.some.inj ha]
  | elem v j a =>
    intro _ S L L' hS h
    have hj : j < I.size := by
      have := h 0 hI.pos
      simp only [Stmt.exec] at this
      split at this
      · assumption
      · exact absurd this (by simp)
    simp only [Stmt.exec, if_pos hj, Option.some.injEq] at h
    refine ⟨_, by simp only [run, if_pos hj], (hS.setV v (hI.set a hj (hS.v v))).congr hI fun i hi => ?_, frameV _ _ _⟩
    rw [← h i hi]
    by_cases e : i = j
    · rw [if_pos e]; simp [upd, e]
    · rw [if_neg e]; simp only [upd, if_neg e]; exact congrArg (fun q => ({ L i with v := q } : Lane K β)) (upd_self (L i).v v)
  | melem m j b =>
    intro _ S L L' hS h
    have hj : j < I.size := by
      have := h 0 hI.pos
      simp only [Stmt.exec] at this
      split at this
      · assumption
      · exact absurd this (by simp)
    simp only [Stmt.exec, if_pos hj, Option.some.injEq] at h
    refine ⟨_, by simp only [run, if_pos hj], (hS.setM m (hI.mset b hj (hS.m m))).congr hI fun i hi => ?_, frameM _ _ _⟩
    rw [← h i hi]
    by_cases e : i = j
    · rw [if_pos e]; simp [upd, e]
    · rw [if_neg e]; simp only [upd, if_neg e]; exact congrArg (fun q => ({ L i with m := q } : Lane K β)) (upd_self (L i).m m)
  | whereAssign k v e =>
    intro _ S L L' hS h
    simp only [Stmt.exec, Option.bind_eq_some_iff, Option.some.injEq] at h
    obtain ⟨c, y, hc, hy, hm⟩ := bools hS k (fun i hi => by obtain ⟨a, ha, _⟩ := h i hi; simp [ha])
    obtain ⟨f, x, hf, hx, hv⟩ := vals hS e (fun i hi => by obtain ⟨_, _, a, ha, _⟩ := h i hi; simp [ha])
    obtain ⟨r, hr, hr'⟩ := hI.maskedAssign hm (hS.v v) hv
    refine ⟨_, by simp only [run, hx, hy, Option.bind_eq_bind, Option.bind_some, hr]; rfl, (hS.setV v hr').congr hI fun i hi => ?_, frameV _ _ _⟩
    obtain ⟨b, hb, a, ha, e⟩ := h i hi
    rw [hf i hi] at ha
    rw [hc i hi] at hb
    rw [← e, ← Option.some.inj ha, ← Option.some.inj hb]
    cases c i
    · simp only [Bool.false_eq_true, if_false]; exact congrArg (fun q => ({ L i with v := q } : Lane K β)) (upd_self (L i).v v)
    · rfl
  | whereCompound k o v e =>
    intro hwf S L L' hS h
    simp only [Stmt.exec, Option.bind_eq_some_iff, Option.some.injEq] at h
    obtain ⟨c, y, hc, hy, hm⟩ := bools hS k (fun i hi => by obtain ⟨a, ha, _⟩ := h i hi; simp [ha])
    obtain ⟨f, x, hf, hx, hv⟩ := vals hS e (fun i hi => by obtain ⟨_, _, a, ha, _⟩ := h i hi; simp [ha])
    obtain ⟨g, hg⟩ := choice (n := I.size) (p := fun i => E.bin o ((L i).v v) (f i)) (fun i hi => by
      obtain ⟨_, _, a, ha, b, hb, _⟩ := h i hi
      rw [hf i hi] at ha; rw [Option.some.inj ha, hb]; rfl) 0#K.width
    obtain ⟨r, hr, hr'⟩ := hI.maskedCassign hwf.1 hwf.2 hm (hS.v v) hv hg
    have hr2 : whereCompound I o y (S.v v) x = some r := by
      rw [← hr]
      cases o <;> first | rfl | exact absurd rfl hwf.1 | exact absurd rfl hwf.2
    refine ⟨_, by simp only [run, hx, hy, Option.bind_eq_bind, Option.bind_some, hr2]; rfl, (hS.setV v hr').congr hI fun i hi => ?_, frameV _ _ _⟩
    obtain ⟨b, hb, a, ha, q, hq, e⟩ := h i hi
    rw [hf i hi] at ha
    rw [hc i hi] at hb
    rw [← Option.some.inj ha, hg i hi] at hq
    rw [← e, ← Option.some.inj hq, ← Option.some.inj hb]
    cases c i
    · simp only [Bool.false_eq_true, if_false]; exact congrArg (fun q => ({ L i with v := q } : Lane K β)) (upd_self (L i).v v)
    · rfl
  | whereStep k inc v =>
    intro _ S L L' hS h
    simp only [Stmt.exec, Option.bind_eq_some_iff, Option.some.injEq] at h
    obtain ⟨c, y, hc, hy, hm⟩ := bools hS k (fun i hi => by obtain ⟨a, ha, _⟩ := h i hi; simp [ha])
    obtain ⟨g, hg⟩ := choice (n := I.size) (p := fun i => E.un (stepOp inc) ((L i).v v)) (fun i hi => by
      obtain ⟨_, _, a, ha, _⟩ := h i hi; simp [ha]) 0#K.width
    obtain ⟨r, hr, hr'⟩ := hI.maskedUnary hm (hS.v v) hg
    have hr2 : I.maskedUnary ((if inc then WhereExpr.UOp.preInc else WhereExpr.UOp.preDec).fn) y (S.v v) = some r := by
      rw [← hr]; cases inc <;> rfl
    refine ⟨_, by simp only [run, hy, Option.bind_eq_bind, Option.bind_some, hr2]; rfl, (hS.setV v hr').congr hI fun i hi => ?_, frameV _ _ _⟩
    obtain ⟨b, hb, a, ha, e⟩ := h i hi
    rw [hg i hi] at ha
    rw [hc i hi] at hb
    rw [← e, ← Option.some.inj ha, ← Option.some.inj hb]
    cases c i
    · simp only [Bool.false_eq_true, if_false]; exact congrArg (fun q => ({ L i with v := q } : Lane K β)) (upd_self (L i).v v)
    · rfl
  | whereMask k m l =>
    intro _ S L L' hS h
    simp only [Stmt.exec, Option.bind_eq_some_iff, Option.some.injEq] at h
    obtain ⟨c, y, hc, hy, hm⟩ := bools hS k (fun i hi => by obtain ⟨a, ha, _⟩ := h i hi; simp [ha])
    obtain ⟨f, x, hf, hx, hv⟩ := bools hS l (fun i hi => by obtain ⟨_, _, a, ha, _⟩ := h i hi; simp [ha])
    refine ⟨_, by simp only [run, hx, hy, Option.bind_eq_bind, Option.bind_some]; rfl,
      (hS.setM m (hI.mmaskedAssign hm (hS.m m) hv)).congr hI fun i hi => ?_, frameM _ _ _⟩
    obtain ⟨b, hb, a, ha, e⟩ := h i hi
    rw [hf i hi] at ha
    rw [hc i hi] at hb
    rw [← e, ← Option.some.inj ha, ← Option.some.inj hb]
    cases c i
    · simp only [Bool.false_eq_true, if_false]; exact congrArg (fun q => ({ L i with m := q } : Lane K β)) (upd_self (L i).m m)
    · rfl
  | load v j =>
    intro _ S L L' hS h
    simp only [Stmt.exec, Option.some.injEq] at h
    obtain ⟨r, hr, hr'⟩ := hI.load (hS.mem j)
    refine ⟨_, by simp only [run, hr]; rfl, (hS.setV v hr').congr hI fun i hi => ?_, frameV _ _ _⟩
    rw [← h i hi]
  | store v j =>
    intro _ S L L' hS h
    simp only [Stmt.exec, Option.some.injEq] at h
    obtain ⟨r, hr, hr1, hr2⟩ := hI.store (hS.v v) (mem := S.mem j) (b := base j) (fun i hi => by rw [hS.mem j i hi]; rfl)
    refine ⟨_, by simp only [run, hr]; rfl, (hS.setMem j hr1).congr hI fun i hi => ?_, fun k a ha => ?_⟩
    · rw [← h i hi]
    · simp only [setMem, upd]
      split
      · rename_i e; subst e; exact hr2 a ha
      · rfl
  | whereLoad k v j =>
    intro _ S L L' hS h
    simp only [Stmt.exec, Option.bind_eq_some_iff, Option.some.injEq] at h
    obtain ⟨c, y, hc, hy, hm⟩ := bools hS k (fun i hi => by obtain ⟨a, ha, _⟩ := h i hi; simp [ha])
    obtain ⟨r, hr, hr'⟩ := hI.maskedLoad (hS.v v) hm (fun i hi _ => hS.mem j i hi)
    refine ⟨_, by simp only [run, hy, Option.bind_eq_bind, Option.bind_some, hr]; rfl, (hS.setV v hr').congr hI fun i hi => ?_, frameV _ _ _⟩
    obtain ⟨b, hb, e⟩ := h i hi
    rw [hc i hi] at hb
    rw [← e, ← Option.some.inj hb]
    cases c i
    · simp only [Bool.false_eq_true, if_false]; exact congrArg (fun q => ({ L i with v := q } : Lane K β)) (upd_self (L i).v v)
    · rfl
  | whereStore k v j =>
    intro _ S L L' hS h
    simp only [Stmt.exec, Option.bind_eq_some_iff, Option.some.injEq] at h
    obtain ⟨c, y, hc, hy, hm⟩ := bools hS k (fun i hi => by obtain ⟨a, ha, _⟩ := h i hi; simp [ha])
    obtain ⟨r, hr, hr1, hr2⟩ := hI.maskedStore (hS.v v) hm (mem := S.mem j) (b := base j) (fun i hi _ => by rw [hS.mem j i hi]; rfl)
    refine ⟨_, by simp only [run, hy, Option.bind_eq_bind, Option.bind_some, hr]; rfl,
      (hS.setMem j (f := fun i => if c i then st ((L i).v v) else (L i).arr j) (fun i hi => ?_)).congr hI fun i hi => ?_, fun k a ha => ?_⟩
    · rw [hr1 i hi, hS.mem j i hi]; cases c i <;> rfl
    · obtain ⟨b, hb, e⟩ := h i hi
      rw [hc i hi] at hb
      rw [← e, ← Option.some.inj hb]
      cases c i
      · simp only [Bool.false_eq_true, if_false]; exact congrArg (fun q => ({ L i with arr := q } : Lane K β)) (upd_self (L i).arr j)
      · rfl
    · simp only [setMem, upd]
      split
      · rename_i e; subst e; exact hr2 a ha
      · rfl
  | skip =>
    intro _ S L L' hS h
    simp only [Stmt.exec, Option.some.injEq] at h
    exact ⟨S, rfl, hS.congr hI h, fun _ _ _ => rfl⟩
  | seq s t ihs iht =>
    intro hwf S L L' hS h
    simp only [Stmt.exec, Option.bind_eq_some_iff] at h
    obtain ⟨M, hM⟩ := choice (n := I.size) (p := fun i => s.exec E ld st I.size i (L i)) (fun i hi => by
      obtain ⟨a, ha, _⟩ := h i hi; simp [ha]) (L 0)
    obtain ⟨S₁, h₁, hS₁, hf₁⟩ := ihs hwf.1 hS hM
    obtain ⟨S₂, h₂, hS₂, hf₂⟩ := iht hwf.2 (L' := L') hS₁ (fun i hi => by
      obtain ⟨a, ha, hb⟩ := h i hi
      rw [hM i hi] at ha
      rw [Option.some.inj ha, hb])
    exact ⟨S₂, by simp only [run, h₁]; exact h₂, hS₂, fun j a ha => by rw [hf₂ j a ha, hf₁ j a ha]⟩
  | loop c s ih =>
    intro hwf S L L' hS h
    simp only [Stmt.exec] at h
    suffices ∀ c, ∀ {S : State I} {L L' : Nat → Lane K β}, Rep I VR MR base S L →
        (∀ i < I.size, iter (s.exec E ld st I.size i) c (L i) = some (L' i)) →
        ∃ S', iter (run I E.width base s) c S = some S' ∧ Rep I VR MR base S' L' ∧ Frame I base S S' from this c hS h
    intro c
    induction c with
    | zero =>
      intro S L L' hS h
      simp only [iter, Option.some.injEq] at h
      exact ⟨S, rfl, hS.congr hI h, fun _ _ _ => rfl⟩
    | succ c ihc =>
      intro S L L' hS h
      simp only [iter, Option.bind_eq_some_iff] at h
      obtain ⟨M, hM⟩ := choice (n := I.size) (p := fun i => s.exec E ld st I.size i (L i)) (fun i hi => by
        obtain ⟨a, ha, _⟩ := h i hi; simp [ha]) (L 0)
      obtain ⟨S₁, h₁, hS₁, hf₁⟩ := ih hwf hS hM
      obtain ⟨S₂, h₂, hS₂, hf₂⟩ := ihc (L' := L') hS₁ (fun i hi => by
        obtain ⟨a, ha, hb⟩ := h i hi
        rw [hM i hi] at ha
        rw [Option.some.inj ha, hb])
      exact ⟨S₂, by simp only [iter, h₁]; exact h₂, hS₂, fun j a ha => by rw [hf₂ j a ha, hf₁ j a ha]⟩

end
end StdSimd.SimdClass
