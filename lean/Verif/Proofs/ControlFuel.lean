import Verif.Spec.Control
/-!
# More rounds do not change the outcome of a program that ends
-/
namespace StdSimd.Spec.Control
open Program
variable {K : Kind} {β : Type}

/-- The outcome is the same, or `o` was still running. -/
def Outcome.Le {σ : Type} (o o' : Outcome σ) : Prop := o = .running ∨ o = o'

theorem Outcome.Le.rfl {σ : Type} {o : Outcome σ} : o.Le o := .inr (Eq.refl o)

theorem Outcome.Le.bind {σ τ : Type} {o o' : Outcome σ} {f f' : σ → Outcome τ} (h : o.Le o') (hf : ∀ s, (f s).Le (f' s)) :
    (o.bind f).Le (o'.bind f') := by
  rcases h with rfl | rfl
  · exact .inl (Eq.refl _)
  · cases o with
    | done s => exact hf s
    | undef => exact .rfl
    | running => exact .rfl

theorem loop_mono {σ : Type} {c : σ → Option Bool} {f f' : σ → Outcome σ} (hf : ∀ s, (f s).Le (f' s)) (m n : Nat) (h : m ≤ n) :
    ∀ s, (loop c f m s).Le (loop c f' n s) := by
  induction m generalizing n with
  | zero => intro s; exact .inl (Eq.refl _)
  | succ m ih =>
    obtain ⟨n, rfl⟩ : ∃ k, n = k + 1 := ⟨n - 1, by omega⟩
    intro s
    simp only [loop]
    cases c s with
    | none => exact .rfl
    | some b =>
      cases b with
      | false => exact .rfl
      | true => exact (hf s).bind (ih n (by omega))

theorem exec_mono (E : Elem K) (A : Arith K) (ld : β → K.Bits) (st : K.Bits → β) (k : Nat) {m n : Nat} (h : m ≤ n) (p : Ctl K) :
    ∀ L, (p.exec E A ld st k m L).Le (p.exec E A ld st k n L) := by
  induction p with
  | base s => intro L; exact .rfl
  | seq p q ihp ihq => intro L; exact (ihp L).bind ihq
  | ite c p q ihp ihq =>
    intro L
    simp only [Ctl.exec]
    cases c.eval E k L with
    | none => exact .rfl
    | some b => cases b with
      | true => exact ihp L
      | false => exact ihq L
  | «while» c p ih => intro L; exact loop_mono ih m n h L
  | pick d e i => intro L; exact .rfl
  | put d i e j => intro L; exact .rfl
  | reduce d o e => intro L; exact .rfl
  | whereReduce d o k v ident => intro L; exact .rfl

end StdSimd.Spec.Control
