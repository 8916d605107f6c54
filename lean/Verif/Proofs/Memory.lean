import Verif.Model.Memory
namespace StdSimd

/-- A loop that writes `f i` at `base + i` for every `i` of a list. -/
theorem foldlM_write {α : Type} (f : Nat → α) (g : Nat → Option α) (base : Nat) (idx : List Nat) (mem : Mem α)
    (hg : ∀ i ∈ idx, g i = some (f i)) (hm : ∀ i ∈ idx, (mem (base + i)).isSome) :
    ∃ mem', idx.foldlM (fun (m : Mem α) i => do let b ← g i; m.write (base + i) b) mem = some mem' ∧
      ∀ a, mem' a = if base ≤ a ∧ a - base ∈ idx then some (f (a - base)) else mem a := by
  induction idx generalizing mem with
  | nil => exact ⟨mem, rfl, by simp⟩
  | cons i idx ih =>
    have hi := hm i (by simp)
    have hw : mem.write (base + i) (f i) = some (fun b => if b = base + i then some (f i) else mem b) := by
      unfold Mem.write; rw [if_pos hi]
    obtain ⟨mem', he, hs⟩ := ih (fun b => if b = base + i then some (f i) else mem b)
      (fun j hj => hg j (by simp [hj])) (by
        intro j hj
        split
        · rfl
        · exact hm j (by simp [hj]))
    refine ⟨mem', ?_, ?_⟩
    · rw [List.foldlM_cons, hg i (by simp)]
      simp only [Option.bind_eq_bind, Option.bind_some, hw]
      exact he
    · intro a
      rw [hs a]
      by_cases hb : base ≤ a ∧ a - base ∈ idx
      · simp [hb]
      · rw [if_neg hb]
        by_cases hai : a = base + i
        · subst hai; simp
        · have : ¬ (base ≤ a ∧ a - base ∈ i :: idx) := by
            rintro ⟨h1, h2⟩
            rcases List.mem_cons.1 h2 with h2 | h2
            · omega
            · exact hb ⟨h1, h2⟩
          rw [if_neg hai, if_neg this]

/-- A loop that reads `mem[base + i]` for every `i` of a list and updates a state with it. -/
theorem foldlM_read {α σ : Type} (upd : σ → Nat → α → σ) (base : Nat) (idx : List Nat) (mem : Mem α)
    (f : Nat → α) (hm : ∀ i ∈ idx, mem (base + i) = some (f i)) (s : σ) :
    idx.foldlM (fun (r : σ) i => do let b ← mem.read (base + i); pure (upd r i b)) s
      = some (idx.foldl (fun r i => upd r i (f i)) s) := by
  induction idx generalizing s with
  | nil => rfl
  | cons i idx ih =>
    rw [List.foldlM_cons, Mem.read, hm i (by simp)]
    simp only [Option.bind_eq_bind, Option.bind_some, Option.pure_def, List.foldl_cons]
    exact ih (fun j hj => hm j (by simp [hj])) _

end StdSimd
