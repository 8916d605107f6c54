import Verif.Model.MixedCall
import Verif.Proofs.Narrowing
/-!
# Lemmas about overload resolution of math functions
-/
namespace StdSimd.MixedCall
open Spec Spec.MixedCall Narrowing

variable {p : Platform}

theorem isFloat_cases {t : CType} (h : p.isFloat t = true) : t = .float ∨ t = .double ∨ t = .ldouble := by
  cases t <;> simp [Platform.isFloat, Platform.kind] at h ⊢

/-- The rank conditions of the implicit conversion to a floating-point type. -/
theorem higherRank_fp (hp : p.Ok) {u t : CType} (ht : p.isFloat t = true) (hut : u ≠ t) :
    higherRank p u t = true ↔ fpRank u < fpRank t := by
  have w1 := hp.dbl
  have w2 := hp.ldbl
  have w3 := hp.ldblBits
  unfold Fmt.Within at w1 w2
  unfold Fmt.width at w3
  rcases isFloat_cases ht with rfl | rfl | rfl <;> cases u <;>
    simp [higherRank, fpRank, Platform.common, Platform.sizeOf, Platform.kind, Fmt.width] at hut ⊢ <;> omega

theorem implicit_fp (hp : p.Ok) {u t : CType} (hu : u ≠ .bool) (ht : p.isFloat t = true) (hut : u ≠ t) :
    implicitConvert p u t = true ↔ Keeps p u t ∧ fpRank u < fpRank t := by
  simp only [implicitConvert, Bool.and_eq_true, Bool.not_eq_true', narrowing_iff hp hu, higherRank_fp hp ht hut]
  rfl

theorem conv_iff (hp : p.Ok) {t : CType} {a : AbiTag} (ht : p.isFloat t = true) {x : Arg} (hx : x.Exists) :
    convertible p t a x = true ↔ Converts p t a x := by
  cases x with
  | scalar u =>
    have hs : p.isUnsigned t = false := by
      rcases isFloat_cases ht with rfl | rfl | rfl <;> rfl
    simp only [convertible, Converts, broadcastFrom, valuePreservingOrInt, hs, Bool.and_false, Bool.or_false, Bool.and_eq_true,
      Bool.or_eq_true, decide_eq_true_eq, Bool.not_eq_true']
    constructor
    · rintro ⟨h1, (rfl | h) | h⟩
      · exact ⟨h1, .inr fun _ h => h⟩
      · exact ⟨h1, .inl h⟩
      · exact ⟨h1, .inr ((narrowing_iff hp h1).1 h)⟩
    · rintro ⟨h1, h | h⟩
      · exact ⟨h1, .inl (.inr h)⟩
      · exact ⟨h1, .inr ((narrowing_iff hp h1).2 h)⟩
  | simd u b =>
    have hu : u ≠ .bool := hx
    simp only [convertible, Converts, Bool.or_eq_true, Bool.and_eq_true, beq_iff_eq]
    by_cases hut : u = t
    · subst hut
      cases a with
      | other k =>
        cases b <;> simp
      | fixed n =>
        cases b with
        | other k => simp
        | fixed m =>
          simp only [true_and, Bool.and_eq_true, beq_iff_eq]
          constructor
          · rintro (h | h)
            · exact .inl h
            · exact .inl (by rw [h.1])
          · rintro (h | ⟨_, _, _, _, h⟩)
            · exact .inl h
            · exact absurd h (lt_irrefl _)
    · simp only [hut, false_and, false_or]
      cases a with
      | other k =>
        cases b <;> simp
      | fixed n =>
        cases b with
        | other k => simp
        | fixed m =>
          simp only [Bool.and_eq_true, beq_iff_eq, implicit_fp hp hu ht hut]
          constructor
          · rintro ⟨rfl, h⟩; exact ⟨n, rfl, rfl, h⟩
          · rintro ⟨k, h1, h2, h⟩
            cases h1; cases h2
            exact ⟨rfl, h⟩

theorem conv_self (t : CType) (a : AbiTag) : convertible p t a (.simd t a) = true := by
  simp [convertible]

/-- Two `simd` types that are convertible to each other are the same. -/
theorem conv_asymm (hp : p.Ok) {t u : CType} {a b : AbiTag} (ht : t ≠ .bool) (hu : u ≠ .bool)
    (h1 : convertible p t a (.simd u b) = true) (h2 : convertible p u b (.simd t a) = true) : (u, b) = (t, a) := by
  simp only [convertible, Bool.or_eq_true, Bool.and_eq_true, beq_iff_eq] at h1 h2
  rcases h1 with ⟨rfl, rfl⟩ | h1
  · rfl
  rcases h2 with ⟨rfl, rfl⟩ | h2
  · rfl
  cases a with
  | other k => cases b <;> simp at h1
  | fixed n =>
    cases b with
    | other k => simp at h1
    | fixed m =>
      simp only [Bool.and_eq_true, beq_iff_eq] at h1 h2
      rw [implicit_asymm hp hu ht h1.2 h2.2, h1.1]

/-- At most one type is required. -/
theorem evaluates_unique (hp : p.Ok) {args : List Arg} (hx : ∀ x ∈ args, x.Exists) {t u : CType} {a b : AbiTag}
    (h1 : Evaluates p args t a) (h2 : Evaluates p args u b) : (u, b) = (t, a) :=
  conv_asymm hp (hx _ h1.2.1) (hx _ h2.2.1) ((conv_iff hp h1.1 (hx _ h2.2.1)).2 (h1.2.2 _ h2.2.1))
    ((conv_iff hp h2.1 (hx _ h1.2.1)).2 (h2.2.2 _ h1.2.1))

/-! ## `hypot` -/

theorem matches_spec {t : CType} {a : AbiTag} {s : Template} {args : List Arg} (h : matches' p t a s args = true) :
    ∀ x ∈ args, convertible p t a x = true := by
  induction args generalizing s with
  | nil => simp
  | cons y ys ih =>
    intro x hx
    rcases s with _ | ⟨_ | _, s⟩
    · simp [matches'] at h
    · simp only [matches', Bool.and_eq_true] at h
      rcases List.mem_cons.1 hx with rfl | hx
      · exact h.1
      · exact ih h.2 x hx
    · simp only [matches', Bool.and_eq_true, beq_iff_eq] at h
      rcases List.mem_cons.1 hx with rfl | hx
      · rw [h.1]; exact conv_self t a
      · exact ih h.2 x hx

theorem deduced_mem {s : Template} {args : List Arg} {v : CType × AbiTag} (h : deduced s args = some v) : .simd v.1 v.2 ∈ args := by
  induction args generalizing s with
  | nil => rcases s with _ | ⟨_ | _, s⟩ <;> simp [deduced] at h
  | cons y ys ih =>
    rcases s with _ | ⟨_ | _, s⟩
    · simp [deduced] at h
    · simp only [deduced] at h
      exact List.mem_cons_of_mem _ (ih h)
    · cases y with
      | scalar u => simp [deduced] at h
      | simd u b =>
        simp only [deduced, Option.some.injEq] at h
        subst h; simp

/-- The arguments that have exactly the type: the best template for it. -/
def exact' (t : CType) (a : AbiTag) (args : List Arg) : Template := args.map fun x => x == .simd t a

theorem exact_deduced {t : CType} {a : AbiTag} {args : List Arg} (h : .simd t a ∈ args) :
    deduced (exact' t a args) args = some (t, a) := by
  induction args with
  | nil => simp at h
  | cons y ys ih =>
    by_cases hy : y = .simd t a
    · subst hy; simp [exact', deduced]
    · have : Arg.simd t a ∈ ys := by
        rcases List.mem_cons.1 h with h | h
        · exact absurd h.symm hy
        · exact h
      have e : (y == Arg.simd t a) = false := by simpa using hy
      simp only [exact', List.map_cons, e, deduced]
      exact ih this

theorem exact_matches {t : CType} {a : AbiTag} {args : List Arg} (h : ∀ x ∈ args, convertible p t a x = true) :
    matches' p t a (exact' t a args) args = true := by
  induction args with
  | nil => rfl
  | cons y ys ih =>
    have ih := ih fun x hx => h x (List.mem_cons_of_mem _ hx)
    simp only [exact', List.map_cons]
    by_cases hy : y = .simd t a
    · subst hy; simpa [matches', exact'] using ih
    · have e : (y == Arg.simd t a) = false := by simpa using hy
      rw [e]
      simp only [matches', Bool.and_eq_true]
      exact ⟨h y (by simp), ih⟩

theorem atMost_exact {t : CType} {a : AbiTag} {s : Template} {args : List Arg} (h : matches' p t a s args = true) :
    atMost s (exact' t a args) = true := by
  induction args generalizing s with
  | nil => rcases s with _ | ⟨_ | _, s⟩ <;> simp [matches'] at h; rfl
  | cons y ys ih =>
    rcases s with _ | ⟨_ | _, s⟩
    · simp [matches'] at h
    · simp only [matches', Bool.and_eq_true] at h
      simpa [atMost, exact'] using ih h.2
    · simp only [matches', Bool.and_eq_true, beq_iff_eq] at h
      have := ih h.2
      simpa [atMost, exact', h.1] using this

theorem mem_viable {ts : List Template} {args : List Arg} {s : Template} {v : CType × AbiTag} :
    (s, v) ∈ viable p ts args ↔ s ∈ ts ∧ deduced s args = some v ∧ matches' p v.1 v.2 s args = true := by
  simp only [viable, List.mem_filterMap, Option.bind_eq_some_iff]
  constructor
  · rintro ⟨s', hs, w, hw, h⟩
    split_ifs at h with hm
    cases h
    exact ⟨hs, hw, hm⟩
  · rintro ⟨hs, hd, hm⟩
    exact ⟨s, hs, v, hd, by rw [if_pos hm]⟩

/-- Every non-empty set of deduced parameters has its template. -/
def Complete (ts : List Template) (n : Nat) : Prop := ∀ s : Template, s.length = n → true ∈ s → s ∈ ts

theorem pick_type {ts : List Template} {args : List Arg} {s : Template} {t : CType} {a : AbiTag} (h : pick p ts args = some (s, t, a)) :
    .simd t a ∈ args ∧ ∀ x ∈ args, convertible p t a x = true := by
  have := (mem_viable (p := p)).1 (List.mem_of_find?_eq_some h)
  exact ⟨deduced_mem this.2.1, matches_spec this.2.2⟩

/-- If all arguments are convertible to the type of one of them, the overload for this one is chosen. -/
theorem pick_exact (hp : p.Ok) {ts : List Template} {args : List Arg} (hc : Complete ts args.length) (hx : ∀ x ∈ args, x.Exists)
    {t : CType} {a : AbiTag} (hm : .simd t a ∈ args) (h : ∀ x ∈ args, convertible p t a x = true) :
    pick p ts args = some (exact' t a args, t, a) := by
  have h0 : (exact' t a args, t, a) ∈ viable p ts args := by
    rw [mem_viable]
    refine ⟨hc _ (by simp [exact']) ?_, exact_deduced hm, exact_matches h⟩
    simp only [exact', List.mem_map]
    exact ⟨_, hm, by simp⟩
  have key : ∀ d ∈ viable p ts args, d.2 = (t, a) ∧ atMost d.1 (exact' t a args) = true := by
    rintro ⟨s, u, b⟩ hd
    rw [mem_viable] at hd
    have e : (u, b) = (t, a) := conv_asymm hp (hx _ hm) (hx _ (deduced_mem hd.2.1)) (h _ (deduced_mem hd.2.1)) (matches_spec hd.2.2 _ hm)
    cases e
    exact ⟨rfl, atMost_exact hd.2.2⟩
  unfold pick
  rcases hf : (viable p ts args).find? _ with _ | ⟨s, u, b⟩
  · exfalso
    rw [List.find?_eq_none] at hf
    refine hf _ h0 ?_
    rw [List.all_eq_true]
    intro d hd
    simp [key d hd]
  · have hv := List.mem_of_find?_eq_some hf
    have hq := List.find?_some hf
    rw [List.all_eq_true] at hq
    have h1 := hq _ h0
    have h2 := key _ hv
    simp only [Bool.and_eq_true, beq_iff_eq] at h1
    have e := h2.1
    cases e
    have anti : ∀ s s' : Template, atMost s s' = true → atMost s' s = true → s = s' := by
      intro s
      induction s with
      | nil => intro s' h _; cases s' <;> simp [atMost] at h ⊢
      | cons x s ih =>
        intro s' h h'
        cases s' with
        | nil => simp [atMost] at h
        | cons y s' =>
          simp only [atMost, Bool.and_eq_true] at h h'
          rw [ih s' h.2 h'.2]
          have := h.1; have := h'.1
          cases x <;> cases y <;> simp_all
    rw [anti s _ h2.2 h1.2]

/-- The overload chosen for arguments of one type is the one that does not convert. -/
theorem pick_same (hp : p.Ok) {ts : List Template} {args : List Arg} (hc : Complete ts args.length) {t : CType} {a : AbiTag}
    (ht : t ≠ .bool) (hne : args ≠ []) :
    pick p ts (args.map fun _ => Arg.simd t a) = some (args.map fun _ => true, t, a) := by
  have hall : ∀ x ∈ args.map (fun _ => Arg.simd t a), x = .simd t a := by simp
  rw [pick_exact hp (by simpa using hc) (by intro x hx; rw [hall x hx]; exact ht) (t := t) (a := a) ?_ ?_]
  · simp [exact']
  · obtain ⟨y, hy⟩ := List.exists_mem_of_ne_nil _ hne
    exact List.mem_map.2 ⟨y, hy, rfl⟩
  · intro x hx; rw [hall x hx]; exact conv_self t a

/-- Calls of `hypot` compute in the only type that all arguments convert to. -/
theorem hypot_iff (hp : p.Ok) {ts : List Template} {args : List Arg} (hc : Complete ts args.length) (hx : ∀ x ∈ args, x.Exists)
    {t : CType} {a : AbiTag} :
    hypot p ts args = some (t, a) ↔ .simd t a ∈ args ∧ ∀ x ∈ args, convertible p t a x = true := by
  constructor
  · intro h
    unfold hypot at h
    rcases hk : pick p ts args with _ | ⟨s, u, b⟩
    · rw [hk] at h; cases h
    · rw [hk] at h
      have hu := pick_type hk
      dsimp only at h
      split_ifs at h with hs
      · cases h; exact hu
      · rw [pick_same hp hc (hx _ hu.1) (List.ne_nil_of_mem hu.1)] at h
        simp only [List.all_map] at h
        rw [if_pos (by simp)] at h
        cases h; exact hu
  · rintro ⟨hm, h⟩
    unfold hypot
    rw [pick_exact hp hc hx hm h]
    dsimp only
    split_ifs with hs
    · rfl
    · rw [pick_same hp hc (hx _ hm) (List.ne_nil_of_mem hm)]
      dsimp only
      rw [if_pos (by simp)]

theorem complete2 : Complete hypot2 2 := by
  intro s hs hm
  match s, hs with
  | [x, y], _ => cases x <;> cases y <;> simp_all [hypot2]

theorem complete3 : Complete hypot3 3 := by
  intro s hs hm
  match s, hs with
  | [x, y, z], _ => cases x <;> cases y <;> cases z <;> simp_all [hypot3]

end StdSimd.MixedCall
