import Verif.Proofs.ChunksLayout
/-! `_M_apply_r` and `__optimize_simd_tuple` give the element-wise result in the expected tuple type. -/
namespace StdSimd.Chunks
open Abi
variable {V : Type}

/-- Registers of `c` elements, the last one possibly smaller. -/
def regsOf (t : Target) (R : Elem) (junk : V) (c : Nat) (n : Nat) (v : List V) : Regs V :=
  if _h : n = 0 ∨ c = 0 then [] else
    mkReg t R junk (pick t R (min n c)) (v.take (min n c)) :: regsOf t R junk c (n - min n c) (v.drop (min n c))
termination_by n
decreasing_by omega

section
variable {t : Target} {R : Elem} {junk : V}

theorem regsOf_zero {c : Nat} {v : List V} : regsOf t R junk c 0 v = [] := by unfold regsOf; simp

theorem regsOf_pos {c n : Nat} {v : List V} (hc1 : 1 ≤ c) (h1 : 1 ≤ n) : regsOf t R junk c n v =
    mkReg t R junk (pick t R (min n c)) (v.take (min n c)) :: regsOf t R junk c (n - min n c) (v.drop (min n c)) := by
  rw [regsOf, dif_neg (by omega)]

theorem regsOf_small {c n : Nat} {v : List V} (h1 : 1 ≤ n) (h : n ≤ c) :
    regsOf t R junk c n v = [mkReg t R junk (pick t R n) (v.take n)] := by
  rw [regsOf_pos (by omega) h1, Nat.min_eq_left h, Nat.sub_self, regsOf_zero]

theorem regsOf_big {c n : Nat} {v : List V} (hc1 : 1 ≤ c) (h : c < n) : regsOf t R junk c n v =
    mkReg t R junk (pick t R c) (v.take c) :: regsOf t R junk c (n - c) (v.drop c) := by
  rw [regsOf_pos hc1 (by omega), Nat.min_eq_right (by omega)]

theorem regsOf_ne {c n : Nat} {v : List V} (hc1 : 1 ≤ c) (h1 : 1 ≤ n) : regsOf t R junk c n v ≠ [] := by
  rw [regsOf_pos hc1 h1]; simp

theorem regsOf_take {c : Nat} (hc1 : 1 ≤ c) (n : Nat) (v : List V) : regsOf t R junk c n (v.take n) = regsOf t R junk c n v := by
  induction n using Nat.strongRecOn generalizing v with
  | _ n ih =>
    rcases Nat.eq_zero_or_pos n with rfl | h1
    · rw [regsOf_zero, regsOf_zero]
    · rw [regsOf_pos hc1 h1, regsOf_pos hc1 h1, List.take_take, Nat.min_eq_left (a := min n c) (by omega), List.drop_take,
        ih (n - min n c) (by omega)]

/-- A block of whole registers in front. -/
theorem regsOf_append {c n : Nat} (hc1 : 1 ≤ c) : ∀ b, c ∣ b → b ≤ n → ∀ v : List V, 
    regsOf t R junk c b v ++ regsOf t R junk c (n - b) (v.drop b) = regsOf t R junk c n v := by
  induction n using Nat.strongRecOn with
  | _ n ih =>
    intro b hd hb v
    rcases Nat.eq_zero_or_pos b with rfl | h1
    · simp [regsOf_zero]
    · have := Nat.le_of_dvd h1 hd
      rw [regsOf_pos hc1 h1, regsOf_pos hc1 (n := n) (by omega), Nat.min_eq_right (by omega), Nat.min_eq_right (by omega),
        List.cons_append]
      congr 1
      have := ih (n - c) (by omega) (b - c) (Nat.dvd_sub hd (Nat.dvd_refl c)) (by omega) (v.drop c)
      rw [← this, List.drop_drop]
      congr 2 
      · omega
      · congr 1; omega

theorem mkReg_size (hR : R.Ok) (k : Nat) (v : List V) : size R (mkReg t R junk (pick t R k) v).1 = k := pick_size hR k

theorem regLanes_regsOf (hR : R.Ok) {c : Nat} (hc1 : 1 ≤ c) (n : Nat) (v : List V) (hv : n ≤ v.length) :
    regLanes R (regsOf t R junk c n v) = v.take n := by
  induction n using Nat.strongRecOn generalizing v with
  | _ n ih =>
    rcases Nat.eq_zero_or_pos n with rfl | h1
    · rw [regsOf_zero]; rfl
    · rw [regsOf_pos hc1 h1]
      have := ih (n - min n c) (by omega) (v.drop (min n c)) (by rw [List.length_drop]; omega)
      unfold regLanes at this ⊢
      rw [List.map_cons, List.flatten_cons, this, mkReg_size hR]
      have : (mkReg t R junk (pick t R (min n c)) (v.take (min n c))).2.take (min n c) = v.take (min n c) := by
        unfold mkReg
        exact List.take_left' (by rw [List.length_take]; omega)
      rw [this]
      rw [← List.take_add, show min n c + (n - min n c) = n by omega]

theorem regsOf_sizes (hR : R.Ok) {c : Nat} (hc1 : 1 ≤ c) (n : Nat) (v : List V) :
    ((regsOf t R junk c n v).map (fun r => size R r.1)).sum = n := by
  induction n using Nat.strongRecOn generalizing v with
  | _ n ih =>
    rcases Nat.eq_zero_or_pos n with rfl | h1
    · rw [regsOf_zero]; rfl
    · rw [regsOf_pos hc1 h1, List.map_cons, List.sum_cons, ih _ (by omega), mkReg_size hR]; omega

/-- Popping whole registers. -/
theorem popRegs_regsOf (hR : R.Ok) {c : Nat} (hc1 : 1 ≤ c) (n : Nat) : ∀ b, (c ∣ b ∨ b = n) → b ≤ n → ∀ v : List V,
    popRegs R (regsOf t R junk c n v) b = some (regsOf t R junk c (n - b) (v.drop b)) := by
  induction n using Nat.strongRecOn with
  | _ n ih =>
    intro b hd hb v
    rcases Nat.eq_zero_or_pos n with rfl | h1
    · have : b = 0 := by omega
      subst this
      rw [regsOf_zero, Nat.sub_zero, regsOf_zero]; rfl
    · rcases Nat.eq_zero_or_pos b with rfl | hb1
      · rw [regsOf_pos hc1 h1]; simp [popRegs, ← regsOf_pos hc1 h1]
      · have hmb : min n c ≤ b := by
          rcases hd with hd | rfl
          · have := Nat.le_of_dvd hb1 hd; omega
          · omega
        rw [regsOf_pos hc1 h1, popRegs, if_neg (by omega), mkReg_size hR, if_pos hmb,
          ih (n - min n c) (by omega) (b - min n c) _ (by omega), List.drop_drop]
        · congr 2
          · omega
          · congr 1; omega
        · rcases hd with hd | rfl
          · by_cases hcn : c ≤ n
            · left; rw [Nat.min_eq_right hcn]; exact Nat.dvd_sub hd (Nat.dvd_refl c)
            · have := Nat.le_of_dvd hb1 hd; omega
          · right; rfl

variable (hc : t.Consistent) (hR : R.Ok) (h4 : 4 ≤ R.size)
include hc hR h4

theorem genRegs_storage (n : Nat) (v : List V) (hv : n ≤ v.length) :
    genRegs t R junk (storage t R n) v = regsOf t R junk (cap t R) n v := by
  have hcp := cap_pos (t := t) hR
  induction n using Nat.strongRecOn generalizing v with
  | _ n ih =>
    rcases Nat.eq_zero_or_pos n with rfl | h1
    · rw [regsOf_zero, storage_zero]; rfl
    · rw [regsOf_pos hcp h1, storage_pick hc hR h4 h1, genRegs, pick_size hR, ih _ (by omega) _ (by rw [List.length_drop]; omega)]
      unfold mkReg
      rw [List.length_take, Nat.min_eq_left (a := min n (cap t R)) (by omega)]

theorem regsOf_tags (n : Nat) (v : List V) :
    (regsOf t R junk (cap t R) n v).map (·.1) = storage t R n := by
  have hcp := cap_pos (t := t) hR
  induction n using Nat.strongRecOn generalizing v with
  | _ n ih =>
    rcases Nat.eq_zero_or_pos n with rfl | h1
    · rw [regsOf_zero, storage_zero]; rfl
    · rw [regsOf_pos hcp h1, storage_pick hc hR h4 h1, List.map_cons, ih _ (by omega)]; rfl
end

section
variable {t : Target} {T R : Elem} {junk : V} (hc : t.Consistent) (hT : T.Ok) (hT4 : 4 ≤ T.size) (hR : R.Ok) (h4 : 4 ≤ R.size)
include hc hT hT4 hR h4

/-- `_M_apply_r` if a chunk is at least a register of the result type. -/
theorem applyR_le (F : V → V) (hle : cap t R ≤ cap t T) (n : Nat) (h1 : 1 ≤ n) (x : List V) (hx : n ≤ x.length) :
    applyR t T R F junk (storage t T n) x = some (regsOf t R junk (cap t R) n ((x.take n).map F)) := by
  have hcp := cap_pos (t := t) hT
  have hcr := cap_pos (t := t) hR
  induction n using Nat.strongRecOn generalizing x with
  | _ n ih =>
    by_cases hs : n ≤ cap t T
    · rw [storage_small hc hT hT4 h1 hs, applyR, if_pos rfl, pick_size hT, genRegs_storage hc hR h4 _ _ (by simp; omega)]
    · have hb : cap t T < n := by omega
      rw [storage_big hc hT hT4 hb, applyR]
      obtain ⟨a, as, e⟩ := storage_ne hc hT hT4 (n := n - cap t T) (by omega)
      rw [if_neg (by rw [e]; simp), sndPos_storage hc hT hT4 hb, ih _ (by omega) (by omega) _ (by rw [List.length_drop]; omega),
        pick_size hT, genRegs_storage hc hR h4 _ _ (by simp; omega)]
      simp only [Option.map_some]
      congr 1
      rw [← regsOf_append hcr (cap t T) (pow_dvd_of_le (cap_pow hR) (cap_pow hT) hle) (by omega) ((x.take n).map F),
        ← regsOf_take hcr (cap t T) ((x.take n).map F), ← List.map_take, List.take_take, Nat.min_eq_left (by omega),
        ← List.map_drop, List.drop_take]

/-- `_M_apply_r` if a chunk is at most a register of the result type. -/
theorem applyR_ge (F : V → V) (hle : cap t T ≤ cap t R) (n : Nat) (h1 : 1 ≤ n) (x : List V) (hx : n ≤ x.length) :
    applyR t T R F junk (storage t T n) x = some (regsOf t R junk (cap t T) n ((x.take n).map F)) := by
  have hcp := cap_pos (t := t) hT
  have hcr := cap_pos (t := t) hR
  induction n using Nat.strongRecOn generalizing x with
  | _ n ih =>
    by_cases hs : n ≤ cap t T
    · rw [storage_small hc hT hT4 h1 hs, applyR, if_pos rfl, pick_size hT, genRegs_storage hc hR h4 _ _ (by simp; omega),
        regsOf_small h1 hs, regsOf_small h1 (by omega)]
    · have hb : cap t T < n := by omega
      rw [storage_big hc hT hT4 hb, applyR]
      obtain ⟨a, as, e⟩ := storage_ne hc hT hT4 (n := n - cap t T) (by omega)
      rw [if_neg (by rw [e]; simp), sndPos_storage hc hT hT4 hb, ih _ (by omega) (by omega) _ (by rw [List.length_drop]; omega),
        pick_size hT, genRegs_storage hc hR h4 _ _ (by simp; omega)]
      simp only [Option.map_some]
      rw [regsOf_small (by omega) hle, regsOf_big hcp hb, ← List.map_take, List.take_take, Nat.min_self, ← List.map_take,
        List.take_take, Nat.min_eq_left (a := cap t T) (b := n) (by omega), ← List.map_drop, List.drop_take]
      rfl
end

section
variable {t : Target} {R : Elem} {junk : V}

theorem regsOf_length {c : Nat} (hc1 : 1 ≤ c) (m n : Nat) (v w : List V) (h : m ≤ n) :
    (regsOf t R junk c m v).length ≤ (regsOf t R junk c n w).length := by
  induction n using Nat.strongRecOn generalizing m v w with
  | _ n ih =>
    rcases Nat.eq_zero_or_pos m with rfl | h1
    · rw [regsOf_zero]; simp
    · rw [regsOf_pos hc1 h1, regsOf_pos hc1 (n := n) (by omega)]
      have := ih (n - min n c) (by omega) (m - min m c) (v.drop (min m c)) (w.drop (min n c)) (by omega)
      simp only [List.length_cons]; omega

theorem isPartial_pick (hc : t.Consistent) (hR : R.Ok) (h4 : 4 ≤ R.size) {k : Nat} (h2 : 2 ≤ k) (hk : k ≤ cap t R) :
    isPartial t R (pick t R k) = (fullOf t R k != k) := by
  have hv := pick_valid hc hR h4 (by omega) hk
  have hf := pick_full hc hR h4 (by omega) hk
  have hs := pick_size (t := t) hR k
  unfold pick at hv hf hs ⊢
  rw [if_neg (by omega)] at hv hf hs ⊢
  split at hv <;> rename_i hb
  · rw [if_pos hb] at hf hs ⊢
    rw [isPartial, if_pos hv, hf, hs] <;> simp
  · rw [if_neg hb] at hf hs ⊢
    rw [isPartial, if_pos hv, hf, hs] <;> simp

theorem member_size {a b : Tag} (hR : R.Ok) (h : member R a = member R b) : size R a = size R b := by
  cases a <;> cases b <;> simp_all [member, size]

/-- `__optimize_simd_tuple` if the first registers differ in size. -/
theorem optimize_cons (hR : R.Ok) {f n : Nat} {x0 x1 : Tag × List V} {xs : Regs V} {r0 : Tag} {rs : List Tag}
    (hn : ((x0 :: x1 :: xs).map (fun r => size R r.1)).sum = n) (hs : storage t R n = r0 :: rs)
    (hne : size R r0 ≠ size R x0.1) :
    optimize t R junk (f + 1) (x0 :: x1 :: xs) =
      (if x0.1 = .scalar ∨ isPartial t R x0.1 = true then
        if size R r0 ≤ n then
          (popRegs R (x0 :: x1 :: xs) (size R r0)).bind (fun rest =>
            (optimize t R junk f rest).bind (fun s => if s.map (·.1) = rs then
              some (mkReg t R junk r0 ((regLanes R (x0 :: x1 :: xs)).take (size R r0)) :: s) else none))
        else none
      else if x0.1 = x1.1 ∧ size R r0 = size R x0.1 + size R x1.1 then
        (optimize t R junk f xs).bind (fun s => if s.map (·.1) = rs then
          some (mkReg t R junk r0 (x0.2.take (size R x0.1) ++ x1.2.take (size R x1.1)) :: s) else none)
      else if xs.length ≥ 2 ∧ size R r0 = 4 * size R x0.1 ∧ (xs[1]?.map (fun r => size R r.1)) = some (size R x0.1) then
        match (generalizing := false) xs with
        | x2 :: x3 :: ys =>
          (optimize t R junk f ys).bind (fun s => if s.map (·.1) = rs then
            some (mkReg t R junk r0 (x0.2 ++ x1.2 ++ (x2.2 ++ x3.2)) :: s) else none)
        | _ => none
      else if sizeOf t R (r0 :: rs) = sizeOf t R ((x0 :: x1 :: xs).map (·.1)) then
        some (genRegs t R junk (r0 :: rs) ((slotsOf t R junk (x0 :: x1 :: xs)).take n))
      else none) := by
  rw [optimize]
  simp only [hn, hs]
  rw [if_neg, if_neg]
  · rfl
  · intro h; exact hne (member_size hR h)
  · intro h
    apply hne
    simp only [List.map_cons, List.cons.injEq] at h
    rw [h.1]

variable (hc : t.Consistent) (hR : R.Ok) (h4 : 4 ≤ R.size)
include hc hR h4

theorem optimize_same {n f : Nat} (v : List V) (hf : (regsOf t R junk (cap t R) n v).length ≤ f) :
    optimize t R junk f (regsOf t R junk (cap t R) n v) = some (regsOf t R junk (cap t R) n v) := by
  have htags := regsOf_tags (junk := junk) hc hR h4 n v
  have hsz := regsOf_sizes (t := t) (junk := junk) hR (cap_pos (t := t) hR) n v
  generalize regsOf t R junk (cap t R) n v = rs at *
  match rs, f with
  | [], _ => simp [optimize]
  | [x], _ => simp [optimize]
  | x0 :: x1 :: xs, 0 => simp at hf
  | x0 :: x1 :: xs, f + 1 =>
    rw [optimize]
    simp only [hsz]
    rw [← htags]
    simp only [List.map_cons, if_true]

theorem optimize_grow {c : Nat} (hc1 : 1 ≤ c) (hcd : c < cap t R) (h : c = 1 ∨ (cap t R = 2 * c)) (n : Nat) :
    ∀ f, ∀ v : List V, v.length = n → (regsOf t R junk c n v).length ≤ f →
      optimize t R junk f (regsOf t R junk c n v) = some (regsOf t R junk (cap t R) n v) := by
  have hcp := cap_pos (t := t) hR
  induction n using Nat.strongRecOn with
  | _ n ih =>
    intro f v hv hf
    rcases Nat.eq_zero_or_pos n with rfl | h1
    · rw [regsOf_zero, regsOf_zero, optimize]
    by_cases hs : n ≤ c
    · rw [regsOf_small h1 hs, regsOf_small h1 (by omega), optimize]
    have hb : c < n := by omega
    have hsz := regsOf_sizes (t := t) (junk := junk) hR hc1 n v
    have hpop := popRegs_regsOf (t := t) (junk := junk) hR hc1 n (min n (cap t R)) (by
      rcases h with rfl | h
      · left; exact Nat.one_dvd _
      · rcases Nat.le_total n (cap t R) with h' | h'
        · right; exact Nat.min_eq_left h'
        · left; rw [Nat.min_eq_right h', h]; exact Nat.dvd_mul_left _ _) (by omega) v
    have hlanes := regLanes_regsOf (t := t) (junk := junk) hR hc1 n v (by omega)
    have hst := storage_pick hc hR h4 (n := n) (by omega)
    obtain ⟨f, rfl⟩ : ∃ g, f = g + 1 := ⟨f - 1, by rw [regsOf_big hc1 hb] at hf; simp at hf; omega⟩
    rw [regsOf_big hc1 hb, regsOf_pos hc1 (n := n - c) (by omega)] at *
    rw [optimize_cons hR hsz hst (by rw [pick_size hR, mkReg_size hR]; omega)]
    by_cases hp : (mkReg t R junk (pick t R c) (v.take c)).1 = .scalar ∨ isPartial t R (mkReg t R junk (pick t R c) (v.take c)).1 = true
    · have hlen := regsOf_length (t := t) (R := R) (junk := junk) hc1 (n - min n (cap t R)) (n - c) (v.drop (min n (cap t R))) (v.drop c) (by omega)
      rw [regsOf_pos hc1 (n := n - c) (by omega)] at hlen
      simp only [List.length_cons] at hlen hf
      rw [if_pos hp, pick_size hR, if_pos (by omega), hpop, Option.bind_some,
        ih (n - min n (cap t R)) (by omega) f _ (by rw [List.length_drop]; omega) (by omega), Option.bind_some,
        if_pos (regsOf_tags hc hR h4 _ _), hlanes, List.take_take, Nat.min_eq_left (a := min n (cap t R)) (by omega),
        regsOf_pos hcp h1]
    · rw [if_neg hp]
      simp only [not_or, Bool.not_eq_true] at hp
      have hc2 : 2 ≤ c := by
        rcases Nat.lt_or_ge c 2 with h2 | h2
        · exfalso; apply hp.1
          have : c = 1 := by omega
          subst this; rfl
        · exact h2
      have hd : cap t R = 2 * c := by omega
      have hfull : fullOf t R c = c := by
        have := hp.2
        rw [show (mkReg t R junk (pick t R c) (v.take c)).1 = pick t R c from rfl,
          isPartial_pick hc hR h4 hc2 (by omega)] at this
        simpa using this
      have hl1 : (mkReg t R junk (pick t R c) (v.take c)).2 = v.take c := by
        unfold mkReg
        simp only [List.length_take]
        rw [Nat.min_eq_left (by omega), pick_full hc hR h4 (by omega) (by omega), hfull, Nat.sub_self, List.replicate_zero,
          List.append_nil]
      by_cases h2 : 2 * c ≤ n
      · rw [Nat.min_eq_right (a := n - c) (b := c) (by omega)] at *
        simp only [List.length_cons] at hf
        rw [if_pos ⟨rfl, by simp only [mkReg_size hR, pick_size hR]; omega⟩,
          ih (n - c - c) (by omega) f _ (by simp only [List.length_drop]; omega) (by omega), Option.bind_some,
          if_pos (by rw [regsOf_tags hc hR h4]; congr 1; omega), regsOf_pos hcp h1]
        have hl2 : (mkReg t R junk (pick t R c) ((v.drop c).take c)).2 = (v.drop c).take c := by
          unfold mkReg
          simp only [List.length_take, List.length_drop]
          rw [Nat.min_eq_left (by omega), pick_full hc hR h4 (by omega) (by omega), hfull, Nat.sub_self, List.replicate_zero,
            List.append_nil]
        simp only [mkReg_size hR, hl1, hl2, List.take_take, Nat.min_self]
        rw [Nat.min_eq_right (a := n) (by omega), ← List.take_add, List.drop_drop, ← show cap t R = c + c by omega,
          show n - c - c = n - cap t R by omega]
      · have e1 : min (n - c) c = n - c := by omega
        have e2 : min n (cap t R) = n := by omega
        rw [e1, e2] at *
        rw [Nat.sub_self, regsOf_zero, Nat.sub_self, storage_zero]
        rw [if_neg (by
          intro hh
          have := congrArg (size R) hh.1
          rw [mkReg_size hR, mkReg_size hR] at this
          omega), if_neg (by simp)]
        have hcc : ∃ j, c = 2 ^ j := by
          have := (fullOf_facts (t := t) hR h4 (k := c) (by omega) (by omega)).2.2.2.1
          rwa [hfull] at this
        obtain ⟨g1, g2, _, g4, _⟩ := fullOf_facts (t := t) hR h4 (k := n) (by omega) (by omega)
        have hfn : fullOf t R n = 2 * c := by
          obtain ⟨j, rfl⟩ := hcc
          obtain ⟨i, hi⟩ := g4
          rw [hi] at g1 g2 ⊢
          have hji : j < i := (Nat.pow_lt_pow_iff_right (a := 2) (by omega)).1 (by omega)
          have := Nat.pow_le_pow_right (n := 2) (by omega) (show j + 1 ≤ i from hji)
          rw [Nat.pow_succ] at this
          omega
        obtain ⟨k1, _, _, k4, _⟩ := fullOf_facts (t := t) hR h4 (k := n - c) (by omega) (by omega)
        have k5 := fullOf_mono (t := t) hR h4 (k := n - c) (k' := c) (by omega) (by omega) (by omega)
        rw [hfull] at k5
        have kd : fullOf t R (n - c) ∣ c := pow_dvd_of_le k4 hcc k5
        have hal : alignOf t R [pick t R (n - c)] = fullOf t R (n - c) := by
          simp only [alignOf]
          rw [pick_full hc hR h4 (by omega) (by omega)]; omega
        have hsp : sndPos t R (pick t R c) [pick t R (n - c)] = c := by
          unfold sndPos
          rw [hal, pick_full hc hR h4 (by omega) (by omega), hfull]
          exact roundUp_eq (by omega) kd (Nat.le_refl _) (by omega)
        have hsize : sizeOf t R [pick t R c, pick t R (n - c)] = 2 * c := by
          rw [sizeOf, hsp, sizeOf, alignOf, hal, pick_full hc hR h4 (by omega) (by omega),
            pick_full hc hR h4 (by omega) (by omega), hfull, Nat.max_eq_left k5]
          exact roundUp_eq (by omega) (Nat.dvd_mul_left _ _) (by omega) (by omega)
        rw [if_pos]
        · have hsl : (slotsOf t R junk [mkReg t R junk (pick t R c) (v.take c), mkReg t R junk (pick t R (n - c)) ((v.drop c).take (n - c))]).take n = v := by
            rw [slotsOf, slotsOf, hl1]
            have : sndPos t R (mkReg t R junk (pick t R c) (v.take c)).1
                ([mkReg t R junk (pick t R (n - c)) ((v.drop c).take (n - c))].map (·.1)) = c := hsp
            rw [this, List.length_take, Nat.min_eq_left (by omega), Nat.sub_self, List.replicate_zero, List.append_nil]
            unfold mkReg
            rw [← List.append_assoc, List.take_left' (by simp; omega), List.take_of_length_le (l := v.drop c) (by simp; omega),
              List.take_append_drop]
          rw [hsl, genRegs, genRegs, regsOf_small h1 (by omega), pick_size hR]
          unfold mkReg
          rw [List.length_take, Nat.min_eq_left (a := n) (by omega)]
        · rw [sizeOf, pick_full hc hR h4 (by omega) (by omega), hfn]
          exact hsize.symm
end
end StdSimd.Chunks

namespace StdSimd.Chunks
open Abi
variable {V : Type}

theorem vecSizeof_le {t : Target} {T R : Elem} (hfp : T.fp = true) (hT4 : 4 ≤ T.size) (h4 : 4 ≤ R.size)
    (hR : R.size ≤ 8) (hv : 16 ≤ vecSizeof t T) (hT : T.size ≤ 8) : vecSizeof t R ≤ vecSizeof t T := by
  unfold vecSizeof at *
  rw [if_pos hT] at *
  rw [if_pos hR]
  have a1 : decide (T.size ≥ 4) = true := by simpa using hT4
  have a2 : decide (R.size ≥ 4) = true := by simpa using h4
  rw [a1, a2, hfp] at *
  simp only [Bool.and_true] at *
  by_cases b1 : t.avx512bw = true
  · simp only [b1, if_true]; omega
  by_cases b2 : t.avx512f = true
  · simp only [b1, b2, if_true]; simp
  by_cases b3 : t.avx2 = true
  · simp only [b1, b2, b3, if_true]; simp
  by_cases b4 : t.avx = true
  · simp only [b1, b2, b3, b4, if_true, Bool.false_eq_true, if_false]
    repeat' split
    all_goals omega
  · simp only [Bool.not_eq_true] at b1 b2 b3 b4
    simp only [b1, b2, b3, b4, Bool.false_eq_true, if_false, Bool.false_and] at hv ⊢
    have : ∀ {p q r u w : Prop} [Decidable p] [Decidable q] [Decidable r] [Decidable u] [Decidable w],
        (if p then 16 else if q then 16 else if r then 16 else if u then 16 else if w then 16 else R.size) ≤ 16 := by
      intros; repeat' split
      all_goals omega
    exact Nat.le_trans this hv

theorem cap_rel {t : Target} {T R : Elem} (hT : T.Ok) (hR : R.Ok) (hfp : T.fp = true) (hT4 : 4 ≤ T.size) (h4 : 4 ≤ R.size)
    (hlt : cap t T < cap t R) : cap t T = 1 ∨ cap t R = 2 * cap t T := by
  rcases cap_cases (t := t) hT with ⟨_, h⟩ | ⟨_, hs, hv, he, h2⟩
  · exact .inl h
  · right
    rcases cap_cases (t := t) hR with ⟨_, h'⟩ | ⟨_, hs', hv', he', h2'⟩
    · omega
    · simp only [List.mem_cons, List.not_mem_nil, or_false] at hs hs' hv hv'
      have hle := vecSizeof_le (t := t) (R := R) hfp hT4 h4 (by omega) (by omega) (by omega)
      rw [← he, ← he'] at hle
      have hs : T.size = 4 ∨ T.size = 8 := by omega
      have hs' : R.size = 4 ∨ R.size = 8 := by omega
      rcases hs with h | h <;> rcases hs' with h' | h' <;> rw [h] at he hle <;> rw [h'] at he' hle
      · omega
      · omega
      · rcases cap_pow (t := t) hT with ⟨i, hi⟩
        rcases cap_pow (t := t) hR with ⟨j, hj⟩
        rw [hi, hj] at hlt hle ⊢
        have hij : i < j := (Nat.pow_lt_pow_iff_right (a := 2) (by omega)).1 hlt
        have := Nat.pow_le_pow_right (n := 2) (by omega) (show i + 1 ≤ j from hij)
        rw [Nat.pow_succ] at this
        omega
      · omega

theorem mathRet_spec {t : Target} {T R : Elem} (hc : t.Consistent) (hT : T.Ok) (hR : R.Ok) (hfp : T.fp = true)
    (hT4 : 4 ≤ T.size) (h4 : 4 ≤ R.size) (F : V → V) (junk : V) {n : Nat} (h1 : 1 ≤ n) (x : List V) (hx : n ≤ x.length) :
    mathRet t T R n F junk x = some (regsOf t R junk (cap t R) n ((x.take n).map F)) := by
  have hl : ((x.take n).map F).length = n := by simp; omega
  unfold mathRet
  rcases Nat.lt_or_ge (cap t T) (cap t R) with hlt | hge
  · rw [applyR_ge hc hT hT4 hR h4 F (by omega) n h1 x hx, Option.bind_some,
      optimize_grow hc hR h4 (cap_pos hT) hlt (cap_rel hT hR hfp hT4 h4 hlt) n _ _ hl (Nat.le_refl _), Option.bind_some,
      if_pos (regsOf_tags hc hR h4 _ _)]
  · rw [applyR_le hc hT hT4 hR h4 F hge n h1 x hx, Option.bind_some, optimize_same hc hR h4 _ (Nat.le_refl _), Option.bind_some,
      if_pos (regsOf_tags hc hR h4 _ _)]
end StdSimd.Chunks
