import Verif.Proofs.Convert
/-! # Proofs about `__to_simd_tuple` and the conversion of `_SimdTuple` objects -/
namespace StdSimd.Convert
open Abi Tuple
variable {α β : Type}

/-! ### registers -/

theorem regs_pos {t : Target} {U : Elem} {n : Nat} (h : n ≠ 0) :
    regs t U n = Geo.ofTag t U (bestAbi t U n) :: regs t U (n - size U (bestAbi t U n)) := by
  unfold regs; rw [storage_pos h]; rfl

theorem regs_zero {t : Target} {U : Elem} : regs t U 0 = [] := by unfold regs; rw [storage_zero]; rfl

theorem wf_append {gs hs : List Geo} {x y : Tup α} (h1 : Wf gs x) (h2 : Wf hs y) : Wf (gs ++ hs) (x ++ y) := by
  induction gs generalizing x with
  | nil => rw [wf_nil h1]; exact h2
  | cons g gs ih =>
    obtain ⟨r, rs, rfl, hr, hrs⟩ := wf_cons h1
    exact ⟨hr, ih hrs⟩

theorem lanes_append {gs hs : List Geo} {x y : Tup α} (h1 : Wf gs x) : lanes (gs ++ hs) (x ++ y) = lanes gs x ++ lanes hs y := by
  induction gs generalizing x with
  | nil => rw [wf_nil h1]; rfl
  | cons g gs ih =>
    obtain ⟨r, rs, rfl, hr, hrs⟩ := wf_cons h1
    rw [List.cons_append, List.cons_append, lanes_cons, lanes_cons, ih hrs, List.append_assoc]

theorem wf_replicate {g : Geo} {k : Nat} {x : Tup α} : Wf (List.replicate k g) x ↔ x.length = k ∧ ∀ r ∈ x, r.length = g.full := by
  induction k generalizing x with
  | zero => cases x <;> simp [Wf]
  | succ k ih =>
    rw [List.replicate_succ]
    cases x with
    | nil => simp [Wf]
    | cons r rs => simp only [Wf, ih, List.length_cons, List.mem_cons, forall_eq_or_imp]; constructor <;> intro h <;> simp_all

theorem lanes_replicate {g : Geo} {x : Tup α} : lanes (List.replicate x.length g) x = (x.map (fun (r : List α) => r.take g.size)).flatten := by
  induction x with
  | nil => rfl
  | cons r rs ih => rw [List.length_cons, List.replicate_succ, lanes_cons, ih]; rfl

theorem lanes_replicate' {g : Geo} {k : Nat} {x : Tup α} (h : x.length = k) :
    lanes (List.replicate k g) x = (x.map (fun (r : List α) => r.take g.size)).flatten := by
  subst h; exact lanes_replicate

theorem wf_length {gs : List Geo} {x : Tup α} (h : Wf gs x) : x.length = gs.length := by
  induction gs generalizing x with
  | nil => rw [wf_nil h]; rfl
  | cons g gs ih =>
    obtain ⟨r, rs, rfl, _, hrs⟩ := wf_cons h
    simp [ih hrs]

theorem wf_take {gs : List Geo} {x : Tup α} (h : Wf gs x) (k : Nat) : Wf (gs.take k) (x.take k) ∧ Wf (gs.drop k) (x.drop k) := by
  induction k generalizing gs x with
  | zero => exact ⟨by simp [Wf], by simpa using h⟩
  | succ k ih =>
    cases gs with
    | nil => rw [wf_nil h]; simp [Wf]
    | cons g gs =>
      obtain ⟨r, rs, rfl, hr, hrs⟩ := wf_cons h
      exact ⟨⟨hr, (ih hrs).1⟩, (ih hrs).2⟩

theorem length_storage_le (t : Target) (U : Elem) (n : Nat) : (storage t U n).length ≤ n := by
  induction n using Nat.strongRecOn with
  | _ n ih =>
    rcases Nat.eq_zero_or_pos n with rfl | h
    · rw [storage_zero]; simp
    · have := size_bestAbi t U n h
      rw [storage_pos (by omega), List.length_cons]
      have := ih (n - size U (bestAbi t U n)) (by omega)
      omega

/-! ### `__to_simd_tuple` -/

theorem toTuple_spec (c : Ctx α β) {t : Target} (hc : t.Consistent) {U : Elem} (hU : U.Ok) :
    ∀ (fuel np : Nat) (cur : List (List β)) (rest : List (Arr β)),
    cur.length + rest.length + (rest.flatMap Arr.regs).length < fuel →
    cur ++ rest.flatMap Arr.regs ≠ [] →
    Wf (regs t U np) (cur ++ rest.flatMap Arr.regs) →
    (∀ r ∈ cur, 2 ≤ r.length) →
    (∀ a ∈ rest, a.regs ≠ [] ∧ (a.scalar = false → ∀ r ∈ a.regs, 2 ≤ r.length) ∧ (a.scalar = true → ∀ r ∈ a.regs, r.length = 1)) →
    (∀ a ∈ rest.dropLast, a.scalar = false) →
    toTuple c t U fuel np 0 false cur rest = some (cur ++ rest.flatMap Arr.regs) := by
  intro fuel
  induction fuel with
  | zero => intro np cur rest h; omega
  | succ fuel ih =>
    intro np cur rest hfuel hne hwf hcur hrest hlast
    cases cur with
    | nil =>
      cases rest with
      | nil => exact absurd rfl hne
      | cons a rest =>
        obtain ⟨ha1, ha2, ha3⟩ := hrest a (by simp)
        rw [toTuple]
        simp only [Bool.false_eq_true, if_false]
        by_cases hs : a.scalar = true
        · have hr : rest = [] := by
            cases rest with
            | nil => rfl
            | cons b rest => have := hlast a (by simp [List.dropLast]); rw [hs] at this; cases this
          subst hr
          simp only [List.flatMap_cons, List.flatMap_nil, List.append_nil, List.nil_append] at hwf ⊢
          have hst : storage t U np = List.replicate a.regs.length .scalar := by
            rw [List.eq_replicate_iff]
            refine ⟨?_, ?_⟩
            · rw [wf_length hwf]; unfold regs; simp
            · intro b hb
              have hv := storage_valid hc hU np b hb
              have hnf := storage_native t U np b hb
              obtain ⟨hok, hsz, hfl⟩ := ofTag_ok hU hv hnf
              have h1 : (Geo.ofTag t U b).full = 1 := by
                have hall : ∀ gs : List Geo, ∀ x : Tup β, Wf gs x → (∀ r ∈ x, r.length = 1) → ∀ g ∈ gs, g.full = 1 := by
                  intro gs
                  induction gs with
                  | nil => intro x _ _ g hg; cases hg
                  | cons g gs ih =>
                    intro x hw hl g' hg'
                    obtain ⟨r, rs, rfl, hr, hrs⟩ := wf_cons hw
                    rcases List.mem_cons.1 hg' with rfl | h
                    · rw [← hr]; exact hl r (by simp)
                    · exact ih rs hrs (fun r hr => hl r (by simp [hr])) g' h
                exact hall _ _ hwf (ha3 hs) _ (List.mem_map.2 ⟨b, hb, rfl⟩)
              have := hok.size_le
              have := hok.one_le
              exact (size_one hv hnf).1 (by omega)
          rw [if_pos hs, if_pos ⟨rfl, hst⟩]
        · have hs' : a.scalar = false := by simpa using hs
          rw [if_neg hs, if_neg (by simpa using ha1)]
          simp only [List.flatMap_cons, List.nil_append] at hwf hne hfuel ⊢
          apply ih
          · simp only [List.length_cons, List.length_append, List.length_nil] at hfuel; omega
          · exact hne
          · exact hwf
          · exact ha2 hs'
          · exact fun b hb => hrest b (by simp [hb])
          · intro b hb
            apply hlast
            cases rest with
            | nil => cases hb
            | cons d rest => rw [List.dropLast_cons_of_ne_nil (by simp)]; exact List.mem_cons_of_mem _ hb
    | cons v vs =>
      have hnp : np ≠ 0 := by
        rintro rfl
        rw [regs_zero] at hwf; exact hwf.elim
      have hf := first hc hU (n := np) (by omega)
      obtain ⟨gf, gs⟩ := geo_full hU hf.valid hf.notFixed
      have h2 := hcur v (by simp)
      rw [regs_pos hnp] at hwf
      obtain ⟨hv, hwf⟩ := (show v.length = _ ∧ Wf _ (vs ++ rest.flatMap Arr.regs) from hwf)
      have hge := vecFull_ge (t := t) hU (size U (bestAbi t U np))
      have hsz2 : 2 ≤ size U (bestAbi t U np) := by
        have := hf.pos
        rcases Nat.lt_or_ge (size U (bestAbi t U np)) 2 with h | h
        · have : size U (bestAbi t U np) = 1 := by omega
          rw [gf, this] at hv; simp [vecFull] at hv; omega
        · exact h
      rw [toTuple, regs_pos hnp]
      simp only []
      rw [if_neg (by omega)]
      by_cases hlt : size U (bestAbi t U np) < np
      · rw [regs_pos (n := np - size U (bestAbi t U np)) (by omega)]
        simp only []
        have hfull := hf.full hlt
        rw [gs, if_neg (by omega), if_pos ⟨by rw [hv, gf, hfull], trivial⟩]
        rw [if_neg (by rw [hv]; simp)]
        rw [ih]
        · rfl
        · simp only [List.length_cons] at hfuel; omega
        · intro h
          have h : vs ++ rest.flatMap Arr.regs = [] := h
          rw [h, regs_pos (by omega)] at hwf
          exact hwf.elim
        · exact hwf
        · exact fun r hr => hcur r (by simp [hr])
        · exact hrest
        · exact hlast
      · have he : np - size U (bestAbi t U np) = 0 := by omega
        have hle := hf.le
        rw [he, regs_zero] at hwf ⊢
        simp only []
        have hnil := wf_nil hwf
        rw [if_neg (by omega), if_pos ⟨trivial, by rw [hv, gf]; omega⟩, pad_self _ hv]
        rw [List.cons_append, hnil]

/-! ### the stages for one register -/

theorem popFront_replicate {s : Nat} (hs : 1 ≤ s) (k : Nat) (l : List Nat) : popFront (k * s) (List.replicate k s ++ l) = some k := by
  induction k with
  | zero => rw [Nat.zero_mul, popFront]
  | succ k ih =>
    rw [List.replicate_succ, List.cons_append, Nat.succ_mul]
    obtain ⟨m, hm⟩ : ∃ m, k * s + s = m + 1 := ⟨k * s + s - 1, by omega⟩
    rw [hm, popFront, if_pos (by omega), ← hm, Nat.add_sub_cancel, ih]; rfl

/-- After `f` stages nothing is left of `m` elements. -/
def Fin' (t : Target) (U : Elem) : Nat → Nat → Prop
  | 0, _ => False
  | f + 1, m => m % size U (bestAbi t U m) = 0 ∨ Fin' t U f (m % size U (bestAbi t U m))

theorem fin_three {t : Target} (hc : t.Consistent) {U : Elem} (hU : U.Ok) {m : Nat} (hm : 1 ≤ m) : Fin' t U 4 m := by
  -- a remainder smaller than a register: at most two more stages
  have small : ∀ m, 1 ≤ m → m < vecSizeof t U / U.size → Fin' t U 3 m := by
    intro m hm hw
    have hf := first hc hU hm
    by_cases h0 : m % size U (bestAbi t U m) = 0
    · exact .inl h0
    · right
      have hlt : size U (bestAbi t U m) < m := by
        rcases Nat.lt_or_ge (size U (bestAbi t U m)) m with h | h
        · exact h
        · have : size U (bestAbi t U m) = m := by have := hf.le; omega
          rw [this, Nat.mod_self] at h0; exact absurd rfl h0
      obtain ⟨h2, h3, h4⟩ := (hf.bound hlt).resolve_left (by omega)
      left
      rw [h4 _ (by omega) (Nat.mod_lt _ (by omega)), Nat.mod_self]
  have hf := first hc hU hm
  by_cases h0 : m % size U (bestAbi t U m) = 0
  · exact .inl h0
  · right
    have := Nat.mod_lt m (show size U (bestAbi t U m) > 0 from hf.pos)
    have := hf.le_w
    exact small _ (by omega) (by omega)

/-- The registers of `m` elements that start with `k` like the first. -/
theorem regs_rep {t : Target} (hc : t.Consistent) {U : Elem} (hU : U.Ok) {m : Nat} (hm : 1 ≤ m) (k : Nat)
    (hk : k * size U (bestAbi t U m) ≤ m) :
    regs t U m = List.replicate k (Geo.ofTag t U (bestAbi t U m)) ++ regs t U (m - k * size U (bestAbi t U m)) := by
  unfold regs
  rw [storage_rep hc hU hm k hk, List.map_append, List.map_replicate]

theorem stages_spec (c : Ctx α β) {t : Target} (hc : t.Consistent) {T U : Elem} (hT : T.Ok) (hU : U.Ok) {n : Nat} {x : List α}
    (hx : n ≤ x.length) : ∀ (fuel done : Nat), done < n → Fin' t U fuel (n - done) →
    ∃ arrs, stages c t T U n x fuel done (storage t U (n - done)) = some arrs ∧ arrs ≠ [] ∧ arrs.length ≤ fuel ∧
      (∀ a ∈ arrs, a.regs ≠ [] ∧ (a.scalar = false → ∀ r ∈ a.regs, 2 ≤ r.length) ∧ (a.scalar = true → ∀ r ∈ a.regs, r.length = 1)) ∧
      (∀ a ∈ arrs.dropLast, a.scalar = false) ∧
      Wf (regs t U (n - done)) (arrs.flatMap Arr.regs) ∧
      lanes (regs t U (n - done)) (arrs.flatMap Arr.regs) = ((x.drop done).take (n - done)).map c.cast := by
  intro fuel
  induction fuel with
  | zero => intro done _ h; exact h.elim
  | succ fuel ih =>
    intro done hd hfin
    have hm : 1 ≤ n - done := by omega
    have hf := first hc hU hm
    obtain ⟨gf, gs⟩ := geo_full hU hf.valid hf.notFixed
    have hpos := hf.pos
    have hle := hf.le
    have hge := vecFull_ge (t := t) hU (size U (bestAbi t U (n - done)))
    obtain ⟨cs, e1, e2, e3, e4⟩ := convertAll_spec c hc hT hU hd hx rfl
    have hq := Nat.div_mul_le_self (n - done) (size U (bestAbi t U (n - done)))
    have hq1 : 1 ≤ (n - done) / size U (bestAbi t U (n - done)) := Nat.div_pos hle hpos
    have hmod := Nat.div_add_mod (n - done) (size U (bestAbi t U (n - done)))
    rw [Nat.mul_comm] at hmod
    have hcs : cs ≠ [] := by intro h; rw [h] at e2; simp at e2; omega
    have hregs := regs_rep hc hU hm _ hq
    have hwf1 : Wf (List.replicate ((n - done) / size U (bestAbi t U (n - done))) (Geo.ofTag t U (bestAbi t U (n - done)))) cs :=
      wf_replicate.2 ⟨e2, fun r hr => by rw [e3 r hr, gf]⟩
    have hl1 : lanes (List.replicate ((n - done) / size U (bestAbi t U (n - done))) (Geo.ofTag t U (bestAbi t U (n - done)))) cs =
        ((x.drop done).take ((n - done) / size U (bestAbi t U (n - done)) * size U (bestAbi t U (n - done)))).map c.cast := by
      rw [← e2, lanes_replicate, gs, e4, e2]
    have harr : (⟨size U (bestAbi t U (n - done)) == 1, cs⟩ : Arr β).regs ≠ [] ∧
        ((size U (bestAbi t U (n - done)) == 1) = false → ∀ r ∈ cs, 2 ≤ r.length) ∧
        ((size U (bestAbi t U (n - done)) == 1) = true → ∀ r ∈ cs, r.length = 1) := by
      refine ⟨hcs, fun h r hr => ?_, fun h r hr => ?_⟩
      · rw [e3 r hr]; simp at h; omega
      · rw [e3 r hr]; simp at h; rw [h]; rfl
    have hst := storage_rep hc hU hm _ hq
    rw [stages]
    simp only [storage_pos (t := t) (T := U) (n := n - done) (by omega), List.head?_cons, Option.bind_eq_bind, Option.bind_some, e1]
    rw [e2]
    rcases Nat.eq_zero_or_pos ((n - done) % size U (bestAbi t U (n - done))) with h0 | h0
    · rw [if_pos (by omega)]
      refine ⟨_, rfl, by simp, by simp, ?_, by simp [List.dropLast], ?_, ?_⟩
      · intro a ha
        rw [List.mem_singleton.1 ha]; exact harr
      · have hz : n - done - (n - done) / size U (bestAbi t U (n - done)) * size U (bestAbi t U (n - done)) = 0 := by omega
        rw [hregs, hz, regs_zero, List.append_nil]
        simpa using hwf1
      · have hz : n - done - (n - done) / size U (bestAbi t U (n - done)) * size U (bestAbi t U (n - done)) = 0 := by omega
        rw [hregs, hz, regs_zero, List.append_nil]
        have hz' : (n - done) / size U (bestAbi t U (n - done)) * size U (bestAbi t U (n - done)) = n - done := by omega
        rw [hz'] at hl1
        simpa using hl1
    · rw [if_neg (by omega)]
      have hsc : size U (bestAbi t U (n - done)) ≠ 1 := by intro h; rw [h, Nat.mod_one] at h0; omega
      have hfin' := hfin.resolve_left (by omega)
      generalize hN : (n - done) / size U (bestAbi t U (n - done)) * size U (bestAbi t U (n - done)) = N at *
      have hmn : (n - done) % size U (bestAbi t U (n - done)) = n - (done + N) := by omega
      rw [hmn] at hfin'
      obtain ⟨more, m1, m2, m3, m4, m5, m6, m7⟩ := ih (done + N) (by omega) hfin'
      have hpop : popFront N (((bestAbi t U (n - done)) :: storage t U (n - done - size U (bestAbi t U (n - done)))).map (size U)) =
          some ((n - done) / size U (bestAbi t U (n - done))) := by
        rw [← storage_pos (by omega), hst, List.map_append, List.map_replicate, ← hN]
        exact popFront_replicate hpos _ _
      have hdrop : ((bestAbi t U (n - done)) :: storage t U (n - done - size U (bestAbi t U (n - done)))).drop
          ((n - done) / size U (bestAbi t U (n - done))) = storage t U (n - (done + N)) := by
        rw [← storage_pos (by omega), hst, List.drop_left' (by simp)]
        congr 1; omega
      rw [hpop]
      simp only [Option.bind_some, hdrop, m1]
      refine ⟨_, rfl, by simp, by simp; omega, ?_, ?_, ?_, ?_⟩
      · intro a ha
        rcases List.mem_cons.1 ha with rfl | ha
        · exact harr
        · exact m4 a ha
      · intro a ha
        rw [List.dropLast_cons_of_ne_nil m2] at ha
        rcases List.mem_cons.1 ha with rfl | ha
        · simpa using hsc
        · exact m5 a ha
      · rw [hregs, List.flatMap_cons]
        have : n - done - N = n - (done + N) := by omega
        rw [this]
        exact wf_append hwf1 m6
      · rw [hregs, List.flatMap_cons]
        have : n - done - N = n - (done + N) := by omega
        rw [this, lanes_append hwf1, hl1, m7, ← List.map_append]
        congr 1
        have h2 : n - done = N + (n - (done + N)) := by omega
        rw [h2, List.take_add, List.drop_drop]

end StdSimd.Convert
