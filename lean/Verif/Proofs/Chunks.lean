import Verif.Proofs.ChunksStep
/-! `_M_apply_per_chunk` is element-wise. -/
namespace StdSimd.Chunks
open Abi
variable {V : Type}

theorem mapM_forall2 {α β : Type} {f : α → Option β} {Q : α → β → Prop} {l : List α}
    (h : ∀ a ∈ l, ∃ b, f a = some b ∧ Q a b) : ∃ bs, l.mapM f = some bs ∧ List.Forall₂ Q l bs := by
  induction l with
  | nil => exact ⟨[], rfl, .nil⟩
  | cons a l ih =>
    obtain ⟨b, e, q⟩ := h a (by simp)
    obtain ⟨bs, e', q'⟩ := ih (fun a ha => h a (by simp [ha]))
    exact ⟨b :: bs, by simp [List.mapM_cons, e, e'], .cons q q'⟩

/-- The arguments after the write-back of one chunk. -/
def upd (k m : Nat) (junk : V) (res : List (V × List V)) : List (Arg V) → Nat → List (Arg V)
  | [], _ => []
  | a :: as, j =>
    (if a.writable then { a with obj := a.obj.take k ++ res.map (fun r => r.2.getD j junk) ++ a.obj.drop (k + m) } else a)
      :: upd k m junk res as (j + 1)

/-- The objects of the arguments at the end. -/
def fin (G : Nat → V × List V) (n k : Nat) (junk : V) : List (Arg V) → Nat → List (List V)
  | [], _ => []
  | a :: as, j =>
    (if a.writable then a.obj.take k ++ (List.range (n - k)).map (fun i => (G (k + i)).2.getD j junk) ++ a.obj.drop n
      else a.obj) :: fin G n k junk as (j + 1)

/-- What is known about an extracted argument. -/
def Good (t : Target) (k m : Nat) (a : Arg V) (p : Piece V) : Prop :=
  lanesOf t a.elem p.tags p.slots = (a.obj.drop k).take m ∧
  ∀ v : List V, v.length = m → assignFront t a { p with slots := setLanes t a.elem p.tags p.slots v }
          = some { a with obj := a.obj.take k ++ v ++ a.obj.drop (k + m) }

theorem writeBacks_spec {t : Target} {k m : Nat} {junk : V} {res : List (V × List V)} (hres : res.length = m)
    {args : List (Arg V)} {ps : List (Piece V)} (h : List.Forall₂ (Good t k m) args ps) :
    ∀ j, writeBacks t args (outputs t junk res (List.zip (args.map (·.elem)) ps) j) = some (upd k m junk res args j) := by
  induction h with
  | nil => intro j; rfl
  | @cons a p as ps hq _ ih =>
    intro j
    simp only [List.map_cons, List.zip_cons_cons, outputs, writeBacks, upd]
    rw [ih (j + 1)]
    unfold writeBack
    by_cases hw : a.writable = true
    · rw [if_pos hw, if_pos hw, hq.2 _ (by simpa using hres)]; rfl
    · rw [if_neg hw, if_neg hw]; rfl

theorem lanes_spec {t : Target} {k m : Nat} {args : List (Arg V)} {ps : List (Piece V)}
    (h : List.Forall₂ (Good t k m) args ps) :
    (List.zip (args.map (·.elem)) ps).map (fun up => lanesOf t up.1 up.2.tags up.2.slots)
      = args.map (fun a => (a.obj.drop k).take m) := by
  induction h with
  | nil => rfl
  | cons hq _ ih => simp only [List.map_cons, List.zip_cons_cons, ih, hq.1]

theorem getD_drop_take (l : List V) (k m i : Nat) (h : i < m) (d : V) :
    ((l.drop k).take m).getD i d = l.getD (k + i) d := by
  rw [List.getD_eq_getElem?_getD, List.getD_eq_getElem?_getD, List.getElem?_take_of_lt h, List.getElem?_drop]

theorem upd_at {t : Target} {T : Elem} {n k m : Nat} {junk : V} {res : List (V × List V)} (hres : res.length = m)
    (hkm : k + m ≤ n) (h1 : 1 ≤ n) (hc : t.Consistent) {args : List (Arg V)} (h : ∀ a ∈ args, At t T n k a) :
    ∀ j, ∀ a ∈ upd k m junk res args j, At t T n k a := by
  induction args with
  | nil => intro j a ha; simp [upd] at ha
  | cons a as ih =>
    intro j b hb
    simp only [upd, List.mem_cons] at hb
    rcases hb with rfl | hb
    · have ha := h a (by simp)
      split
      · refine ⟨ha.ok, ha.big, ha.same, ?_, ha.dvd, ha.tags, ha.off, ha.lt⟩
        have := ha.len
        have := le_sizeOf hc ha.ok ha.big h1
        simp only [List.length_append, List.length_take, List.length_drop, List.length_map]
        omega
      · exact ha
    · exact ih (fun a ha => h a (by simp [ha])) _ b hb

theorem upd_getD {t : Target} {T : Elem} {n k m : Nat} {junk : V} {res : List (V × List V)} (hres : res.length = m)
    (hkm : k + m ≤ n) (h1 : 1 ≤ n) (hc : t.Consistent) {args : List (Arg V)} (h : ∀ a ∈ args, At t T n k a)
    (i : Nat) (hi : k + m ≤ i) :
    ∀ j, (upd k m junk res args j).map (fun a => a.obj.getD i junk) = args.map (fun a => a.obj.getD i junk) := by
  induction args with
  | nil => intro j; rfl
  | cons a as ih =>
    intro j
    simp only [upd, List.map_cons, ih (fun a ha => h a (by simp [ha]))]
    congr 1
    split
    · have ha := h a (by simp)
      have := ha.len
      have := le_sizeOf hc ha.ok ha.big h1
      simp only [List.getD_eq_getElem?_getD]
      rw [List.getElem?_append, if_neg (by simp only [List.length_append, List.length_take, List.length_map]; omega),
        List.getElem?_drop]
      congr 2
      simp only [List.length_append, List.length_take, List.length_map]; omega
    · rfl

theorem fin_congr {n k : Nat} {junk : V} {G : Nat → V × List V} {a1 a2 : List (Arg V)}
    (h : List.Forall₂ (fun (a b : Arg V) => b.obj = a.obj ∧ b.writable = a.writable) a1 a2) :
    ∀ j, fin G n k junk a2 j = fin G n k junk a1 j := by
  induction h with
  | nil => intro j; rfl
  | cons hq _ ih => intro j; simp only [fin, ih, hq.1, hq.2]

theorem fin_upd {t : Target} {T : Elem} {n k m : Nat} {junk : V} {G : Nat → V × List V}
    (hkm : k + m ≤ n) (h1 : 1 ≤ n) (hc : t.Consistent) {args : List (Arg V)} (h : ∀ a ∈ args, At t T n k a) :
    ∀ j, fin G n (k + m) junk (upd k m junk ((List.range m).map (fun i => G (k + i))) args j) j
      = fin G n k junk args j := by
  induction args with
  | nil => intro j; rfl
  | cons a as ih =>
    intro j
    simp only [upd, fin, ih (fun a ha => h a (by simp [ha]))]
    congr 1
    by_cases hw : a.writable = true
    · have ha := h a (by simp)
      have := ha.len
      have := le_sizeOf hc ha.ok ha.big h1
      simp only [hw, if_true]
      have hl : (List.take k a.obj ++ List.map (fun r => r.2.getD j junk) (List.map (fun i => G (k + i)) (List.range m))).length = k + m := by
        simp only [List.length_append, List.length_take, List.length_map, List.length_range]; omega
      rw [List.take_left' hl]
      have hd : List.drop n (List.take k a.obj ++ List.map (fun r => r.2.getD j junk) (List.map (fun i => G (k + i)) (List.range m))
          ++ List.drop (k + m) a.obj) = List.drop n a.obj := by
        rw [List.drop_append, List.drop_of_length_le (by omega), hl, List.drop_drop, List.nil_append]
        congr 1; omega
      rw [hd, show n - k = m + (n - (k + m)) by omega, List.range_add]
      simp only [List.map_append, List.map_map, List.append_assoc, Function.comp_def, Nat.add_assoc]
    · simp only [hw, Bool.false_eq_true, if_false]

theorem fin_self {n : Nat} {junk : V} {G : Nat → V × List V} (args : List (Arg V)) :
    ∀ j, fin G n n junk args j = args.map (·.obj) := by
  induction args with
  | nil => intro j; rfl
  | cons a as ih =>
    intro j
    simp only [fin, ih, List.map_cons, Nat.sub_self, List.range_zero, List.map_nil, List.append_nil, List.take_append_drop,
      ite_self]

theorem forall2_objs {a1 a2 : List (Arg V)} (h : List.Forall₂ (fun (a b : Arg V) => b.obj = a.obj) a1 a2) {β : Type}
    (f : List V → β) : a2.map (fun a => f a.obj) = a1.map (fun a => f a.obj) := by
  induction h with
  | nil => rfl
  | cons hq _ ih => simp only [List.map_cons, ih, hq]

theorem forall2_right {α β : Type} {P : β → Prop} {l1 : List α} {l2 : List β} (h : List.Forall₂ (fun _ b => P b) l1 l2) :
    ∀ b ∈ l2, P b := by
  induction h with
  | nil => intro b hb; simp at hb
  | cons hq _ ih =>
    intro b hb
    rcases List.mem_cons.1 hb with rfl | hb
    · exact hq
    · exact ih b hb

/-- `_M_apply_per_chunk` from element `k` on. -/
theorem loop {t : Target} (hc : t.Consistent) (h386 : t.i386 = false) {T : Elem} (hT : T.Ok) (hT4 : 4 ≤ T.size)
    (F : ElemFun V) (junk : V) (X : List V) (n : Nat) (G : Nat → V × List V) :
    ∀ N k, n - k = N → k < n → cap t T ∣ k → ∀ args : List (Arg V), (∀ a ∈ args, At t T n k a) →
      (∀ i, k ≤ i → i < n → G i = F (X.getD i junk) (args.map (fun a => a.obj.getD i junk))) →
      ∃ res, applyPerChunk t T F junk (storage t T (n - k)) (X.drop k) args = some (res, fin G n k junk args 0) ∧
        res.take (n - k) = (List.range (n - k)).map (fun i => (G (k + i)).1) := by
  have hcp := cap_pos (t := t) hT
  intro N
  induction N using Nat.strongRecOn with
  | _ N ih =>
    intro k hN hkn hdvd args hat hG
    have h1 : 1 ≤ n := by omega
    obtain ⟨ps, eps, good⟩ := mapM_forall2 (f := extract t (storage t T (n - k)) (min (n - k) (cap t T)))
      (Q := Good t k (min (n - k) (cap t T))) (l := args) (fun a ha => extract_spec hc h386 hT hT4 hdvd hkn (hat a ha))
    have hm : k + min (n - k) (cap t T) ≤ n := by omega
    have hcall : call F junk (min (n - k) (cap t T)) ((X.drop k).take (min (n - k) (cap t T)))
        (args.map (fun a => (a.obj.drop k).take (min (n - k) (cap t T))))
        = (List.range (min (n - k) (cap t T))).map (fun i => G (k + i)) := by
      unfold call
      apply List.map_congr_left
      intro i hi
      have hi := List.mem_range.1 hi
      rw [hG (k + i) (by omega) (by omega), getD_drop_take _ _ _ _ hi, List.map_map]
      congr 1
      apply List.map_congr_left
      intro a _
      exact getD_drop_take _ _ _ _ hi _
    have hwb := writeBacks_spec (t := t) (junk := junk) (m := min (n - k) (cap t T))
      (res := (List.range (min (n - k) (cap t T))).map (fun i => G (k + i))) (by simp) good 0
    by_cases hs : n - k ≤ cap t T
    · rw [Nat.min_eq_left hs] at *
      rw [storage_small hc hT hT4 (by omega) hs] at *
      unfold applyPerChunk
      simp only [pick_size hT]
      rw [eps]
      simp only [Option.bind_eq_bind, Option.bind_some, Option.pure_def]
      rw [lanes_spec good, hcall, hwb]
      simp only [Option.bind_some, if_true]
      rw [← fin_self (n := n) (junk := junk) (G := G) _ 0]
      have hf := fin_upd (G := G) (junk := junk) hm h1 hc hat 0
      rw [show k + (n - k) = n by omega] at hf
      rw [hf]
      refine ⟨_, rfl, ?_⟩
      rw [List.take_left' (by simp), List.map_map]; rfl
    · have hb : cap t T < n - k := by omega
      rw [Nat.min_eq_right (by omega)] at *
      rw [storage_big hc hT hT4 hb] at *
      unfold applyPerChunk
      simp only [pick_size hT]
      rw [eps]
      simp only [Option.bind_eq_bind, Option.bind_some, Option.pure_def]
      rw [lanes_spec good, hcall, hwb]
      have hne : storage t T (n - k - cap t T) ≠ [] := by
        obtain ⟨a, as, e⟩ := storage_ne hc hT hT4 (n := n - k - cap t T) (by omega)
        rw [e]; simp
      simp only [Option.bind_some, if_neg hne]
      have hat' := upd_at (junk := junk) (res := (List.range (cap t T)).map (fun i => G (k + i))) (by simp) hm h1 hc hat 0
      obtain ⟨qs, eqs, hqs⟩ := mapM_forall2 (f := skip t (cap t T))
        (Q := fun a a' => At t T n (k + cap t T) a' ∧ a'.obj = a.obj ∧ a'.writable = a.writable ∧ a'.elem = a.elem)
        (fun a ha => skip_spec hc hT hdvd (by omega) (hat' a ha))
      rw [eqs]
      simp only [Option.bind_some]
      have hobj := forall2_objs (β := V) (hqs.imp (fun _ _ h => h.2.1))
      obtain ⟨r, er, hr⟩ := ih (n - (k + cap t T)) (by omega) (k + cap t T) rfl (by omega)
        (Nat.dvd_add hdvd (Nat.dvd_refl _)) qs (forall2_right (hqs.imp (fun _ _ h => h.1)))
        (by
          intro i hi1 hi2
          rw [hG i (by omega) hi2, hobj (fun o => o.getD i junk), upd_getD (by simp) hm h1 hc hat i hi1 0])
      rw [full_cap hc hT hT4, sndPos_storage hc hT hT4 hb, List.drop_drop]
      rw [show n - k - cap t T = n - (k + cap t T) by omega, er]
      simp only [Option.bind_some]
      rw [fin_congr (hqs.imp (fun _ _ h => ⟨h.2.1, h.2.2.1⟩)), fin_upd hm h1 hc hat 0]
      refine ⟨_, rfl, ?_⟩
      simp only [Nat.sub_self, List.replicate_zero, List.append_nil]
      rw [show n - k = cap t T + (n - (k + cap t T)) by omega, List.take_append, List.range_add,
        List.take_of_length_le (by simp)]
      simp only [List.map_append, List.map_map, List.length_map, List.length_range, Nat.add_sub_cancel_left, hr,
        Function.comp_def, Nat.add_assoc]

theorem fin_get {G : Nat → V × List V} {n k : Nat} {junk : V} : ∀ (args : List (Arg V)) (j0 j : Nat) (h : j < args.length),
    (fin G n k junk args j0)[j]? = some (if args[j].writable then args[j].obj.take k ++
      (List.range (n - k)).map (fun i => (G (k + i)).2.getD (j0 + j) junk) ++ args[j].obj.drop n else args[j].obj)
  | a :: as, j0, 0, _ => by simp [fin]
  | a :: as, j0, j + 1, h => by
    simp only [fin, List.getElem?_cons_succ, List.getElem_cons_succ]
    rw [fin_get as (j0 + 1) j (by simpa using h), show j0 + 1 + j = j0 + (j + 1) by omega]

theorem fin_length {G : Nat → V × List V} {n k : Nat} {junk : V} : ∀ (args : List (Arg V)) (j0 : Nat),
    (fin G n k junk args j0).length = args.length
  | [], _ => rfl
  | a :: as, j0 => by simp only [fin, List.length_cons, fin_length as]

end StdSimd.Chunks
