import Verif.Model.Tuple
import Verif.Proofs.NativeMem
namespace StdSimd.Tuple
open Native
variable {α β : Type}

/-- All geometries are valid. -/
def Oks (gs : List Geo) : Prop := ∀ g ∈ gs, g.Ok

theorem Oks.head {g : Geo} {gs : List Geo} (h : Oks (g :: gs)) : g.Ok := h g (by simp)
theorem Oks.tail {g : Geo} {gs : List Geo} (h : Oks (g :: gs)) : Oks gs := fun g' hg => h g' (by simp [hg])

theorem total_cons (g : Geo) (gs : List Geo) : total (g :: gs) = g.size + total gs := by
  cases gs with
  | nil => simp [total]
  | cons g' gs => rw [total, Nat.add_comm]

theorem total_eq_sum (gs : List Geo) : total gs = (gs.map Geo.size).sum := by
  induction gs with
  | nil => rfl
  | cons g gs ih => rw [total_cons, ih]; simp

theorem lanes_cons (g : Geo) (gs : List Geo) (x : List α) (xs : Tup α) :
    lanes (g :: gs) (x :: xs) = x.take g.size ++ lanes gs xs := rfl

theorem wf_cons {g : Geo} {gs : List Geo} {t : Tup α} (h : Wf (g :: gs) t) :
    ∃ x xs, t = x :: xs ∧ x.length = g.full ∧ Wf gs xs := by
  cases t with
  | nil => exact h.elim
  | cons x xs => exact ⟨x, xs, rfl, h.1, h.2⟩

theorem wf_nil {t : Tup α} (h : Wf [] t) : t = [] := by
  cases t with
  | nil => rfl
  | cons x xs => exact h.elim

theorem length_lanes {gs : List Geo} (hg : Oks gs) {t : Tup α} (h : Wf gs t) : (lanes gs t).length = total gs := by
  induction gs generalizing t with
  | nil => rw [wf_nil h]; rfl
  | cons g gs ih =>
    obtain ⟨x, xs, rfl, hx, hxs⟩ := wf_cons h
    have := hg.head.size_le
    rw [lanes_cons, List.length_append, ih hg.tail hxs, total_cons, List.length_take]
    omega

theorem lanes_get_lt {g : Geo} (hg : g.Ok) (gs : List Geo) {x : List α} (hx : x.length = g.full) (xs : Tup α) {i : Nat}
    (hi : i < g.size) : (lanes (g :: gs) (x :: xs))[i]? = x[i]? := by
  have := hg.size_le
  rw [lanes_cons, List.getElem?_append_left (by simp; omega), List.getElem?_take_of_lt hi]

theorem lanes_get_ge {g : Geo} (hg : g.Ok) (gs : List Geo) {x : List α} (hx : x.length = g.full) (xs : Tup α) {i : Nat}
    (hi : g.size ≤ i) : (lanes (g :: gs) (x :: xs))[i]? = (lanes gs xs)[i - g.size]? := by
  have := hg.size_le
  have e : (x.take g.size).length = g.size := by simp; omega
  rw [lanes_cons, List.getElem?_append_right (by omega), e]

theorem total_pos {gs : List Geo} (hg : Oks gs) (h : gs ≠ []) : 1 ≤ total gs := by
  cases gs with
  | nil => exact absurd rfl h
  | cons g gs => rw [total_cons]; have := hg.head.one_le; omega

/-! ### one- and two-argument application -/

theorem forEach1_cons2 (f : Geo → Nat → List α → Option (List β)) (g g' : Geo) (gs : List Geo) (off : Nat) (x : List α)
    (xs : Tup α) : forEach1 f (g :: g' :: gs) off (x :: xs) = (do
      let r ← f g off x
      let rs ← forEach1 f (g' :: gs) (off + g.size) xs
      pure (r :: rs)) := by
  cases xs <;> rfl

/-- Lifting a register-level statement to the tuple: `P` is what is known about lane `i` (numbered in the tuple), `h`
the operation on lane `i`. -/
theorem forEach1_spec (f : Geo → Nat → List α → Option (List β)) (P : Nat → α → Prop) (h : Nat → α → β) (N : Nat) :
    ∀ (gs : List Geo) (off : Nat) (x : Tup α), gs ≠ [] → Oks gs → Wf gs x → off + total gs ≤ N →
    (∀ g ∈ gs, ∀ off x, off + g.size ≤ N → x.length = g.full → (∀ i a, i < g.size → x[i]? = some a → P (off + i) a) →
      ∃ r, f g off x = some r ∧ r.length = g.full ∧ ∀ i < g.size, r[i]? = (x[i]?).map (h (off + i))) →
    (∀ i a, (lanes gs x)[i]? = some a → P (off + i) a) →
    ∃ r, forEach1 f gs off x = some r ∧ Wf gs r ∧ ∀ i, (lanes gs r)[i]? = ((lanes gs x)[i]?).map (h (off + i)) := by
  intro gs
  induction gs with
  | nil => intro off x hne; exact absurd rfl hne
  | cons g gs ih =>
    intro off x _ hok hwf hN hf hP
    obtain ⟨x, xs, rfl, hx, hxs⟩ := wf_cons hwf
    have hg := hok.head
    rw [total_cons] at hN
    obtain ⟨r, hr1, hr2, hr3⟩ := hf g (by simp) off x (by omega) hx (fun i a hi ha => hP i a (by
      rw [lanes_get_lt hg gs hx xs hi]; exact ha))
    have hsz := hg.size_le
    cases gs with
    | nil =>
      have := wf_nil hxs
      subst this
      refine ⟨[r], ?_, ⟨hr2, trivial⟩, ?_⟩
      · simp [forEach1, hr1]
      · intro i
        by_cases hi : i < g.size
        · rw [lanes_get_lt hg [] hr2 [] hi, lanes_get_lt hg [] hx [] hi]; exact hr3 i hi
        · rw [lanes_get_ge hg [] hr2 [] (by omega), lanes_get_ge hg [] hx [] (by omega)]; rfl
    | cons g' gs =>
      obtain ⟨rs, hrs1, hrs2, hrs3⟩ := ih (off + g.size) xs (by simp) hok.tail hxs (by omega)
        (fun g hg => hf g (by simp [List.mem_cons.1 hg]))
        (fun i a ha => by
          have := hP (g.size + i) a (by
            rw [lanes_get_ge hg _ hx xs (by omega), Nat.add_sub_cancel_left]; exact ha)
          rwa [← Nat.add_assoc] at this)
      refine ⟨r :: rs, ?_, ⟨hr2, hrs2⟩, ?_⟩
      · rw [forEach1_cons2, hr1]; simp [hrs1]
      · intro i
        by_cases hi : i < g.size
        · rw [lanes_get_lt hg _ hr2 _ hi, lanes_get_lt hg _ hx _ hi]; exact hr3 i hi
        · rw [lanes_get_ge hg _ hr2 _ (by omega), lanes_get_ge hg _ hx _ (by omega), hrs3]
          rw [show off + g.size + (i - g.size) = off + i by omega]

theorem forEach2_cons2 (f : Geo → Nat → List α → List β → Option (List α)) (g g' : Geo) (gs : List Geo) (off : Nat)
    (x : List α) (xs : Tup α) (y : List β) (ys : Tup β) : forEach2 f (g :: g' :: gs) off (x :: xs) (y :: ys) = (do
      let r ← f g off x y
      let rs ← forEach2 f (g' :: gs) (off + g.size) xs ys
      pure (r :: rs)) := by
  cases xs <;> cases ys <;> rfl

/-- As `forEach1_spec`, two arguments: `h i a b` is lane `i` of the result. -/
theorem forEach2_spec (f : Geo → Nat → List α → List β → Option (List α)) (P : Nat → α → β → Prop) (h : Nat → α → β → α)
    (N : Nat) :
    ∀ (gs : List Geo) (off : Nat) (x : Tup α) (y : Tup β), gs ≠ [] → Oks gs → Wf gs x → Wf gs y → off + total gs ≤ N →
    (∀ g ∈ gs, ∀ off x y, off + g.size ≤ N → x.length = g.full → y.length = g.full →
      (∀ i a b, i < g.size → x[i]? = some a → y[i]? = some b → P (off + i) a b) →
      ∃ r, f g off x y = some r ∧ r.length = g.full ∧
        ∀ i < g.size, ∀ a b, x[i]? = some a → y[i]? = some b → r[i]? = some (h (off + i) a b)) →
    (∀ i a b, (lanes gs x)[i]? = some a → (lanes gs y)[i]? = some b → P (off + i) a b) →
    ∃ r, forEach2 f gs off x y = some r ∧ Wf gs r ∧
      ∀ i a b, (lanes gs x)[i]? = some a → (lanes gs y)[i]? = some b → (lanes gs r)[i]? = some (h (off + i) a b) := by
  intro gs
  induction gs with
  | nil => intro off x y hne; exact absurd rfl hne
  | cons g gs ih =>
    intro off x y _ hok hwf hwfy hN hf hP
    obtain ⟨x, xs, rfl, hx, hxs⟩ := wf_cons hwf
    obtain ⟨y, ys, rfl, hy, hys⟩ := wf_cons hwfy
    have hg := hok.head
    rw [total_cons] at hN
    obtain ⟨r, hr1, hr2, hr3⟩ := hf g (by simp) off x y (by omega) hx hy (fun i a b hi ha hb => hP i a b
      (by rw [lanes_get_lt hg gs hx xs hi]; exact ha) (by rw [lanes_get_lt hg gs hy ys hi]; exact hb))
    have hsz := hg.size_le
    cases gs with
    | nil =>
      have := wf_nil hxs
      subst this
      have := wf_nil hys
      subst this
      refine ⟨[r], ?_, ⟨hr2, trivial⟩, ?_⟩
      · simp [forEach2, hr1]
      · intro i a b
        by_cases hi : i < g.size
        · rw [lanes_get_lt hg [] hr2 [] hi, lanes_get_lt hg [] hx [] hi, lanes_get_lt hg [] hy [] hi]; exact hr3 i hi a b
        · rw [lanes_get_ge hg [] hx [] (by omega)]
          intro hc; simp [lanes] at hc
    | cons g' gs =>
      obtain ⟨rs, hrs1, hrs2, hrs3⟩ := ih (off + g.size) xs ys (by simp) hok.tail hxs hys (by omega)
        (fun g hg => hf g (by simp [List.mem_cons.1 hg]))
        (fun i a b ha hb => by
          have := hP (g.size + i) a b
            (by rw [lanes_get_ge hg _ hx xs (by omega), Nat.add_sub_cancel_left]; exact ha)
            (by rw [lanes_get_ge hg _ hy ys (by omega), Nat.add_sub_cancel_left]; exact hb)
          rwa [← Nat.add_assoc] at this)
      refine ⟨r :: rs, ?_, ⟨hr2, hrs2⟩, ?_⟩
      · rw [forEach2_cons2, hr1]; simp [hrs1]
      · intro i a b
        by_cases hi : i < g.size
        · rw [lanes_get_lt hg _ hr2 _ hi, lanes_get_lt hg _ hx _ hi, lanes_get_lt hg _ hy _ hi]; exact hr3 i hi a b
        · rw [lanes_get_ge hg _ hr2 _ (by omega), lanes_get_ge hg _ hx _ (by omega), lanes_get_ge hg _ hy _ (by omega)]
          intro ha hb
          rw [hrs3 _ a b ha hb, show off + g.size + (i - g.size) = off + i by omega]

theorem applyPerChunk1_eq (f : Geo → List α → Option (List β)) (gs : List Geo) (off : Nat) (x : Tup α) :
    applyPerChunk1 f gs x = forEach1 (fun g _ x => f g x) gs off x := by
  induction gs generalizing off x with
  | nil => rfl
  | cons g gs ih =>
    cases gs with
    | nil =>
      cases x with
      | nil => rfl
      | cons x xs => cases xs <;> rfl
    | cons g' gs =>
      cases x with
      | nil => rfl
      | cons x xs =>
        rw [forEach1_cons2, ← ih]
        cases xs <;> rfl

theorem applyPerChunk2_eq (f : Geo → List α → List β → Option (List α)) (gs : List Geo) (off : Nat) (x : Tup α) (y : Tup β) :
    applyPerChunk2 f gs x y = forEach2 (fun g _ x y => f g x y) gs off x y := by
  induction gs generalizing off x y with
  | nil => rfl
  | cons g gs ih =>
    cases gs with
    | nil =>
      cases x with
      | nil => rfl
      | cons x xs =>
        cases y with
        | nil => cases xs <;> rfl
        | cons y ys => cases xs <;> cases ys <;> rfl
    | cons g' gs =>
      cases x with
      | nil => rfl
      | cons x xs =>
        cases y with
        | nil => cases xs <;> rfl
        | cons y ys =>
          rw [forEach2_cons2, ← ih]
          cases xs <;> cases ys <;> rfl

/-- Pairs of registers. -/
def zipT : Tup α → Tup β → Tup (α × β) := List.zipWith List.zip

theorem wf_zipT {gs : List Geo} {y : Tup α} {z : Tup β} (hy : Wf gs y) (hz : Wf gs z) : Wf gs (zipT y z) := by
  induction gs generalizing y z with
  | nil => rw [wf_nil hy, wf_nil hz]; trivial
  | cons g gs ih =>
    obtain ⟨y, ys, rfl, hy, hys⟩ := wf_cons hy
    obtain ⟨z, zs, rfl, hz, hzs⟩ := wf_cons hz
    exact ⟨by simp [hy, hz], ih hys hzs⟩

theorem lanes_zipT {gs : List Geo} (hok : Oks gs) {y : Tup α} {z : Tup β} (hy : Wf gs y) (hz : Wf gs z) :
    lanes gs (zipT y z) = (lanes gs y).zip (lanes gs z) := by
  induction gs generalizing y z with
  | nil => rw [wf_nil hy, wf_nil hz]; rfl
  | cons g gs ih =>
    obtain ⟨y, ys, rfl, hy, hys⟩ := wf_cons hy
    obtain ⟨z, zs, rfl, hz, hzs⟩ := wf_cons hz
    have := hok.head.size_le
    change lanes (g :: gs) (y.zip z :: zipT ys zs) = _
    rw [lanes_cons, lanes_cons, lanes_cons, List.zip_append (by simp; omega), ih hok.tail hys hzs]
    congr 1
    simp only [List.zip, List.take_zipWith]

theorem applyPerChunk3_eq (f : Geo → List α → List α → List α → Option (List α)) (F : Geo → List α → List (α × α) → Option (List α))
    (gs : List Geo) (x y z : Tup α) (hy : Wf gs y) (hz : Wf gs z)
    (h : ∀ g ∈ gs, ∀ x y z, y.length = g.full → z.length = g.full → f g x y z = F g x (y.zip z)) :
    applyPerChunk3 f gs x y z = applyPerChunk2 F gs x (zipT y z) := by
  induction gs generalizing x y z with
  | nil => rfl
  | cons g gs ih =>
    obtain ⟨y, ys, rfl, hy1, hys⟩ := wf_cons hy
    obtain ⟨z, zs, rfl, hz1, hzs⟩ := wf_cons hz
    cases gs with
    | nil =>
      rw [wf_nil hys, wf_nil hzs]
      cases x with
      | nil => rfl
      | cons x xs =>
        cases xs with
        | nil => simp only [applyPerChunk3, applyPerChunk2, zipT, List.zipWith_cons_cons, List.zipWith_nil_left]
                 rw [h g (by simp) x y z hy1 hz1]
        | cons _ _ => rfl
    | cons g' gs =>
      cases x with
      | nil => rfl
      | cons x xs =>
        have := ih xs ys zs hys hzs (fun g hg => h g (by simp [List.mem_cons.1 hg]))
        change (do let r ← f g x y z; let rs ← applyPerChunk3 f (g' :: gs) xs ys zs; pure (r :: rs)) = 
          (do let r ← F g x (y.zip z); let rs ← applyPerChunk2 F (g' :: gs) xs (zipT ys zs); pure (r :: rs))
        rw [h g (by simp) x y z hy1 hz1, this]

end StdSimd.Tuple
