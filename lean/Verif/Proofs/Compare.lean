import Verif.Model.Compare
import Verif.Proofs.FixedSize
/-! # Lemmas about comparisons, `min`, `max`, `clamp` -/
namespace StdSimd.Compare
open Spec Native Kind

/-- The relation an operation computes. -/
def Op.rel : Op → Rel
  | .equal => .eq | .notEqual => .ne | .less => .lt | .lessEqual => .le

theorem cast_lt (a b : ℤ) : (((a : ℚ) : WithTop ℚ) : WithBot (WithTop ℚ)) < (((b : ℚ) : WithTop ℚ) : WithBot (WithTop ℚ)) ↔ a < b := by
  rw [WithBot.coe_lt_coe, WithTop.coe_lt_coe]; exact Int.cast_lt
theorem cast_le (a b : ℤ) : (((a : ℚ) : WithTop ℚ) : WithBot (WithTop ℚ)) ≤ (((b : ℚ) : WithTop ℚ) : WithBot (WithTop ℚ)) ↔ a ≤ b := by
  rw [WithBot.coe_le_coe, WithTop.coe_le_coe]; exact Int.cast_le
theorem cast_eq (a b : ℤ) : (((a : ℚ) : WithTop ℚ) : WithBot (WithTop ℚ)) = (((b : ℚ) : WithTop ℚ) : WithBot (WithTop ℚ)) ↔ a = b := by
  rw [WithBot.coe_eq_coe, WithTop.coe_eq_coe]; exact Int.cast_inj

theorem value_inj (s : Bool) {w : Nat} (x y : BitVec w) : Spec.value s x = Spec.value s y ↔ x = y := by
  cases s with
  | true => simp [Spec.value, BitVec.toInt_inj]
  | false => simp [Spec.value, BitVec.toNat_inj]

theorem elem_spec (k : Kind) (op : Op) (x y : k.Bits) : elem k op x y = k.holds op.rel x y := by
  cases k with
  | int s w =>
    cases op with
    | equal =>
      simp only [elem, holds, Kind.value, Op.rel, Rel.ofNumbers, cast_eq, value_inj]
      exact Bool.eq_iff_iff.2 (by simp)
    | notEqual =>
      simp only [elem, holds, Kind.value, Op.rel, Rel.ofNumbers, ne_eq, cast_eq, value_inj]
      exact Bool.eq_iff_iff.2 (by simp)
    | less =>
      cases s <;>
        simp only [elem, holds, Kind.value, Op.rel, Rel.ofNumbers, cast_lt, Spec.value] <;>
        simp [BitVec.slt, BitVec.ult]
    | lessEqual =>
      cases s <;>
        simp only [elem, holds, Kind.value, Op.rel, Rel.ofNumbers, cast_le, Spec.value] <;>
        simp [BitVec.sle, BitVec.ule]
  | float f =>
    cases op <;> simp only [elem, holds, Kind.value, Op.rel, Fmt.eq, Fmt.lt, Fmt.le, Fmt.quiet] <;>
      cases f.value x <;> cases f.value y <;> simp [Rel.ofNumbers]

theorem pred_spec (f : Fmt) (x y : f.Bits) :
    Pred.EQ_OQ.eval f x y = elem (.float f) .equal x y ∧ Pred.NEQ_UQ.eval f x y = elem (.float f) .notEqual x y ∧
    Pred.LT_OS.eval f x y = elem (.float f) .less x y ∧ Pred.LE_OS.eval f x y = elem (.float f) .lessEqual x y := by
  refine ⟨rfl, ?_, rfl, rfl⟩
  simp only [Pred.eval, elem, Fmt.unordered, Fmt.lessGreater, Fmt.eq, Fmt.quiet]
  cases f.value x <;> cases f.value y <;> simp

theorem avx512_lanes (k : Kind) (op : Op) {n : Nat} (h : n ≤ 64) (x y : List k.Bits) (hx : n ≤ x.length) (hy : n ≤ y.length) :
    KMask.lanes (avx512 n k op x y) = List.zipWith (elem k op) (x.take n) (y.take n) := by
  cases k with
  | int s w =>
    cases op with
    | notEqual =>
      rw [avx512, KMask.intNotEqual_lanes h _ x y hx hy]; rfl
    | equal => exact (KMask.cmp_spec h _ x y hx hy).lanes_eq
    | less => cases s <;> exact (KMask.cmp_spec h _ x y hx hy).lanes_eq
    | lessEqual => cases s <;> exact (KMask.cmp_spec h _ x y hx hy).lanes_eq
  | float f =>
    cases op with
    | notEqual =>
      have e : elem (.float f) .notEqual = Pred.NEQ_UQ.eval f := by funext a b; exact (pred_spec f a b).2.1.symm
      rw [e]
      exact (KMask.cmp_spec h _ x y hx hy).lanes_eq
    | equal => exact (KMask.cmp_spec h _ x y hx hy).lanes_eq
    | less => exact (KMask.cmp_spec h _ x y hx hy).lanes_eq
    | lessEqual => exact (KMask.cmp_spec h _ x y hx hy).lanes_eq

theorem wide_eq (k : Kind) (c : Ctx k) (op : Op) {w f : Nat} (x y : List k.Bits) (hx : x.length = f) (hy : y.length = f) :
    wide k c op w f x y = List.zipWith (fun a b => VMask.elem w (elem k op a b)) x y := by
  unfold wide
  rw [List.zipWith_append (by omega), List.take_append_of_le_length (by simp; omega), List.take_of_length_le (by simp; omega)]

theorem compare_spec (k : Kind) (c : Ctx k) (op : Op) {g : Geo} (hg : g.Ok) (x y : List k.Bits) (hx : x.length = g.full)
    (hy : y.length = g.full) :
    ∃ m, compare k c op g x y = some m ∧ MaskOk g m ∧
      maskLanes g m = List.zipWith (k.holds op.rel) (x.take g.size) (y.take g.size) := by
  have e : k.holds op.rel = elem k op := by funext a b; exact (elem_spec k op a b).symm
  rw [e]
  obtain ⟨m, h1, h2, h3⟩ := cmp_spec (elem k op) hg x y hx hy
  cases g with
  | scalar =>
    refine ⟨m, ?_, h2, h3⟩
    simp at hx hy
    obtain ⟨a, rfl⟩ := List.length_eq_one_iff.1 hx
    obtain ⟨b, rfl⟩ := List.length_eq_one_iff.1 hy
    exact h1
  | vec w n f =>
    simp at hx hy
    refine ⟨m, ?_, h2, h3⟩
    rw [← h1]
    simp only [compare, Native.cmp, wide_eq k c op x y hx hy, ite_self]
  | bitmask n f =>
    simp at hx hy
    have hn := hg.2.1
    refine ⟨_, rfl, trivial, ?_⟩
    cases hc : c.const with
    | true => exact (KMask.cmpConst_spec hg.1 hg.2.2 _ x y (by omega) (by omega)).lanes_eq
    | false => exact avx512_lanes k op hg.2.2 x y (by omega) (by omega)

theorem holds_swap (k : Kind) (x y : k.Bits) : k.holds .gt x y = k.holds .lt y x ∧ k.holds .ge x y = k.holds .le y x := by
  unfold holds
  cases k.value x <;> cases k.value y <;> simp [Rel.ofNumbers]

theorem zipWith_swap {α : Type} (p q : α → α → Bool) (h : ∀ a b, p a b = q b a) (x y : List α) :
    List.zipWith q y x = List.zipWith p x y := by
  rw [List.zipWith_comm]; congr 1; funext a b; rw [h]

theorem operator_spec (k : Kind) (c : Ctx k) (r : Rel) {g : Geo} (hg : g.Ok) (x y : List k.Bits) (hx : x.length = g.full)
    (hy : y.length = g.full) :
    ∃ m, operator k c r g x y = some m ∧ MaskOk g m ∧
      maskLanes g m = List.zipWith (k.holds r) (x.take g.size) (y.take g.size) := by
  cases r with
  | eq => exact compare_spec k c .equal hg x y hx hy
  | ne => exact compare_spec k c .notEqual hg x y hx hy
  | lt => exact compare_spec k c .less hg x y hx hy
  | le => exact compare_spec k c .lessEqual hg x y hx hy
  | gt =>
    rw [← zipWith_swap (k.holds .gt) (k.holds .lt) (fun a b => (holds_swap k a b).1)]
    exact compare_spec k c .less hg y x hy hx
  | ge =>
    rw [← zipWith_swap (k.holds .ge) (k.holds .le) (fun a b => (holds_swap k a b).2)]
    exact compare_spec k c .lessEqual hg y x hy hx

theorem fixedOperator_spec (k : Kind) (c : Geo → Ctx k) (r : Rel) (gs : List Geo) (hne : gs ≠ []) (hok : Tuple.Oks gs)
    (h64 : Tuple.total gs ≤ 64) (x y : Tuple.Tup k.Bits) (hx : Tuple.Wf gs x) (hy : Tuple.Wf gs y) :
    ∃ b, fixedOperator k c r gs x y = some b ∧ b.Clean ∧
      b.lanes = List.zipWith (k.holds r) (Tuple.lanes gs x) (Tuple.lanes gs y) := by
  cases r with
  | eq => exact Tuple.test2_spec _ _ gs x y hne hok h64 hx hy (fun g hg x y hx hy => compare_spec k (c g) .equal (hok g hg) x y hx hy)
  | ne => exact Tuple.test2_spec _ _ gs x y hne hok h64 hx hy (fun g hg x y hx hy => compare_spec k (c g) .notEqual (hok g hg) x y hx hy)
  | lt => exact Tuple.test2_spec _ _ gs x y hne hok h64 hx hy (fun g hg x y hx hy => compare_spec k (c g) .less (hok g hg) x y hx hy)
  | le => exact Tuple.test2_spec _ _ gs x y hne hok h64 hx hy (fun g hg x y hx hy => compare_spec k (c g) .lessEqual (hok g hg) x y hx hy)
  | gt =>
    rw [← zipWith_swap (k.holds .gt) (k.holds .lt) (fun a b => (holds_swap k a b).1)]
    exact Tuple.test2_spec _ _ gs y x hne hok h64 hy hx (fun g hg x y hx hy => compare_spec k (c g) .less (hok g hg) x y hx hy)
  | ge =>
    rw [← zipWith_swap (k.holds .ge) (k.holds .le) (fun a b => (holds_swap k a b).2)]
    exact Tuple.test2_spec _ _ gs y x hne hok h64 hy hx (fun g hg x y hx hy => compare_spec k (c g) .lessEqual (hok g hg) x y hx hy)

/-! ## minimum, maximum, clamp of elements -/

theorem value_of_ne {k : Kind} {x : k.Bits} (h : k.value x ≠ none) : ∃ a, k.value x = some a := Option.ne_none_iff_exists'.1 h

theorem elemMin_least (k : Kind) (g : Geo) (a b : k.Bits) : k.Least a b (elemMin k g a b) := by
  refine ⟨?_, fun ha hb => ?_⟩
  · cases g <;> simp only [elemMin, scalarMin, vecMin] <;> split <;> simp
  · obtain ⟨u, hu⟩ := value_of_ne ha
    obtain ⟨v, hv⟩ := value_of_ne hb
    cases g <;> simp only [elemMin, scalarMin, vecMin, elem_spec] <;> split <;> rename_i h <;>
      simp only [holds, hu, hv, Op.rel, Rel.ofNumbers, decide_eq_true_eq] at h ⊢ <;>
      first
        | exact ⟨le_refl _, le_of_lt h⟩ | exact ⟨le_of_lt h, le_refl _⟩
        | exact ⟨le_refl _, not_lt.1 h⟩ | exact ⟨not_lt.1 h, le_refl _⟩

theorem elemMax_greatest (k : Kind) (g : Geo) (a b : k.Bits) : k.Greatest a b (elemMax k g a b) := by
  refine ⟨?_, fun ha hb => ?_⟩
  · cases g <;> simp only [elemMax, scalarMax, vecMax] <;> split <;> simp
  · obtain ⟨u, hu⟩ := value_of_ne ha
    obtain ⟨v, hv⟩ := value_of_ne hb
    cases g <;> simp only [elemMax, scalarMax, vecMax, elem_spec] <;> split <;> rename_i h <;>
      simp only [holds, hu, hv, Op.rel, Rel.ofNumbers, decide_eq_true_eq, ge_iff_le] at h ⊢ <;>
      first
        | exact ⟨le_refl _, le_of_lt h⟩ | exact ⟨le_of_lt h, le_refl _⟩
        | exact ⟨le_refl _, not_lt.1 h⟩ | exact ⟨not_lt.1 h, le_refl _⟩

theorem le_value {k : Kind} {x y : k.Bits} (h : k.holds .le x y = true) : ∃ a b, k.value x = some a ∧ k.value y = some b ∧ a ≤ b := by
  unfold holds at h
  cases hx : k.value x <;> cases hy : k.value y <;> simp [hx, hy, Rel.ofNumbers] at h
  exact ⟨_, _, rfl, rfl, h⟩

/-- The vector `clamp` of one element is `std::clamp`. -/
theorem vecClamp_eq (k : Kind) (v lo hi : k.Bits) (h : k.holds .le lo hi) : vecMin k hi (vecMax k lo v) = k.stdClamp v lo hi := by
  obtain ⟨a, b, ha, hb, hab⟩ := le_value h
  simp only [vecMin, vecMax, stdClamp, elem_spec, Op.rel]
  by_cases h1 : k.holds .lt v lo = true
  · have h2 : k.holds .lt hi lo = false := by simp [holds, ha, hb, Rel.ofNumbers, hab]
    simp [h1, h2]
  · simp [h1]

theorem elemClamp_clamped (k : Kind) (g : Geo) (v lo hi : k.Bits) (h : k.holds .le lo hi) (hv : k.value v ≠ none) :
    k.Clamped v lo hi (elemMin k g hi (elemMax k g lo v)) := by
  obtain ⟨a, b, ha, hb, hab⟩ := le_value h
  obtain ⟨c, hc⟩ := value_of_ne hv
  refine ⟨?_, ?_⟩
  · rcases (elemMin_least k g hi (elemMax k g lo v)).1 with e | e
    · right; right; exact e
    · rcases (elemMax_greatest k g lo v).1 with e' | e' <;> rw [e, e'] <;> simp
  · have key : ∃ r, k.value (elemMin k g hi (elemMax k g lo v)) = some r ∧ r = Min.min b (Max.max a c) := by
      have hM : k.value (elemMax k g lo v) = some (Max.max a c) := by
        rcases lt_trichotomy a c with h1 | h1 | h1
        · cases g <;> simp [elemMax, scalarMax, vecMax, elem_spec, Op.rel, holds, ha, hc, Rel.ofNumbers, h1, h1.le, not_lt.2 h1.le]
        · subst h1; cases g <;> simp [elemMax, scalarMax, vecMax, elem_spec, Op.rel, holds, ha, hc, Rel.ofNumbers]
        · cases g <;> simp [elemMax, scalarMax, vecMax, elem_spec, Op.rel, holds, ha, hc, Rel.ofNumbers, h1, h1.le, not_lt.2 h1.le]
      generalize elemMax k g lo v = m at hM
      generalize Max.max a c = d at hM
      rcases lt_trichotomy b d with h1 | h1 | h1
      · cases g <;> simp [elemMin, scalarMin, vecMin, elem_spec, Op.rel, holds, hb, hM, Rel.ofNumbers, h1, h1.le, not_lt.2 h1.le]
      · subst h1; cases g <;> simp [elemMin, scalarMin, vecMin, elem_spec, Op.rel, holds, hb, hM, Rel.ofNumbers]
      · cases g <;> simp [elemMin, scalarMin, vecMin, elem_spec, Op.rel, holds, hb, hM, Rel.ofNumbers, h1, h1.le, not_lt.2 h1.le]
    obtain ⟨r, hr, e⟩ := key
    simp only [holds, hr, ha, hb, hc, Rel.ofNumbers, decide_eq_true_eq, e]
    refine ⟨?_, ?_, ?_, ?_, ?_⟩
    · exact le_min hab (le_max_left _ _)
    · exact min_le_left _ _
    · intro h1 h2; rw [max_eq_right h1, min_eq_right h2]
    · intro h1; rw [max_eq_left h1.le, min_eq_right hab]
    · intro h1; rw [max_eq_right (le_trans hab (le_of_lt h1)), min_eq_left (le_of_lt h1)]

/-! ## registers -/

theorem map2_get {α β γ : Type} (f : α → β → γ) (x : List α) (y : List β) :
    ∃ r, map2 (fun a b => some (f a b)) x y = some r ∧ r = List.zipWith f x y := by
  refine ⟨_, map2_total f x y, ?_⟩
  simp [List.zip, List.map_zipWith]

/-- The register that holds a lane. -/
def laneGeo (gs : List Geo) : List Geo := gs.flatMap (fun g => List.replicate g.size g)

theorem length_laneGeo (gs : List Geo) : (laneGeo gs).length = Tuple.total gs := by
  induction gs with
  | nil => rfl
  | cons g gs ih => rw [laneGeo, List.flatMap_cons, List.length_append, Tuple.total_cons]; simp [laneGeo] at ih; simp [ih]

theorem perChunk_spec {α : Type} (f : Geo → α → α → α) (gs : List Geo) (hne : gs ≠ []) (hok : Tuple.Oks gs) (x y : Tuple.Tup α)
    (hx : Tuple.Wf gs x) (hy : Tuple.Wf gs y) :
    ∃ r, Tuple.applyPerChunk2 (fun g a b => map2 (fun a b => some (f g a b)) a b) gs x y = some r ∧ Tuple.Wf gs r ∧
      ∀ (i : Nat) (g : Geo) (a b : α), (laneGeo gs)[i]? = some g → (Tuple.lanes gs x)[i]? = some a → (Tuple.lanes gs y)[i]? = some b →
        (Tuple.lanes gs r)[i]? = some (f g a b) := by
  induction gs generalizing x y with
  | nil => exact absurd rfl hne
  | cons g gs ih =>
    obtain ⟨x, xs, rfl, hxl, hxs⟩ := Tuple.wf_cons hx
    obtain ⟨y, ys, rfl, hyl, hys⟩ := Tuple.wf_cons hy
    obtain ⟨r, e1, rfl⟩ := map2_get (f g) x y
    have hle := (hok g (by simp)).size_le
    have hrl : (List.zipWith (f g) x y).length = g.full := by simp [hxl, hyl]
    have step : ∀ (rs : Tuple.Tup α), (∀ (i : Nat) (g : Geo) (a b : α), (laneGeo gs)[i]? = some g → (Tuple.lanes gs xs)[i]? = some a →
        (Tuple.lanes gs ys)[i]? = some b → (Tuple.lanes gs rs)[i]? = some (f g a b)) →
        ∀ (i : Nat) (g' : Geo) (a b : α), (laneGeo (g :: gs))[i]? = some g' → (Tuple.lanes (g :: gs) (x :: xs))[i]? = some a →
          (Tuple.lanes (g :: gs) (y :: ys))[i]? = some b →
          (Tuple.lanes (g :: gs) (List.zipWith (f g) x y :: rs))[i]? = some (f g' a b) := by
      intro rs hrs i g' a b h1 h2 h3
      rw [Tuple.lanes_cons] at h2 h3 ⊢
      rw [laneGeo, List.flatMap_cons] at h1
      by_cases hi : i < g.size
      · rw [List.getElem?_append_left (by simp; omega)] at h1 h2 h3 ⊢
        rw [List.getElem?_take_of_lt hi] at h2 h3 ⊢
        rw [List.getElem?_replicate, if_pos hi] at h1
        cases h1
        rw [List.getElem?_zipWith, h2, h3]
      · rw [List.getElem?_append_right (by simp; omega)] at h1 h2 h3 ⊢
        simp only [List.length_replicate, List.length_take, hxl, hyl, hrl, Nat.min_eq_left hle] at h1 h2 h3 ⊢
        exact hrs _ _ _ _ h1 h2 h3
    cases gs with
    | nil =>
      have hxs := Tuple.wf_nil hxs
      have hys := Tuple.wf_nil hys
      subst hxs hys
      refine ⟨[List.zipWith (f g) x y], ?_, ⟨hrl, trivial⟩, step [] (by simp [laneGeo])⟩
      simp only [Tuple.applyPerChunk2, e1]; rfl
    | cons g' gs =>
      obtain ⟨rs, e2, hw, hl⟩ := ih (by simp) (fun g h => hok g (by simp [h])) xs ys hxs hys
      refine ⟨List.zipWith (f g) x y :: rs, ?_, ⟨hrl, hw⟩, step rs hl⟩
      simp only [Tuple.applyPerChunk2, e1, e2]; rfl

theorem get_lanes {α : Type} {gs : List Geo} (hok : Tuple.Oks gs) {x : Tuple.Tup α} (hx : Tuple.Wf gs x) {i : Nat} (hi : i < Tuple.total gs) :
    ∃ a, (Tuple.lanes gs x)[i]? = some a := by
  have := Tuple.length_lanes hok hx
  exact ⟨_, List.getElem?_eq_getElem (by omega)⟩

end StdSimd.Compare
