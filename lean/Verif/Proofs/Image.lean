import Verif.Model.Image
import Verif.Proofs.Align
import Verif.Proofs.Storage
/-! The elements of a `fixed_size` object lie one after the other. -/
namespace StdSimd.Image
open Abi Align Tuple Native

variable {α : Type}

theorem padTo_length {n : Nat} {b : Bytes} (h : b.length ≤ n) : (padTo n b).length = n := by
  unfold padTo; rw [List.length_append, List.length_replicate]; omega

theorem padTo_self {n : Nat} {b : Bytes} (h : b.length = n) : padTo n b = b := by
  unfold padTo; rw [h]; simp

theorem padTo_take {n k : Nat} {b : Bytes} (h : k ≤ b.length) : (padTo n b).take k = b.take k := by
  unfold padTo; rw [List.take_append, show k - b.length = 0 by omega]; simp

theorem tupleImage_spec (l : List (Nat × Nat)) (rs : List Bytes) (hp : ∀ p ∈ l, ∃ k, p.2 = 2 ^ k) (hd : ∀ p ∈ l, p.2 ∣ p.1)
    (hs : l.Pairwise (fun p q => q.2 ≤ p.2)) (hl : rs.map List.length = l.map Prod.fst) (hne : l ≠ []) :
    (tupleImage l rs).length = (layout l).size ∧ (tupleImage l rs).take (l.map Prod.fst).sum = rs.flatten := by
  induction l generalizing rs with
  | nil => exact absurd rfl hne
  | cons p l ih =>
    obtain ⟨b, a⟩ := p
    have hpos : 1 ≤ a := by obtain ⟨k, e⟩ := hp (b, a) (by simp); simp only at e; rw [e]; exact Nat.one_le_two_pow
    cases rs with
    | nil => simp at hl
    | cons r rs =>
      rw [List.map_cons, List.map_cons] at hl
      obtain ⟨hr, hl⟩ := List.cons.inj hl
      simp only at hr
      cases l with
      | nil =>
        have hrs : rs = [] := by simpa using hl
        subst hrs
        have := le_alignUp (x := b) hpos
        refine ⟨?_, ?_⟩
        · simp only [tupleImage, layout]; exact padTo_length (by omega)
        · simp only [tupleImage, List.map_cons, List.map_nil, List.sum_cons, List.sum_nil, Nat.add_zero, List.flatten_cons, List.flatten_nil,
            List.append_nil]
          rw [padTo_take (by omega), List.take_of_length_le (by omega)]
      | cons q l =>
        obtain ⟨s1, s2, s3⟩ := layout_spec ((b, a) :: q :: l) hp hd hs
        rw [List.pairwise_cons] at hs
        obtain ⟨i1, i2⟩ := ih rs (fun p h => hp p (by simp [List.mem_cons.1 h])) (fun p h => hd p (by simp [List.mem_cons.1 h])) hs.2 hl (by simp)
        -- `second` follows `first` immediately
        have ho : alignUp b (layout (q :: l)).align = b := by
          have : (layout ((b, a) :: q :: l)).offsets = 0 :: (layout (q :: l)).offsets.map (alignUp b (layout (q :: l)).align + ·) := by
            rw [layout]; simp
          rw [this] at s2
          have hz : ((layout (q :: l)).offsets).head? = some 0 := by
            cases l with
            | nil => rw [layout]; rfl
            | cons q' l => rw [layout]; rfl; simp
          have h1 := congrArg (fun l : List Nat => l[1]?) s2
          obtain ⟨o, os⟩ : ∃ os, (layout (q :: l)).offsets = 0 :: os := by
            cases hh : (layout (q :: l)).offsets with
            | nil => rw [hh] at hz; simp at hz
            | cons z zs => rw [hh] at hz; simp at hz; subst hz; exact ⟨zs, rfl⟩
          rw [os] at h1
          simpa using h1
        have himg : tupleImage ((b, a) :: q :: l) (r :: rs) =
            padTo (layout ((b, a) :: q :: l)).size (r ++ tupleImage (q :: l) rs) := by
          have e : tupleImage ((b, a) :: q :: l) (r :: rs) = padTo (layout ((b, a) :: q :: l)).size
              (padTo (alignUp b (layout (q :: l)).align) r ++ tupleImage (q :: l) rs) := by
            cases rs with
            | nil => simp at hl
            | cons => rfl
          rw [e, ho, padTo_self hr]
        have hsz : (layout ((b, a) :: q :: l)).size = alignUp (b + (layout (q :: l)).size) (max a (layout (q :: l)).align) := by
          rw [layout]; simp only [ho]; simp
        have hle : b + (layout (q :: l)).size ≤ (layout ((b, a) :: q :: l)).size := by
          rw [hsz]; exact le_alignUp (Nat.le_trans hpos (Nat.le_max_left _ _))
        have hsum : ((q :: l).map Prod.fst).sum ≤ (layout (q :: l)).size := by
          have := (layout_spec (q :: l) (fun p h => hp p (by simp [List.mem_cons.1 h])) (fun p h => hd p (by simp [List.mem_cons.1 h])) hs.2).2.2
            (by simp)
          exact this.1
        rw [himg]
        refine ⟨padTo_length (by rw [List.length_append, hr, i1]; exact hle), ?_⟩
        rw [List.map_cons, List.sum_cons, padTo_take (by rw [List.length_append, hr, i1]; simp only; omega), List.flatten_cons, ← i2]
        rw [show b + ((q :: l).map Prod.fst).sum = r.length + ((q :: l).map Prod.fst).sum by rw [hr], List.take_length_add_append]

/-- The members of the storage, as sizes and alignments. -/
theorem pairs_facts {t : Target} (hc : t.Consistent) {T : Elem} (hT : T.Ok) (n : Nat) {al : Nat} (hp : ∃ k, al = 2 ^ k) (hal : al ∣ T.size) :
    let l := (storage t T n).map fun a => (regBytes t T a, regAlign t T al a)
    (∀ p ∈ l, ∃ k, p.2 = 2 ^ k) ∧ (∀ p ∈ l, p.2 ∣ p.1) ∧ l.Pairwise (fun p q => q.2 ≤ p.2) := by
  refine ⟨?_, ?_, pairs_sorted hc hT n hal⟩
  · intro p hpm
    obtain ⟨a, ha, rfl⟩ := List.mem_map.1 hpm
    rcases storage_cases hc hT n ha with rfl | ⟨k1, _, k3, _⟩
    · exact hp
    · simp only [k3]; exact vecBytes_isPow t k1 _
  · intro p hpm
    obtain ⟨a, ha, rfl⟩ := List.mem_map.1 hpm
    rcases storage_cases hc hT n ha with rfl | ⟨k1, _, k3, k4, _⟩
    · exact hal
    · simp only [k3, k4]; exact Nat.dvd_refl _

theorem flatMap_length {s : Nat} (R : Rep α s) (xs : List α) : (xs.flatMap R.enc).length = s * xs.length := by
  induction xs with
  | nil => simp
  | cons a xs ih => rw [List.flatMap_cons, List.length_append, R.len, ih, List.length_cons, Nat.mul_succ, Nat.add_comm]

theorem flatMap_take {s : Nat} (R : Rep α s) (xs : List α) (n : Nat) : (xs.flatMap R.enc).take (s * n) = (xs.take n).flatMap R.enc := by
  induction xs generalizing n with
  | nil => simp
  | cons a xs ih =>
    cases n with
    | zero => simp
    | succ n =>
      rw [List.take_succ_cons, List.flatMap_cons, List.flatMap_cons, ← ih, show s * (n + 1) = (R.enc a).length + s * n by rw [R.len, Nat.mul_succ, Nat.add_comm],
        List.take_length_add_append]

theorem flatMap_drop {s : Nat} (R : Rep α s) (xs : List α) (n : Nat) : (xs.flatMap R.enc).drop (s * n) = (xs.drop n).flatMap R.enc := by
  induction xs generalizing n with
  | nil => simp
  | cons a xs ih =>
    cases n with
    | zero => simp
    | succ n =>
      rw [List.drop_succ_cons, List.flatMap_cons, ← ih, show s * (n + 1) = (R.enc a).length + s * n by rw [R.len, Nat.mul_succ, Nat.add_comm],
        List.drop_length_add_append]

theorem regs_lengths {t : Target} (hc : t.Consistent) {T : Elem} (hT : T.Ok) (n : Nat) (R : Rep α T.size) {x : Tup α} (hx : Wf (regs t T n) x)
    (al : Nat) :
    ((x.map fun r => (r.flatMap R.enc).map some) : List Bytes).map List.length =
      ((storage t T n).map fun a => (regBytes t T a, regAlign t T al a)).map Prod.fst := by
  have hb : ∀ a ∈ storage t T n, regBytes t T a = T.size * (Geo.ofTag t T a).full := by
    intro a ha
    have hf := (ofTag_ok hT (storage_valid hc hT n a ha) (storage_native t T n a ha)).2.2
    rcases storage_cases hc hT n ha with rfl | ⟨k1, k2, _, k4, k5⟩
    · simp [regBytes, Geo.ofTag]
    · rw [hf, k4, k5]
      refine (Nat.mul_div_cancel' (pow_dvd_of_le (size_pow k1) (vecBytes_isPow t k1 _) ?_)).symm
      have := Tuple.vecBytes_ge t T.size (size T a)
      have : 1 * T.size ≤ size T a * T.size := Nat.mul_le_mul_right _ (by omega)
      omega
  unfold regs at hx
  rw [List.map_map, List.map_map]
  generalize storage t T n = l at hx hb ⊢
  induction l generalizing x with
  | nil => rw [wf_nil hx]; rfl
  | cons a l ih =>
    rw [List.map_cons] at hx
    obtain ⟨r, rs, rfl, h1, h2⟩ := wf_cons hx
    rw [List.map_cons, List.map_cons, ih h2 (fun a ha => hb a (List.mem_cons_of_mem _ ha))]
    congr 1
    simp only [Function.comp]
    rw [List.length_map, flatMap_length, h1, hb a (by simp)]

theorem image_spec {t : Target} (hc : t.Consistent) {T : Elem} (hT : T.Ok) {n : Nat} (h1 : 1 ≤ n) {al : Nat} (hp : ∃ k, al = 2 ^ k) (hal : al ∣ T.size)
    (R : Rep α T.size) {x : Tup α} (hx : Wf (regs t T n) x) :
    (image t T al n R x).length = (storageLayout t T al n).size ∧
    (image t T al n R x).take (T.size * n) = ((lanes (regs t T n) x).flatMap R.enc).map some := by
  obtain ⟨p1, p2, p3⟩ := pairs_facts hc hT n hp hal
  have hne : ((storage t T n).map fun a => (regBytes t T a, regAlign t T al a)) ≠ [] := by rw [storage_pos (by omega)]; simp
  have hlen := regs_lengths hc hT n R hx al
  obtain ⟨i1, i2⟩ := tupleImage_spec _ (x.map fun r => (r.flatMap R.enc).map some) p1 p2 p3 hlen hne
  refine ⟨i1, ?_⟩
  obtain ⟨_, hok, htot, hf⟩ := regs_facts hc hT h1
  have hfl : ((x.map fun r => (r.flatMap R.enc).map some) : List Bytes).flatten = (x.flatten.flatMap R.enc).map some := by
    clear hlen i1 i2 hx
    induction x with
    | nil => rfl
    | cons r rs ih => simp only [List.map_cons, List.flatten_cons, List.flatMap_append, List.map_append, ih]
  have hle : T.size * n ≤ ((((storage t T n).map fun a => (regBytes t T a, regAlign t T al a))).map Prod.fst).sum := by
    have h : n ≤ x.flatten.length := by
      have := length_lanes hok hx
      rw [lanes_prefix hok hf hx, List.length_take, htot] at this
      omega
    have h2 := congrArg List.length hfl
    rw [List.length_flatten, hlen, List.length_map, flatMap_length] at h2
    rw [h2]; exact Nat.mul_le_mul_left _ h
  have : (image t T al n R x).take (T.size * n) =
      ((image t T al n R x).take ((((storage t T n).map fun a => (regBytes t T a, regAlign t T al a))).map Prod.fst).sum).take (T.size * n) := by
    rw [List.take_take, Nat.min_eq_left hle]
  rw [this]
  show ((tupleImage _ _).take _).take _ = _
  rw [i2, hfl, ← List.map_take, flatMap_take, lanes_prefix hok hf hx, htot]

theorem mapM_some (bs : List (BitVec 8)) : (bs.map some).mapM id = some bs := by
  induction bs with
  | nil => rfl
  | cons b bs ih => rw [List.map_cons, List.mapM_cons, ih]; rfl

theorem slice {s : Nat} (R : Rep α s) (xs : List α) {i : Nat} (hi : i < xs.length) : ((xs.flatMap R.enc).drop (s * i)).take s = R.enc xs[i] := by
  rw [flatMap_drop, List.drop_eq_getElem_cons hi, List.flatMap_cons, List.take_append, R.len]
  simp [List.take_of_length_le, R.len]

theorem toArray_spec {s : Nat} (R : Rep α s) {im : Bytes} {xs : List α} (hl : s * xs.length ≤ im.length)
    (h : im.take (s * xs.length) = (xs.flatMap R.enc).map some) : toArray R xs.length im = some xs := by
  unfold toArray
  rw [if_pos hl, h, mapM_some]
  simp only [Option.bind_eq_bind, Option.bind_some, Option.pure_def, Option.some.injEq]
  apply List.ext_getElem (by simp)
  intro i h1 h2
  simp only [List.getElem_map, List.getElem_range]
  rw [slice R xs h2, R.inv]

theorem readElem_spec {s : Nat} (R : Rep α s) {im : Bytes} {xs : List α} (h : im.take (s * xs.length) = (xs.flatMap R.enc).map some) {i : Nat}
    (hi : i < xs.length) : readElem R im (s * i) = some xs[i] := by
  unfold readElem
  have hle : s * i + s ≤ s * xs.length := by
    rw [← Nat.mul_succ]; exact Nat.mul_le_mul_left _ hi
  have : (im.drop (s * i)).take s = ((im.take (s * xs.length)).drop (s * i)).take s := by
    rw [List.drop_take, List.take_take, Nat.min_eq_left (by omega)]
  rw [this, h, ← List.map_drop, ← List.map_take, slice R xs hi, mapM_some]
  simp [R.len, R.inv]

theorem positions (s : Nat) (sz : Tag → Nat) (l : List Tag) (c : Nat) :
    (((List.range l.length).map (fun k => s * (c + ((l.take k).map sz).sum))).zip l).flatMap
        (fun (p : Nat × Tag) => (List.range (sz p.2)).map (fun j => p.1 + s * j)) =
      (List.range' c (l.map sz).sum).map (s * ·) := by
  induction l generalizing c with
  | nil => simp
  | cons a l ih =>
    have e : (List.range (a :: l).length).map (fun k => s * (c + (((a :: l).take k).map sz).sum)) =
        s * c :: (List.range l.length).map (fun k => s * ((c + sz a) + ((l.take k).map sz).sum)) := by
      rw [List.length_cons, List.range_succ_eq_map, List.map_cons, List.map_map]
      simp only [List.take_zero, List.map_nil, List.sum_nil, Nat.add_zero]
      congr 1
      apply List.map_congr_left
      intro k _
      simp [List.take_succ_cons, Nat.add_assoc]
    rw [e, List.zip_cons_cons, List.flatMap_cons, ih, List.map_cons, List.sum_cons, ← List.range'_append_1, List.map_append]
    congr 1
    rw [List.range'_eq_map_range, List.map_map]
    apply List.map_congr_left
    intro j _
    simp [Nat.mul_add]

theorem readLanes_spec {t : Target} (hc : t.Consistent) {T : Elem} (hT : T.Ok) {n : Nat} (h1 : 1 ≤ n) {al : Nat} (hp : ∃ k, al = 2 ^ k)
    (hal : al ∣ T.size) (R : Rep α T.size) {im : Bytes} {xs : List α} (hn : xs.length = n)
    (h : im.take (T.size * n) = (xs.flatMap R.enc).map some) : readLanes t T al n R im = some xs := by
  unfold readLanes
  have hpos := positions T.size (size T) (storage t T n) 0
  rw [storage_sum] at hpos
  simp only [Nat.zero_add] at hpos
  rw [(storageLayout_spec hc hT h1 hp hal).2.1, hpos]
  subst hn
  have key : ∀ k c, c + k = xs.length → ((List.range' c k).map (T.size * ·)).mapM (readElem R im) = some (xs.drop c) := by
    intro k
    induction k with
    | zero => intro c hck; simp [List.drop_of_length_le (show xs.length ≤ c by omega)]
    | succ k ih =>
      intro c hck
      rw [List.range'_succ, List.map_cons, List.mapM_cons, readElem_spec R h (i := c) (by omega), ih (c + 1) (by omega),
        List.drop_eq_getElem_cons (i := c) (by omega)]
      rfl
  have := key xs.length 0 (by omega)
  simpa using this

end StdSimd.Image
