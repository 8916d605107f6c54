import Verif.Model.Align
import Verif.Proofs.Storage
import Verif.Proofs.Reduce
/-! # Lemmas about alignment -/
namespace StdSimd.Align
open Abi

theorem pow_dvd_of_le {a b : Nat} (ha : ∃ k, a = 2 ^ k) (hb : ∃ k, b = 2 ^ k) (h : a ≤ b) : a ∣ b := by
  obtain ⟨j, rfl⟩ := ha
  obtain ⟨k, rfl⟩ := hb
  exact Nat.pow_dvd_pow 2 ((Nat.pow_le_pow_iff_right (by decide)).1 h)

theorem bitCeil_dvd {a b : Nat} (h : a ≤ b) : bitCeil a ∣ bitCeil b :=
  pow_dvd_of_le (Reduce.bitCeil_pow a) (Reduce.bitCeil_pow b) (Reduce.bitCeil_mono h)

theorem bitCeil_of_pow {a : Nat} (h : ∃ k, a = 2 ^ k) : bitCeil a = a := by
  obtain ⟨k, rfl⟩ := h; exact bitCeil_two_pow k

theorem bitCeil_least {n k : Nat} (h : n ≤ 2 ^ k) : bitCeil n ≤ 2 ^ k := by
  have := Reduce.bitCeil_mono h
  rwa [bitCeil_two_pow] at this

theorem alignUp_of_dvd {x a : Nat} (ha : 1 ≤ a) (h : a ∣ x) : alignUp x a = x := by
  obtain ⟨c, rfl⟩ := h
  unfold alignUp
  rw [show a * c + a - 1 = a * c + (a - 1) by omega, Nat.mul_add_div (by omega), Nat.div_eq_of_lt (by omega), Nat.add_zero, Nat.mul_comm]

theorem le_alignUp {x a : Nat} (ha : 1 ≤ a) : x ≤ alignUp x a := by
  unfold alignUp
  have := Nat.div_add_mod (x + a - 1) a
  have := Nat.mod_lt (x + a - 1) ha
  rw [Nat.mul_comm]; omega

theorem alignUp_dvd (x a : Nat) : a ∣ alignUp x a := ⟨_, Nat.mul_comm _ _⟩

theorem layout_spec (l : List (Nat × Nat)) (hp : ∀ p ∈ l, ∃ k, p.2 = 2 ^ k) (hd : ∀ p ∈ l, p.2 ∣ p.1) (hs : l.Pairwise (fun p q => q.2 ≤ p.2)) :
    (∀ p, l.head? = some p → (layout l).align = p.2) ∧ (layout l).offsets = (List.range l.length).map (fun k => ((l.take k).map Prod.fst).sum) ∧
      (l ≠ [] → (l.map Prod.fst).sum ≤ (layout l).size ∧ (layout l).align ∣ (layout l).size) := by
  induction l with
  | nil => simp [layout]
  | cons p l ih =>
    obtain ⟨b, a⟩ := p
    have hpos : 1 ≤ a := by obtain ⟨k, e⟩ := hp (b, a) (by simp); simp only at e; rw [e]; exact Nat.one_le_two_pow
    cases l with
    | nil =>
      refine ⟨by simp [layout], by simp [layout], fun _ => ?_⟩
      simp only [layout, List.map_cons, List.map_nil, List.sum_cons, List.sum_nil, Nat.add_zero]
      exact ⟨le_alignUp hpos, alignUp_dvd _ _⟩
    | cons q r =>
      rw [List.pairwise_cons] at hs
      obtain ⟨i1, i2, i3⟩ := ih (fun p h => hp p (by simp [List.mem_cons.1 h])) (fun p h => hd p (by simp [List.mem_cons.1 h])) hs.2
      have e : (layout (q :: r)).align = q.2 := i1 q rfl
      have hq : q.2 ≤ a := hs.1 q (by simp)
      have hqp := hp q (by simp)
      have hqpos : 1 ≤ q.2 := by obtain ⟨k, e⟩ := hqp; rw [e]; exact Nat.one_le_two_pow
      have hqd : q.2 ∣ b := Nat.dvd_trans (pow_dvd_of_le hqp (hp (b, a) (by simp)) hq) (hd (b, a) (by simp))
      have hl : layout ((b, a) :: q :: r) = ⟨alignUp (b + (layout (q :: r)).size) a, a, 0 :: (layout (q :: r)).offsets.map (b + ·)⟩ := by
        rw [layout]
        · simp only [e, alignUp_of_dvd hqpos hqd, Nat.max_eq_left hq]
        · simp
      refine ⟨?_, ?_, fun _ => ?_⟩
      · intro p h; simp only [List.head?_cons, Option.some.injEq] at h; subst h; rw [hl]
      · rw [hl, i2]
        simp only [List.length_cons, List.range_succ_eq_map, List.map_cons, List.map_map, List.take_zero, List.map_nil, List.sum_nil, List.cons.injEq, true_and]
        refine ⟨by simp, ?_⟩
        apply List.map_congr_left
        intro k _
        simp [List.take_succ_cons]
      · obtain ⟨j1, j2⟩ := i3 (by simp)
        rw [hl]
        refine ⟨?_, alignUp_dvd _ _⟩
        have := le_alignUp (x := b + (layout (q :: r)).size) hpos
        rw [List.map_cons, List.sum_cons]
        exact Nat.le_trans (by simp only; omega) this

/-! ## registers of a storage -/

theorem vec_elem {t : Target} {T : Elem} (hT : T.Ok) {b : Nat} (hv : valid t T (.builtin b) = true ∨ valid t T (.btmsk b) = true) :
    T.size ∈ [1, 2, 4, 8] ∧ 2 ≤ b / T.size := by
  have hs := elem_pos hT
  have h2 : 1 < b / T.size := by rcases hv with h | h; exacts [(valid_gt t T).2 b h, (valid_gt t T).1 b h]
  refine ⟨(vec_cases hT (t := t) ?_).1, h2⟩
  intro he
  rcases hv with h | h
  · rw [valid_builtin hs] at h
    have h3 : b ≤ T.size := by rw [← he]; exact h.2.2.1
    have := Nat.div_le_div_right (c := T.size) h3
    rw [Nat.div_self hs] at this; omega
  · rw [valid] at h
    simp only [Bool.and_eq_true, decide_eq_true_eq] at h; omega

theorem size_pow {s : Nat} (h : s ∈ [1, 2, 4, 8]) : ∃ k, s = 2 ^ k := by
  rcases four_values h with rfl | rfl | rfl | rfl
  exacts [⟨0, rfl⟩, ⟨1, rfl⟩, ⟨2, rfl⟩, ⟨3, rfl⟩]

theorem vecBytes_isPow (t : Target) {s : Nat} (h : s ∈ [1, 2, 4, 8]) (n : Nat) : ∃ k, vecBytes t s n = 2 ^ k := by
  unfold vecBytes
  simp only []
  split
  · exact ⟨4, rfl⟩
  · split
    · obtain ⟨k, e⟩ := size_pow h
      exact ⟨k + 1, by rw [e, Nat.pow_succ, Nat.mul_comm]⟩
    · exact Reduce.bitCeil_pow _

theorem vecBytes_mono (t : Target) {s m n : Nat} (h2 : 2 ≤ m) (h : m ≤ n) : vecBytes t s m ≤ vecBytes t s n := by
  have hm : bitCeil (m * s) ≤ bitCeil (n * s) := Reduce.bitCeil_mono (Nat.mul_le_mul_right _ h)
  have h1 := bitCeil_ge (m * s)
  have h3 : 2 * s ≤ m * s := Nat.mul_le_mul_right _ h2
  have e : ∀ x, 2 * s ≤ bitCeil x → (if bitCeil x < 2 * s then 2 * s else bitCeil x) = bitCeil x := fun x hx => if_neg (by omega)
  unfold vecBytes
  simp only []
  rw [e _ (by omega), e _ (by omega)]
  by_cases hm8 : bitCeil (m * s) = 8
  · by_cases hn8 : bitCeil (n * s) = 8
    · rw [hm8, hn8]
    · have : 16 ≤ bitCeil (n * s) := by
        obtain ⟨k, ek⟩ := Reduce.bitCeil_pow (n * s)
        rw [ek] at hm hn8 ⊢
        have : 3 < k := by
          by_contra hk
          have : 2 ^ k ≤ 2 ^ 3 := Nat.pow_le_pow_right (by decide) (by omega)
          omega
        calc 16 = 2 ^ 4 := rfl
          _ ≤ 2 ^ k := Nat.pow_le_pow_right (by decide) (by omega)
      rw [hm8]
      cases t.i386
      · simp; omega
      · rw [if_pos (by decide), if_neg (by simp [hn8])]; exact this
  · rw [if_neg (by simp [hm8])]
    split
    · rename_i h8; simp at h8; omega
    · exact hm

/-- A valid native ABI is `scalar` or a vector of at least two elements of a small type. -/
theorem native_cases {t : Target} {T : Elem} (hT : T.Ok) {a : Tag} (hv : valid t T a = true) (hn : ∀ m, a ≠ .fixed m) :
    a = .scalar ∨ (T.size ∈ [1, 2, 4, 8] ∧ 2 ≤ size T a ∧ (∀ al, regAlign t T al a = vecBytes t T.size (size T a)) ∧ regBytes t T a = vecBytes t T.size (size T a) ∧
      fullSize t T a = vecBytes t T.size (size T a) / T.size) := by
  cases a with
  | scalar => exact .inl rfl
  | fixed n => exact absurd rfl (hn n)
  | builtin b => obtain ⟨h1, h2⟩ := vec_elem hT (.inl hv); exact .inr ⟨h1, h2, fun _ => rfl, rfl, by simp [fullSize, hv]⟩
  | btmsk b => obtain ⟨h1, h2⟩ := vec_elem hT (.inr hv); exact .inr ⟨h1, h2, fun _ => rfl, rfl, by simp [fullSize, hv]⟩

theorem storage_cases {t : Target} (hc : t.Consistent) {T : Elem} (hT : T.Ok) (n : Nat) {a : Tag} (ha : a ∈ storage t T n) :
    a = .scalar ∨ (T.size ∈ [1, 2, 4, 8] ∧ 2 ≤ size T a ∧ (∀ al, regAlign t T al a = vecBytes t T.size (size T a)) ∧ regBytes t T a = vecBytes t T.size (size T a) ∧
      fullSize t T a = vecBytes t T.size (size T a) / T.size) :=
  native_cases hT (storage_valid hc hT n a ha) (Tuple.storage_native t T n a ha)

/-- A register without padding. -/
theorem full_bytes {t : Target} (hc : t.Consistent) {T : Elem} (hT : T.Ok) (n : Nat) {a : Tag} (ha : a ∈ (storage t T n).dropLast) :
    regBytes t T a = T.size * size T a ∧ ∃ k, size T a = 2 ^ k := by
  have hm := List.dropLast_subset _ ha
  have hp := storage_dropLast hc hT n a ha
  rcases storage_cases hc hT n hm with rfl | ⟨h1, h2, _, h4, h5⟩
  · exact ⟨by simp [regBytes, size], 0, rfl⟩
  · have hv := storage_valid hc hT n a hm
    have hpe : fullSize t T a = size T a := by
      cases a with
      | scalar => rfl
      | fixed n => rfl
      | builtin b => unfold isPartial at hp; simp only [hv, if_true] at hp; simpa using hp
      | btmsk b => unfold isPartial at hp; simp only [hv, if_true] at hp; simpa using hp
    rw [h4]
    rw [h5] at hpe
    have hsp := size_pow h1
    have hvp := vecBytes_isPow t h1 (size T a)
    have hs1 := elem_pos hT
    have hge := Tuple.vecBytes_ge t T.size (size T a)
    have h3 : 2 * T.size ≤ size T a * T.size := Nat.mul_le_mul_right _ h2
    have hd : T.size ∣ vecBytes t T.size (size T a) := pow_dvd_of_le hsp hvp (by omega)
    refine ⟨by rw [← Nat.mul_div_cancel' hd, hpe], ?_⟩
    obtain ⟨j, ej⟩ := hsp
    obtain ⟨k, ek⟩ := hvp
    refine ⟨k - j, ?_⟩
    rw [← hpe, ek, ej]
    have : j ≤ k := by
      rw [ek, ej] at hd
      exact (Nat.pow_dvd_pow_iff_le_right (by decide)).1 hd
    exact Nat.pow_div this (by decide)

theorem pairs_sorted {t : Target} (hc : t.Consistent) {T : Elem} (hT : T.Ok) (n : Nat) {al : Nat} (hal : al ∣ T.size) :
    ((storage t T n).map fun a => (regBytes t T a, regAlign t T al a)).Pairwise (fun p q => q.2 ≤ p.2) := by
  rw [List.pairwise_map]
  have h := storage_sorted hc hT n
  rw [List.pairwise_map] at h
  refine h.imp_of_mem ?_
  intro a b ha hb hab
  simp only
  have hs1 := elem_pos hT
  have hle := Nat.le_of_dvd hs1 hal
  rcases storage_cases hc hT n ha with rfl | ⟨h1, h2, h3, _⟩
  · rcases storage_cases hc hT n hb with rfl | ⟨_, k2, _⟩
    · exact Nat.le_refl _
    · simp only [size] at hab k2; omega
  · rw [h3]
    rcases storage_cases hc hT n hb with rfl | ⟨_, k2, k3, _⟩
    · simp only [regAlign]
      have := Tuple.vecBytes_ge t T.size (size T a)
      have h3 : 2 * T.size ≤ size T a * T.size := Nat.mul_le_mul_right _ h2
      omega
    · rw [k3]; exact vecBytes_mono t k2 hab

/-- Sums of register sizes in bytes. -/
theorem bytes_before {t : Target} (hc : t.Consistent) {T : Elem} (hT : T.Ok) (n : Nat) (k : Nat) (hk : k < (storage t T n).length) :
    (((storage t T n).take k).map (regBytes t T)).sum = T.size * (((storage t T n).take k).map (size T)).sum := by
  have : ∀ l : List Tag, (∀ a ∈ l, regBytes t T a = T.size * size T a) → (l.map (regBytes t T)).sum = T.size * (l.map (size T)).sum := by
    intro l
    induction l with
    | nil => simp
    | cons a l ih => intro h; simp only [List.map_cons, List.sum_cons]; rw [h a (by simp), ih (fun x hx => h x (by simp [hx])), Nat.mul_add]
  apply this
  intro a ha
  refine (full_bytes hc hT n ?_).1
  rw [List.dropLast_eq_take]
  exact List.take_subset_take_left _ (by omega) ha

theorem storageLayout_spec {t : Target} (hc : t.Consistent) {T : Elem} (hT : T.Ok) {n : Nat} (h1 : 1 ≤ n) {al : Nat} (hp : ∃ k, al = 2 ^ k) (hal : al ∣ T.size) :
    (storageLayout t T al n).align = regAlign t T al (bestAbi t T n) ∧
    (storageLayout t T al n).offsets = (List.range (storage t T n).length).map (fun k => T.size * (((storage t T n).take k).map (size T)).sum) ∧
    T.size * n ≤ (storageLayout t T al n).size ∧ (storageLayout t T al n).align ∣ (storageLayout t T al n).size := by
  obtain ⟨l1, l2, l3⟩ := layout_spec ((storage t T n).map fun a => (regBytes t T a, regAlign t T al a))
    (by
      intro p hpm
      obtain ⟨a, ha, rfl⟩ := List.mem_map.1 hpm
      rcases storage_cases hc hT n ha with rfl | ⟨k1, _, k3, _⟩
      · exact hp
      · simp only [k3]; exact vecBytes_isPow t k1 _)
    (by
      intro p hpm
      obtain ⟨a, ha, rfl⟩ := List.mem_map.1 hpm
      rcases storage_cases hc hT n ha with rfl | ⟨k1, _, k3, k4, _⟩
      · exact hal
      · simp only [k3, k4]; exact Nat.dvd_refl _)
    (pairs_sorted hc hT n hal)
  have hpos := storage_pos (t := t) (T := T) (n := n) (by omega)
  have hne : (storage t T n).map (fun a => (regBytes t T a, regAlign t T al a)) ≠ [] := by rw [hpos]; simp
  refine ⟨?_, ?_, ?_, (l3 hne).2⟩
  · refine l1 (regBytes t T (bestAbi t T n), regAlign t T al (bestAbi t T n)) ?_
    rw [hpos]; rfl
  · unfold storageLayout
    rw [l2, List.length_map]
    apply List.map_congr_left
    intro k hk
    rw [← List.map_take, List.map_map, ← bytes_before hc hT n k (List.mem_range.1 hk)]
    rfl
  · refine Nat.le_trans ?_ (l3 hne).1
    rw [List.map_map]
    have : ∀ l : List Tag, (∀ a ∈ l, a ∈ storage t T n) → T.size * (l.map (size T)).sum ≤ (l.map (regBytes t T)).sum := by
      intro l
      induction l with
      | nil => simp
      | cons a l ih =>
        intro h
        simp only [List.map_cons, List.sum_cons, Nat.mul_add]
        have i := ih (fun x hx => h x (by simp [hx]))
        have : T.size * size T a ≤ regBytes t T a := by
          rcases storage_cases hc hT n (h a (by simp)) with rfl | ⟨_, _, _, k4, _⟩
          · simp [regBytes, size]
          · rw [k4, Nat.mul_comm]; exact Tuple.vecBytes_ge t T.size _
        omega
    have h2 := this (storage t T n) (fun _ h => h)
    rw [storage_sum] at h2
    exact h2

/-! ## chunks -/

theorem go_spec (T : Elem) {u m : Nat} (hu : u = 2 ^ m) (l : List Tag) (hp : ∀ a ∈ l.dropLast, ∃ k, size T a = 2 ^ k) (hs : (l.map (size T)).Pairwise (· ≥ ·)) (p : Nat)
    (h0 : ∀ a, l.head? = some a → bitCeil (u * size T a) ∣ p) :
    ∀ (k : Nat) (a : Tag), l[k]? = some a → (chunkAddrs.go T u p l)[k]? = some (p + u * ((l.take k).map (size T)).sum) ∧
      bitCeil (u * size T a) ∣ p + u * ((l.take k).map (size T)).sum := by
  induction l generalizing p with
  | nil => intro k a h; simp at h
  | cons x r ih =>
    intro k a h
    rw [chunkAddrs.go]
    cases k with
    | zero =>
      simp only [List.getElem?_cons_zero, Option.some.injEq] at h
      subst h
      exact ⟨by simp, by simpa using h0 x rfl⟩
    | succ k =>
      simp only [List.getElem?_cons_succ] at h
      rw [List.map_cons, List.pairwise_cons] at hs
      cases r with
      | nil => simp at h
      | cons y r =>
        obtain ⟨e, he⟩ := hp x (by simp [List.dropLast])
        have hux : bitCeil (u * size T x) = u * size T x := bitCeil_of_pow ⟨m + e, by rw [hu, he, Nat.pow_add]⟩
        have hyx : size T y ≤ size T x := hs.1 _ (by simp)
        have i := ih (fun a ha => hp a (by simp [List.dropLast]; exact .inr (by simpa [List.dropLast] using ha))) hs.2 (p + u * size T x) (by
          intro a ha
          simp only [List.head?_cons, Option.some.injEq] at ha
          subst ha
          have d : bitCeil (u * size T y) ∣ u * size T x := by rw [← hux]; exact bitCeil_dvd (Nat.mul_le_mul_left _ hyx)
          refine Nat.dvd_add (Nat.dvd_trans d ?_) d
          rw [← hux]; exact h0 x rfl) k a h
        rw [List.getElem?_cons_succ, List.take_succ_cons, List.map_cons, List.sum_cons, Nat.mul_add, ← Nat.add_assoc]
        exact i

end StdSimd.Align
