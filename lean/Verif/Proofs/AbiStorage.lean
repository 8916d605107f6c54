import Verif.Proofs.Abi
namespace StdSimd.Abi

theorem bitCeil_eq8 {b : Nat} (h : bitCeil b = 8) : 5 ≤ b ∧ b ≤ 8 := by
  constructor
  · rcases Nat.lt_or_ge b 5 with h' | h'
    · have : ∀ k < 5, bitCeil k ≠ 8 := by decide
      exact absurd h (this b h')
    · exact h'
  · have := bitCeil_ge b; omega

theorem vecBytes_four {t : Target} {s : Nat} (hs : s = 1 ∨ s = 2) : vecBytes t s (4 / s) / s = 4 / s := by
  rcases hs with rfl | rfl <;> (unfold vecBytes; cases t.i386 <;> decide)

/-- The i386 exception: 5..8 bytes of 1- or 2-byte elements are stored beginning with a 4-byte register, two
4-byte elements in a half-filled 16-byte register. -/
theorem bestAbi_exc {t : Target} {T : Elem} (hT : T.Ok) (hv : vecSizeof t T ≠ T.size)
    {n : Nat} (h2 : 2 ≤ n) (hx : Exc t T n) :
    ((T.size = 1 ∨ T.size = 2) ∧ (bestAbi t T n = .btmsk 4 ∨ bestAbi t T n = .builtin 4) ∧
      valid t T (bestAbi t T n) = true ∧ isPartial t T (bestAbi t T n) = false) ∨
    (T.size = 4 ∧ n = 2 ∧ (bestAbi t T n = .btmsk 8 ∨ bestAbi t T n = .builtin 8) ∧
      valid t T (bestAbi t T n) = true) := by
  obtain ⟨hs, hvs⟩ := vec_cases hT hv
  obtain ⟨hs1, hs8, hdiv, hmod, hlt, hs2, hle, hpow, hmul⟩ := div_facts hs hvs
  obtain ⟨hi, hce⟩ := hx
  obtain ⟨hlo, hhi⟩ := bitCeil_eq8 hce
  rw [Nat.mul_comm] at hce hlo hhi
  have hvs16 : 16 ≤ vecSizeof t T := by
    simp only [List.mem_cons, List.not_mem_nil, or_false] at hvs; omega
  have hdn : T.size * n / T.size = n := Nat.mul_div_cancel_left _ hs1
  have hmn : T.size * n % T.size = 0 := Nat.mul_mod_right _ _
  -- the storage overhead rule rejects the 16-byte register
  have hfull : ∀ a, (a = Tag.btmsk (T.size * n) ∨ a = .builtin (T.size * n)) → valid t T a = true →
      ¬ fullSize t T a / 2 < n := by
    intro a ha hva
    have hsz : size T a = n := by rcases ha with rfl | rfl <;> exact hdn
    have : fullSize t T a = vecBytes t T.size n / T.size := by
      rcases ha with rfl | rfl <;> simp only [fullSize, hva, if_true, hsz]
    rw [this]; unfold vecBytes
    simp only [hi, Nat.mul_comm n, hce, Bool.true_and, BEq.rfl, if_true]
    rw [Nat.div_div_eq_div_mul, Nat.mul_comm T.size 2, ← Nat.div_div_eq_div_mul, Nat.not_lt,
      Nat.le_div_iff_mul_le hs1, Nat.mul_comm]
    exact hhi
  have hrej : ∀ a, (a = Tag.btmsk (T.size * n) ∨ a = .builtin (T.size * n)) →
      valid t T a = false ∨ ¬ fullSize t T a / 2 < n := by
    intro a ha
    cases h : valid t T a
    · exact .inl rfl
    · exact .inr (hfull a ha h)
  have hnb : (¬ (Usable t T ∧ t.avx512vl = true)) → ∀ b ≤ T.size * n, valid t T (.btmsk b) = false := by
    intro hu b hb
    rw [← Bool.not_eq_true, valid_btmsk hs1]
    rintro ⟨h1, _, _, _, _, h⟩
    exact hu ⟨h1, h.resolve_left (by omega)⟩
  have hs' : (T.size = 1 ∨ T.size = 2) ∨ (T.size = 4 ∧ n = 2) := by
    rcases four_values hs with h | h | h | h
    · exact .inl (.inl h)
    · exact .inl (.inr h)
    · right; rw [h] at hhi hlo; omega
    · rw [h] at hhi; omega
  rcases hs' with hs' | ⟨hs4, hn2⟩
  · left
    refine ⟨hs', ?_⟩
    have h4 : 1 < 4 / T.size ∧ 4 % T.size = 0 ∧ 4 / T.size ≤ n := by
      rcases hs' with h | h <;> rw [h] at hlo ⊢ <;> omega
    have hp4 : isPartial t T (.btmsk 4) = false ∧ isPartial t T (.builtin 4) = false := by
      have := vecBytes_four (t := t) hs'
      constructor <;> (unfold isPartial fullSize; simp only [size, this]; split <;> simp)
    have hfn : ∀ mk : Nat → Tag, isPartial t T (mk 4) = false → valid t T (mk 4) = true →
        findNext t T mk (T.size * n) = mk 4 := by
      intro mk hp hva
      rw [findNext, hce]
      rw [dif_neg (by omega), if_pos (by simp [hp, hva])]
    by_cases hu : Usable t T ∧ t.avx512vl = true
    · have hva : valid t T (.btmsk 4) = true := by
        rw [valid_btmsk hs1]; exact ⟨hu.1, hlt, h4.1, h4.2.1, by omega, .inr hu.2⟩
      have : bestAbi t T n = .btmsk 4 := by
        unfold bestAbi
        exact bestWith_next (by omega) (hrej _ (.inl rfl)) (hfn _ hp4.1 hva) hva h4.2.2
      rw [this]; exact ⟨.inl rfl, hva, hp4.1⟩
    · have hva : valid t T (.builtin 4) = true := by
        rw [valid_builtin hs1]; exact ⟨h4.1, h4.2.1, by omega, fun _ => by omega⟩
      have : bestAbi t T n = .builtin 4 := by
        unfold bestAbi
        rw [bestWith_rest (by omega) (hnb hu)]
        exact bestWith_next (by omega) (hrej _ (.inr rfl)) (hfn _ hp4.2 hva) hva h4.2.2
      rw [this]; exact ⟨.inr rfl, hva, hp4.2⟩
  · right
    refine ⟨hs4, hn2, ?_⟩
    have hfn : ∀ mk : Nat → Tag, findNext t T mk (T.size * n) = mk (T.size * n) := by
      intro mk
      rw [findNext, hce, dif_pos (by omega)]
    have h8 : T.size * n = 8 := by rw [hs4, hn2]
    by_cases hu : Usable t T ∧ t.avx512vl = true
    · have hva : valid t T (.btmsk (T.size * n)) = true := by
        rw [valid_btmsk hs1]; exact ⟨hu.1, hlt, by omega, hmn, by omega, .inr hu.2⟩
      have : bestAbi t T n = .btmsk (T.size * n) := by
        unfold bestAbi
        exact bestWith_next (by omega) (hrej _ (.inl rfl)) (hfn _) hva (by simp only [size]; omega)
      rw [this]; exact ⟨.inl (by rw [h8]), hva⟩
    · have hva : valid t T (.builtin (T.size * n)) = true := by
        rw [valid_builtin hs1]; exact ⟨by omega, hmn, by omega, fun _ => by omega⟩
      have : bestAbi t T n = .builtin (T.size * n) := by
        unfold bestAbi
        rw [bestWith_rest (by omega) (hnb hu)]
        exact bestWith_next (by omega) (hrej _ (.inr rfl)) (hfn _) hva (by simp only [size]; omega)
      rw [this]; exact ⟨.inr (by rw [h8]), hva⟩

theorem elem_pos {T : Elem} (hT : T.Ok) : 1 ≤ T.size := by
  unfold Elem.Ok at hT
  simp only [List.mem_cons, List.not_mem_nil, or_false] at hT; omega

theorem bestAbi_one {t : Target} {T : Elem} : bestAbi t T 1 = .scalar := by
  unfold bestAbi bestWith; simp

/-- All that the storage theorems need to know about one step. -/
theorem head_facts {t : Target} (hc : t.Consistent) {T : Elem} (hT : T.Ok) {n : Nat} (h1 : 1 ≤ n) :
    valid t T (bestAbi t T n) = true ∧ size T (bestAbi t T n) ≤ vecSizeof t T / T.size ∧
    (t.i386 = false → size T (bestAbi t T n) = min n (vecSizeof t T / T.size)) ∧
    (size T (bestAbi t T n) = n ∨ (isPartial t T (bestAbi t T n) = false ∧
      min (n - size T (bestAbi t T n)) (vecSizeof t T / T.size) ≤ size T (bestAbi t T n))) := by
  have hs1 := elem_pos hT
  by_cases hv : vecSizeof t T = T.size
  · rw [bestAbi_scalar hs1 hv, hv, Nat.div_self hs1]
    simp only [valid, size, isPartial]
    refine ⟨trivial, Nat.le_refl _, fun _ => by omega, .inr ⟨trivial, by omega⟩⟩
  · obtain ⟨hs, hvs⟩ := vec_cases hT hv
    obtain ⟨_, hs8, hdiv, hmod, hlt, hs2, hle, hpow, hmul⟩ := div_facts hs hvs
    by_cases hn1 : n = 1
    · subst hn1
      rw [bestAbi_one]; simp only [valid, size]
      exact ⟨trivial, by omega, fun _ => by omega, .inl trivial⟩
    · by_cases hn : vecSizeof t T / T.size < n
      · have hnp := native_not_partial hT hv
        rcases bestAbi_large hc hT hv hn with ⟨e, hva⟩ | ⟨e, hva⟩ <;> rw [e] <;> simp only [size]
        · exact ⟨hva, Nat.le_refl _, fun _ => by omega, .inr ⟨hnp.1, by omega⟩⟩
        · exact ⟨hva, Nat.le_refl _, fun _ => by omega, .inr ⟨hnp.2, by omega⟩⟩
      · by_cases hx : Exc t T n
        · have hi : t.i386 = true := hx.1
          obtain ⟨hlo, hhi⟩ := bitCeil_eq8 hx.2
          have hvs16 : 16 ≤ vecSizeof t T := by
            simp only [List.mem_cons, List.not_mem_nil, or_false] at hvs; omega
          rcases bestAbi_exc hT hv (by omega) hx with ⟨hss, e, hva, hp⟩ | ⟨hs4, hn2, e, hva⟩
          · have hsz : size T (bestAbi t T n) = 4 / T.size := by rcases e with e | e <;> rw [e] <;> rfl
            rw [hsz]
            refine ⟨hva, ?_, fun h => by simp [hi] at h, .inr ⟨hp, ?_⟩⟩
            · exact Nat.div_le_div_right (by omega)
            · rcases hss with h | h <;> rw [h] at hhi ⊢ <;> omega
          · have hsz : size T (bestAbi t T n) = 2 := by
              rcases e with e | e <;> rw [e] <;> simp only [size, hs4]
            rw [hsz]
            refine ⟨hva, ?_, fun h => by simp [hi] at h, .inl hn2.symm⟩
            omega
        · have hdn : T.size * n / T.size = n := Nat.mul_div_cancel_left _ hs1
          rcases bestAbi_small hc hT hv (by omega) (by omega) hx with ⟨e, hva⟩ | ⟨e, hva⟩ <;>
            rw [e] <;> simp only [size, hdn] <;> exact ⟨hva, by omega, fun _ => by omega, .inl trivial⟩

theorem storage_zero {t : Target} {T : Elem} : storage t T 0 = [] := by rw [storage]; simp

theorem storage_pos {t : Target} {T : Elem} {n : Nat} (h : n ≠ 0) :
    storage t T n = bestAbi t T n :: storage t T (n - size T (bestAbi t T n)) := by
  rw [storage]; simp [h]

theorem storage_sum (t : Target) (T : Elem) (n : Nat) : ((storage t T n).map (size T)).sum = n := by
  induction n using Nat.strongRecOn with
  | _ n ih =>
    rcases Nat.eq_zero_or_pos n with rfl | h
    · rw [storage_zero]; rfl
    · rw [storage_pos (by omega), List.map_cons, List.sum_cons]
      have := size_bestAbi t T n h
      rw [ih _ (by omega)]; omega

theorem storage_valid {t : Target} (hc : t.Consistent) {T : Elem} (hT : T.Ok) (n : Nat) :
    ∀ a ∈ storage t T n, valid t T a = true := by
  induction n using Nat.strongRecOn with
  | _ n ih =>
    rcases Nat.eq_zero_or_pos n with rfl | h
    · rw [storage_zero]; simp
    · rw [storage_pos (by omega)]
      have := size_bestAbi t T n h
      intro a ha
      rcases List.mem_cons.1 ha with rfl | ha
      · exact (head_facts hc hT h).1
      · exact ih _ (by omega) a ha

theorem storage_size_le {t : Target} (hc : t.Consistent) {T : Elem} (hT : T.Ok) (n : Nat) :
    ∀ a ∈ storage t T n, 1 ≤ size T a ∧ size T a ≤ min n (vecSizeof t T / T.size) := by
  induction n using Nat.strongRecOn with
  | _ n ih =>
    rcases Nat.eq_zero_or_pos n with rfl | h
    · rw [storage_zero]; simp
    · rw [storage_pos (by omega)]
      have hb := size_bestAbi t T n h
      have hf := head_facts hc hT h
      intro a ha
      rcases List.mem_cons.1 ha with rfl | ha
      · omega
      · have := ih _ (by omega) a ha; omega

theorem storage_sorted {t : Target} (hc : t.Consistent) {T : Elem} (hT : T.Ok) (n : Nat) :
    ((storage t T n).map (size T)).Pairwise (· ≥ ·) := by
  induction n using Nat.strongRecOn with
  | _ n ih =>
    rcases Nat.eq_zero_or_pos n with rfl | h
    · rw [storage_zero]; simp
    · rw [storage_pos (by omega), List.map_cons, List.pairwise_cons]
      have hb := size_bestAbi t T n h
      have hf := head_facts hc hT h
      refine ⟨?_, ih _ (by omega)⟩
      intro m hm
      obtain ⟨a, ha, rfl⟩ := List.mem_map.1 hm
      have := storage_size_le hc hT _ a ha
      rcases hf.2.2.2 with he | ⟨_, hle⟩ <;> omega

theorem storage_dropLast {t : Target} (hc : t.Consistent) {T : Elem} (hT : T.Ok) (n : Nat) :
    ∀ a ∈ (storage t T n).dropLast, isPartial t T a = false := by
  induction n using Nat.strongRecOn with
  | _ n ih =>
    rcases Nat.eq_zero_or_pos n with rfl | h
    · rw [storage_zero]; simp
    · have hb := size_bestAbi t T n h
      have hf := head_facts hc hT h
      rw [storage_pos (by omega)]
      rcases hf.2.2.2 with he | ⟨hp, _⟩
      · rw [he, Nat.sub_self, storage_zero]; simp
      · intro a ha
        by_cases hr : storage t T (n - size T (bestAbi t T n)) = []
        · rw [hr] at ha; simp at ha
        · rw [List.dropLast_cons_of_ne_nil hr] at ha
          rcases List.mem_cons.1 ha with rfl | ha
          · exact hp
          · exact ih _ (by omega) a ha

theorem storage_layout {t : Target} (hc : t.Consistent) {T : Elem} (hT : T.Ok) (h386 : t.i386 = false) (n : Nat) :
    (storage t T n).map (size T) = Spec.layout (vecSizeof t T / T.size) n := by
  have hs1 := elem_pos hT
  have hw : 1 ≤ vecSizeof t T / T.size := by
    by_cases hv : vecSizeof t T = T.size
    · rw [hv, Nat.div_self hs1]; exact Nat.le_refl _
    · obtain ⟨hs, hvs⟩ := vec_cases hT hv
      obtain ⟨_, _, hdiv, _⟩ := div_facts hs hvs
      omega
  generalize hW : vecSizeof t T / T.size = W at hw
  induction n using Nat.strongRecOn with
  | _ n ih =>
    rcases Nat.eq_zero_or_pos n with rfl | h
    · rw [storage_zero]; simp [Spec.layout]
    · have hf := (head_facts hc hT h).2.2.1 h386
      rw [storage_pos (by omega), List.map_cons, hf, hW]
      rw [ih _ (by rw [Nat.min_def]; split <;> omega)]
      unfold Spec.layout
      by_cases hn : n < W
      · have : min n W = n := by omega
        have h0 : (0 % W = 0) := Nat.zero_mod W
        have hne : ¬ n = 0 := by omega
        simp only [this, Nat.sub_self, Nat.zero_div, Nat.div_eq_of_lt hn, Nat.mod_eq_of_lt hn, h0, hne,
          if_true, if_false, List.replicate_zero, List.nil_append]
      · have hm : min n W = W := by omega
        have hd : n / W = (n - W) / W + 1 := by
          rw [Nat.div_eq n W, if_pos (by omega)]
        have hmod : n % W = (n - W) % W := Nat.mod_eq_sub_mod (by omega)
        rw [hm, hd, hmod, List.replicate_succ, List.cons_append]

end StdSimd.Abi
