import Verif.Model.Abi
import Verif.Proofs.BitMask
import Verif.Spec.Layout
namespace StdSimd.Abi

theorem vec_cases {t : Target} {T : Elem} (hT : T.Ok) (hv : vecSizeof t T ≠ T.size) :
    T.size ∈ [1, 2, 4, 8] ∧ vecSizeof t T ∈ [16, 32, 64] := by
  unfold Elem.Ok at hT
  simp only [List.mem_cons, List.mem_singleton, List.not_mem_nil, or_false] at hT ⊢
  unfold vecSizeof at hv ⊢
  constructor
  · split at hv <;> omega
  · split at hv
    · rw [if_pos (by assumption)]
      repeat' split
      all_goals simp_all
    · omega

/-- `_VecBltnBtmsk` can be used at all for `T`. -/
def Usable (t : Target) (T : Elem) : Prop := t.avx512f = true ∧ (t.avx512bw = true ∨ 4 ≤ T.size)

theorem usable_vs {t : Target} {T : Elem} (h8 : T.size ≤ 8) (h : Usable t T) : vecSizeof t T = 64 := by
  obtain ⟨h1, h2⟩ := h
  unfold vecSizeof
  rw [if_pos h8]
  split
  · rfl
  · rcases h2 with h2 | h2
    · simp_all
    · simp [h1, h2]

theorem vs64_usable {t : Target} (hc : t.Consistent) {T : Elem} (hv : vecSizeof t T ≠ T.size)
    (h : vecSizeof t T = 64) : Usable t T := by
  unfold vecSizeof at h hv
  split at h
  · rw [if_pos (by assumption)] at hv
    by_cases hb : t.avx512bw = true
    · exact ⟨hc.bw hb, .inl hb⟩
    · rw [if_neg hb] at h hv
      by_cases hf : (t.avx512f && decide (T.size ≥ 4)) = true
      · simp only [Bool.and_eq_true, decide_eq_true_eq] at hf
        exact ⟨hf.1, .inr hf.2⟩
      · rw [if_neg hf] at h hv
        exfalso
        revert h hv
        repeat' split
        all_goals simp_all
  · rw [if_neg (by assumption)] at hv; exact absurd rfl hv

theorem valid_btmsk {t : Target} {T : Elem} (hs : 1 ≤ T.size) (b : Nat) :
    valid t T (.btmsk b) = true ↔ Usable t T ∧ T.size < vecSizeof t T ∧ 1 < b / T.size ∧ b % T.size = 0 ∧
      b ≤ 64 ∧ (32 < b ∨ t.avx512vl = true) := by
  have : 1 < b / T.size → 1 < b := fun h => Nat.lt_of_lt_of_le h (Nat.div_le_self _ _)
  simp only [valid, Usable, Bool.and_eq_true, Bool.or_eq_true, decide_eq_true_eq]
  constructor <;> intro h <;> simp_all

theorem valid_builtin {t : Target} {T : Elem} (hs : 1 ≤ T.size) (b : Nat) :
    valid t T (.builtin b) = true ↔ 1 < b / T.size ∧ b % T.size = 0 ∧ b ≤ vecSizeof t T ∧
      (t.avx512f = true → b ≤ 32) := by
  have : 1 < b / T.size → 1 < b := fun h => Nat.lt_of_lt_of_le h (Nat.div_le_self _ _)
  simp only [valid, Bool.and_eq_true, Bool.or_eq_true, decide_eq_true_eq, Bool.not_eq_true']
  cases t.avx512f <;> simp <;> constructor <;> intro h <;> simp_all

theorem bitCeil_two_pow (k : Nat) : bitCeil (2 ^ k) = 2 ^ k := by
  unfold bitCeil
  split
  · cases k with
    | zero => rfl
    | succ k => have := Nat.two_pow_pos k; rw [Nat.pow_succ] at *; omega
  · have hk : k ≠ 0 := by rintro rfl; simp at *
    have : (2 ^ k - 1).log2 = k - 1 := by
      have h2 : 2 ^ k = 2 * 2 ^ (k - 1) := by
        rw [← Nat.pow_succ']; congr 1; omega
      have := Nat.two_pow_pos (k - 1)
      rw [Nat.log2_eq_iff (by omega)]
      constructor
      · omega
      · rw [show k - 1 + 1 = k by omega]; omega
    rw [this]; congr 1; omega

theorem bitCeil_gt {k b : Nat} (h : 2 ^ k < b) : 2 ^ (k + 1) ≤ bitCeil b := by
  unfold bitCeil
  have := Nat.two_pow_pos k
  rw [if_neg (by omega)]
  apply Nat.pow_le_pow_right (by omega)
  have : k ≤ (b - 1).log2 := by
    rw [Nat.le_log2 (by omega)]; omega
  omega

/-- The search of `__find_next_valid_abi` started above the largest good power of two finds it. -/
theorem findNext_eq {t : Target} {T : Elem} {mk : Nat → Tag} {k : Nat} (hs : 1 ≤ T.size)
    (h2 : T.size * 2 ≤ 2 ^ k) (hgood : (isPartial t T (mk (2 ^ k)) == false && valid t T (mk (2 ^ k))) = true)
    (hbad : ∀ b, 2 ^ k < b → valid t T (mk b) = false) :
    ∀ b, 2 ^ k < b → findNext t T mk b = mk (2 ^ k) := by
  intro b
  induction b using Nat.strongRecOn with
  | _ b ih =>
    intro hb
    have hge : 2 ^ k ≤ bitCeil b / 2 := by
      have := bitCeil_gt hb
      rw [Nat.pow_succ] at this; omega
    have hlt := bitCeil_half_lt (b := b) (by omega)
    rw [findNext]
    rw [dif_neg (by omega)]
    rcases Nat.eq_or_lt_of_le hge with he | hgt
    · rw [← he, if_pos hgood]
    · rw [hbad _ hgt]
      simp only [Bool.and_false, Bool.false_eq_true, if_false]
      exact ih _ hlt hgt

/-- `__find_next_valid_abi` never returns more bytes than it was given. -/
theorem findNext_le {t : Target} {T : Elem} {mk : Nat → Tag} (b : Nat) :
    ∃ b' ≤ b, findNext t T mk b = mk b' := by
  fun_induction findNext t T mk b with
  | case1 b => exact ⟨b, Nat.le_refl _, rfl⟩
  | case2 b _ h =>
    refine ⟨_, ?_, rfl⟩
    rcases Nat.eq_zero_or_pos b with h0 | h0
    · subst h0; decide
    · exact Nat.le_of_lt (bitCeil_half_lt h0)
  | case3 b _ h h' ih =>
    obtain ⟨b', hb', e⟩ := ih
    refine ⟨b', Nat.le_trans hb' ?_, e⟩
    rcases Nat.eq_zero_or_pos b with h0 | h0
    · subst h0; decide
    · exact Nat.le_of_lt (bitCeil_half_lt h0)

theorem bestWith_rest {t : Target} {T : Elem} {n : Nat} {mk : Nat → Tag} {rest : Tag} (hn : n ≠ 1)
    (hbad : ∀ b ≤ T.size * n, valid t T (mk b) = false) : bestWith t T n mk rest = rest := by
  obtain ⟨b', hle, e⟩ := findNext_le (t := t) (T := T) (mk := mk) (T.size * n)
  unfold bestWith
  simp only [hn, if_false, hbad _ (Nat.le_refl _), e, hbad _ hle, Bool.false_and, Bool.false_eq_true]

/-- The rule "storage overhead is no more than padding to the next power of two" accepts every size on
targets without the i386 exception. -/
theorem full_half_lt {t : Target} {T : Elem} {n : Nat} {a : Tag} (hs : 1 ≤ T.size) (h386 : (t.i386 && bitCeil (n * T.size) == 8) = false)
    (hn : 2 ≤ n) (ha : a = .btmsk (T.size * n) ∨ a = .builtin (T.size * n)) (hv : valid t T a = true) :
    fullSize t T a / 2 < n := by
  have hsz : size T a = n := by
    rcases ha with rfl | rfl <;> exact Nat.mul_div_cancel_left _ hs
  have : fullSize t T a = vecBytes t T.size n / T.size := by
    rcases ha with rfl | rfl <;> simp only [fullSize, hv, if_true, hsz]
  have hge := bitCeil_ge (n * T.size)
  have h2 : 2 * T.size ≤ n * T.size := Nat.mul_le_mul_right _ hn
  rw [this, Nat.div_div_eq_div_mul, Nat.mul_comm, ← Nat.div_div_eq_div_mul]
  unfold vecBytes
  simp only [h386, Bool.false_eq_true, if_false]
  rw [if_neg (by omega)]
  have := bitCeil_half_lt (b := n * T.size) (by omega)
  rw [Nat.div_lt_iff_lt_mul hs]; exact this

theorem bestWith_take {t : Target} {T : Elem} {n : Nat} {mk : Nat → Tag} {rest : Tag} (hn : n ≠ 1)
    (hv : valid t T (mk (T.size * n)) = true) (hf : fullSize t T (mk (T.size * n)) / 2 < n) :
    bestWith t T n mk rest = mk (T.size * n) := by
  unfold bestWith; simp [hn, hv, hf]

theorem bestWith_next {t : Target} {T : Elem} {n b : Nat} {mk : Nat → Tag} {rest : Tag} (hn : n ≠ 1)
    (hv : valid t T (mk (T.size * n)) = false ∨ ¬ fullSize t T (mk (T.size * n)) / 2 < n)
    (hf : findNext t T mk (T.size * n) = mk b) (hb : valid t T (mk b) = true) (hle : size T (mk b) ≤ n) :
    bestWith t T n mk rest = mk b := by
  unfold bestWith
  rw [if_neg hn]
  simp only []
  rw [if_neg (by rcases hv with h | h <;> simp [h]), hf, if_pos (by simp [hb, hle])]

theorem four_values {s : Nat} (h : s ∈ [1, 2, 4, 8]) : s = 1 ∨ s = 2 ∨ s = 4 ∨ s = 8 := by simpa using h
theorem three_values {s : Nat} (h : s ∈ [16, 32, 64]) : s = 16 ∨ s = 32 ∨ s = 64 := by simpa using h

theorem vecBytes_pow {t : Target} {s v : Nat} (hs : s ∈ [1, 2, 4, 8]) (hv : v ∈ [16, 32, 64]) :
    vecBytes t s (v / s) / s = v / s := by
  rcases four_values hs with rfl | rfl | rfl | rfl <;> rcases three_values hv with rfl | rfl | rfl <;>
    (unfold vecBytes; simp only []; cases t.i386 <;> decide)

theorem native_not_partial {t : Target} {T : Elem} (hT : T.Ok) (hv : vecSizeof t T ≠ T.size) :
    isPartial t T (.btmsk (vecSizeof t T)) = false ∧ isPartial t T (.builtin (vecSizeof t T)) = false := by
  obtain ⟨h1, h2⟩ := vec_cases hT hv
  have := vecBytes_pow (t := t) h1 h2
  constructor
  · unfold isPartial fullSize; simp only [size, this]; split <;> simp
  · unfold isPartial fullSize; simp only [size, this]; split <;> simp

theorem div_facts {s v : Nat} (hs : s ∈ [1, 2, 4, 8]) (hv : v ∈ [16, 32, 64]) :
    1 ≤ s ∧ s ≤ 8 ∧ 1 < v / s ∧ v % s = 0 ∧ s < v ∧ s * 2 ≤ v ∧ v ≤ 64 ∧ (v = 2 ^ 4 ∨ v = 2 ^ 5 ∨ v = 2 ^ 6) ∧ s * (v / s) = v := by
  rcases four_values hs with rfl | rfl | rfl | rfl <;> rcases three_values hv with rfl | rfl | rfl <;> decide

/-- The i386 exception applies: the request is 5 to 8 bytes, to be stored in a 16-byte register. -/
def Exc (t : Target) (T : Elem) (n : Nat) : Prop := t.i386 = true ∧ bitCeil (n * T.size) = 8

/-- More elements than a native register: the native register is chosen. -/
theorem bestAbi_large {t : Target} (hc : t.Consistent) {T : Elem} (hT : T.Ok) (hv : vecSizeof t T ≠ T.size)
    {n : Nat} (hn : vecSizeof t T / T.size < n) :
    bestAbi t T n = .btmsk (vecSizeof t T) ∧ valid t T (.btmsk (vecSizeof t T)) = true ∨
    bestAbi t T n = .builtin (vecSizeof t T) ∧ valid t T (.builtin (vecSizeof t T)) = true := by
  obtain ⟨hs, hvs⟩ := vec_cases hT hv
  obtain ⟨hs1, hs8, hdiv, hmod, hlt, hs2, hle, hpow, hmul⟩ := div_facts hs hvs
  have hbytes : vecSizeof t T < T.size * n := by
    rw [← hmul]; exact Nat.mul_lt_mul_of_pos_left hn hs1
  obtain ⟨k, hk⟩ : ∃ k, vecSizeof t T = 2 ^ k := by
    rcases hpow with h | h | h
    · exact ⟨4, h⟩
    · exact ⟨5, h⟩
    · exact ⟨6, h⟩
  have hnp := native_not_partial hT hv
  by_cases hu : Usable t T
  · left
    have h64 := usable_vs hs8 hu
    have hval : valid t T (.btmsk (vecSizeof t T)) = true := by
      rw [valid_btmsk hs1]; exact ⟨hu, hlt, hdiv, hmod, hle, .inl (by omega)⟩
    have hbad : ∀ b, 2 ^ k < b → valid t T (.btmsk b) = false := by
      intro b hb
      rw [← Bool.not_eq_true, valid_btmsk hs1]; rintro ⟨_, _, _, _, h, _⟩; omega
    refine ⟨?_, hval⟩
    unfold bestAbi
    rw [hk]
    apply bestWith_next (by omega)
    · left; exact hbad _ (by omega)
    · apply findNext_eq hs1 (by omega) _ hbad _ (by omega)
      rw [← hk, hnp.1, hval]; rfl
    · rw [← hk]; exact hval
    · rw [← hk]; simp only [size]; omega
  · right
    have h64 : vecSizeof t T ≠ 64 := fun h => hu (vs64_usable hc hv h)
    have hval : valid t T (.builtin (vecSizeof t T)) = true := by
      rw [valid_builtin hs1]; exact ⟨hdiv, hmod, Nat.le_refl _, fun _ => by omega⟩
    have hbad : ∀ b, 2 ^ k < b → valid t T (.builtin b) = false := by
      intro b hb
      rw [← Bool.not_eq_true, valid_builtin hs1]; rintro ⟨_, _, h, _⟩; omega
    refine ⟨?_, hval⟩
    unfold bestAbi
    rw [bestWith_rest (by omega) (fun b _ => by rw [← Bool.not_eq_true, valid_btmsk hs1]; exact fun h => hu h.1)]
    rw [hk]
    apply bestWith_next (by omega)
    · left; exact hbad _ (by omega)
    · apply findNext_eq hs1 (by omega) _ hbad _ (by omega)
      rw [← hk, hnp.2, hval]; rfl
    · rw [← hk]; exact hval
    · rw [← hk]; simp only [size]; omega

/-- At most one native register: a register of exactly the requested size is chosen (unless the i386
exception applies). -/
theorem bestAbi_small {t : Target} (hc : t.Consistent) {T : Elem} (hT : T.Ok) (hv : vecSizeof t T ≠ T.size)
    {n : Nat} (h2 : 2 ≤ n) (hn : n ≤ vecSizeof t T / T.size) (hx : ¬ Exc t T n) :
    bestAbi t T n = .btmsk (T.size * n) ∧ valid t T (.btmsk (T.size * n)) = true ∨
    bestAbi t T n = .builtin (T.size * n) ∧ valid t T (.builtin (T.size * n)) = true := by
  obtain ⟨hs, hvs⟩ := vec_cases hT hv
  obtain ⟨hs1, hs8, hdiv, hmod, hlt, hs2, hle, hpow, hmul⟩ := div_facts hs hvs
  have hbytes : T.size * n ≤ vecSizeof t T := by
    rw [← hmul]; exact Nat.mul_le_mul_left _ hn
  have hdn : T.size * n / T.size = n := Nat.mul_div_cancel_left _ hs1
  have hmn : T.size * n % T.size = 0 := Nat.mul_mod_right _ _
  have hx' : (t.i386 && bitCeil (n * T.size) == 8) = false := by
    rw [← Bool.not_eq_true]; simp only [Bool.and_eq_true, beq_iff_eq]; exact hx
  by_cases hb : valid t T (.btmsk (T.size * n)) = true
  · left
    refine ⟨?_, hb⟩
    unfold bestAbi
    exact bestWith_take (by omega) hb (full_half_lt hs1 hx' h2 (.inl rfl) hb)
  · right
    have hcond : Usable t T → ¬ (32 < T.size * n ∨ t.avx512vl = true) := by
      intro hu h
      exact hb ((valid_btmsk hs1 _).2 ⟨hu, hlt, by omega, hmn, by omega, h⟩)
    have hval : valid t T (.builtin (T.size * n)) = true := by
      rw [valid_builtin hs1]
      refine ⟨by omega, hmn, hbytes, fun hf => ?_⟩
      by_cases hu : Usable t T
      · have := hcond hu; omega
      · have : vecSizeof t T ≠ 64 := fun h => hu (vs64_usable hc hv h)
        simp only [List.mem_cons, List.not_mem_nil, or_false] at hvs
        omega
    refine ⟨?_, hval⟩
    unfold bestAbi
    rw [bestWith_rest (by omega)]
    · exact bestWith_take (by omega) hval (full_half_lt hs1 hx' h2 (.inr rfl) hval)
    · intro b hbl
      rw [← Bool.not_eq_true, valid_btmsk hs1]
      rintro ⟨hu, _, _, _, _, h⟩
      apply hcond hu
      rcases h with h | h
      · left; omega
      · right; exact h

/-- Types for which the target has no vector registers are stored as scalars. -/
theorem bestAbi_scalar {t : Target} {T : Elem} (hs1 : 1 ≤ T.size) (hv : vecSizeof t T = T.size) (n : Nat) :
    bestAbi t T n = .scalar := by
  by_cases hn : n = 1
  · subst hn; unfold bestAbi bestWith; simp
  · unfold bestAbi
    rw [bestWith_rest hn, bestWith_rest hn]
    · intro b _
      rw [← Bool.not_eq_true, valid_builtin hs1]
      rintro ⟨h1, _, h2, _⟩
      have : b / T.size ≤ 1 := by
        rw [hv] at h2
        have := Nat.div_le_div_right (c := T.size) h2
        rw [Nat.div_self hs1] at this; exact this
      omega
    · intro b _
      rw [← Bool.not_eq_true, valid_btmsk hs1]
      rintro ⟨_, h, _⟩; omega

end StdSimd.Abi
