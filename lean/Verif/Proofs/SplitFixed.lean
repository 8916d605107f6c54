import Verif.Proofs.Split
/-!
Splitting fixed_size objects always compiles, unless a part of 5 to 8 bytes of 1- or 2-byte elements is wanted on i386.
-/
namespace StdSimd.Split
open MaskVec Abi

/-- The registers of a fixed_size object of its size. -/
def Fx (t : Target) (T : Elem) (x : Obj) : Prop := shapeOf x = shapeFor t T (.fixed (size x))

theorem shapeFor_fixed (t : Target) (T : Elem) (n : Nat) :
    shapeFor t T (.fixed n) = (storage t T n).map (fun a => ((Geo.ofTag t T a).size, (Geo.ofTag t T a).full)) := by
  simp [shapeFor, Tuple.regs, Function.comp_def]

theorem size_cons (m : Member) (ms : Obj) : size (m :: ms) = m.n + size ms := by simp [size]

theorem storage_notFixed (t : Target) (T : Elem) {n : Nat} (hn : n ≠ 0) (k : Nat) : bestAbi t T n ≠ .fixed k :=
  Tuple.storage_native t T n _ (by rw [storage_pos hn]; simp) k

/-- The first register, and the rest. -/
theorem Fx.cons {t : Target} (hc : t.Consistent) {T : Elem} (hT : T.Ok) {m : Member} {ms : Obj} (h : Fx t T (m :: ms)) :
    size (m :: ms) ≠ 0 ∧ m.n = Abi.size T (bestAbi t T (size (m :: ms))) ∧
      m.full = fullSize t T (bestAbi t T (size (m :: ms))) ∧ Fx t T ms := by
  unfold Fx at h
  rw [shapeFor_fixed] at h
  generalize hN : size (m :: ms) = N at h
  have h0 : N ≠ 0 := by
    intro e; subst e; rw [storage_zero] at h; simp [shapeOf] at h
  rw [storage_pos h0] at h
  simp only [shapeOf, List.map_cons, List.cons.injEq, Prod.mk.injEq] at h
  obtain ⟨⟨h1, h2⟩, h3⟩ := h
  have hv := (head_facts hc hT (n := N) (by omega)).1
  obtain ⟨_, e1, e2⟩ := Tuple.ofTag_ok hT hv (storage_notFixed t T h0)
  rw [e1] at h1
  rw [e2] at h2
  refine ⟨h0, h1, h2, ?_⟩
  have hms : size ms = N - Abi.size T (bestAbi t T N) := by rw [← h1, ← hN, size_cons]; omega
  unfold Fx
  rw [shapeFor_fixed, hms]
  exact h3

theorem Fx.nil {t : Target} {T : Elem} : Fx t T [] := by
  unfold Fx; rw [shapeFor_fixed]; simp [size, storage_zero, shapeOf]

/-- What the register extraction needs from the first register. -/
theorem Fx.head {t : Target} (hc : t.Consistent) {T : Elem} (hT : T.Ok) {m : Member} {ms : Obj} (h : Fx t T (m :: ms)) :
    m.n ≤ m.full ∧ CanShift t T.size (T.size * m.full) ∧ 0 < m.n ∧ kindOf t T m.n ≠ some .fixed := by
  obtain ⟨h0, h1, h2, _⟩ := h.cons hc hT
  generalize size (m :: ms) = N at *
  have hv := (head_facts hc hT (n := N) (by omega)).1
  have hn := storage_notFixed t T h0
  refine ⟨by rw [h1, h2]; exact size_le_full hT hv hn, by rw [h2]; exact canShift hc hT hv hn,
    by rw [h1]; exact (size_bestAbi t T N (by omega)).1, ?_⟩
  rw [h1]
  have hs1 := elem_pos hT
  generalize bestAbi t T N = a at hv hn
  have hmul : ∀ {b}, b % T.size = 0 → T.size * (b / T.size) = b := fun h => Nat.mul_div_cancel' (Nat.dvd_of_mod_eq_zero h)
  cases a with
  | fixed k => exact absurd rfl (hn k)
  | scalar =>
    unfold kindOf deduce firstValidAbi
    simp only [Abi.size, Nat.mul_one]
    split
    · rename_i h; split at h <;> [(cases h; simp); (split at h <;> [(cases h; simp); (simp at h; subst h; simp)])]
    · rename_i h; split at h <;> [cases h; (split at h <;> [cases h; (simp at h)])]
  | builtin b =>
    have hb := ((valid_builtin hs1 b).1 hv).2.1
    unfold kindOf deduce firstValidAbi
    simp only [Abi.size, hmul hb, hv, if_true]
    split
    · rename_i h; split at h <;> (cases h; simp)
    · rename_i h; split at h <;> cases h
  | btmsk b =>
    have hb := ((valid_btmsk hs1 b).1 hv).2.2.2.1
    unfold kindOf deduce firstValidAbi
    simp only [Abi.size, hmul hb, hv, if_true]
    simp

/-- The deduced ABI is a native one. -/
theorem kindOf_native {t : Target} {T : Elem} {k : Nat} (h : kindOf t T k = some .native) :
    valid t T (.btmsk (T.size * k)) = true ∨ valid t T (.builtin (T.size * k)) = true := by
  unfold kindOf deduce firstValidAbi at h
  split at h
  · rename_i a ha
    split at ha
    · left; assumption
    · split at ha
      · right; assumption
      · split at ha
        · cases ha; simp at h
        · cases ha
  · split at h <;> simp at h

/-- A size with a native ABI is stored in one register. -/
theorem native_one {t : Target} (hc : t.Consistent) {T : Elem} (hT : T.Ok) {k : Nat} (h : kindOf t T k = some .native)
    (hx : ¬ Exc t T k) : 0 < k ∧ Abi.size T (bestAbi t T k) = k := by
  have hs1 := elem_pos hT
  have hdn : T.size * k / T.size = k := Nat.mul_div_cancel_left _ hs1
  have hf : 1 < k ∧ vecSizeof t T ≠ T.size ∧ k ≤ vecSizeof t T / T.size := by
    rcases kindOf_native h with hv | hv
    · obtain ⟨hu, h2, h3, _, h5, _⟩ := (valid_btmsk hs1 _).1 hv
      rw [hdn] at h3
      have h8 : T.size ≤ 8 := by
        rcases four_values (vec_cases hT (t := t) (by omega)).1 with h | h | h | h <;> omega
      have h64 := usable_vs h8 hu
      refine ⟨h3, by omega, ?_⟩
      rw [Nat.le_div_iff_mul_le hs1, Nat.mul_comm]; omega
    · obtain ⟨h3, _, h5, _⟩ := (valid_builtin hs1 _).1 hv
      rw [hdn] at h3
      have hk : k ≤ vecSizeof t T / T.size := by
        rw [Nat.le_div_iff_mul_le hs1, Nat.mul_comm]; exact h5
      refine ⟨h3, ?_, hk⟩
      intro e; rw [e, Nat.div_self hs1] at hk; omega
  refine ⟨by omega, ?_⟩
  rcases bestAbi_small hc hT hf.2.1 (by omega) hf.2.2 hx with ⟨e, _⟩ | ⟨e, _⟩ <;> rw [e] <;> exact hdn

/-- A fixed_size object of such a size has one register. -/
theorem Fx.single {t : Target} (hc : t.Consistent) {T : Elem} (hT : T.Ok) {m : Member} {ms : Obj} (h : Fx t T (m :: ms))
    (hk : kindOf t T (size (m :: ms)) = some .native) (hx : ¬ Exc t T (size (m :: ms))) : m.n = size (m :: ms) := by
  rw [(h.cons hc hT).2.1, (native_one hc hT hk hx).2]

theorem extractTuple_noill {t : Target} (hc : t.Consistent) {T : Elem} (hT : T.Ok) (cp : Bool) (junk : Reg)
    (x : Obj) (hx : Fx t T x) (idx total comb : Nat)
    (g1 : idx + comb ≤ total) (g2 : 1 ≤ total) (g3 : total ≤ size x) (g4 : size x % total = 0)
    (hk : kindOf t T (size x / total * comb) = some .native) (he : ¬ Exc t T (size x / total * comb)) :
    extractTuple t T cp junk idx total comb x ≠ .ill := by
  induction x generalizing idx total comb with
  | nil => simp [size] at g3; omega
  | cons m ms ih =>
    obtain ⟨a1, a2, a3, _⟩ := hx.head hc hT
    obtain ⟨_, _, _, hx'⟩ := hx.cons hc hT
    have hsingle := hx.single hc hT
    have hsz := size_cons m ms
    have hret0 := (native_one hc hT hk he).1
    rw [extractTuple]
    dsimp only
    generalize size (m :: ms) = np at *
    rw [if_neg (by simp; omega)]
    obtain ⟨vpp, hv⟩ := Nat.dvd_of_mod_eq_zero g4
    have hvpp : np / total = vpp := by rw [hv, Nat.mul_div_cancel_left _ (by omega)]
    have hv0 : 0 < vpp := by
      rcases Nat.eq_zero_or_pos vpp with h | h
      · subst h; omega
      · exact h
    rw [hvpp] at hk he hret0 ⊢
    have hle : idx * vpp + vpp * comb ≤ np := by
      rw [hv, Nat.mul_comm vpp comb, ← Nat.add_mul]; exact Nat.mul_le_mul_right _ g1
    split
    · simp
    split
    · rename_i h1 h2
      exfalso
      have : np = vpp * comb := by rw [hv, h2.2, Nat.mul_comm]
      rw [← this] at hk he
      exact h1 ⟨h2.1, by rw [hsingle hk he]; exact this⟩
    split
    · simp
    split
    · rename_i h
      split
      · rename_i hmod
        obtain ⟨q, hq⟩ := Nat.dvd_of_mod_eq_zero hmod
        have hqd : m.n / vpp = q := by rw [hq, Nat.mul_div_cancel_left _ hv0]
        rw [hqd]
        have hqidx : q ≤ idx := by
          have : vpp * q ≤ vpp * idx := by rw [← hq, Nat.mul_comm vpp idx]; exact h
          exact Nat.le_of_mul_le_mul_left this hv0
        have hms' : size ms = (total - q) * vpp := by
          rw [Nat.sub_mul, ← hv, Nat.mul_comm q, ← hq]; omega
        have hcomb : 0 < comb := Nat.pos_of_ne_zero (by rintro rfl; simp at hret0)
        have hdiv : size ms / (total - q) = vpp := by rw [hms', Nat.mul_div_cancel_left _ (by omega)]
        refine ih hx' (idx - q) (total - q) comb (by omega) (by omega) ?_ ?_ (by rw [hdiv]; exact hk) (by rw [hdiv]; exact he)
        · rw [hms']; exact Nat.le_mul_of_pos_right _ hv0
        · rw [hms']; exact Nat.mul_mod_right _ _
      · have hms' : size ms = np - m.n := by omega
        have hpos : 0 < np - m.n := by omega
        have hdiv : size ms / (np - m.n) = 1 := by rw [hms', Nat.div_self hpos]
        refine ih hx' (idx * vpp - m.n) (np - m.n) (vpp * comb) (by omega) (by omega) (by omega) ?_
          (by rw [hdiv, Nat.one_mul]; exact hk) (by rw [hdiv, Nat.one_mul]; exact he)
        rw [hms', Nat.mod_self]
    split
    · split <;> simp
    rename_i h4 h5
    have hin : idx * vpp + vpp * comb ≤ m.n := by omega
    split
    · rename_i hmod
      obtain ⟨q, hq⟩ := Nat.dvd_of_mod_eq_zero hmod
      have hqd : m.n / vpp = q := by rw [hq, Nat.mul_div_cancel_left _ hv0]
      rw [hqd]
      have hq0 : 0 < q := Nat.pos_of_ne_zero (by rintro rfl; omega)
      refine extractNative_noill cp junk ?_ hq0 ?_ a1 a2
      · rw [hq]; exact Nat.mul_mod_left _ _
      · have : vpp * (idx + comb) ≤ vpp * q := by
          rw [Nat.mul_add, Nat.mul_comm vpp idx, ← hq]; exact hin
        exact Nat.le_of_mul_le_mul_left this hv0
    · exact extractNative_noill cp junk (Nat.mod_self _) a3 (by rw [Nat.mul_comm comb]; exact hin) a1 a2

/-- `patterns` extracts only parts whose sizes are in the list, all of which have native ABIs. -/
theorem patterns_noill' {t : Target} {T : Elem} (np : Nat) (hnp : 0 < np) (sizes : List Nat) (hsum : sizes.sum = np)
    (part : Nat → Nat → Nat → Nat → Res (List (BitVec (8 * T.size)))) (center : Res (List (BitVec (8 * T.size))))
    (loads : Res (List (List (BitVec (8 * T.size)))))
    (hp : ∀ idx total comb n, np % total = 0 → 0 < total → total ≤ np → idx + comb ≤ total → np / total * comb ∈ sizes →
      kindOf t T (np / total * comb) = some .native → part idx total comb n ≠ .ill)
    (hcen : np % 4 = 0 → np / 2 ∈ sizes → kindOf t T (np / 2) = some .native → center ≠ .ill) (hl : loads ≠ .ill) :
    splitSizes.patterns t T np sizes part center loads ≠ .ill := by
  unfold splitSizes.patterns
  dsimp only
  split
  case isFalse => exact hl
  rename_i hnat
  have hnat : ∀ n ∈ sizes, kindOf t T n = some .native := by simpa using hnat
  have hp' : ∀ idx total comb n k, k ∈ sizes → np / total * comb = k → np % total = 0 → 0 < total → total ≤ np →
      idx + comb ≤ total → part idx total comb n ≠ .ill := by
    intro idx total comb n k hk he h1 h2 h3 h4
    exact hp idx total comb n h1 h2 h3 h4 (by rw [he]; exact hk) (by rw [he]; exact hnat k hk)
  have hcen' : np % 4 = 0 → np / 2 ∈ sizes → center ≠ .ill := fun h1 h2 => hcen h1 h2 (hnat _ h2)
  clear hp hcen hnat
  split
  · rename_i h
    obtain ⟨h2, h3⟩ := all_eq_replicate (by omega) hsum hnp h
    apply all_noill
    intro a ha
    simp only [List.mem_cons, List.not_mem_nil, or_false] at ha
    rcases ha with rfl | rfl <;> exact hp' _ _ _ _ (np / 2) (by rw [h3]; simp) (by omega) h2 (by omega) (by omega) (by omega)
  split
  · rename_i h
    subst h
    simp only [List.sum_cons, List.sum_nil] at hsum
    apply all_noill
    intro a ha
    simp only [List.mem_cons, List.not_mem_nil, or_false] at ha
    rcases ha with rfl | rfl | rfl <;>
      exact hp' _ _ _ _ (np / 3) (by simp) (by omega) (by omega) (by omega) (by omega) (by omega)
  split
  · rename_i h
    subst h
    simp only [List.sum_cons, List.sum_nil] at hsum
    apply all_noill
    intro a ha
    simp only [List.mem_cons, List.not_mem_nil, or_false] at ha
    rcases ha with rfl | rfl
    · exact hp' _ _ _ _ (2 * np / 3) (by simp) (by omega) (by omega) (by omega) (by omega) (by omega)
    · exact hp' _ _ _ _ (np / 3) (by simp) (by omega) (by omega) (by omega) (by omega) (by omega)
  split
  · rename_i h
    subst h
    simp only [List.sum_cons, List.sum_nil] at hsum
    apply all_noill
    intro a ha
    simp only [List.mem_cons, List.not_mem_nil, or_false] at ha
    rcases ha with rfl | rfl
    · exact hp' _ _ _ _ (np / 3) (by simp) (by omega) (by omega) (by omega) (by omega) (by omega)
    · exact hp' _ _ _ _ (2 * np / 3) (by simp) (by omega) (by omega) (by omega) (by omega) (by omega)
  split
  · rename_i h
    subst h
    simp only [List.sum_cons, List.sum_nil] at hsum
    have h0 : np / 4 ≠ 0 ∨ np / 4 = 0 := by omega
    apply all_noill
    intro a ha
    simp only [List.mem_cons, List.not_mem_nil, or_false] at ha
    rcases ha with rfl | rfl | rfl
    · exact hp' _ _ _ _ (np / 2) (by simp) (by omega) (by omega) (by omega) (by omega) (by omega)
    · exact hp' _ _ _ _ (np / 4) (by simp) (by omega) (by omega) (by omega) (by omega) (by omega)
    · exact hp' _ _ _ _ (np / 4) (by simp) (by omega) (by omega) (by omega) (by omega) (by omega)
  split
  · rename_i h
    subst h
    simp only [List.sum_cons, List.sum_nil] at hsum
    apply all_noill
    intro a ha
    simp only [List.mem_cons, List.not_mem_nil, or_false] at ha
    rcases ha with rfl | rfl | rfl
    · exact hp' _ _ _ _ (np / 4) (by simp) (by omega) (by omega) (by omega) (by omega) (by omega)
    · exact hp' _ _ _ _ (np / 4) (by simp) (by omega) (by omega) (by omega) (by omega) (by omega)
    · exact hp' _ _ _ _ (np / 2) (by simp) (by omega) (by omega) (by omega) (by omega) (by omega)
  split
  · rename_i h
    subst h
    simp only [List.sum_cons, List.sum_nil] at hsum
    apply all_noill
    intro a ha
    simp only [List.mem_cons, List.not_mem_nil, or_false] at ha
    rcases ha with rfl | rfl | rfl
    · exact hp' _ _ _ _ (np / 4) (by simp) (by omega) (by omega) (by omega) (by omega) (by omega)
    · exact hcen' (by omega) (by simp)
    · exact hp' _ _ _ _ (np / 4) (by simp) (by omega) (by omega) (by omega) (by omega) (by omega)
  split
  · rename_i h
    obtain ⟨h2, h3⟩ := all_eq_replicate (by omega) hsum hnp h
    apply all_noill
    intro a ha
    simp only [List.mem_cons, List.not_mem_nil, or_false] at ha
    rcases ha with rfl | rfl | rfl | rfl <;>
      exact hp' _ _ _ _ (np / 4) (by rw [h3]; simp) (by omega) h2 (by omega) (by omega) (by omega)
  · exact hl

/-- No part is one of those i386 stores in two registers. -/
def NoExc (t : Target) (T : Elem) (sizes : List Nat) : Prop := ∀ n ∈ sizes, ¬ Exc t T n

theorem splitSizes_noill_fixed {t : Target} (hc : t.Consistent) {T : Elem} (hT : T.Ok) (cp : List Nat → Bool)
    (addr : List Nat → Nat) (junk : Reg) (sizes : List Nat) (x : Obj) (hx : Fx t T x) (hpos : 0 < size x)
    (hsum : sizes.sum = size x) (h0 : ∀ n ∈ sizes, 0 < n) (he : NoExc t T sizes) :
    splitSizes t T cp addr junk true sizes x ≠ .ill := by
  induction sizes generalizing x with
  | nil => simp at hsum; omega
  | cons n0 ns ih =>
    cases x with
    | nil => simp [size] at hpos
    | cons m ms =>
      obtain ⟨a1, a2, a3, a4⟩ := hx.head hc hT
      obtain ⟨_, _, _, hx'⟩ := hx.cons hc hT
      have hsz := size_cons m ms
      unfold splitSizes
      dsimp only
      rw [if_neg (by simpa using hsum)]
      split
      · exact all_noill (fun p _ => gen_noill _ _ _ _)
      split
      · rename_i hn
        have : ns = [] := by
          cases ns with
          | nil => rfl
          | cons a l =>
            have := h0 a (by simp)
            simp only [List.sum_cons] at hsum; omega
        rw [if_pos this]; simp
      rename_i hne
      have hpart : ∀ idx total comb n, size (m :: ms) % total = 0 → 0 < total → total ≤ size (m :: ms) → idx + comb ≤ total →
          size (m :: ms) / total * comb ∈ n0 :: ns → kindOf t T (size (m :: ms) / total * comb) = some .native →
          fromReg T.size n (extractPart t T (cp (n0 :: ns)) junk true idx total comb (m :: ms)) ≠ .ill := by
        intro idx total comb n hd ht htn hle hmem hk
        exact fromReg_noill (extractTuple_noill hc hT _ junk (m :: ms) hx idx total comb hle ht htn hd hk (he _ hmem))
      split
      · rename_i h1
        rw [if_neg (by rw [← h1]; exact a4)]
        have hsum' : ns.sum = size ms := by simp only [List.sum_cons] at hsum; omega
        have := ih ms hx' (by omega) hsum' (fun n hn => h0 n (by simp [hn])) (fun n hn => he n (by simp [hn]))
        generalize splitSizes t T cp addr junk true ns ms = q at this
        cases q with
        | ill => exact absurd rfl this
        | ub => simp [Res.bind]
        | ok q => simp [Res.bind]
      · apply patterns_noill' _ hpos _ hsum _ _ _ hpart
        · intro h4 hmem hk
          apply fromReg_noill
          unfold extractCenter
          split
          · rename_i m' heq
            cases heq
            have : m.n = size [m] := by simp [size]
            exact centerNative_noill junk (by rw [this]; exact h4) a3
          · rename_i hnot
            have e2 : size (m :: ms) / 4 * 2 = size (m :: ms) / 2 := by omega
            exact extractTuple_noill hc hT _ junk (m :: ms) hx 1 4 2 (by omega) (by omega) (by omega) h4 (by rw [e2]; exact hk)
              (by rw [e2]; exact he _ hmem)
        · exact all_noill (fun p _ => load_noill _ _ _ _ _ _)

theorem splitV_noill_fixed {t : Target} (hc : t.Consistent) {T : Elem} (hT : T.Ok) (cp : Bool) (addr : Nat) (junk : Reg)
    (kind : Kind) (k : Nat) (x : Obj) (hx : Fx t T x) (hpos : 0 < size x) (hk : k ∣ size x)
    (hkind : kind = .native → kindOf t T k = some .native ∧ ¬ Exc t T k) :
    splitV t T cp addr junk true kind k x ≠ .ill := by
  have hkk : size x = size x / k * k := (Nat.div_mul_cancel hk).symm
  have hp : 0 < size x / k := by
    rcases Nat.eq_zero_or_pos (size x / k) with h | h
    · rw [h] at hkk; omega
    · exact h
  have hk0 : 0 < k := Nat.pos_of_ne_zero (by rintro rfl; simp at hp)
  unfold splitV
  dsimp only
  rw [if_neg (by simpa using hkk)]
  split
  · simp
  split
  · exact all_noill (fun i _ => gen_noill _ _ _ _)
  split
  · exact all_noill (fun i _ => load_noill _ _ _ _ _ _)
  split
  · exact all_noill (fun i _ => gen_noill _ _ _ _)
  split
  · exact all_noill (fun i _ => gen_noill _ _ _ _)
  · rename_i h1 h2
    obtain ⟨b1, b2⟩ := hkind (by
      cases kind with
      | scalar => exact absurd rfl h1
      | fixed => exact absurd rfl h2
      | native => rfl)
    refine all_noill (fun i hi => fromReg_noill ?_)
    have hi := List.mem_range.1 hi
    have hdiv : size x / (size x / k) * 1 = k := by
      generalize hq : size x / k = q at *
      rw [hkk, Nat.mul_div_cancel_left _ hp, Nat.mul_one]
    refine extractTuple_noill hc hT _ junk x hx i _ 1 (by omega) hp (Nat.div_le_self _ _) ?_ (by rw [hdiv]; exact b1)
      (by rw [hdiv]; exact b2)
    exact Nat.mod_eq_zero_of_dvd ⟨k, hkk⟩

end StdSimd.Split
