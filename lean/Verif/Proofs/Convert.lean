import Verif.Proofs.ConvertShape
import Verif.Proofs.TupleMem
import Verif.Proofs.Util
/-! # Proofs about the conversion functions -/
namespace StdSimd.Convert
open Abi Tuple
variable {α β : Type}

/-! ### lists -/

theorem length_pad (junk : Nat → α) (n : Nat) (x : List α) : (pad junk n x).length = n := by simp [pad]

theorem pad_take (junk : Nat → α) {n k : Nat} {x : List α} (hk : k ≤ n) (hx : k ≤ x.length) : (pad junk n x).take k = x.take k := by
  apply List.ext_getElem?
  intro i
  rcases Nat.lt_or_ge i k with h | h
  · rw [List.getElem?_take_of_lt h, List.getElem?_take_of_lt h]
    unfold pad
    rw [List.getElem?_map, List.getElem?_range (by omega), Option.map_some, List.getElem?_eq_getElem (show i < x.length by omega)]; rfl
  · rw [List.getElem?_eq_none (by simp; omega), List.getElem?_eq_none (by simp; omega)]

theorem pad_self (junk : Nat → α) {n : Nat} {x : List α} (hx : x.length = n) : pad junk n x = x := by
  have := pad_take junk (Nat.le_refl n) (Nat.le_of_eq hx.symm)
  rwa [List.take_of_length_le (by rw [length_pad]; omega), List.take_of_length_le (by omega)] at this

theorem mapM_take {k : Nat} {x : List α} (h : k ≤ x.length) : (List.range k).mapM (fun (i : Nat) => x[i]?) = some (x.take k) := by
  cases x with
  | nil => have : k = 0 := by simpa using h
           subst this; rfl
  | cons a x =>
    rw [mapM_some _ (fun (i : Nat) => ((a :: x)[i]?).getD a)]
    · congr 1
      apply List.ext_getElem?
      intro i
      rcases Nat.lt_or_ge i k with h' | h'
      · rw [List.getElem?_take_of_lt h', List.getElem?_map, List.getElem?_range h', Option.map_some,
          List.getElem?_eq_getElem (show i < (a :: x).length by omega)]; rfl
      · rw [List.getElem?_eq_none (by simp; omega), List.getElem?_eq_none (by simp at *; omega)]
    · intro i hi
      have hi := List.mem_range.1 hi
      rw [List.getElem?_eq_getElem (show i < (a :: x).length by omega)]; rfl

theorem length_flatten_const {xs : List (List α)} {k : Nat} (h : ∀ x ∈ xs, x.length = k) : xs.flatten.length = xs.length * k := by
  induction xs with
  | nil => simp
  | cons x xs ih =>
    rw [List.flatten_cons, List.length_append, ih (fun y hy => h y (by simp [hy])), h x (by simp), List.length_cons, Nat.succ_mul]; omega

/-! ### one register -/

theorem extract_spec (c : Ctx α β) {t : Target} {T : Elem} (hT : T.Ok) {n off len : Nat} {v : List α} (h1 : off + len ≤ n)
    (h2 : n ≤ v.length) : ∃ p, extract c t T n off len v = some p ∧ p.length = vecFull t T len ∧
      p.take len = (v.drop off).take len := by
  refine ⟨_, if_pos ⟨h1, h2⟩, length_pad _ _ _, ?_⟩
  rw [pad_take _ (vecFull_ge hT len) (by simp; omega), List.take_take, Nat.min_self]

theorem braced_spec (zero : β) {full : Nat} {xs : List β} (h : xs.length ≤ full) :
    ∃ r, braced zero full xs = some r ∧ r.length = full ∧ r.take xs.length = xs := by
  refine ⟨_, if_pos h, by simp; omega, ?_⟩
  rw [List.take_append_of_le_length (Nat.le_refl _), List.take_length]

theorem convertIdx_spec (c : Ctx α β) {full k : Nat} {xs : List (List α)} (h1 : 1 ≤ xs.length) (h16 : xs.length ≤ 16)
    (hk : ∀ x ∈ xs, k ≤ x.length) (hf : xs.length * k ≤ full) :
    ∃ r, convertIdx c full k xs = some r ∧ r.length = full ∧
      r.take (xs.length * k) = (xs.map (fun (x : List α) => x.take k)).flatten.map c.cast := by
  have e : xs.mapM (fun (x : List α) => (List.range k).mapM (fun (i : Nat) => x[i]?)) = some (xs.map (fun (x : List α) => x.take k)) :=
    mapM_some _ _ _ (fun x hx => mapM_take (hk x hx))
  have hlen : ((xs.map (fun (x : List α) => x.take k)).flatten.map c.cast).length = xs.length * k := by
    rw [List.length_map, length_flatten_const (k := k), List.length_map]
    intro y hy
    obtain ⟨x, hx, rfl⟩ := List.mem_map.1 hy
    have := hk x hx
    simp; omega
  obtain ⟨r, hr, hl, ht⟩ := braced_spec c.zeroB (full := full) (xs := (xs.map (fun (x : List α) => x.take k)).flatten.map c.cast) (by omega)
  refine ⟨r, ?_, hl, by rw [← hlen]; exact ht⟩
  unfold convertIdx
  rw [if_neg (by omega), e]
  exact hr

theorem vectorConvert_one (c : Ctx α β) {full n m : Nat} {x : List α} (hx : x.length = m) (hnm : n ≤ m) :
    ∃ r, vectorConvert c full n m [x] = some r ∧ r.length = full ∧
      r.take (min full n) = (x.take (min full n)).map c.cast := by
  unfold vectorConvert
  split
  · rename_i h
    have hb : bitCeil 1 = 1 := by decide
    simp only [List.length_singleton, hb, Nat.sub_self, List.replicate_zero, List.append_nil, convertX86]
    refine ⟨_, if_pos hx, length_pad _ _ _, ?_⟩
    rw [h.1, pad_take _ (by omega) (by simp; omega), ← List.map_take, List.take_take, Nat.min_self]
  · simp only [List.length_singleton, if_true]
    obtain ⟨r, h1, h2, h3⟩ := convertIdx_spec c (full := full) (k := min full n) (xs := [x]) (by simp) (by simp)
      (by intro y hy; rw [List.mem_singleton.1 hy]; omega) (by simp; omega)
    refine ⟨r, h1, h2, ?_⟩
    simpa using h3

theorem bitCeil_cases {k : Nat} (h2 : 2 ≤ k) (h16 : k ≤ 16) : bitCeil k ∈ [2, 4, 8, 16] ∧ k ≤ bitCeil k := by
  have : k = 2 ∨ k = 3 ∨ k = 4 ∨ k = 5 ∨ k = 6 ∨ k = 7 ∨ k = 8 ∨ k = 9 ∨ k = 10 ∨ k = 11 ∨ k = 12 ∨ k = 13 ∨ k = 14 ∨ k = 15 ∨
    k = 16 := by omega
  rcases this with rfl | rfl | rfl | rfl | rfl | rfl | rfl | rfl | rfl | rfl | rfl | rfl | rfl | rfl | rfl <;> decide

theorem vectorConvert_many (c : Ctx α β) {full m : Nat} {xs : List (List α)} (h2 : 2 ≤ xs.length) (h16 : xs.length ≤ 16)
    (hx : ∀ x ∈ xs, x.length = m) (hf : bitCeil xs.length * m ≤ full) :
    ∃ r, vectorConvert c full m m xs = some r ∧ r.length = full ∧ r.take (xs.length * m) = xs.flatten.map c.cast := by
  obtain ⟨hb, hle⟩ := bitCeil_cases h2 h16
  have hle' := Nat.mul_le_mul_right m hle
  have hfl := length_flatten_const hx
  unfold vectorConvert
  split
  · have hlen : (xs ++ List.replicate (bitCeil xs.length - xs.length) (List.replicate m c.zeroA)).length = bitCeil xs.length := by
      simp; omega
    have hall : ∀ x ∈ xs ++ List.replicate (bitCeil xs.length - xs.length) (List.replicate m c.zeroA), x.length = m := by
      intro x h
      rcases List.mem_append.1 h with h | h
      · exact hx x h
      · rw [List.eq_of_mem_replicate h]; simp
    unfold convertX86
    split
    · rename_i h; rw [h] at hlen; simp at hlen; rw [← hlen] at hb; simp at hb
    · rw [hlen, if_pos ⟨hb, hf, hall⟩]
      refine ⟨_, rfl, length_pad _ _ _, ?_⟩
      rw [pad_take _ (by omega) (by rw [List.length_map, length_flatten_const hall, hlen]; omega), List.flatten_append, List.map_append,
        List.take_append_of_le_length (by rw [List.length_map, hfl]; exact Nat.le_refl _),
        List.take_of_length_le (by rw [List.length_map, hfl]; exact Nat.le_refl _)]
  · rw [if_neg (by omega)]
    obtain ⟨r, h1, h2, h3⟩ := convertIdx_spec c (full := full) (k := m) (xs := xs) (by omega) h16
      (fun x h => Nat.le_of_eq (hx x h).symm) (by omega)
    refine ⟨r, h1, h2, ?_⟩
    rw [h3]
    congr 2
    conv => rhs; rw [← List.map_id xs]
    exact List.map_congr_left (fun x h => List.take_of_length_le (Nat.le_of_eq (hx x h)))

/-! ### `__convert_all` -/

theorem flatten_chunks (v : List α) (k : Nat) : ∀ (q off : Nat),
    ((List.range q).map (fun (i : Nat) => (v.drop (i * k + off)).take k)).flatten = (v.drop off).take (q * k) := by
  intro q
  induction q with
  | zero => intro off; simp
  | succ q ih =>
    intro off
    rw [List.range_succ, List.map_append, List.flatten_append, ih, Nat.succ_mul, List.take_add, List.drop_drop]
    simp [Nat.add_comm]

theorem convertAll_spec (c : Ctx α β) {t : Target} (hc : t.Consistent) {T U : Elem} (hT : T.Ok) (hU : U.Ok) {n off : Nat}
    (ho : off < n) {v : List α} (hv : n ≤ v.length) {k : Nat} (hk : k = size U (bestAbi t U (n - off))) :
    ∃ cs, convertAll c t T U k n off v = some cs ∧ cs.length = (n - off) / k ∧ (∀ r ∈ cs, r.length = vecFull t U k) ∧
      (cs.map (fun (r : List β) => r.take k)).flatten = ((v.drop off).take ((n - off) / k * k)).map c.cast := by
  have hf := first hc hU (n := n - off) (by omega)
  have hk1 := hf.pos
  rw [← hk] at hk1
  have hkn := hf.le
  rw [← hk] at hkn
  have hge := vecFull_ge (t := t) hU k
  unfold convertAll
  by_cases h1 : k = 1
  · rw [if_pos h1, if_pos (by omega)]
    subst h1
    have hex : ∀ i ∈ List.range (n - off), i + off < v.length := fun i hi => by have := List.mem_range.1 hi; omega
    have e : (List.range (n - off)).mapM (fun (i : Nat) => (v[i + off]?).map (fun a => [c.cast a])) =
        some ((List.range (n - off)).map (fun (i : Nat) => ((v.drop (i * 1 + off)).take 1).map c.cast)) := by
      apply mapM_some
      intro i hi
      have := hex i hi
      rw [Nat.mul_one, List.getElem?_eq_getElem this, List.drop_eq_getElem_cons this]; rfl
    refine ⟨_, e, by simp, ?_, ?_⟩
    · intro r hr
      obtain ⟨i, hi, rfl⟩ := List.mem_map.1 hr
      have := hex i hi
      simp [vecFull]; omega
    · rw [← flatten_chunks v 1, List.map_flatten, List.map_map, List.map_map, Nat.div_one]
      congr 1
      apply List.map_congr_left
      intro i _
      simp [List.take_take]
  · rw [if_neg h1]
    simp only []
    split
    · rename_i hgt
      have hfull : vecFull t U k = k := by
        have := hf.full (by rw [← hk]; omega)
        rwa [← hk] at this
      rw [hfull] at hgt ⊢
      have hq := Nat.div_mul_le_self (n - off) k
      have hin : ∀ i ∈ List.range ((n - off) / k), i * k + off + k ≤ n := by
        intro i hi
        have hi := List.mem_range.1 hi
        have : (i + 1) * k ≤ (n - off) / k * k := Nat.mul_le_mul_right _ hi
        rw [Nat.succ_mul] at this
        omega
      have hone : ∀ i ∈ List.range ((n - off) / k), ∃ r, (do
          let p ← extract c t T n (i * k + off) k v
          vectorConvert c k k (vecFull t T k) [p]) = some r ∧ r.length = k ∧ r.take k = ((v.drop (i * k + off)).take k).map c.cast := by
        intro i hi
        obtain ⟨p, e1, e2, e3⟩ := extract_spec c (t := t) hT (hin i hi) hv
        obtain ⟨r, r1, r2, r3⟩ := vectorConvert_one c (full := k) e2 (vecFull_ge hT k)
        refine ⟨r, by rw [e1]; exact r1, r2, ?_⟩
        rw [Nat.min_self, e3] at r3
        exact r3
      have hmap : ∃ cs, (List.range ((n - off) / k)).mapM (fun (i : Nat) => do
          let p ← extract c t T n (i * k + off) k v
          vectorConvert c k k (vecFull t T k) [p]) = some cs ∧ cs =
            (List.range ((n - off) / k)).map (fun (i : Nat) => ((v.drop (i * k + off)).take k).map c.cast) := by
        refine ⟨_, ?_, rfl⟩
        apply mapM_some
        intro i hi
        obtain ⟨r, r1, r2, r3⟩ := hone i hi
        rw [r1, ← r3, List.take_of_length_le (Nat.le_of_eq r2)]
      obtain ⟨cs, h1, h2⟩ := hmap
      refine ⟨cs, h1, by rw [h2]; simp, ?_, ?_⟩
      · intro r hr
        rw [h2] at hr
        obtain ⟨i, hi, rfl⟩ := List.mem_map.1 hr
        have := hin i hi
        simp; omega
      · rw [h2, ← flatten_chunks v k, List.map_flatten, List.map_map, List.map_map]
        congr 1
        apply List.map_congr_left
        intro i _
        simp [List.take_take]
    · rename_i hle
      have hkeq : k = n - off := by
        rcases Nat.lt_or_ge k (n - off) with h | h
        · have := hf.full (by rw [← hk]; omega)
          rw [← hk] at this; omega
        · omega
      have hdiv : (n - off) / k = 1 := by rw [← hkeq, Nat.div_self (by omega)]
      rw [hdiv, Nat.one_mul]
      split
      · rename_i h0
        obtain ⟨r, r1, r2, r3⟩ := vectorConvert_one c (full := vecFull t U k) (n := n) (x := v) rfl hv
        rw [h0] at hkeq ⊢
        have hm : min (vecFull t U k) n = k := by omega
        rw [hm] at r3
        rw [r1]
        refine ⟨[r], rfl, rfl, by simpa using r2, by simpa using r3⟩
      · obtain ⟨p, e1, e2, e3⟩ := extract_spec c (t := t) hT (show off + (n - off) ≤ n by omega) hv
        obtain ⟨r, r1, r2, r3⟩ := vectorConvert_one c (full := vecFull t U k) e2 (vecFull_ge hT (n - off))
        have hm : min (vecFull t U k) (n - off) = n - off := by omega
        rw [hm, e3] at r3
        rw [e1]
        simp only [Option.bind_eq_bind, Option.bind_some]
        rw [r1]
        refine ⟨[r], rfl, rfl, by simpa using r2, ?_⟩
        rw [← hkeq] at r3
        simpa using r3

end StdSimd.Convert
