import Verif.Proofs.ConvertTuple
import Verif.Proofs.FixedSize
/-! # `_SimdConverter` for `fixed_size` -/
namespace StdSimd.Convert
open Abi Tuple
variable {α β : Type}

theorem fixedCvt_eq (c : Ctx α β) (t : Target) (T U : Elem) {n : Nat} (h0 : n ≠ 0) (f : List α) (xs : Tup α) :
    fixedCvt c t T U false n (f :: xs) =
      (let a := bestAbi t T n
       let r := bestAbi t U n
       let sa := size T a
       let sr := size U r
       let as := storage t T (n - sa)
       let rs := storage t U (n - sr)
       let ga := Geo.ofTag t T a
       let gr := Geo.ofTag t U r
       if r = .scalar then
         if rs.all (· == .scalar) then
           (List.range n).mapM (fun (i : Nat) => (Tuple.get (regs t T n) (f :: xs) i).map (fun (v : α) => [c.cast v]))
         else none
       else if sa = sr then do
         let y ← nativeCvt c t U ga gr [f]
         if as.isEmpty then (if rs.isEmpty then pure [y] else none)
         else do
           let ys ← fixedCvt c t T U false (n - sa) xs
           if storage t U (n - sa) = rs then pure (y :: ys) else none
       else if sa > sr then
         if as.isEmpty then do
           let arrs ← stages c t T U n f 4 0 (r :: rs)
           toTuple c t U (n + 5) n 0 false [] arrs
         else do
           let chunks ← convertAll c t T U sr sa 0 f
           let y ← toTuple c t U (n + 5) sa 0 false [] [⟨false, chunks⟩]
           let ys ← fixedCvt c t T U false (n - sa) xs
           if storage t U sa ++ storage t U (n - sa) = r :: rs then pure (y ++ ys) else none
       else if rs.isEmpty ∧ n % sa ≠ 0 then
         if isPartial t U r then do
           let l ← (List.range n).mapM (fun (i : Nat) => (Tuple.get (regs t T n) (f :: xs) i).map c.cast)
           let v ← braced c.zeroB (vecFull t U sr) l
           pure [v]
         else none
       else do
         if as.isEmpty then none
         let k := (sr + sa - 1) / sa
         if ((a :: as).take k).length = k ∧ ((a :: as).take k).all (· == a) then do
           let y ← nativeCvt c t U ga gr ((f :: xs).take k)
           if rs.isEmpty then pure [y]
           else do
             let j ← popFront sr ((a :: as).map (Abi.size T))
             if (a :: as).drop j = storage t T (n - sr) ∧ rs = storage t U (n - sr) then do
               let ys ← fixedCvt c t T U false (n - sr) ((f :: xs).drop j)
               pure (y :: ys)
             else none
         else none) := by
  rw [fixedCvt, if_neg (by simp), dif_neg h0]

theorem nativeCvt_vec (c : Ctx α β) (t : Target) (U : Elem) {a r : Geo} (ha : 2 ≤ a.size) (hr : 2 ≤ r.size) (xs : List (List α)) :
    nativeCvt c t U a r xs = vectorConvert c (vecFull t U r.size) a.size a.full xs := by
  cases a <;> cases r <;> first | rfl | (simp [Geo.size] at ha; done) | (simp [Geo.size] at hr; done)

theorem nativeCvt_scalar (c : Ctx α β) (t : Target) (U : Elem) {r : Geo} (hr : 2 ≤ r.size) (xs : List (List α)) (hl : xs.length = r.size)
    (h1 : ∀ x ∈ xs, x.length = 1) :
    nativeCvt c t U .scalar r xs = braced c.zeroB (vecFull t U r.size) (xs.flatten.map c.cast) := by
  cases r <;> first | exact if_pos ⟨hl, h1⟩ | (simp [Geo.size] at hr; done)

theorem elem_pow {t : Target} {U : Elem} (hU : U.Ok) (h : 2 ≤ vecSizeof t U / U.size) : ∃ i, U.size = 2 ^ i := by
  have hv : vecSizeof t U ≠ U.size := by
    intro hv; rw [hv, Nat.div_self (elem_pos hU)] at h; omega
  obtain ⟨hs, _⟩ := vec_cases hU hv
  rcases four_values hs with h | h | h | h
  · exact ⟨0, h⟩
  · exact ⟨1, h⟩
  · exact ⟨2, h⟩
  · exact ⟨3, h⟩

theorem vecBytes_ge' (t : Target) (s n : Nat) : bitCeil (n * s) ≤ vecBytes t s n := by
  unfold vecBytes
  simp only []
  split
  · rename_i h; simp at h; omega
  · split <;> omega

theorem bitCeil_pow (n : Nat) : ∃ e, bitCeil n = 2 ^ e := by
  unfold bitCeil
  split
  · exact ⟨0, rfl⟩
  · exact ⟨_, rfl⟩

theorem isPartial_of {t : Target} {U : Elem} (hU : U.Ok) {r : Tag} (hv : valid t U r = true) (hnf : ∀ m, r ≠ .fixed m)
    (hw : size U r ≤ vecSizeof t U / U.size) (hn : ∀ j, size U r ≠ 2 ^ j) : isPartial t U r = true := by
  have hs := elem_pos hU
  have h1 : size U r ≠ 1 := hn 0
  have hne : 2 ≤ size U r → vecBytes t U.size (size U r) / U.size ≠ size U r := by
    intro h2 h
    obtain ⟨i, hi⟩ := elem_pow (t := t) hU (by omega)
    obtain ⟨e, he⟩ : ∃ e, vecBytes t U.size (size U r) = 2 ^ e := by
      unfold vecBytes
      simp only []
      split
      · exact ⟨4, rfl⟩
      · split
        · exact ⟨i + 1, by rw [hi, Nat.pow_succ, Nat.mul_comm]⟩
        · exact bitCeil_pow _
    have hge := vecBytes_ge t U.size (size U r)
    have hile : i ≤ e := by
      have : 2 ^ i ≤ 2 ^ e := by
        rw [← he, ← hi]
        exact Nat.le_trans (Nat.le_mul_of_pos_left _ (by omega)) hge
      exact (Nat.pow_le_pow_iff_right (by omega)).1 this
    rw [he, hi, Nat.pow_div hile (by omega)] at h
    exact hn _ h.symm
  have h2 := (valid_gt t U)
  cases r with
  | scalar => exact absurd rfl h1
  | fixed m => exact absurd rfl (hnf m)
  | builtin b => have := hne (h2.2 b hv); simp only [isPartial, fullSize, hv, if_true]; simpa using this
  | btmsk b => have := hne (h2.1 b hv); simp only [isPartial, fullSize, hv, if_true]; simpa using this

theorem fixedCvt_spec (c : Ctx α β) {t : Target} (hc : t.Consistent) {T U : Elem} (hT : T.Ok) (hU : U.Ok) :
    ∀ (n : Nat) (x : Tup α), 1 ≤ n → Wf (regs t T n) x →
    ∃ y, fixedCvt c t T U false n x = some y ∧ Wf (regs t U n) y ∧ lanes (regs t U n) y = (lanes (regs t T n) x).map c.cast := by
  intro n
  induction n using Nat.strongRecOn with
  | _ n ih =>
  intro x h1 hx
  have hn0 : n ≠ 0 := by omega
  have hA := first hc hT h1
  have hR := first hc hU h1
  obtain ⟨gaf, gas⟩ := geo_full hT hA.valid hA.notFixed
  obtain ⟨grf, grs⟩ := geo_full hU hR.valid hR.notFixed
  obtain ⟨_, okT, totT, _⟩ := regs_facts hc hT h1
  have hxA := hx
  rw [regs_pos hn0] at hxA
  obtain ⟨f, xs, rfl, hfl, hxs⟩ := wf_cons hxA
  have hlen := length_lanes okT hx
  rw [totT] at hlen
  have hlA : lanes (regs t T n) (f :: xs) = f.take (size T (bestAbi t T n)) ++ lanes (regs t T (n - size T (bestAbi t T n))) xs := by
    rw [regs_pos hn0, lanes_cons, gas]
  have hget : ∀ i, i < n → Tuple.get (regs t T n) (f :: xs) i = (lanes (regs t T n) (f :: xs))[i]? :=
    fun i hi => get_eq okT hx (by rw [totT]; exact hi)
  have hgeT := vecFull_ge (t := t) hT (size T (bestAbi t T n))
  have hgeU := vecFull_ge (t := t) hU (size U (bestAbi t U n))
  have hpa := hA.pos
  have hpr := hR.pos
  have hla := hA.le
  have hlr := hR.le
  rw [fixedCvt_eq c t T U hn0]
  simp only []
  split
  · -- all results are scalars
    rename_i hsc
    have hall : storage t U n = List.replicate n .scalar := by
      rcases hR.scalar hsc with h | h
      · subst h
        rw [storage_pos (by omega), hsc]; simp [size, storage_zero]
      · have := storage_rep hc hU h1 n (by rw [hsc]; simp [size])
        rw [this, hsc]; simp [size, storage_zero]
    have hrs : (storage t U (n - size U (bestAbi t U n))).all (· == .scalar) = true := by
      have := storage_pos (t := t) (T := U) hn0
      rw [hall] at this
      cases n with
      | zero => omega
      | succ m =>
        rw [List.replicate_succ] at this
        injection this with _ h
        rw [← h]; simp
    rw [if_pos hrs]
    have hregs : regs t U n = List.replicate n .scalar := by unfold regs; rw [hall, List.map_replicate]; rfl
    have e : (List.range n).mapM (fun (i : Nat) => (Tuple.get (regs t T n) (f :: xs) i).map (fun (v : α) => [c.cast v])) =
        some ((List.range n).map (fun (i : Nat) => (((lanes (regs t T n) (f :: xs)).drop (i * 1 + 0)).take 1).map c.cast)) := by
      apply mapM_some
      intro i hi
      have hi := List.mem_range.1 hi
      rw [hget i hi, Nat.mul_one, Nat.add_zero, List.getElem?_eq_getElem (by omega), List.drop_eq_getElem_cons (by omega)]; rfl
    refine ⟨_, e, ?_, ?_⟩
    · rw [hregs, wf_replicate]
      refine ⟨by simp, ?_⟩
      intro r hr
      obtain ⟨i, hi, rfl⟩ := List.mem_map.1 hr
      have hi := List.mem_range.1 hi
      simp [Geo.full]; omega
    · rw [hregs]
      rw [lanes_replicate' (by simp)]
      have := flatten_chunks (lanes (regs t T n) (f :: xs)) 1 n 0
      rw [List.drop_zero, Nat.mul_one, List.take_of_length_le (by omega)] at this
      conv => rhs; rw [← this]
      rw [List.map_flatten, List.map_map, List.map_map]
      congr 1
      apply List.map_congr_left
      intro i _
      simp [Geo.size, List.take_take]
  · rename_i hsc
    have hsr2 : 2 ≤ size U (bestAbi t U n) := by
      have := (not_congr (size_one hR.valid hR.notFixed)).2 hsc
      omega
    split
    · -- equal sizes
      rename_i heq
      rw [nativeCvt_vec c t U (by omega) (by omega)]
      obtain ⟨y, y1, y2, y3⟩ := vectorConvert_one c (full := vecFull t U (Geo.ofTag t U (bestAbi t U n)).size) (x := f)
        (n := (Geo.ofTag t T (bestAbi t T n)).size) hfl (by omega)
      rw [y1]
      simp only [Option.bind_eq_bind, Option.bind_some]
      have hmin : min (vecFull t U (Geo.ofTag t U (bestAbi t U n)).size) (Geo.ofTag t T (bestAbi t T n)).size = size T (bestAbi t T n) := by
        rw [grs, gas]; omega
      rw [hmin] at y3
      rw [grs, ← grf] at y2
      by_cases hs : size T (bestAbi t T n) = n
      · have e1 : n - size T (bestAbi t T n) = 0 := by omega
        have e2 : n - size U (bestAbi t U n) = 0 := by omega
        rw [e1, e2, storage_zero, storage_zero]
        refine ⟨[y], rfl, ?_, ?_⟩
        · rw [regs_pos hn0, e2, regs_zero]; exact ⟨y2, trivial⟩
        · rw [hlA, e1, regs_zero]
          rw [e1, regs_zero] at hxs
          rw [wf_nil hxs]
          rw [regs_pos hn0, e2, regs_zero, lanes_cons, grs, ← heq, y3]
          simp [lanes]
      · obtain ⟨ys, z1, z2, z3⟩ := ih (n - size T (bestAbi t T n)) (by omega) xs (by omega) hxs
        have hne : (storage t T (n - size T (bestAbi t T n))).isEmpty = false := by rw [storage_pos (by omega)]; rfl
        rw [hne, z1]
        simp only [Bool.false_eq_true, if_false, Option.bind_some]
        rw [if_pos (by rw [heq])]
        refine ⟨y :: ys, rfl, ?_, ?_⟩
        · rw [regs_pos hn0, ← heq]; exact ⟨y2, z2⟩
        · rw [hlA, regs_pos hn0, lanes_cons, grs, ← heq, y3, z3, List.map_append]
    · rename_i hne
      split
      · -- one register to several
        rename_i hgt
        by_cases hs : size T (bestAbi t T n) = n
        · have e1 : n - size T (bestAbi t T n) = 0 := by omega
          rw [e1, storage_zero]
          rw [e1, regs_zero] at hxs
          have := wf_nil hxs
          subst this
          obtain ⟨arrs, a1, a2, a3, a4, a5, a6, a7⟩ := stages_spec c hc hT hU (n := n) (x := f) (by rw [hfl, gaf]; omega) 4 0 (by omega)
            (fin_three hc hU (by omega))
          rw [Nat.sub_zero] at a1 a6 a7
          rw [← storage_pos hn0, a1]
          simp only [List.isEmpty_nil, if_true, Option.bind_eq_bind, Option.bind_some]
          have hfn : arrs.flatMap Arr.regs ≠ [] := by
            intro h; rw [h, regs_pos hn0] at a6; exact a6.elim
          have hlen' := wf_length a6
          have hls : (regs t U n).length ≤ n := by unfold regs; rw [List.length_map]; exact length_storage_le t U n
          have := toTuple_spec c hc hU (n + 5) n [] arrs (by simp only [List.length_nil]; omega) hfn a6 (by simp) a4 a5
          refine ⟨_, this, a6, ?_⟩
          rw [List.nil_append, a7, hlA, e1, regs_zero, hs]
          simp [lanes]
        · have hfullA := hA.full (by omega)
          have hfullR := hR.full (by omega)
          obtain ⟨ja, hja⟩ := hA.pow (by omega)
          obtain ⟨jr, hjr⟩ := hR.pow (by omega)
          have hdvd : size U (bestAbi t U n) ∣ size T (bestAbi t T n) := by
            rw [hja, hjr]; apply Nat.pow_dvd_pow
            rw [hja, hjr] at hgt
            exact Nat.le_of_lt ((Nat.pow_lt_pow_iff_right (by omega)).1 hgt)
          obtain ⟨q, hq⟩ := hdvd
          have hrepm := hR.rep (size T (bestAbi t T n)) (by omega) (by omega)
          have hq1 : 1 ≤ q := by
            rcases Nat.eq_zero_or_pos q with h | h
            · rw [h] at hq; omega
            · exact h
          obtain ⟨cs, c1, c2, c3, c4⟩ := convertAll_spec c hc hT hU (n := size T (bestAbi t T n)) (off := 0) (v := f) (by omega)
            (by rw [hfl, gaf]; omega) (k := size U (bestAbi t U n)) (by rw [Nat.sub_zero, hrepm])
          rw [Nat.sub_zero] at c2 c4
          have hdiv : size T (bestAbi t T n) / size U (bestAbi t U n) = q := by rw [hq]; exact Nat.mul_div_cancel_left _ (by omega)
          have hstU : storage t U (size T (bestAbi t T n)) = List.replicate q (bestAbi t U n) :=
            storage_eq_replicate hc hU h1 (by rw [hq, Nat.mul_comm]) hq1 (by omega)
          have hregsU : regs t U (size T (bestAbi t T n)) = List.replicate q (Geo.ofTag t U (bestAbi t U n)) := by
            unfold regs; rw [hstU, List.map_replicate]
          have hwfc : Wf (regs t U (size T (bestAbi t T n))) cs := by
            rw [hregsU, wf_replicate]; exact ⟨by rw [c2, hdiv], fun r hr => by rw [c3 r hr, grf]⟩
          have hcs : cs ≠ [] := by intro h; rw [h] at c2; simp at c2; omega
          have hqn : q ≤ n := by
            have : q * 1 ≤ q * size U (bestAbi t U n) := Nat.mul_le_mul_left _ hpr
            rw [Nat.mul_comm q (size U _), ← hq] at this; omega
          have htt := toTuple_spec c hc hU (n + 5) (size T (bestAbi t T n)) [] [⟨false, cs⟩]
            (by simp; omega) (by simpa using hcs) (by simpa using hwfc) (by simp)
            (by intro a ha; rw [List.mem_singleton.1 ha]; exact ⟨hcs, fun _ r hr => by rw [c3 r hr]; omega, by intro h; cases h⟩)
            (by simp [List.dropLast])
          obtain ⟨ys, z1, z2, z3⟩ := ih (n - size T (bestAbi t T n)) (by omega) xs (by omega) hxs
          have hne' : (storage t T (n - size T (bestAbi t T n))).isEmpty = false := by rw [storage_pos (by omega)]; rfl
          rw [hne', c1]
          simp only [Bool.false_eq_true, if_false, Option.bind_eq_bind, Option.bind_some]
          rw [htt]
          simp only [Option.bind_some, z1]
          have hsplit := storage_rep hc hU h1 q (by rw [Nat.mul_comm, ← hq]; omega)
          rw [Nat.mul_comm q, ← hq] at hsplit
          rw [if_pos (by rw [hstU, ← storage_pos hn0, hsplit])]
          have hregsn : regs t U n = regs t U (size T (bestAbi t T n)) ++ regs t U (n - size T (bestAbi t T n)) := by
            rw [hregsU]; unfold regs; rw [hsplit, List.map_append, List.map_replicate]
          refine ⟨_, rfl, ?_, ?_⟩
          · rw [hregsn]; simpa using wf_append hwfc z2
          · rw [hregsn]
            have hl2 : lanes (regs t U (size T (bestAbi t T n))) cs = (f.take (size T (bestAbi t T n))).map c.cast := by
              have hcl : cs.length = q := by rw [c2, hdiv]
              rw [hregsU, ← hcl, lanes_replicate, grs, c4, List.drop_zero, hdiv, Nat.mul_comm q, ← hq]
            simp only [List.flatMap_cons, List.flatMap_nil, List.append_nil, List.nil_append]
            rw [lanes_append hwfc, hl2, z3, hlA, List.map_append]
      · -- several registers to one
        rename_i hng
        have hlt : size T (bestAbi t T n) < size U (bestAbi t U n) := by omega
        have hfullA := hA.full (by omega)
        obtain ⟨ja, hja⟩ := hA.pow (by omega)
        split
        · rename_i hcond
          obtain ⟨hemp, hmod⟩ := hcond
          have hsrn : size U (bestAbi t U n) = n := by
            rcases Nat.lt_or_ge (size U (bestAbi t U n)) n with h | h
            · rw [storage_pos (by omega)] at hemp; cases hemp
            · omega
          have hpart : isPartial t U (bestAbi t U n) = true := by
            apply isPartial_of hU hR.valid hR.notFixed hR.le_w
            intro j hj
            rw [hsrn] at hj
            apply hmod
            rw [hja, hj]
            apply Nat.mod_eq_zero_of_dvd
            apply Nat.pow_dvd_pow
            rw [hja, hsrn, hj] at hlt
            exact Nat.le_of_lt ((Nat.pow_lt_pow_iff_right (by omega)).1 hlt)
          rw [if_pos hpart]
          have e : (List.range n).mapM (fun (i : Nat) => (Tuple.get (regs t T n) (f :: xs) i).map c.cast) =
              some ((lanes (regs t T n) (f :: xs)).map c.cast) := by
            have := mapM_take (k := n) (x := (lanes (regs t T n) (f :: xs)).map c.cast) (by simp; omega)
            rw [List.take_of_length_le (by simp; omega)] at this
            rw [← this]
            apply mapM_congr'
            intro i hi
            rw [hget i (List.mem_range.1 hi), List.getElem?_map]
          rw [e]
          obtain ⟨r, r1, r2, r3⟩ := braced_spec c.zeroB (full := vecFull t U (size U (bestAbi t U n)))
            (xs := (lanes (regs t T n) (f :: xs)).map c.cast) (by simp; omega)
          simp only [Option.bind_eq_bind, Option.bind_some]
          rw [r1]
          have e2 : n - size U (bestAbi t U n) = 0 := by omega
          refine ⟨[r], rfl, ?_, ?_⟩
          · rw [regs_pos hn0, e2, regs_zero]; exact ⟨by rw [r2, grf], trivial⟩
          · rw [regs_pos hn0, e2, regs_zero, lanes_cons, grs, hsrn]
            rw [List.length_map, hlen] at r3
            rw [r3]; simp [lanes]
        · rename_i hcond
          have hneA : (storage t T (n - size T (bestAbi t T n))).isEmpty = false := by rw [storage_pos (by omega)]; rfl
          rw [hneA]
          simp only [Bool.false_eq_true, if_false]
          -- the number of argument registers
          have hdvd : size T (bestAbi t T n) ∣ size U (bestAbi t U n) := by
            rcases Nat.lt_or_ge (size U (bestAbi t U n)) n with h | h
            · obtain ⟨jr, hjr⟩ := hR.pow h
              rw [hja, hjr]; apply Nat.pow_dvd_pow
              rw [hja, hjr] at hlt
              exact Nat.le_of_lt ((Nat.pow_lt_pow_iff_right (by omega)).1 hlt)
            · have e2 : n - size U (bestAbi t U n) = 0 := by omega
              have hsrn : size U (bestAbi t U n) = n := by omega
              rw [e2, storage_zero] at hcond
              simp only [List.isEmpty_nil, true_and, Decidable.not_not] at hcond
              rw [hsrn]; exact Nat.dvd_of_mod_eq_zero hcond
          obtain ⟨q, hq⟩ := hdvd
          have hq2 : 2 ≤ q := by
            rcases Nat.lt_or_ge q 2 with h | h
            · have : q = 0 ∨ q = 1 := by omega
              rcases this with h | h <;> rw [h] at hq <;> omega
            · exact h
          have hdiv : (size U (bestAbi t U n) + size T (bestAbi t T n) - 1) / size T (bestAbi t T n) = q := by
            rw [hq, Nat.mul_comm, Nat.add_sub_assoc (by omega), Nat.mul_comm q, Nat.mul_add_div (by omega), Nat.div_eq_of_lt (by omega)]
            rfl
          have hqs : q * size T (bestAbi t T n) = size U (bestAbi t U n) := by rw [hq, Nat.mul_comm]
          have hsplit := storage_rep hc hT h1 q (by rw [hqs]; omega)
          rw [hqs] at hsplit
          rw [hdiv, ← storage_pos hn0, hsplit]
          have htake : (List.replicate q (bestAbi t T n) ++ storage t T (n - size U (bestAbi t U n))).take q =
              List.replicate q (bestAbi t T n) := List.take_left' (by simp)
          have hdrop : (List.replicate q (bestAbi t T n) ++ storage t T (n - size U (bestAbi t U n))).drop q =
              storage t T (n - size U (bestAbi t U n)) := List.drop_left' (by simp)
          rw [htake, if_pos (by simp)]
          have hregsn : regs t T n = List.replicate q (Geo.ofTag t T (bestAbi t T n)) ++ regs t T (n - size U (bestAbi t U n)) := by
            unfold regs; rw [hsplit, List.map_append, List.map_replicate]
          have hwt := wf_take hx q
          rw [hregsn, List.take_left' (by simp), List.drop_left' (by simp)] at hwt
          obtain ⟨hwt1, hwt2⟩ := hwt
          obtain ⟨hwl, hwe⟩ := wf_replicate.1 hwt1
          have hlt' : lanes (regs t T n) (f :: xs) = ((f :: xs).take q).flatten ++ lanes (regs t T (n - size U (bestAbi t U n))) ((f :: xs).drop q) := by
            conv => lhs; rw [← List.take_append_drop q (f :: xs), hregsn, lanes_append hwt1]
            congr 1
            rw [lanes_replicate' hwl]
            congr 1
            conv => rhs; rw [← List.map_id ((f :: xs).take q)]
            apply List.map_congr_left
            intro r hr
            rw [gas]; exact List.take_of_length_le (by rw [hwe r hr, gaf]; omega)
          have hcvt : ∃ y, nativeCvt c t U (Geo.ofTag t T (bestAbi t T n)) (Geo.ofTag t U (bestAbi t U n)) ((f :: xs).take q) = some y ∧
              y.length = (Geo.ofTag t U (bestAbi t U n)).full ∧ y.take (size U (bestAbi t U n)) = ((f :: xs).take q).flatten.map c.cast := by
            by_cases hsa : size T (bestAbi t T n) = 1
            · have hsc' := (size_one hA.valid hA.notFixed).1 hsa
              have hfl1 := length_flatten_const hwe
              rw [hsc'] at hwe hfl1 ⊢
              change ∀ x ∈ (f :: xs).take q, x.length = 1 at hwe
              rw [show (Geo.ofTag t T Tag.scalar) = Geo.scalar from rfl]
              rw [nativeCvt_scalar c t U (by omega) _ (by rw [hwl, grs, ← hqs, hsa, Nat.mul_one]) hwe]
              have hfl2 : ((f :: xs).take q).flatten.length = q := by rw [length_flatten_const hwe, hwl, Nat.mul_one]
              obtain ⟨y, y1, y2, y3⟩ := braced_spec c.zeroB (full := vecFull t U (Geo.ofTag t U (bestAbi t U n)).size)
                (xs := ((f :: xs).take q).flatten.map c.cast) (by rw [List.length_map, hfl2, grs]; rw [hsa, Nat.mul_one] at hqs; omega)
              refine ⟨y, y1, by rw [y2, grs, grf], ?_⟩
              rw [List.length_map, hfl2] at y3
              rw [← hqs, hsa, Nat.mul_one]; exact y3
            · rw [nativeCvt_vec c t U (by omega) (by omega)]
              have hga : (Geo.ofTag t T (bestAbi t T n)).full = (Geo.ofTag t T (bestAbi t T n)).size := by rw [gaf, gas, hfullA]
              have hq16 : q ≤ 16 := by
                rcases hA.bound (by omega) with h | ⟨_, h, _⟩
                · have hv : vecSizeof t T ≠ T.size := by
                    intro hv; rw [hv, Nat.div_self (elem_pos hT)] at h; omega
                  have hr := width_ratio hc hT hU hv
                  have := hR.le_w
                  rw [← h] at hr
                  have hh : q * size T (bestAbi t T n) ≤ 16 * size T (bestAbi t T n) := by omega
                  exact Nat.le_of_mul_le_mul_right hh (by omega)
                · have hh : q * size T (bestAbi t T n) ≤ 2 * size T (bestAbi t T n) := by omega
                  have := Nat.le_of_mul_le_mul_right hh (by omega)
                  omega
              have hbound : bitCeil ((f :: xs).take q).length * (Geo.ofTag t T (bestAbi t T n)).size ≤
                  vecFull t U (Geo.ofTag t U (bestAbi t U n)).size := by
                rw [hwl, gas, grs]
                obtain ⟨i, hi⟩ := elem_pow (t := t) hU (Nat.le_trans hsr2 hR.le_w)
                unfold vecFull
                rw [if_neg (by omega), Nat.le_div_iff_mul_le (elem_pos hU)]
                refine Nat.le_trans ?_ (vecBytes_ge' t U.size _)
                rw [← hqs, hja, hi, Nat.mul_assoc, Nat.mul_assoc, ← Nat.pow_add]
                exact bitCeil_mul_le (by omega) _
              obtain ⟨y, y1, y2, y3⟩ := vectorConvert_many c (full := vecFull t U (Geo.ofTag t U (bestAbi t U n)).size)
                (m := (Geo.ofTag t T (bestAbi t T n)).size) (xs := (f :: xs).take q) (by omega) (by omega)
                (fun x hx => by rw [hwe x hx, hga]) hbound
              rw [hga]
              refine ⟨y, y1, by rw [y2, grs, grf], ?_⟩
              rw [hwl, gas, hqs] at y3
              exact y3
          obtain ⟨y, y1, y2, y3⟩ := hcvt
          rw [y1]
          simp only [Option.bind_eq_bind, Option.bind_some]
          by_cases hs : size U (bestAbi t U n) = n
          · have e2 : n - size U (bestAbi t U n) = 0 := by omega
            rw [e2, storage_zero]
            refine ⟨[y], rfl, ?_, ?_⟩
            · rw [regs_pos hn0, e2, regs_zero]; exact ⟨y2, trivial⟩
            · rw [hlt', e2, regs_zero, regs_pos hn0, e2, regs_zero, lanes_cons, grs, y3]
              simp [lanes]
          · obtain ⟨ys, z1, z2, z3⟩ := ih (n - size U (bestAbi t U n)) (by omega) ((f :: xs).drop q) (by omega) hwt2
            have hneR : (storage t U (n - size U (bestAbi t U n))).isEmpty = false := by rw [storage_pos (by omega)]; rfl
            rw [hneR]
            simp only [Bool.false_eq_true, if_false]
            have hpop : popFront (size U (bestAbi t U n)) ((List.replicate q (bestAbi t T n) ++
                storage t T (n - size U (bestAbi t U n))).map (size T)) = some q := by
              rw [List.map_append, List.map_replicate, ← hqs]; exact popFront_replicate hpa _ _
            rw [hpop]
            simp only [Option.bind_some]
            rw [hdrop, if_pos (by simp), z1]
            refine ⟨y :: ys, rfl, ?_, ?_⟩
            · rw [regs_pos hn0]; exact ⟨y2, z2⟩
            · rw [hlt', regs_pos hn0, lanes_cons, grs, y3, z3, List.map_append]

end StdSimd.Convert

namespace StdSimd.Convert
open Abi Tuple
variable {α β : Type}

theorem wf_map {gs : List Geo} {x : Tup α} (h : Wf gs x) (f : α → β) : Wf gs (x.map (fun (r : List α) => r.map f)) ∧
    lanes gs (x.map (fun (r : List α) => r.map f)) = (lanes gs x).map f := by
  induction gs generalizing x with
  | nil => rw [wf_nil h]; exact ⟨trivial, rfl⟩
  | cons g gs ih =>
    obtain ⟨r, rs, rfl, hr, hrs⟩ := wf_cons h
    obtain ⟨h1, h2⟩ := ih hrs
    refine ⟨⟨by rw [List.length_map, hr], h1⟩, ?_⟩
    rw [List.map_cons, lanes_cons, lanes_cons, h2, List.map_append, List.map_take]

/-- `_SimdConverter<_From, fixed_size<n>, _To, fixed_size<n>>`. -/
theorem fixedCvt_all (c : Ctx α β) {t : Target} (hc : t.Consistent) {T U : Elem} (hT : T.Ok) (hU : U.Ok) {same : Bool}
    (hsame : same = true → T = U) {n : Nat} {x : Tup α} (h1 : 1 ≤ n) (hx : Wf (regs t T n) x) :
    ∃ y, fixedCvt c t T U same n x = some y ∧ Wf (regs t U n) y ∧ lanes (regs t U n) y = (lanes (regs t T n) x).map c.cast := by
  cases same with
  | false => exact fixedCvt_spec c hc hT hU n x h1 hx
  | true =>
    have := hsame rfl
    subst this
    obtain ⟨h2, h3⟩ := wf_map hx c.cast
    rw [fixedCvt.eq_def, if_pos rfl]
    exact ⟨_, rfl, h2, h3⟩

theorem valid_le_w {t : Target} {T : Elem} (hT : T.Ok) {a : Tag} (hv : valid t T a = true) (hn : ∀ m, a ≠ .fixed m) :
    size T a ≤ vecSizeof t T / T.size := by
  have hs := elem_pos hT
  cases a with
  | scalar =>
    obtain ⟨j, hj⟩ := width_facts (t := t) hT
    rw [hj]; exact Nat.two_pow_pos j
  | fixed m => exact absurd rfl (hn m)
  | builtin b =>
    rw [valid_builtin hs] at hv
    exact Nat.div_le_div_right hv.2.2.1
  | btmsk b =>
    rw [valid_btmsk hs] at hv
    have hne : vecSizeof t T ≠ T.size := by omega
    have := usable_vs (div_facts (vec_cases hT hne).1 (vec_cases hT hne).2).2.1 hv.1
    rw [this]; exact Nat.div_le_div_right hv.2.2.2.2.1

/-- At most two registers are needed for as many elements as a native register has. -/
theorem storage_small {t : Target} (hc : t.Consistent) {T : Elem} (hT : T.Ok) {n : Nat} (h1 : 1 ≤ n) (hw : n ≤ vecSizeof t T / T.size) :
    storage t T n = [bestAbi t T n] ∧ size T (bestAbi t T n) = n ∨
    ∃ q, storage t T n = [bestAbi t T n, q] ∧ size T (bestAbi t T n) + size T q = n ∧ size T q ≤ size T (bestAbi t T n) ∧
      q = bestAbi t T (n - size T (bestAbi t T n)) ∧ n ≤ 2 * size T (bestAbi t T n) ∧ size T (bestAbi t T n) < n := by
  have hf := first hc hT h1
  have hle := hf.le
  have hp := hf.pos
  rcases Nat.lt_or_ge (size T (bestAbi t T n)) n with h | h
  · right
    obtain ⟨h2, h3, h4⟩ : 2 ≤ size T (bestAbi t T n) ∧ n ≤ 2 * size T (bestAbi t T n) ∧
        ∀ m, 1 ≤ m → m < size T (bestAbi t T n) → size T (bestAbi t T m) = m := (hf.bound h).resolve_left (by omega)
    have hq : size T (bestAbi t T (n - size T (bestAbi t T n))) = n - size T (bestAbi t T n) := by
      rcases Nat.lt_or_ge (n - size T (bestAbi t T n)) (size T (bestAbi t T n)) with h5 | h5
      · exact h4 _ (by omega) h5
      · rw [hf.rep _ h5 (by omega)]; omega
    refine ⟨bestAbi t T (n - size T (bestAbi t T n)), ?_, by omega, by omega, rfl, h3, h⟩
    rw [storage_pos (by omega), storage_pos (n := n - size T (bestAbi t T n)) (by omega), hq, Nat.sub_self, storage_zero]
  · left
    have : n - size T (bestAbi t T n) = 0 := by omega
    exact ⟨by rw [storage_pos (by omega), this, storage_zero], by omega⟩

/-- Two registers where one would do: the i386 exception. -/
theorem small_exc {t : Target} (hc : t.Consistent) {T : Elem} (hT : T.Ok) {n : Nat} (h1 : 1 ≤ n) (hw : n ≤ vecSizeof t T / T.size)
    (hlt : size T (bestAbi t T n) < n) : t.i386 = true ∧
      (T.size = 1 ∧ size T (bestAbi t T n) = 4 ∧ n ≤ 8 ∨ T.size = 2 ∧ size T (bestAbi t T n) = 2 ∧ n ≤ 4) := by
  have hs := elem_pos hT
  have hp := (size_bestAbi t T n h1).1
  have hv : vecSizeof t T ≠ T.size := by
    intro h; rw [h, Nat.div_self hs] at hw; omega
  by_cases hx : Exc t T n
  · have hx' := hx
    obtain ⟨hi, hce⟩ := hx'
    obtain ⟨hlo, hhi⟩ := bitCeil_eq8 hce
    refine ⟨hi, ?_⟩
    rcases bestAbi_exc hT hv (by omega) hx with ⟨hs12, hb, _, _⟩ | ⟨hs4, hn2, hb, _⟩
    · rcases hs12 with h | h
      · left; refine ⟨h, ?_, by rw [h] at hhi; omega⟩
        rcases hb with e | e <;> rw [e] <;> simp [size, h]
      · right; refine ⟨h, ?_, by rw [h] at hhi; omega⟩
        rcases hb with e | e <;> rw [e] <;> simp [size, h]
    · exfalso
      rcases hb with e | e <;> rw [e] at hlt <;> simp [size, hs4] at hlt <;> omega
  · exfalso
    rcases bestAbi_small hc hT hv (by omega) hw hx with ⟨e, _⟩ | ⟨e, _⟩ <;> rw [e] at hlt <;>
      simp only [size, Nat.mul_div_cancel_left _ hs] at hlt <;> omega

theorem vecFull_exc {t : Target} {T : Elem} (hi : t.i386 = true) {n s : Nat} (hlt : s < n)
    (h : T.size = 1 ∧ s = 4 ∧ n ≤ 8 ∨ T.size = 2 ∧ s = 2 ∧ n ≤ 4) : s + vecFull t T (n - s) ≤ vecFull t T n := by
  obtain ⟨sz, fp⟩ := T
  rcases h with ⟨h1, h2, h3⟩ | ⟨h1, h2, h3⟩
  · simp only at h1
    subst h1 h2
    have : n = 5 ∨ n = 6 ∨ n = 7 ∨ n = 8 := by omega
    rcases this with rfl | rfl | rfl | rfl <;> (unfold vecFull vecBytes; simp only [hi]; decide)
  · simp only at h1
    subst h1 h2
    have : n = 3 ∨ n = 4 := by omega
    rcases this with rfl | rfl <;> (unfold vecFull vecBytes; simp only [hi]; decide)

theorem toFixed_spec (c : Ctx α β) {t : Target} (hc : t.Consistent) {T U : Elem} (hT : T.Ok) (hU : U.Ok) {same : Bool}
    (hsame : same = true → T = U) {a : Tag} (hv : valid t T a = true) (hnf : ∀ m, a ≠ .fixed m) {n : Nat} (hn : size T a = n)
    {x : List α} (hx : x.length = (Geo.ofTag t T a).full) :
    ∃ y, toFixed c t T U same a n x = some y ∧ Wf (regs t U n) y ∧ lanes (regs t U n) y = (x.take n).map c.cast := by
  obtain ⟨gf, gs⟩ := geo_full hT hv hnf
  have hw := valid_le_w hT hv hnf
  rw [hn] at gf gs hw
  unfold toFixed
  rw [if_neg (by simp [hn])]
  by_cases hsc : a = .scalar
  · have h1 : n = 1 := by rw [← hn, hsc]; rfl
    subst h1
    rw [if_pos hsc]
    rw [hsc] at hx
    change x.length = 1 at hx
    match x, hx with
    | [v], _ =>
      refine ⟨[[c.cast v]], rfl, ?_, ?_⟩
      · rw [regs_pos (by omega), bestAbi_one]
        have : 1 - size U Tag.scalar = 0 := rfl
        rw [this, regs_zero]; exact ⟨rfl, trivial⟩
      · rw [regs_pos (by omega), bestAbi_one]
        have : 1 - size U Tag.scalar = 0 := rfl
        rw [this, regs_zero]; rfl
  · have hn1 : n ≠ 1 := by rw [← hn]; exact (not_congr (size_one hv hnf)).2 hsc
    have hn2 : 2 ≤ n := by
      have := (ofTag_ok hT hv hnf).1.one_le
      rw [gs] at this; omega
    rw [if_neg hsc]
    have hge := vecFull_ge (t := t) hT n
    have hR := first hc hU (n := n) (by omega)
    obtain ⟨grf, grs⟩ := geo_full hU hR.valid hR.notFixed
    have hgeU := vecFull_ge (t := t) hU (size U (bestAbi t U n))
    by_cases hsr : size U (bestAbi t U n) = n
    · have e2 : n - size U (bestAbi t U n) = 0 := by omega
      have hst : storage t U n = [bestAbi t U n] := by rw [storage_pos (by omega), e2, storage_zero]
      rw [hst]
      simp only []
      obtain ⟨y, y1, y2, y3⟩ := vectorConvert_one c (full := (Geo.ofTag t U (bestAbi t U n)).full) (n := (Geo.ofTag t T a).size) hx (by omega)
      rw [y1]
      have hmin : min (Geo.ofTag t U (bestAbi t U n)).full (Geo.ofTag t T a).size = n := by omega
      rw [hmin] at y3
      refine ⟨[y], rfl, ?_, ?_⟩
      · rw [regs_pos (by omega), e2, regs_zero]; exact ⟨y2, trivial⟩
      · rw [regs_pos (by omega), e2, regs_zero, lanes_cons, grs, hsr, y3]; simp [lanes]
    · have hle := hR.le
      have hlen : ∀ r, storage t U n ≠ [r] := by
        intro r h
        rw [storage_pos (by omega), storage_pos (n := n - size U (bestAbi t U n)) (by omega)] at h
        cases h
      have hfix : ∀ z : Tup α, Wf (regs t T n) z → lanes (regs t T n) z = x.take n →
          ∃ y, fixedCvt c t T U same n z = some y ∧ Wf (regs t U n) y ∧ lanes (regs t U n) y = (x.take n).map c.cast := by
        intro z hz hlz
        rw [← hlz]
        exact fixedCvt_all c hc hT hU hsame (by omega) hz
      split
      · rename_i r h; exact absurd h (hlen r)
      · have hA := first hc hT (n := n) (by omega)
        obtain ⟨gaf, gas⟩ := geo_full hT hA.valid hA.notFixed
        rcases storage_small hc hT (n := n) (by omega) hw with ⟨hst, hsz⟩ | ⟨q, hst, hsum, hqle, hq, hn2', hlt⟩
        · rw [hst]
          simp only []
          have hregs : regs t T n = [Geo.ofTag t T (bestAbi t T n)] := by unfold regs; rw [hst]; rfl
          apply hfix
          · rw [hregs]; exact ⟨by rw [hx, gf, gaf, hsz], trivial⟩
          · rw [hregs, lanes_cons, gas, hsz]; simp [lanes]
        · rw [hst]
          simp only []
          have hregs : regs t T n = [Geo.ofTag t T (bestAbi t T n), Geo.ofTag t T q] := by unfold regs; rw [hst]; rfl
          obtain ⟨hi, hex⟩ := small_exc hc hT (by omega) hw hlt
          have hvf := vecFull_exc hi hlt hex
          have hQ := first hc hT (n := n - size T (bestAbi t T n)) (by omega)
          rw [← hq] at hQ
          obtain ⟨gqf, gqs⟩ := geo_full hT hQ.valid hQ.notFixed
          have hfa := hA.full hlt
          have hsq : size T q = n - size T (bestAbi t T n) := by omega
          rw [← hsq] at hvf
          rw [if_pos (by rw [gaf, gqf, hfa, hx, gf]; exact hvf)]
          apply hfix
          · rw [hregs]
            refine ⟨?_, ?_, trivial⟩
            · rw [List.length_take, gaf, hfa, hx, gf]; omega
            · rw [List.length_take, List.length_drop, gaf, hfa, gqf, hx, gf]; omega
          · have hgeq := vecFull_ge (t := t) hT (size T q)
            rw [hregs, lanes_cons, lanes_cons, gas, gqs, gaf, gqf, hfa, List.take_take, Nat.min_self, List.take_take, Nat.min_eq_left hgeq]
            have : n = size T (bestAbi t T n) + size T q := by omega
            conv => rhs; rw [this, List.take_add]
            simp [lanes]

theorem ofFixed_cons (c : Ctx α β) (t : Target) (T U : Elem) (same : Bool) (n : Nat) (x : Tup α) {a p : Tag} {ps : List Tag}
    (hn : size U a = n) (ha : a ≠ .scalar) (e : storage t T n = p :: ps) (hps : ps ≠ []) :
    ofFixed c t T U same n a x =
    if homogeneous (p :: ps) then
      if p = .scalar then (if x.length = n ∧ (∀ r ∈ x, r.length = 1) then braced c.zeroB (vecFull t U n) (x.flatten.map c.cast) else none)
      else vectorConvert c (vecFull t U n) (Geo.ofTag t T p).size (Geo.ofTag t T p).full x
    else if (storage t U n).length = 1 then (fixedCvt c t T U same n x).bind List.head?
    else (do
      let l ← (List.range n).mapM (fun (i : Nat) => Tuple.get (regs t T n) x i)
      let v ← braced c.zeroA (vecFull t T n) l
      vectorConvert c (vecFull t U n) n (vecFull t T n) [v]) := by
  unfold ofFixed
  rw [if_neg (by simp [hn]), if_neg ha, e]
  cases ps with
  | nil => exact absurd rfl hps
  | cons p' ps => rfl

theorem ofFixed_spec (c : Ctx α β) {t : Target} (hc : t.Consistent) {T U : Elem} (hT : T.Ok) (hU : U.Ok) {same : Bool}
    (hsame : same = true → T = U) {a : Tag} (hv : valid t U a = true) (hnf : ∀ m, a ≠ .fixed m) {n : Nat} (hn : size U a = n)
    {x : Tup α} (hx : Wf (regs t T n) x) :
    ∃ y, ofFixed c t T U same n a x = some y ∧ y.length = (Geo.ofTag t U a).full ∧
      y.take n = (lanes (regs t T n) x).map c.cast := by
  obtain ⟨gf, gs⟩ := geo_full hU hv hnf
  have hw := valid_le_w hU hv hnf
  rw [hn] at gf gs hw
  have hone := (ofTag_ok hU hv hnf).1.one_le
  rw [gs] at hone
  have hA := first hc hT (n := n) (by omega)
  obtain ⟨gaf, gas⟩ := geo_full hT hA.valid hA.notFixed
  obtain ⟨_, okT, totT, _⟩ := regs_facts hc hT hone
  have hlen := length_lanes okT hx
  rw [totT] at hlen
  have hgeU := vecFull_ge (t := t) hU n
  have hgeT := vecFull_ge (t := t) hT (size T (bestAbi t T n))
  by_cases hsc : a = .scalar
  · have h1 : n = 1 := by rw [← hn, hsc]; rfl
    subst h1
    unfold ofFixed
    rw [if_neg (by simp [hn]), if_pos hsc]
    rw [regs_pos (by omega), bestAbi_one, show 1 - size T Tag.scalar = 0 from rfl, regs_zero] at hx ⊢
    obtain ⟨r, rs, rfl, hr, hrs⟩ := wf_cons hx
    have := wf_nil hrs
    subst this
    change r.length = 1 at hr
    match r, hr with
    | [v], _ => exact ⟨[c.cast v], rfl, by rw [hsc]; rfl, rfl⟩
  · have hn1 : n ≠ 1 := by rw [← hn]; exact (not_congr (size_one hv hnf)).2 hsc
    by_cases hsz : size T (bestAbi t T n) = n
    · -- one register
      have e1 : n - size T (bestAbi t T n) = 0 := by omega
      have hst : storage t T n = [bestAbi t T n] := by rw [storage_pos (by omega), e1, storage_zero]
      have hregs : regs t T n = [Geo.ofTag t T (bestAbi t T n)] := by unfold regs; rw [hst]; rfl
      rw [hregs] at hx ⊢
      obtain ⟨f, xs, rfl, hf, hxs⟩ := wf_cons hx
      have := wf_nil hxs
      subst this
      unfold ofFixed
      rw [if_neg (by simp [hn]), if_neg hsc, hst]
      simp only []
      obtain ⟨y, y1, y2, y3⟩ := vectorConvert_one c (full := vecFull t U n) (n := (Geo.ofTag t T (bestAbi t T n)).size) hf (by omega)
      have hmin : min (vecFull t U n) (Geo.ofTag t T (bestAbi t T n)).size = n := by omega
      rw [hmin] at y3
      refine ⟨y, y1, by rw [y2, gf], ?_⟩
      rw [y3, lanes_cons, gas, hsz]; simp [lanes]
    · have hle := hA.le
      have hpa := hA.pos
      have hlt : size T (bestAbi t T n) < n := by omega
      have hfull := hA.full hlt
      obtain ⟨ja, hja⟩ := hA.pow hlt
      have hcons : storage t T n = bestAbi t T n :: storage t T (n - size T (bestAbi t T n)) := storage_pos (by omega)
      have hne : storage t T (n - size T (bestAbi t T n)) ≠ [] := by rw [storage_pos (by omega)]; simp
      rw [ofFixed_cons c t T U same n x hn hsc hcons hne]
      by_cases hhom : homogeneous (bestAbi t T n :: storage t T (n - size T (bestAbi t T n))) = true
      · rw [if_pos hhom]
        have hrepl : storage t T n = List.replicate (storage t T n).length (bestAbi t T n) := by
          rw [List.eq_replicate_iff]
          refine ⟨rfl, ?_⟩
          intro b hb
          rw [hcons] at hb
          rcases List.mem_cons.1 hb with rfl | hb
          · rfl
          · have := List.all_eq_true.1 hhom b hb
            simpa using this
        generalize hk : (storage t T n).length = k at hrepl
        have hregs : regs t T n = List.replicate k (Geo.ofTag t T (bestAbi t T n)) := by unfold regs; rw [hrepl, List.map_replicate]
        have hsum := storage_sum t T n
        rw [hrepl, List.map_replicate, List.sum_replicate_nat] at hsum
        rw [hregs] at hx ⊢
        obtain ⟨hxl, hxe⟩ := wf_replicate.1 hx
        have hk2 : 2 ≤ k := by
          rcases Nat.lt_or_ge k 2 with h | h
          · have : k = 0 ∨ k = 1 := by omega
            rcases this with h | h <;> rw [h] at hsum <;> omega
          · exact h
        have hfl : ∀ r ∈ x, r.length = size T (bestAbi t T n) := fun r hr => by rw [hxe r hr, gaf, hfull]
        have hlx : lanes (List.replicate k (Geo.ofTag t T (bestAbi t T n))) x = x.flatten := by
          rw [lanes_replicate' hxl]
          congr 1
          conv => rhs; rw [← List.map_id x]
          apply List.map_congr_left
          intro r hr
          rw [gas]; exact List.take_of_length_le (Nat.le_of_eq (hfl r hr))
        have hfll := length_flatten_const hfl
        rw [hlx]
        by_cases hs1 : bestAbi t T n = .scalar
        · rw [if_pos hs1]
          have hsa : size T (bestAbi t T n) = 1 := by rw [hs1]; rfl
          rw [hsa] at hfl hfll hsum
          rw [if_pos ⟨by omega, hfl⟩]
          obtain ⟨y, y1, y2, y3⟩ := braced_spec c.zeroB (full := vecFull t U n) (xs := x.flatten.map c.cast) (by simp only [List.length_map]; omega)
          refine ⟨y, y1, by rw [y2, gf], ?_⟩
          rw [List.length_map, hfll, hxl, hsum] at y3
          exact y3
        · rw [if_neg hs1]
          have hsa : size T (bestAbi t T n) ≠ 1 := (not_congr (size_one hA.valid hA.notFixed)).2 hs1
          have hq16 : k ≤ 16 := by
            rcases hA.bound (by omega) with h | ⟨_, h, _⟩
            · have hv : vecSizeof t T ≠ T.size := by
                intro hv; rw [hv, Nat.div_self (elem_pos hT)] at h; omega
              have hr := width_ratio hc hT hU hv
              rw [← h] at hr
              have hh : k * size T (bestAbi t T n) ≤ 16 * size T (bestAbi t T n) := by omega
              exact Nat.le_of_mul_le_mul_right hh (by omega)
            · have hh : k * size T (bestAbi t T n) ≤ 2 * size T (bestAbi t T n) := by omega
              have := Nat.le_of_mul_le_mul_right hh (by omega)
              omega
          have hbound : bitCeil x.length * size T (bestAbi t T n) ≤ vecFull t U n := by
            rw [hxl]
            obtain ⟨i, hi⟩ := elem_pow (t := t) hU (by omega)
            unfold vecFull
            rw [if_neg (by omega), Nat.le_div_iff_mul_le (elem_pos hU)]
            refine Nat.le_trans ?_ (vecBytes_ge' t U.size _)
            have e : n * U.size = k * 2 ^ (ja + i) := by rw [← hsum, hja, hi, Nat.mul_assoc, ← Nat.pow_add]
            rw [e, hja, hi, Nat.mul_assoc, ← Nat.pow_add]
            exact bitCeil_mul_le (by omega) _
          obtain ⟨y, y1, y2, y3⟩ := vectorConvert_many c (full := vecFull t U n) (m := size T (bestAbi t T n)) (xs := x) (by omega) (by omega)
            hfl hbound
          rw [gas, gaf, hfull]
          refine ⟨y, y1, by rw [y2, gf], ?_⟩
          rw [hxl, hsum] at y3
          exact y3
      · rw [if_neg hhom]
        have hR := first hc hU (n := n) (by omega)
        obtain ⟨grf, grs⟩ := geo_full hU hR.valid hR.notFixed
        by_cases hl1 : (storage t U n).length = 1
        · rw [if_pos hl1]
          obtain ⟨y, y1, y2, y3⟩ := fixedCvt_all c hc hT hU hsame hone hx
          have hrest : storage t U (n - size U (bestAbi t U n)) = [] := by
            rw [storage_pos (by omega), List.length_cons] at hl1
            exact List.length_eq_zero_iff.1 (by omega)
          have hsr : size U (bestAbi t U n) = n := by
            have hle := hR.le
            rcases Nat.lt_or_ge (size U (bestAbi t U n)) n with h | h
            · rw [storage_pos (by omega)] at hrest; cases hrest
            · omega
          rw [regs_pos (by omega), hsr, Nat.sub_self, regs_zero] at y2 y3
          obtain ⟨r, rs, rfl, hr, hrs⟩ := wf_cons y2
          have := wf_nil hrs
          subst this
          rw [y1]
          refine ⟨r, rfl, by rw [hr, grf, hsr, gf], ?_⟩
          rw [← y3, lanes_cons, grs, hsr]; simp [lanes]
        · rw [if_neg hl1]
          have e : (List.range n).mapM (fun (i : Nat) => Tuple.get (regs t T n) x i) = some (lanes (regs t T n) x) := by
            have := mapM_take (k := n) (x := lanes (regs t T n) x) (by omega)
            rw [List.take_of_length_le (by omega)] at this
            rw [← this]
            apply mapM_congr'
            intro i hi
            exact get_eq okT hx (by rw [totT]; exact List.mem_range.1 hi)
          rw [e]
          have hgeTn := vecFull_ge (t := t) hT n
          obtain ⟨v, v1, v2, v3⟩ := braced_spec c.zeroA (full := vecFull t T n) (xs := lanes (regs t T n) x) (by omega)
          simp only [Option.bind_eq_bind, Option.bind_some]
          rw [v1]
          simp only [Option.bind_some]
          obtain ⟨y, y1, y2, y3⟩ := vectorConvert_one c (full := vecFull t U n) (n := n) v2 (by omega)
          refine ⟨y, y1, by rw [y2, gf], ?_⟩
          rw [Nat.min_eq_right hgeU] at y3
          rw [hlen] at v3
          rw [y3, v3]

theorem cast_native (c : Ctx α β) (t : Target) (T U : Elem) (same ident : Bool) {a b : Tag} {f : List α}
    (hs : size T a = size U b) (hi : ¬(ident = true ∧ a = b)) (ha : ∀ m, a ≠ .fixed m) (hb : ∀ m, b ≠ .fixed m) :
    staticSimdCast c t T U same ident a b [f] =
      (nativeCvt c t U (Geo.ofTag t T a) (Geo.ofTag t U b) [f]).map (fun (r : List β) => [r]) := by
  unfold staticSimdCast
  rw [if_neg (by simp [hs]), if_neg hi]
  cases a <;> cases b <;> first | rfl | exact absurd rfl (ha _) | exact absurd rfl (hb _)

/-- `static_simd_cast` between any two `simd` types with the same number of elements. -/
theorem staticSimdCast_spec (c : Ctx α β) {t : Target} (hc : t.Consistent) {T U : Elem} (hT : T.Ok) (hU : U.Ok) {same ident : Bool}
    (hsame : same = true → T = U) (hident : ident = true → T = U) {a b : Tag} (ha : valid t T a = true) (hb : valid t U b = true)
    (hs : size T a = size U b) {x : Tup α} (hx : Wf (geos t T a) x) :
    ∃ y, staticSimdCast c t T U same ident a b x = some y ∧ Wf (geos t U b) y ∧
      lanes (geos t U b) y = (lanes (geos t T a) x).map c.cast := by
  have hs0 := hs
  by_cases hi : ident = true ∧ a = b
  · unfold staticSimdCast
    rw [if_neg (by simp [hs]), if_pos hi]
    have e := hident hi.1
    rw [← hi.2]
    subst e
    obtain ⟨h1, h2⟩ := wf_map hx c.cast
    exact ⟨_, rfl, h1, h2⟩
  · have natA : (∀ m, a ≠ .fixed m) → geos t T a = [Geo.ofTag t T a] := by
      intro h; cases a <;> first | rfl | exact absurd rfl (h _)
    have natB : (∀ m, b ≠ .fixed m) → geos t U b = [Geo.ofTag t U b] := by
      intro h; cases b <;> first | rfl | exact absurd rfl (h _)
    by_cases hfa : ∃ m, a = .fixed m
    · obtain ⟨n, rfl⟩ := hfa
      have hn1 : 1 ≤ n := by simp only [valid, Bool.and_eq_true, decide_eq_true_eq] at ha; omega
      change n = size U b at hs
      change Wf (regs t T n) x at hx
      by_cases hfb : ∃ m, b = .fixed m
      · obtain ⟨m, rfl⟩ := hfb
        change n = m at hs
        subst hs
        unfold staticSimdCast
        rw [if_neg (by simp [hs0]), if_neg hi]
        exact fixedCvt_all c hc hT hU hsame hn1 hx
      · have hnb : ∀ m, b ≠ .fixed m := fun m h => hfb ⟨m, h⟩
        obtain ⟨y, y1, y2, y3⟩ := ofFixed_spec c hc hT hU hsame hb hnb hs.symm hx
        obtain ⟨_, gs⟩ := geo_full hU hb hnb
        refine ⟨[y], ?_, ?_, ?_⟩
        · unfold staticSimdCast
          rw [if_neg (by simp [hs0]), if_neg hi]
          cases b <;> first | exact absurd rfl (hnb _) | (simp only [y1]; rfl)
        · rw [natB hnb]; exact ⟨y2, trivial⟩
        · rw [natB hnb, lanes_cons, gs, ← hs, y3]; simp [lanes]; rfl
    · have hna : ∀ m, a ≠ .fixed m := fun m h => hfa ⟨m, h⟩
      obtain ⟨gaf, gas⟩ := geo_full hT ha hna
      rw [natA hna] at hx ⊢
      obtain ⟨f, xs, rfl, hf, hxs⟩ := wf_cons hx
      have := wf_nil hxs
      subst this
      by_cases hfb : ∃ m, b = .fixed m
      · obtain ⟨m, rfl⟩ := hfb
        change size T a = m at hs
        obtain ⟨y, y1, y2, y3⟩ := toFixed_spec c hc hT hU hsame ha hna hs hf
        refine ⟨y, ?_, y2, ?_⟩
        · unfold staticSimdCast
          rw [if_neg (by simp [hs0]), if_neg hi]
          cases a <;> first | exact y1 | exact absurd rfl (hna _)
        · change lanes (regs t U m) y = _
          rw [y3, lanes_cons, gas, hs]; simp [lanes]
      · have hnb : ∀ m, b ≠ .fixed m := fun m h => hfb ⟨m, h⟩
        obtain ⟨gbf, gbs⟩ := geo_full hU hb hnb
        rw [cast_native c t T U same ident hs0 hi hna hnb, natB hnb]
        have hgeU := vecFull_ge (t := t) hU (size U b)
        have hgeT := vecFull_ge (t := t) hT (size T a)
        by_cases hsc : b = .scalar
        · have hsa : size T a = 1 := by rw [hs, hsc]; rfl
          have hasc := (size_one ha hna).1 hsa
          subst hasc hsc
          change f.length = 1 at hf
          match f, hf with
          | [v], _ => exact ⟨[[c.cast v]], rfl, ⟨rfl, trivial⟩, rfl⟩
        · have hb2 : 2 ≤ size U b := by
            have := (not_congr (size_one hb hnb)).2 hsc
            have := (ofTag_ok hU hb hnb).1.one_le
            omega
          rw [nativeCvt_vec c t U (by omega) (by omega)]
          obtain ⟨y, y1, y2, y3⟩ := vectorConvert_one c (full := vecFull t U (Geo.ofTag t U b).size) (n := (Geo.ofTag t T a).size) hf (by omega)
          rw [y1]
          refine ⟨[y], rfl, ⟨by rw [y2, gbs, gbf], trivial⟩, ?_⟩
          have hmin : min (vecFull t U (Geo.ofTag t U b).size) (Geo.ofTag t T a).size = size U b := by rw [gbs, gas]; omega
          rw [hmin] at y3
          rw [lanes_cons, gbs, y3, lanes_cons, gas, hs]; simp [lanes]

end StdSimd.Convert
