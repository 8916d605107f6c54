import Verif.Proofs.Storage
import Verif.Proofs.TupleMem
/-! # Lemmas for the `fixed_size` property theorems -/
namespace StdSimd.Native
variable {α β : Type}

theorem Xfer.of_ok (t : Abi.Target) {Up : Abi.Elem} (hU : Up.Ok) (same : Bool) : (Xfer.of t Up same).Ok := by
  have hmax : (Xfer.of t Up same).max = 64 ∨ (Xfer.of t Up same).max = 32 ∨ (Xfer.of t Up same).max = 16 := by
    unfold Xfer.of
    simp only []
    split
    · exact Or.inl rfl
    · split
      · exact Or.inr (Or.inl rfl)
      · exact Or.inr (Or.inr rfl)
  have hup : (Xfer.of t Up same).up = Up.size := rfl
  unfold Xfer.Ok
  rw [hup]
  simp [Abi.Elem.Ok] at hU
  by_cases h : 8 < Up.size
  · exact Or.inl h
  · refine Or.inr (Or.inr ?_)
    rcases hmax with e | e | e <;> rw [e] <;> refine ⟨by omega, by omega, ?_⟩ <;>
      rcases hU with e | e | e | e | e | e <;> rw [e] at h ⊢ <;> first | omega | (exact ⟨_, rfl⟩) | decide

end StdSimd.Native

namespace StdSimd.Tuple
open Native
variable {α β : Type}

theorem select_ext {k : List Bool} {x v r : List α} (hx : x.length = k.length) (hv : v.length = k.length)
    (hr : r.length = k.length) (h : ∀ i, i < k.length → r[i]? = if k[i]? = some true then x[i]? else v[i]?) :
    r = Spec.select k x v := by
  apply List.ext_getElem?
  intro i
  unfold Spec.select
  by_cases hi : i < k.length
  · rw [h i hi, List.getElem?_zipWith, List.zip, List.getElem?_zipWith, List.getElem?_eq_getElem hi, List.getElem?_eq_getElem (l := x) (by omega), List.getElem?_eq_getElem (l := v) (by omega)]
    generalize k[i] = b
    cases b <;> simp
  · rw [List.getElem?_eq_none (by omega), List.getElem?_eq_none]
    simp; omega

theorem lanes_get_iff {n : Nat} {s : Bool} (b : BitMask n s) {i : Nat} (hi : i < n) :
    b.lanes[i]? = some true ↔ b.lane i = true := by
  rw [BitMask.lanes_getElem?, if_pos hi]; simp

theorem length_bmlanes {n : Nat} {s : Bool} (b : BitMask n s) : b.lanes.length = n := by
  simp [BitMask.lanes]

/-! ### `operator!` -/

theorem negate_fold (p : α → Bool) (N : Nat) (hN : N ≤ 64) (h1 : 1 ≤ N) :
    ∀ (gs : List Geo) (off : Nat) (x : Tup α) (r : BitMask N true), gs ≠ [] → Oks gs → Wf gs x → off + total gs ≤ N → r.Clean →
    ∃ r', foldEach (fun (r : BitMask N true) g off native => do
        let k ← Native.classify p g native
        let b ← maskToShifted g off k
        pure (r.or (BitMask.ofULL _ true b))) r gs off x = some r' ∧ r'.Clean ∧
      ∀ i < N, r'.lane i = (r.lane i || (decide (off ≤ i) && (((lanes gs x)[i - off]?).map p).getD false)) := by
  have step : ∀ (g : Geo), g.Ok → ∀ (off : Nat) (x : List α) (r : BitMask N true), x.length = g.full → off + g.size ≤ N → r.Clean →
      ∃ r', (do
        let k ← Native.classify p g x
        let b ← maskToShifted g off k
        pure (r.or (BitMask.ofULL _ true b)) : Option (BitMask N true)) = some r' ∧ r'.Clean ∧
      ∀ i < N, r'.lane i = (r.lane i || (decide (off ≤ i) && (((x.take g.size)[i - off]?).map p).getD false)) := by
    intro g hg off x r hx hoff hr
    obtain ⟨k, hk1, hk2, hk3⟩ := classify_spec (p := p) hg x hx
    obtain ⟨v, hv1, hv2⟩ := BitMask.toULL_eq hg.one_le hg.le64 (maskToBits g k)
    have hms : maskToShifted g off k = some (v <<< off) := by unfold maskToShifted; rw [hv1]; rfl
    have hbit : ∀ i, v.getLsbD i = (((x.take g.size)[i]?).map p).getD false := by
      intro i
      rw [hv2, lane_maskToBits hg k hk2]
      unfold mbit VMask.bit
      rw [hk3, List.getElem?_map]
    refine ⟨r.or (BitMask.ofULL _ true (v <<< off)), by rw [hk1]; simp [hms], ?_, ?_⟩
    · intro i hi
      rw [BitMask.lane_or, hr i hi, Bool.false_or]
      by_cases hn1 : N = 1
      · subst hn1; exact BitMask.lane_ge_one _ hi
      · rw [BitMask.lane_ofULL_single (by omega) hN, BitVec.getLsbD_shiftLeft, hbit,
          List.getElem?_eq_none (by simp; omega)]
        simp
    · intro i hi
      rw [BitMask.lane_or]
      congr 1
      by_cases hn1 : N = 1
      · subst hn1
        have hg1 := hg.one_le
        have h0 : i = 0 := by omega
        have h0' : off = 0 := by omega
        subst h0; subst h0'
        rw [BitMask.lane_ofULL_one]
        have hz : ∀ i, 1 ≤ i → v.getLsbD i = false := by
          intro i hi; rw [hbit, List.getElem?_eq_none (by simp; omega)]; rfl
        have hb0 := hbit 0
        simp only [BitVec.shiftLeft_zero, Nat.le_refl, decide_true, Bool.true_and, Nat.sub_self]
        rw [← hb0]
        cases hv0 : v.getLsbD 0 with
        | false =>
          have : v = 0#64 := by
            apply BitVec.eq_of_getLsbD_eq
            intro j hj
            cases j with
            | zero => rw [hv0]; simp
            | succ j => rw [hz _ (by omega)]; simp
          rw [this]; rfl
        | true =>
          have : v ≠ 0#64 := by
            intro e; rw [e] at hv0; simp at hv0
          simpa using this
      · have hwb := BitMask.wordBits_ge h1 hN
        rw [BitMask.lane_ofULL_single (by omega) hN, BitVec.getLsbD_shiftLeft, hbit]
        have : i < 64 := by omega
        have h3 : i < StdSimd.wordBits N := by omega
        simp only [this, h3, decide_true, Bool.true_and]
        by_cases h4 : off ≤ i
        · simp [h4]
        · simp [h4, Nat.lt_of_not_le h4]
  intro gs
  induction gs with
  | nil => intro off x r hne; exact absurd rfl hne
  | cons g gs ih =>
    intro off x r _ hok hwf hoff hr
    obtain ⟨x, xs, rfl, hx, hxs⟩ := wf_cons hwf
    rw [total_cons] at hoff
    have hg := hok.head
    have hsz := hg.size_le
    obtain ⟨r1, e1, c1, l1⟩ := step g hg off x r hx (by omega) hr
    cases gs with
    | nil =>
      rw [wf_nil hxs]
      refine ⟨r1, e1, c1, fun i hi => ?_⟩
      rw [l1 i hi]
      simp [lanes]
    | cons g' gs =>
      rw [foldEach_cons2, e1]
      obtain ⟨r2, e2, c2, l2⟩ := ih (off + g.size) xs r1 (by simp) hok.tail hxs (by omega) c1
      refine ⟨r2, e2, c2, fun i hi => ?_⟩
      rw [l2 i hi, l1 i hi, Bool.or_assoc]
      congr 1
      rw [lanes_cons]
      by_cases h1 : off ≤ i
      · by_cases h2 : i - off < g.size
        · rw [List.getElem?_append_left (by simp; omega)]
          have : ¬ (off + g.size ≤ i) := by omega
          simp [this]
        · rw [List.getElem?_append_right (by simp; omega), List.getElem?_eq_none (l := x.take g.size) (by simp; omega)]
          have h3 : off + g.size ≤ i := by omega
          have h4 : i - (off + g.size) = i - off - (x.take g.size).length := by simp; omega
          simp only [h3, h1, decide_true, Bool.true_and]
          rw [h4]; simp
      · have : ¬ (off + g.size ≤ i) := by omega
        simp [h1, this]

theorem negate_spec (p : α → Bool) (gs : List Geo) (x : Tup α) (hne : gs ≠ []) (hok : Oks gs) (h64 : total gs ≤ 64)
    (hx : Wf gs x) : ∃ b, negate p gs x = some b ∧ b.Clean ∧ b.lanes = (lanes gs x).map p := by
  have h1 := total_pos hok hne
  have hz : ∀ i, (BitMask.ofULL (total gs) true 0#64).lane i = false := by
    intro i
    by_cases hn1 : total gs = 1
    · rcases Nat.eq_zero_or_pos i with h | h
      · subst h
        have key : ∀ m, m = 1 → (BitMask.ofULL m true 0#64).lane 0 = false := by
          intro m hm; subst hm; rw [BitMask.lane_ofULL_one]; rfl
        exact key _ hn1
      · have key : ∀ m, m = 1 → (BitMask.ofULL m true 0#64).lane i = false := by
          intro m hm; subst hm; exact BitMask.lane_ge_one _ h
        exact key _ hn1
    · rw [BitMask.lane_ofULL_single (by omega) h64]; simp
  obtain ⟨r, e, c, l⟩ := negate_fold p (total gs) h64 h1 gs 0 x (BitMask.ofULL (total gs) true 0#64) hne hok hx (by omega)
    (fun i _ => hz i)
  refine ⟨r, e, c, ?_⟩
  apply lanes_eq_of
  · rw [List.length_map, length_lanes hok hx]
  · intro i hi
    rw [l i hi, hz, List.getElem?_map]
    have : i < (lanes gs x).length := by rw [length_lanes hok hx]; exact hi
    simp [List.getElem?_eq_getElem this]

/-! ### generator -/

/-- Put `n` elements into registers, padding `zero`. -/
def pack (zero : α) : List Geo → List α → Tup α
  | [], _ => []
  | g :: gs, xs => (xs.take g.size ++ List.replicate (g.full - g.size) zero) :: pack zero gs (xs.drop g.size)

theorem pack_spec (zero : α) {gs : List Geo} (hok : Oks gs) {xs : List α} (hx : xs.length = total gs) :
    Wf gs (pack zero gs xs) ∧ lanes gs (pack zero gs xs) = xs := by
  induction gs generalizing xs with
  | nil => exact ⟨trivial, by have : xs = [] := List.length_eq_zero_iff.1 hx; rw [this]; rfl⟩
  | cons g gs ih =>
    rw [total_cons] at hx
    have hsz := hok.head.size_le
    obtain ⟨h1, h2⟩ := ih hok.tail (xs := xs.drop g.size) (by simp; omega)
    refine ⟨⟨by simp; omega, h1⟩, ?_⟩
    change lanes (g :: gs) ((xs.take g.size ++ _) :: pack zero gs (xs.drop g.size)) = xs
    rw [lanes_cons, h2]
    rw [List.take_append_of_le_length (by simp; omega), List.take_take, Nat.min_self, List.take_append_drop]

theorem mapM_length {m : Type → Type} [Monad m] [LawfulMonad m] (f : Nat → m α) (l : List Nat) {γ : Type}
    (c d : List α → m γ) (h : ∀ xs, xs.length = l.length → c xs = d xs) :
    (l.mapM f >>= c) = (l.mapM f >>= d) := by
  induction l generalizing c d with
  | nil => simp; exact h [] rfl
  | cons a l ih =>
    simp only [List.mapM_cons, bind_assoc, pure_bind]
    congr 1
    funext x
    exact ih _ _ (fun xs hxs => h (x :: xs) (by simp [hxs]))

theorem generate_one {m : Type → Type} [Monad m] (gen : Geo → Nat → m (List α)) (g : Geo) (off : Nat) :
    generate gen [g] off = (do let f ← gen g off; pure [f]) := rfl

theorem mapM_congr' {m : Type → Type} [Monad m] [LawfulMonad m] (f g : Nat → m α) (l : List Nat) (h : ∀ i ∈ l, f i = g i) :
    l.mapM f = l.mapM g := by
  induction l with
  | nil => rfl
  | cons a l ih => simp only [List.mapM_cons]; rw [h a (by simp), ih (fun i hi => h i (by simp [hi]))]

theorem generate_gen {m : Type → Type} [Monad m] [LawfulMonad m] (zero : α) (gen : Nat → m α) (N : Nat) :
    ∀ (gs : List Geo) (off : Nat), gs ≠ [] → Oks gs → (∀ g ∈ gs, g.size ≤ N) →
    generate (fun g off => Native.generator g zero (fun i => if i < N then gen (off + i) else pure zero)) gs off =
      (do let xs ← (List.range' off (total gs)).mapM gen; pure (pack zero gs xs)) := by
  have reg : ∀ (g : Geo), g.Ok → g.size ≤ N → ∀ off, Native.generator g zero (fun i => if i < N then gen (off + i) else pure zero) =
      (do let xs ← (List.range' off g.size).mapM gen; pure (xs ++ List.replicate (g.full - g.size) zero)) := by
    intro g hg hN off
    rw [generator_eq hg]
    congr 1
    rw [List.range'_eq_map_range, List.mapM_map]
    exact mapM_congr' _ _ _ (fun i hi => if_pos (by simp at hi; omega))
  intro gs
  induction gs with
  | nil => intro off h; exact absurd rfl h
  | cons g gs ih =>
    intro off _ hok hN
    have hgN := hN g (by simp)
    cases gs with
    | nil =>
      rw [generate_one, reg g hok.head hgN off]
      simp only [bind_assoc, pure_bind]
      change _ = (do let xs ← (List.range' off g.size).mapM gen; pure (pack zero [g] xs))
      apply mapM_length
      intro xs hxs
      simp at hxs
      simp [pack, List.take_of_length_le (Nat.le_of_eq hxs)]
    | cons g' gs =>
      rw [generate_cons2, reg g hok.head hgN off, ih (off + g.size) (by simp) hok.tail (fun x hx => hN x (by simp at hx ⊢; exact Or.inr hx)), total_cons g]
      rw [show List.range' off (g.size + total (g' :: gs)) = List.range' off g.size ++ List.range' (off + g.size) (total (g' :: gs)) by
        have := @List.range'_append off g.size (total (g' :: gs)) 1; rw [Nat.one_mul] at this; exact this.symm]
      rw [List.mapM_append]
      simp only [bind_assoc, pure_bind]
      apply mapM_length
      intro xs hxs
      simp at hxs
      congr 1
      funext ys
      congr 1
      conv => rhs; unfold pack
      rw [List.take_append_of_le_length (by omega), List.take_of_length_le (Nat.le_of_eq hxs), List.drop_append_of_le_length (by omega),
        List.drop_of_length_le (Nat.le_of_eq hxs)]
      rfl

theorem size_le_total {gs : List Geo} {g : Geo} (h : g ∈ gs) : g.size ≤ total gs := by
  induction gs with
  | nil => simp at h
  | cons a gs ih =>
    rw [total_cons]
    rcases List.mem_cons.1 h with rfl | h
    · omega
    · have := ih h; omega

theorem select_of_lanes {gs : List Geo} (hok : Oks gs) {r v x : Tup α} (hr : Wf gs r) (hv : Wf gs v) (hx : Wf gs x) {n : Nat}
    (k : BitMask n true) (hn : total gs = n)
    (h : ∀ i a b, (lanes gs v)[i]? = some a → (lanes gs x)[i]? = some b → (lanes gs r)[i]? = some (if k.lane i then b else a)) :
    lanes gs r = Spec.select k.lanes (lanes gs x) (lanes gs v) := by
  have hlr := length_lanes hok hr
  have hlv := length_lanes hok hv
  have hlx := length_lanes hok hx
  apply select_ext
  · rw [length_bmlanes]; omega
  · rw [length_bmlanes]; omega
  · rw [length_bmlanes]; omega
  · intro i hi
    rw [length_bmlanes] at hi
    have ha := List.getElem?_eq_getElem (l := lanes gs v) (i := i) (by omega)
    have hb := List.getElem?_eq_getElem (l := lanes gs x) (i := i) (by omega)
    rw [h i _ _ ha hb, ha, hb]
    simp only [lanes_get_iff k hi]
    cases k.lane i <;> simp

end StdSimd.Tuple
