import Verif.Model.Split
import Verif.Spec.Split
import Verif.Proofs.Storage
import Verif.Proofs.Reduce
import Verif.Proofs.MaskVec
/-! `split` and `concat` of values: every part consists of the bytes of its lane range. -/
namespace StdSimd.Split
open MaskVec Abi

/-! ## results -/

theorem Res.all_ok {α β : Type} {f : α → Res β} {g : α → β} : ∀ {l : List α}, (∀ a ∈ l, f a = .ok (g a)) → Res.all f l = .ok (l.map g)
  | [], _ => rfl
  | a :: as, h => by
    rw [Res.all, h a (by simp), Res.bind, Res.all_ok (fun b hb => h b (by simp [hb]))]; rfl

/-- Either ill-formed or the given value. -/
def Res.Is {α : Type} (r : Res α) (a : α) : Prop := r = .ill ∨ r = .ok a

theorem Res.Is.ok {α : Type} {a : α} : Res.Is (.ok a) a := Or.inr rfl
theorem Res.Is.ill {α : Type} {a : α} : Res.Is .ill a := Or.inl rfl

theorem Res.all_is {α β : Type} {f : α → Res β} {g : α → β} : ∀ {l : List α}, (∀ a ∈ l, (f a).Is (g a)) → (Res.all f l).Is (l.map g)
  | [], _ => Or.inr rfl
  | a :: as, h => by
    rw [Res.all]
    rcases h a (by simp) with h1 | h1
    · rw [h1]; exact Or.inl rfl
    · rw [h1, Res.bind]
      rcases Res.all_is (f := f) (g := g) (l := as) (fun b hb => h b (by simp [hb])) with h2 | h2
      · rw [h2]; exact Or.inl rfl
      · rw [h2]; exact Or.inr rfl

theorem Res.bind_is {α β : Type} {r : Res α} {f : α → Res β} {a : α} {b : β} (h : r.Is a) (h2 : (f a).Is b) : (r.bind f).Is b := by
  rcases h with h | h
  · rw [h]; exact Or.inl rfl
  · rw [h]; exact h2

/-! ## elements -/

theorem elem_congr {s : Nat} {a b : Reg} {i k : Nat} (h : ∀ t < s, a (s * i + t) = b (s * k + t)) : elem s a i = elem s b k := by
  unfold elem
  apply BitVec.eq_of_getLsbD_eq
  intro j hj
  rw [X86.getLsbD_join (by omega), X86.getLsbD_join (by omega)]
  rw [h (j / 8) (by omega)]

/-- `n` elements of a byte sequence, from element `off` on. -/
def view (s : Nat) (r : Reg) (off n : Nat) : List (BitVec (8 * s)) := (List.range n).map (fun j => elem s r (off + j))

theorem view_congr {s : Nat} {a b : Reg} {off off' n : Nat} (h : ∀ j < s * n, a (s * off + j) = b (s * off' + j)) :
    view s a off n = view s b off' n := by
  apply List.map_congr_left
  intro j hj
  have hj : j < n := List.mem_range.1 hj
  apply elem_congr
  intro t ht
  have h1 : s * (j + 1) ≤ s * n := Nat.mul_le_mul_left _ hj
  rw [Nat.mul_succ] at h1
  have := h (s * j + t) (by omega)
  rw [Nat.mul_add, Nat.mul_add, Nat.add_assoc, Nat.add_assoc]
  exact this

theorem view_zero (s : Nat) (r : Reg) (n : Nat) : (List.range n).map (elem s r) = view s r 0 n := by
  simp [view]

theorem view_length (s : Nat) (r : Reg) (off n : Nat) : (view s r off n).length = n := by simp [view]

theorem view_append (s : Nat) (r : Reg) (off n m : Nat) : view s r off (n + m) = view s r off n ++ view s r (off + n) m := by
  unfold view
  rw [List.range_add, List.map_append, List.map_map]
  congr 1
  apply List.map_congr_left
  intro j _
  simp [Nat.add_assoc]

theorem view_get (s : Nat) (r : Reg) (off n i : Nat) (h : i < n) : (view s r off n)[i]? = some (elem s r (off + i)) := by
  simp [view, h]

theorem view_shift (s : Nat) (r : Reg) (p off n : Nat) : view s (fun b => r (s * p + b)) off n = view s r (p + off) n := by
  apply List.map_congr_left
  intro j _
  apply elem_congr
  intro t _
  show r _ = r _
  congr 1
  rw [Nat.add_assoc p, Nat.mul_add s p]; omega

/-- Splitting a view gives the views of the parts. -/
theorem split_view (s : Nat) (r : Reg) : ∀ (ns : List Nat) (off : Nat),
    Spec.split ns (view s r off ns.sum) = (offsets off ns).map (fun p => view s r p.1 p.2)
  | [], _ => rfl
  | n :: ns, off => by
    rw [List.sum_cons, view_append, Spec.split, offsets, List.map_cons]
    rw [List.take_left' (view_length ..), List.drop_left' (view_length ..), split_view s r ns]

/-! ## objects -/

/-- Every register holds its lanes; only the last one has padding: the lanes of the object are contiguous in memory. -/
def Contig : Obj → Prop
  | [] => True
  | [m] => m.n ≤ m.full
  | m :: ms => m.n = m.full ∧ Contig ms

theorem Contig.tail {m : Member} {ms : Obj} (h : Contig (m :: ms)) : Contig ms := by
  cases ms with
  | nil => trivial
  | cons a b => exact h.2

theorem Contig.head {m : Member} {ms : Obj} (h : Contig (m :: ms)) : m.n ≤ m.full ∧ (ms ≠ [] → m.n = m.full) := by
  cases ms with
  | nil => exact ⟨h, by simp⟩
  | cons a b => exact ⟨by have := h.1; omega, fun _ => h.1⟩

theorem image_head {s : Nat} {m : Member} {ms : Obj} {j : Nat} (h : j < s * m.full) : image s (m :: ms) j = m.reg j := by
  simp [image, h]

theorem image_tail {s : Nat} {m : Member} {ms : Obj} (j : Nat) : image s (m :: ms) (s * m.full + j) = image s ms j := by
  simp [image]

theorem lanes_eq (s : Nat) : ∀ {x : Obj}, Contig x → lanes s x = view s (image s x) 0 (size x)
  | [], _ => by simp [lanes, size, view]
  | m :: ms, h => by
    have hs : size (m :: ms) = m.n + size ms := by simp [size]
    have hl : lanes s (m :: ms) = mlanes s m ++ lanes s ms := by simp [lanes]
    rw [hs, hl, view_append, lanes_eq s h.tail, mlanes, view_zero]
    congr 1
    · apply view_congr
      intro j hj
      have : s * m.n ≤ s * m.full := Nat.mul_le_mul_left _ h.head.1
      simp only [Nat.mul_zero, Nat.zero_add]
      rw [image_head (by omega)]
    · by_cases hms : ms = []
      · subst hms; simp [size, view]
      · apply view_congr
        intro j hj
        rw [Nat.zero_add, h.head.2 hms, image_tail]; simp

theorem bytes_ge (s : Nat) : ∀ {x : Obj}, Contig x → s * size x ≤ bytes s x
  | [], _ => by simp [size, bytes]
  | m :: ms, h => by
    have hs : size (m :: ms) = m.n + size ms := by simp [size]
    have hb : bytes s (m :: ms) = s * m.full + bytes s ms := by simp [bytes]
    have := bytes_ge s h.tail
    have : s * m.n ≤ s * m.full := Nat.mul_le_mul_left _ h.head.1
    rw [hs, hb, Nat.mul_add]; omega

/-! ## `__shift_elements_right` -/

theorem chunkSize_dvd (sh : Nat) : 0 < chunkSize sh ∧ sh % chunkSize sh = 0 ∧ 8 % chunkSize sh = 0 := by
  unfold chunkSize; split
  · omega
  · split
    · omega
    · split <;> omega

theorem shrGeneric_spec {w sh : Nat} (h8 : w % 8 = 0) (v : Reg) {j : Nat} (hj : j < w - sh) : shrGeneric w sh v j = v (sh + j) := by
  unfold shrGeneric
  obtain ⟨h0, h1, h2⟩ := chunkSize_dvd sh
  generalize chunkSize sh = c at *
  obtain ⟨a, ha⟩ := Nat.dvd_of_mod_eq_zero h1
  have hcw : c ∣ w := Nat.dvd_trans (Nat.dvd_of_mod_eq_zero h2) (Nat.dvd_of_mod_eq_zero h8)
  obtain ⟨b, hb⟩ := hcw
  subst ha hb
  rw [← Nat.mul_sub, Nat.mul_div_cancel_left _ h0, Nat.mul_div_cancel_left _ h0, if_pos]
  · congr 1
    have := Nat.div_add_mod j c
    rw [Nat.mul_add]; omega
  · rw [← Nat.mul_sub] at hj
    exact Nat.div_lt_of_lt_mul hj

theorem shr16_spec (t : Target) (f d : Bool) {sh : Nat} (v : Reg) {j : Nat} (hj : j < 16 - sh) : shr16 t f d sh v j = v (sh + j) := by
  unfold shr16
  split
  · subst_vars; simp
  split
  · omega
  split
  · rename_i h; simp only [Bool.and_eq_true, beq_iff_eq] at h
    show v _ = v _; congr 1; omega
  split
  · rename_i h; simp only [Bool.and_eq_true, beq_iff_eq] at h
    show v _ = v _; congr 1; omega
  split
  · unfold srli128; rw [if_pos (by omega)]; congr 1; omega
  · exact shrGeneric_spec (by omega) v hj

theorem shr32_spec (t : Target) (f d : Bool) {sh : Nat} (v : Reg) {j : Nat} (hj : j < 32 - sh) : shr32 t f d sh v j = v (sh + j) := by
  unfold shr32
  split
  · subst_vars; simp
  split
  · omega
  split
  · subst_vars; unfold zext hi; rw [if_pos (by omega)]
  split
  · rename_i h; simp only [Bool.and_eq_true, decide_eq_true_eq] at h
    simp only [alignrBlocks, alignr]
    split
    · congr 1; omega
    · rw [if_pos (by omega)]; unfold permute81; rw [if_pos (by omega)]; congr 1; omega
  split
  · rename_i h; simp only [Bool.and_eq_true, decide_eq_true_eq] at h
    simp only [MaskVec.concat, alignr, srli128, hi]
    split
    · split
      · congr 1; omega
      · rw [if_pos (by omega)]; congr 1; omega
    · rw [if_pos (by omega)]; congr 1; omega
  split
  · unfold zext; rw [if_pos (by omega), shr16_spec _ _ _ _ (by omega)]; unfold hi; congr 1; omega
  · exact shrGeneric_spec (by omega) v hj

theorem blk_f9 (i : Nat) (h : i < 48) : 0xf9 / 4 ^ (i / 16) % 4 = i / 16 + 1 := by
  have : i / 16 = 0 ∨ i / 16 = 1 ∨ i / 16 = 2 := by omega
  rcases this with h | h | h <;> rw [h] <;> decide

theorem blk_ee (i : Nat) (h : i < 32) : 0xee / 4 ^ (i / 16) % 4 = i / 16 + 2 := by
  have : i / 16 = 0 ∨ i / 16 = 1 := by omega
  rcases this with h | h <;> rw [h] <;> decide

theorem shuffle_f9 (v : Reg) {i : Nat} (h : i < 48) : shuffleBlocks v v 0xf9 i = v (16 + i) := by
  unfold shuffleBlocks
  simp only [blk_f9 i h, ite_self]
  congr 1; omega

theorem shuffle_ee (v z : Reg) {i : Nat} (h : i < 32) : shuffleBlocks v z 0xee i = v (32 + i) := by
  unfold shuffleBlocks
  simp only [blk_ee i h, if_pos h]
  congr 1; omega

theorem shr64_spec (t : Target) (f d : Bool) {sh : Nat} (v : Reg) {r : Reg} (hr : shr64 t f d sh v = .ok r) {j : Nat}
    (hj : j < 64 - sh) : r j = v (sh + j) := by
  unfold shr64 at hr
  split at hr
  · cases hr; subst_vars; simp
  split at hr
  · omega
  split at hr
  · cases hr; subst_vars; unfold zext hi; rw [if_pos (by omega)]
  split at hr
  · split at hr
    · cases hr; unfold zext; rw [if_pos (by omega), shr16_spec _ _ _ _ (by omega)]; unfold hi; congr 1; omega
    split at hr
    · cases hr; unfold zext; rw [if_pos (by omega), shr32_spec _ _ _ _ (by omega)]; unfold hi; congr 1; omega
    split at hr
    · cases hr; unfold alignrElems; rw [if_pos (by omega)]; congr 1; omega
    split at hr
    · cases hr; unfold alignrElems; rw [if_pos (by omega)]; congr 1; omega
    split at hr
    · rename_i h; simp only [Bool.and_eq_true, decide_eq_true_eq] at h
      cases hr
      simp only [alignrBlocks, alignr]
      split
      · congr 1; omega
      · rw [if_pos (by omega), shuffle_f9 _ (by omega)]; congr 1; omega
    split at hr
    · rename_i h' h; simp only [Bool.and_eq_true, decide_eq_true_eq] at h h'
      have hge : 16 ≤ sh := by
        rcases Nat.lt_or_ge sh 16 with hlt | hge
        · exact absurd ⟨h.1, hlt⟩ h'
        · exact hge
      cases hr
      simp only [alignrBlocks, alignr]
      split
      · rw [shuffle_f9 _ (by omega)]; congr 1; omega
      · rw [if_pos (by omega), shuffle_ee _ _ (by omega)]; congr 1; omega
    · cases hr
  · cases hr; exact shrGeneric_spec (by omega) v hj

theorem shr64_noub (t : Target) (f d : Bool) (sh : Nat) (v : Reg) : shr64 t f d sh v ≠ .ub := by
  unfold shr64; repeat' split
  all_goals simp

theorem shiftRight_spec (t : Target) (f d : Bool) {w sh : Nat} (h8 : w % 8 = 0) (v : Reg) :
    shiftRight t f d w sh v ≠ .ub ∧ ∀ r, shiftRight t f d w sh v = .ok r → ∀ j < w - sh, r j = v (sh + j) := by
  unfold shiftRight
  refine ⟨?_, fun r hr j hj => ?_⟩
  · repeat' split
    all_goals first | exact shr64_noub _ _ _ _ _ | simp; done
  · split at hr
    · cases hr
    split at hr
    · cases hr; subst_vars; exact shr16_spec _ _ _ _ hj
    split at hr
    · cases hr; subst_vars; exact shr32_spec _ _ _ _ hj
    split at hr
    · subst_vars; exact shr64_spec _ _ _ _ hr hj
    split at hr
    · cases hr; subst_vars; simp
    split at hr
    · omega
    · cases hr; exact shrGeneric_spec h8 v hj

/-! ## `__extract_part` -/

/-- The result register holds the bytes of the lanes `off .. off + n` of `img`. -/
def Holds (s off n : Nat) (img r : Reg) : Prop := ∀ j < s * n, r j = img (s * off + j)

theorem extractBody_spec (t : Target) (T : Elem) (cp : Bool) (junk : Reg) (idx total comb vpp : Nat) (x : Member)
    (h8 : T.size * x.full < 16 ∨ T.size * x.full % 8 = 0) :
    extractBody t T cp junk idx total comb vpp x ≠ .ub ∧
    ∀ r, extractBody t T cp junk idx total comb vpp x = .ok r → Holds T.size (idx * vpp) (vpp * comb) x.reg r := by
  unfold extractBody Holds
  generalize hs : T.size = s at h8 ⊢
  dsimp only
  have e : (idx + comb) * vpp * s = idx * vpp * s + vpp * comb * s := by
    rw [Nat.add_mul, Nat.add_mul, Nat.mul_comm vpp comb]
  rw [e]
  generalize hskip : idx * vpp = skip
  generalize hret : vpp * comb = ret
  have hwR : ret * s ≤ vecBytes t s ret := Tuple.vecBytes_ge t s ret
  generalize vecBytes t s ret = wR at hwR ⊢
  rw [Nat.mul_comm skip s, Nat.mul_comm ret s] at *
  by_cases h1 : s * skip + s * ret ≤ s * x.full
  case neg => rw [if_pos h1]; exact ⟨by simp, by simp⟩
  rw [if_neg (by simpa using h1)]
  split
  · refine ⟨by simp, fun r hr j hj => ?_⟩
    cases hr; exact if_pos hj
  split
  · rename_i h
    refine ⟨by simp, fun r hr j hj => ?_⟩
    cases hr
    have : skip = 0 := by rw [← hskip, h.1]; simp
    rw [this]; simp
  split
  · rename_i h
    refine ⟨by simp, fun r hr j hj => ?_⟩
    cases hr
    have : skip = 0 := by rw [← hskip, h]; simp
    dsimp only
    rw [this, if_pos (by omega)]; simp
  split
  · rename_i h
    simp only [Bool.and_eq_true, beq_iff_eq, decide_eq_true_eq] at h
    split
    · rename_i h6
      refine ⟨by simp, fun r hr j hj => ?_⟩
      cases hr
      show x.reg _ = x.reg _
      rw [h6]
    · refine ⟨by simp, fun r hr j hj => ?_⟩
      cases hr
      unfold alignr
      split
      · congr 1; omega
      · rw [if_pos (by omega)]; unfold hi; congr 1; omega
  split
  · rename_i h6
    have hw : s * x.full % 8 = 0 := by
      rcases h8 with h8 | h8
      · omega
      · exact h8
    obtain ⟨a1, a2⟩ := shiftRight_spec t (T.fp && s == 4) (T.fp && s == 8) (sh := s * skip) hw x.reg
    generalize shiftRight t (T.fp && s == 4) (T.fp && s == 8) (s * x.full) (s * skip) x.reg = q at a1 a2
    cases q with
    | ill => exact ⟨by simp [Res.bind], by simp [Res.bind]⟩
    | ub => exact absurd rfl a1
    | ok q =>
      refine ⟨by simp [Res.bind], fun r hr j hj => ?_⟩
      cases hr
      show (if j < wR then q j else junk j) = x.reg (s * skip + j)
      rw [if_pos (by omega), a2 q rfl j (by omega)]
  · refine ⟨by simp, fun r hr j hj => ?_⟩
    cases hr
    exact if_pos hj

theorem extractNative_spec (t : Target) (T : Elem) (cp : Bool) (junk : Reg) (idx total comb : Nat) (x : Member)
    (hd : x.n % total = 0) (ht : 0 < total) (h8 : T.size * x.full < 16 ∨ T.size * x.full % 8 = 0) :
    extractNative t T cp junk idx total comb x ≠ .ub ∧
    ∀ r, extractNative t T cp junk idx total comb x = .ok r → Holds T.size (idx * (x.n / total)) (x.n / total * comb) x.reg r := by
  fun_induction extractNative t T cp junk idx total comb x with
  | case1 idx total comb h ih =>
    obtain ⟨q, hq⟩ := Nat.dvd_of_mod_eq_zero hd
    have ht2 : total = total / 2 * 2 := by omega
    have hn : x.n = total / 2 * (2 * q) := by rw [← Nat.mul_assoc, ← ht2]; exact hq
    have h1 : x.n / total = q := by rw [hq, Nat.mul_div_cancel_left _ ht]
    have h2 : x.n / (total / 2) = 2 * q := by rw [hn, Nat.mul_div_cancel_left _ (by omega)]
    have := ih (by rw [hn]; exact Nat.mul_mod_right _ _) (by omega)
    rw [h2] at this
    rw [h1]
    have e1 : idx / 2 * (2 * q) = idx * q := by rw [← Nat.mul_assoc]; congr 1; omega
    have e2 : 2 * q * (comb / 2) = q * comb := by
      rw [Nat.mul_comm 2 q, Nat.mul_assoc]; congr 1; omega
    rw [e1, e2] at this
    exact this
  | case2 idx total comb h => exact extractBody_spec t T cp junk idx total comb _ x h8

theorem extractTuple_spec (t : Target) (T : Elem) (cp : Bool) (junk : Reg) (idx total comb : Nat) (x : Obj)
    (hc : Contig x) (h8 : ∀ m ∈ x, T.size * m.full < 16 ∨ T.size * m.full % 8 = 0) :
    extractTuple t T cp junk idx total comb x ≠ .ub ∧
    ∀ r, extractTuple t T cp junk idx total comb x = .ok r →
      Holds T.size (idx * (size x / total)) (size x / total * comb) (image T.size x) r := by
  induction x generalizing idx total comb with
  | nil => exact ⟨by simp [extractTuple], by simp [extractTuple]⟩
  | cons m ms ih =>
    have ih := fun idx total comb => ih idx total comb hc.tail (fun m hm => h8 m (by simp [hm]))
    have h8m := h8 m (by simp)
    have hb := bytes_ge T.size hc
    obtain ⟨hc1, hc2⟩ := hc.head
    have hsz : size (m :: ms) = m.n + size ms := by simp [size]
    have hms : ∀ {k}, m.n ≤ k → k < size (m :: ms) → ms ≠ [] := by
      intro k h1 h2 h; subst h; simp [size] at h2; omega
    have hhead : ∀ {j}, j < T.size * m.n → image T.size (m :: ms) j = m.reg j := by
      intro j hj
      have := Nat.mul_le_mul_left T.size hc1
      exact image_head (by omega)
    rw [extractTuple]
    dsimp only
    generalize size (m :: ms) = np at *
    by_cases h1 : idx + comb ≤ total ∧ 1 ≤ total ∧ total ≤ np ∧ np % total = 0
    case neg => rw [if_pos h1]; exact ⟨by simp, by simp⟩
    rw [if_neg (by simpa using h1)]
    obtain ⟨g1, g2, g3, g4⟩ := h1
    obtain ⟨vpp, hv⟩ := Nat.dvd_of_mod_eq_zero g4
    have hvpp : np / total = vpp := by rw [hv, Nat.mul_div_cancel_left _ (by omega)]
    have hv0 : 0 < vpp := by
      rcases Nat.eq_zero_or_pos vpp with h | h
      · subst h; omega
      · exact h
    rw [hvpp]
    have hle : idx * vpp + vpp * comb ≤ np := by
      rw [hv, Nat.mul_comm vpp comb, ← Nat.add_mul]; exact Nat.mul_le_mul_right _ g1
    generalize hskip : idx * vpp = skip at *
    generalize hret : vpp * comb = ret at *
    have hskip0 : idx = 0 → skip = 0 := by intro h; rw [← hskip, h]; simp
    split
    · rename_i h
      refine ⟨by simp, fun r hr j hj => ?_⟩
      cases hr
      rw [hskip0 h.1, hhead (by rw [h.2]; omega)]; simp
    split
    · exact ⟨by simp, by simp⟩
    split
    · rename_i h
      refine ⟨by simp, fun r hr j hj => ?_⟩
      cases hr
      have hwR : ret * T.size ≤ vecBytes t T.size ret := Tuple.vecBytes_ge t T.size ret
      have := Nat.mul_le_mul_left T.size h.2
      rw [Nat.mul_comm] at hwR
      dsimp only
      rw [hskip0 h.1, if_pos (by omega), hhead (by omega)]; simp
    split
    · rename_i h
      have hlift : ∀ r off, off + m.n = skip → Holds T.size off ret (image T.size ms) r → Holds T.size skip ret (image T.size (m :: ms)) r := by
        intro r off ho hh j hj
        have hne : ms ≠ [] ∨ ret = 0 := by
          rcases Nat.eq_zero_or_pos ret with h0 | h0
          · exact Or.inr h0
          · exact Or.inl (hms h (by omega))
        rcases hne with hne | hne
        · rw [hh j hj, ← ho, Nat.add_comm off, Nat.mul_add, hc2 hne, Nat.add_assoc, image_tail]
        · rw [hne] at hj; simp at hj
      split
      · rename_i hmod
        obtain ⟨q, hq⟩ := Nat.dvd_of_mod_eq_zero hmod
        have hqd : m.n / vpp = q := by rw [hq, Nat.mul_div_cancel_left _ hv0]
        rw [hqd]
        have hqidx : q ≤ idx := by
          have : vpp * q ≤ vpp * idx := by rw [← hq, Nat.mul_comm vpp idx, hskip]; exact h
          exact Nat.le_of_mul_le_mul_left this hv0
        have hms' : size ms = (total - q) * vpp := by
          rw [Nat.sub_mul, ← hv, Nat.mul_comm q, ← hq]; omega
        obtain ⟨b1, b2⟩ := ih (idx - q) (total - q) comb
        refine ⟨b1, fun r hr => ?_⟩
        have b3 := b2 r hr
        rcases Nat.eq_zero_or_pos (total - q) with h0 | h0
        · -- nothing left
          have : comb = 0 := by omega
          subst this
          intro j hj
          simp at hret
          rw [← hret] at hj; simp at hj
        · rw [hms', Nat.mul_div_cancel_left _ h0, hret] at b3
          refine hlift r _ ?_ b3
          rw [Nat.sub_mul, hskip, Nat.mul_comm q, ← hq]; omega
      · obtain ⟨b1, b2⟩ := ih (skip - m.n) (np - m.n) ret
        refine ⟨b1, fun r hr => ?_⟩
        have b3 := b2 r hr
        rcases Nat.eq_zero_or_pos ret with h0 | h0
        · intro j hj; rw [h0] at hj; simp at hj
        · have : size ms / (np - m.n) = 1 := by rw [hsz, Nat.add_sub_cancel_left]; exact Nat.div_self (by omega)
          rw [this, Nat.mul_one, Nat.one_mul] at b3
          exact hlift r _ (by omega) b3
    split
    · have : T.size * (skip + ret) ≤ bytes T.size (m :: ms) := Nat.le_trans (Nat.mul_le_mul_left _ hle) hb
      rw [if_pos this]
      refine ⟨by simp, fun r hr j hj => ?_⟩
      cases hr
      exact if_pos hj
    · rename_i hA hB
      have hfin : ∀ r, Holds T.size skip ret m.reg r → Holds T.size skip ret (image T.size (m :: ms)) r := by
        intro r hh j hj
        have := Nat.mul_le_mul_left T.size (show skip + ret ≤ m.n by omega)
        rw [Nat.mul_add] at this
        rw [hh j hj, hhead (by omega)]
      split
      · rename_i hmod
        obtain ⟨q, hq⟩ := Nat.dvd_of_mod_eq_zero hmod
        have hqd : m.n / vpp = q := by rw [hq, Nat.mul_div_cancel_left _ hv0]
        have hq0 : 0 < q := by
          rcases Nat.eq_zero_or_pos q with h | h
          · subst h; omega
          · exact h
        have hqq : m.n / q = vpp := by rw [hq, Nat.mul_div_cancel _ hq0]
        rw [hqd]
        obtain ⟨b1, b2⟩ := extractNative_spec t T cp junk idx q comb m (by rw [hq]; exact Nat.mul_mod_left _ _) hq0 h8m
        refine ⟨b1, fun r hr => hfin r ?_⟩
        have := b2 r hr
        rwa [hqq, hskip, hret] at this
      · obtain ⟨b1, b2⟩ := extractNative_spec t T cp junk skip m.n (comb * vpp) m (Nat.mod_self _) (by omega) h8m
        refine ⟨b1, fun r hr => hfin r ?_⟩
        have := b2 r hr
        rwa [Nat.div_self (by omega), Nat.mul_one, Nat.one_mul, Nat.mul_comm comb, hret] at this

/-! ## alignment -/

/-- `((a - 1) & a) ^ a` is the lowest set bit of `a`. -/
theorem lowBit_spec (a : Nat) (h : 0 < a) : ∃ e, ((a - 1) &&& a) ^^^ a = 2 ^ e ∧ 2 ^ e ∣ a := by
  induction a using Nat.strongRecOn with
  | _ a ih =>
    rcases Nat.mod_two_eq_zero_or_one a with h2 | h2
    · obtain ⟨c, rfl⟩ : ∃ c, a = 2 * c := ⟨a / 2, by omega⟩
      obtain ⟨e, h3, h4⟩ := ih c (by omega) (by omega)
      refine ⟨e + 1, ?_, ?_⟩
      · rw [Nat.pow_succ, ← h3]
        apply Nat.eq_of_testBit_eq
        intro i
        cases i with
        | zero => simp [Nat.testBit_xor, Nat.testBit_and, Nat.testBit_zero]
        | succ i =>
          rw [Nat.testBit_xor, Nat.testBit_and, Nat.testBit_succ, Nat.testBit_succ, Nat.testBit_succ]
          rw [show (2 * c - 1) / 2 = c - 1 by omega, show 2 * c / 2 = c by omega, Nat.mul_div_cancel _ (by omega : 0 < 2),
            Nat.testBit_xor, Nat.testBit_and]
      · rw [Nat.pow_succ, Nat.mul_comm]; exact Nat.mul_dvd_mul_left _ h4
    · refine ⟨0, ?_, by simp⟩
      obtain ⟨c, rfl⟩ : ∃ c, a = 2 * c + 1 := ⟨a / 2, by omega⟩
      apply Nat.eq_of_testBit_eq
      intro i
      cases i with
      | zero => simp [Nat.testBit_xor, Nat.testBit_and, Nat.testBit_zero]
      | succ i =>
        rw [Nat.testBit_xor, Nat.testBit_and, Nat.testBit_succ, Nat.testBit_succ, Nat.testBit_succ]
        rw [show (2 * c + 1 - 1) / 2 = c by omega, show (2 * c + 1) / 2 = c by omega]
        simp

theorem pow_dvd_pow_of_le {a b : Nat} (h : 2 ^ a ≤ 2 ^ b) : 2 ^ a ∣ 2 ^ b :=
  Nat.pow_dvd_pow 2 ((Nat.pow_le_pow_iff_right (by omega)).1 h)

theorem overAlign_spec {s base off addr : Nat} (hb : ∃ e, base = 2 ^ e) (ha : addr % base = 0) :
    (addr + s * off) % overAlign s base off = 0 := by
  obtain ⟨e, rfl⟩ := hb
  have hpos := Nat.two_pow_pos e
  unfold overAlign
  dsimp only
  rw [Nat.mul_comm off s]
  have hlt := Nat.mod_lt (s * off) hpos
  obtain ⟨k, h1, h2⟩ := lowBit_spec (2 ^ e - (s * off) % 2 ^ e) (by omega)
  rw [h1, if_neg (by have := Nat.two_pow_pos k; omega)]
  have hle : 2 ^ k ≤ 2 ^ e := by
    have := Nat.le_of_dvd (by omega) h2; omega
  have hd : 2 ^ k ∣ 2 ^ e := pow_dvd_pow_of_le hle
  apply Nat.mod_eq_zero_of_dvd
  apply Nat.dvd_add
  · exact Nat.dvd_trans hd (Nat.dvd_of_mod_eq_zero ha)
  · rw [← Nat.div_add_mod (s * off) (2 ^ e)]
    apply Nat.dvd_add
    · exact Nat.dvd_trans hd (Nat.dvd_mul_right _ _)
    · have := Nat.dvd_sub hd h2
      rwa [show 2 ^ e - (2 ^ e - s * off % 2 ^ e) = s * off % 2 ^ e by omega] at this

/-! ## parts -/

theorem at'_eq {s : Nat} {x : Obj} (hc : Contig x) {i : Nat} (h : i < size x) : at' s x i = .ok (elem s (image s x) i) := by
  unfold at'
  rw [lanes_eq s hc, view_get _ _ _ _ _ h]; simp

theorem gen_eq {s : Nat} {x : Obj} (hc : Contig x) {off n : Nat} (h : off + n ≤ size x) :
    gen s x off n = .ok (view s (image s x) off n) :=
  Res.all_ok (fun j hj => at'_eq hc (by have := List.mem_range.1 hj; omega))

theorem load_eq {s : Nat} {x : Obj} (hc : Contig x) {addr al off n : Nat} (h : off + n ≤ size x) (ha : (addr + s * off) % al = 0) :
    load s addr al x off n = .ok (view s (image s x) off n) := by
  unfold load
  rw [if_pos ⟨Nat.le_trans (Nat.mul_le_mul_left _ h) (bytes_ge s hc), ha⟩]
  congr 1
  have := view_shift s (image s x) off 0 n
  simpa [view] using this

theorem fromReg_is {s n : Nat} {r : Res Reg} {img : Reg} {off : Nat} (h0 : r ≠ .ub) (h : ∀ q, r = .ok q → Holds s off n img q) :
    (fromReg s n r).Is (view s img off n) := by
  unfold fromReg
  cases r with
  | ill => exact Or.inl rfl
  | ub => exact absurd rfl h0
  | ok q =>
    right
    show Res.ok _ = _
    rw [view_zero]
    congr 1
    apply view_congr
    intro j hj
    have := h q rfl j hj
    simpa using this

/-- What the theorems assume of an object: contiguous lanes, registers of 8 bytes or a multiple if they are not small. -/
structure Good (s : Nat) (fixed : Bool) (x : Obj) : Prop where
  contig : Contig x
  w8 : ∀ m ∈ x, s * m.full < 16 ∨ s * m.full % 8 = 0
  one : fixed = false → ∃ m, x = [m]

theorem extractPart_is {t : Target} {T : Elem} {fixed : Bool} {x : Obj} (hx : Good T.size fixed x) (cp : Bool) (junk : Reg)
    {idx total comb : Nat} (hd : size x % total = 0) (ht : 0 < total) {n off : Nat} (hn : n = size x / total * comb)
    (ho : off = idx * (size x / total)) (hin : off + n ≤ size x) :
    (fromReg T.size n (extractPart t T cp junk fixed idx total comb x)).Is (view T.size (image T.size x) off n) := by
  subst hn ho
  unfold extractPart
  split
  · obtain ⟨h1, h2⟩ := extractTuple_spec t T cp junk idx total comb x hx.contig hx.w8
    exact fromReg_is h1 h2
  · rename_i hf
    obtain ⟨m, rfl⟩ := hx.one (by simpa using hf)
    have hsz : size [m] = m.n := by simp [size]
    obtain ⟨h1, h2⟩ := extractNative_spec t T cp junk idx total comb m (by rwa [hsz] at hd) ht (hx.w8 m (by simp))
    rw [hsz] at hin ⊢
    apply fromReg_is h1
    intro q hq j hj
    rw [h2 q hq j hj, image_head]
    have hc : m.n ≤ m.full := hx.contig
    have h3 := Nat.mul_le_mul_left T.size (Nat.le_trans hin hc)
    rw [Nat.mul_add] at h3; omega

theorem blk_center (i : Nat) (h : i < 32) : (1 + 2 * 0x4 + 2 * 0x10 + 3 * 0x40) / 4 ^ (i / 16) % 4 = i / 16 + 1 := by
  have : i / 16 = 0 ∨ i / 16 = 1 := by omega
  rcases this with h | h <;> rw [h] <;> decide

theorem center_is {t : Target} {T : Elem} {fixed : Bool} {x : Obj} (hx : Good T.size fixed x) (cp : Bool) (junk : Reg)
    (hd : size x % 4 = 0) :
    (fromReg T.size (size x / 2) (extractCenter t T cp junk fixed x)).Is (view T.size (image T.size x) (size x / 4) (size x / 2)) := by
  unfold extractCenter
  split
  · rename_i m
    have hsz : size [m] = m.n := by simp [size]
    rw [hsz] at hd ⊢
    have hc : m.n ≤ m.full := hx.contig
    have hw := Nat.mul_le_mul_left T.size hc
    have himg : ∀ {j}, j < T.size * m.n → image T.size [m] j = m.reg j := fun hj => image_head (by omega)
    obtain ⟨k, hk⟩ := Nat.dvd_of_mod_eq_zero hd
    have e1 : T.size * m.n / 4 = T.size * k := by rw [hk, Nat.mul_left_comm, Nat.mul_div_cancel_left _ (by omega)]
    have e2 : T.size * m.n / 2 = 2 * (T.size * k) := by rw [hk, Nat.mul_left_comm]; omega
    have e3 : m.n / 4 = k := by omega
    have e4 : T.size * (m.n / 2) = 2 * (T.size * k) := by rw [show m.n / 2 = 2 * k by omega, Nat.mul_left_comm]
    have e5 : T.size * m.n = 4 * (T.size * k) := by rw [hk, Nat.mul_left_comm]
    apply fromReg_is
    · unfold centerNative; dsimp only; repeat' split
      all_goals simp
    · intro q hq j hj
      rw [e4] at hj
      rw [e3, himg (by omega)]
      unfold centerNative at hq
      dsimp only at hq
      rw [e1, e2] at hq
      split at hq
      · cases hq
      split at hq
      · rename_i h; simp only [Bool.and_eq_true, beq_iff_eq] at h
        cases hq
        unfold shuffleBlocks
        simp only [blk_center j (by omega), ite_self]
        congr 1; omega
      split at hq
      · rename_i h; simp only [Bool.and_eq_true, beq_iff_eq] at h
        cases hq
        dsimp only
        split <;> congr 1 <;> omega
      split at hq
      · rename_i h; simp only [Bool.and_eq_true, beq_iff_eq, decide_eq_true_eq] at h
        cases hq
        unfold alignr
        split
        · congr 1; omega
        · rw [if_pos (by omega)]; unfold hi; congr 1; omega
      · cases hq
        exact if_pos hj
  · split
    · obtain ⟨h1, h2⟩ := extractTuple_spec t T cp junk 1 4 2 x hx.contig hx.w8
      apply fromReg_is h1
      intro q hq
      have := h2 q hq
      rwa [Nat.one_mul, show size x / 4 * 2 = size x / 2 by omega] at this
    · exact Or.inl rfl

/-! ## `split` -/

theorem offsets_mem : ∀ {ns : List Nat} {off : Nat} {p : Nat × Nat}, p ∈ offsets off ns → p.1 + p.2 ≤ off + ns.sum
  | [], _, _, h => by simp [offsets] at h
  | n :: ns, off, p, h => by
    rw [offsets, List.mem_cons] at h
    rcases h with rfl | h
    · simp only [List.sum_cons]; omega
    · have := offsets_mem h
      simp only [List.sum_cons]; omega

theorem seq_is {α : Type} {l : List (Res α)} {r : List α} (h : List.Forall₂ Res.Is l r) : (Res.all id l).Is r := by
  induction h with
  | nil => exact Or.inr rfl
  | @cons a b as bs h1 _ ih =>
    rw [Res.all]
    exact Res.bind_is h1 (Res.bind_is ih (Or.inr rfl))

theorem all_eq_replicate {sizes : List Nat} {np k : Nat} (hk : 0 < k) (hsum : sizes.sum = np) (hnp : 0 < np)
    (h : sizes.all (fun n => n * k == np) = true) : np % k = 0 ∧ sizes = List.replicate k (np / k) := by
  have h1 : ∀ n ∈ sizes, n = np / k := by
    intro n hn
    have := List.all_eq_true.1 h n hn
    simp only [beq_iff_eq] at this
    rw [← this, Nat.mul_div_cancel _ hk]
  have h2 : sizes = List.replicate sizes.length (np / k) := List.eq_replicate_of_mem h1
  have hne : sizes ≠ [] := by rintro rfl; simp at hsum; omega
  obtain ⟨a, l, rfl⟩ := List.exists_cons_of_ne_nil hne
  have ha : a * k = np := by
    have := List.all_eq_true.1 h a (by simp)
    simpa using this
  have hq : np / k * k = np := by rw [← h1 a (by simp)]; exact ha
  refine ⟨by rw [← hq]; exact Nat.mul_mod_left _ _, ?_⟩
  have h3 : (a :: l).sum = (a :: l).length * (np / k) := by
    conv_lhs => rw [h2]
    simp
  have h4 : (a :: l).length * (np / k) = k * (np / k) := by rw [← h3, hsum, Nat.mul_comm k]; exact hq.symm
  have hpos : 0 < np / k := by
    rcases Nat.eq_zero_or_pos (np / k) with h | h
    · rw [h] at hq; omega
    · exact h
  have h5 := Nat.eq_of_mul_eq_mul_right hpos h4
  rw [h5] at h2
  exact h2

theorem patterns_is {t : Target} {T : Elem} (img : Reg) (np : Nat) (hnp : 0 < np) (sizes : List Nat) (hsum : sizes.sum = np)
    (part : Nat → Nat → Nat → Nat → Res (List (BitVec (8 * T.size)))) (center : Res (List (BitVec (8 * T.size))))
    (loads : Res (List (List (BitVec (8 * T.size)))))
    (hp : ∀ idx total comb n off, np % total = 0 → 0 < total → n = np / total * comb → off = idx * (np / total) → off + n ≤ np →
      (part idx total comb n).Is (view T.size img off n))
    (hcen : np % 4 = 0 → center.Is (view T.size img (np / 4) (np / 2)))
    (hl : loads.Is ((offsets 0 sizes).map (fun p => view T.size img p.1 p.2))) :
    (splitSizes.patterns t T np sizes part center loads).Is
      ((offsets 0 sizes).map (fun p => view T.size img p.1 p.2)) := by
  unfold splitSizes.patterns
  dsimp only
  split
  case isFalse => exact hl
  split
  · rename_i h
    obtain ⟨h2, rfl⟩ := all_eq_replicate (by omega) hsum hnp h
    apply seq_is
    simp only [List.replicate, offsets, List.map]
    refine .cons (hp _ _ _ _ _ h2 (by omega) (by omega) (by omega) (by omega)) (.cons (hp _ _ _ _ _ h2 (by omega) (by omega) (by omega) (by omega)) .nil)
  split
  · rename_i h
    subst h
    simp only [List.sum_cons, List.sum_nil] at hsum
    apply seq_is
    simp only [offsets, List.map]
    refine .cons (hp _ _ _ _ _ ?_ ?_ ?_ ?_ ?_) (.cons (hp _ _ _ _ _ ?_ ?_ ?_ ?_ ?_) (.cons (hp _ _ _ _ _ ?_ ?_ ?_ ?_ ?_) .nil))
    all_goals omega
  split
  · rename_i h
    subst h
    simp only [List.sum_cons, List.sum_nil] at hsum
    apply seq_is
    simp only [offsets, List.map]
    refine .cons (hp _ _ _ _ _ ?_ ?_ ?_ ?_ ?_) (.cons (hp _ _ _ _ _ ?_ ?_ ?_ ?_ ?_) .nil)
    all_goals omega
  split
  · rename_i h
    subst h
    simp only [List.sum_cons, List.sum_nil] at hsum
    apply seq_is
    simp only [offsets, List.map]
    refine .cons (hp _ _ _ _ _ ?_ ?_ ?_ ?_ ?_) (.cons (hp _ _ _ _ _ ?_ ?_ ?_ ?_ ?_) .nil)
    all_goals omega
  split
  · rename_i h
    subst h
    simp only [List.sum_cons, List.sum_nil] at hsum
    apply seq_is
    simp only [offsets, List.map]
    refine .cons (hp _ _ _ _ _ ?_ ?_ ?_ ?_ ?_) (.cons (hp _ _ _ _ _ ?_ ?_ ?_ ?_ ?_) (.cons (hp _ _ _ _ _ ?_ ?_ ?_ ?_ ?_) .nil))
    all_goals omega
  split
  · rename_i h
    subst h
    simp only [List.sum_cons, List.sum_nil] at hsum
    apply seq_is
    simp only [offsets, List.map]
    refine .cons (hp _ _ _ _ _ ?_ ?_ ?_ ?_ ?_) (.cons (hp _ _ _ _ _ ?_ ?_ ?_ ?_ ?_) (.cons (hp _ _ _ _ _ ?_ ?_ ?_ ?_ ?_) .nil))
    all_goals omega
  split
  · rename_i h
    subst h
    simp only [List.sum_cons, List.sum_nil] at hsum
    apply seq_is
    simp only [offsets, List.map]
    refine .cons (hp _ _ _ _ _ ?_ ?_ ?_ ?_ ?_) (.cons ?_ (.cons (hp _ _ _ _ _ ?_ ?_ ?_ ?_ ?_) .nil))
    case refine_6 => rw [Nat.zero_add]; exact hcen (by omega)
    all_goals omega
  split
  · rename_i h
    obtain ⟨h2, rfl⟩ := all_eq_replicate (by omega) hsum hnp h
    apply seq_is
    simp only [List.replicate, offsets, List.map]
    refine .cons (hp _ _ _ _ _ ?_ ?_ ?_ ?_ ?_) (.cons (hp _ _ _ _ _ ?_ ?_ ?_ ?_ ?_) (.cons (hp _ _ _ _ _ ?_ ?_ ?_ ?_ ?_)
      (.cons (hp _ _ _ _ _ ?_ ?_ ?_ ?_ ?_) .nil)))
    all_goals omega
  · exact hl

/-- The alignment every complete object has. -/
def Aligned (s : Nat) (fixed : Bool) (x : Obj) (addr : Nat) : Prop :=
  (fixed = false → size x ≠ 1 → ∃ e, alignOf s fixed x = 2 ^ e) ∧ addr % alignOf s fixed x = 0

theorem splitSizes_is (t : Target) (T : Elem) (cp : List Nat → Bool) (addr : List Nat → Nat) (junk : Reg) (fixed : Bool)
    (hrec : ∀ l, addr l % bitCeil (l.sum * T.size) = 0 ∨ fixed = false) (sizes : List Nat) (x : Obj) (hx : Good T.size fixed x) (hpos : 0 < size x)
    (hal : Aligned T.size fixed x (addr sizes)) (h0 : ∀ n ∈ sizes, 0 < n) :
    (splitSizes t T cp addr junk fixed sizes x).Is (Spec.split sizes (lanes T.size x)) := by
  induction sizes generalizing x with
  | nil => exact Or.inl rfl
  | cons n0 ns ih =>
    unfold splitSizes
    dsimp only
    split
    · exact Or.inl rfl
    rename_i hsum0
    have hsum : (n0 :: ns).sum = size x := by simpa using hsum0
    clear hsum0
    have key : Spec.split (n0 :: ns) (lanes T.size x) = (offsets 0 (n0 :: ns)).map (fun p => view T.size (image T.size x) p.1 p.2) := by
      rw [lanes_eq _ hx.contig, ← hsum, split_view]
    rw [key]
    have hmem : ∀ p ∈ offsets 0 (n0 :: ns), p.1 + p.2 ≤ size x := by
      intro p hp; have := offsets_mem hp; omega
    split
    · exact Res.all_is (fun p hp => Or.inr (gen_eq hx.contig (hmem p hp)))
    split
    · rename_i hn
      split
      · rename_i hns
        subst hns
        right
        simp only [offsets, List.map_cons, List.map_nil, List.sum_cons, List.sum_nil] at hsum ⊢
        rw [lanes_eq _ hx.contig, hn]
      · exact Or.inl rfl
    rename_i hne
    have hloads : (Res.all (fun (p : Nat × Nat) => load T.size (addr (n0 :: ns)) (overAlign T.size (alignOf T.size fixed x) p.1) x p.1 p.2)
        (offsets 0 (n0 :: ns))).Is ((offsets 0 (n0 :: ns)).map (fun p => view T.size (image T.size x) p.1 p.2)) := by
      refine Res.all_is (fun p hp => Or.inr (load_eq hx.contig (hmem p hp) (overAlign_spec ?_ hal.2)))
      cases hf : fixed with
      | true => unfold alignOf; rw [if_pos rfl]; exact Reduce.bitCeil_pow _
      | false =>
        have h1 : size x ≠ 1 := by
          intro h1
          have := h0 n0 (by simp)
          simp only [List.sum_cons] at hsum; omega
        have := hal.1 hf h1
        rwa [hf] at this
    have hpat := patterns_is (t := t) (T := T) (image T.size x) (size x) hpos (n0 :: ns) hsum
      (fun idx total comb n => fromReg T.size n (extractPart t T (cp (n0 :: ns)) junk fixed idx total comb x))
      (fromReg T.size (size x / 2) (extractCenter t T (cp (n0 :: ns)) junk fixed x)) _
      (fun idx total comb n off hd ht hn ho hin => extractPart_is hx _ junk hd ht hn ho hin)
      (fun hd => center_is hx _ junk hd) hloads
    split
    · rename_i m ms
      split
      · rename_i hm
        split
        · exact Or.inl rfl
        have hsz : size (m :: ms) = m.n + size ms := by simp [size]
        simp only [List.sum_cons] at hsum
        have hpos' : 0 < size ms := by omega
        have hms : ms ≠ [] := by rintro rfl; simp [size] at hpos'
        have hx' : Good T.size true ms := ⟨hx.contig.tail, fun a ha => hx.w8 a (by simp [ha]), by simp⟩
        have := ih ms hx' hpos' ⟨by simp, by
          unfold alignOf; rw [if_pos rfl, show size ms = ns.sum by omega]
          rcases hrec ns with h | h
          · exact h
          · cases h⟩ (fun n hn => h0 n (by simp [hn]))
        refine Res.bind_is this (Or.inr ?_)
        rw [offsets, List.map_cons, Nat.zero_add]
        have e1 : mlanes T.size m = view T.size (image T.size (m :: ms)) 0 n0 := by
          rw [mlanes, view_zero, hm]
          apply view_congr
          intro j hj
          have := Nat.mul_le_mul_left T.size hx.contig.head.1
          rw [hm] at this
          simp only [Nat.mul_zero, Nat.zero_add]
          rw [image_head (by omega)]
        have e2 : lanes T.size ms = view T.size (image T.size (m :: ms)) n0 ns.sum := by
          rw [lanes_eq _ hx.contig.tail, show size ms = ns.sum by omega]
          apply view_congr
          intro j hj
          rw [← hm, hx.contig.head.2 hms, image_tail]; simp
        rw [e1, e2, split_view]
      · exact hpat
    · exact hpat

/-- The part sizes of `split<V>`. -/
theorem offsets_replicate (k : Nat) : ∀ (p q : Nat), offsets (q * k) (List.replicate p k) = (List.range p).map (fun i => ((q + i) * k, k))
  | 0, q => rfl
  | p + 1, q => by
    rw [List.replicate_succ, offsets, List.range_succ_eq_map, List.map_cons, Nat.add_zero, List.map_map]
    have := offsets_replicate k p (q + 1)
    rw [Nat.succ_mul] at this
    rw [this]
    congr 1
    apply List.map_congr_left
    intro i _
    simp only [Function.comp]
    rw [Nat.add_assoc, Nat.add_comm 1 i]

theorem splitV_is (t : Target) (T : Elem) (cp : Bool) (addr : Nat) (junk : Reg) (fixed : Bool) (kind : Kind) (k : Nat) (x : Obj)
    (hx : Good T.size fixed x) (hk : 0 < k) (hsc : kind = .scalar → k = 1) (hpos : 0 < size x) (hal : fixed = true → addr % bitCeil (size x * T.size) = 0)
    (hpow : kind = .scalar → ∃ e, T.size = 2 ^ e) :
    (splitV t T cp addr junk fixed kind k x).Is (Spec.split (List.replicate (size x / k) k) (lanes T.size x)) := by
  unfold splitV
  dsimp only
  split
  · exact Or.inl rfl
  rename_i h0
  have hmul : size x = size x / k * k := by simpa using h0
  clear h0
  generalize hp : size x / k = p at *
  have key : Spec.split (List.replicate p k) (lanes T.size x) = (List.range p).map (fun i => view T.size (image T.size x) (i * k) k) := by
    have hsum : (List.replicate p k).sum = size x := by rw [List.sum_replicate_nat]; exact hmul.symm
    rw [lanes_eq _ hx.contig, ← hsum, split_view]
    have := offsets_replicate k p 0
    simp only [Nat.zero_mul, Nat.zero_add] at this
    rw [this, List.map_map]; rfl
  have hin : ∀ i ∈ List.range p, i * k + k ≤ size x := by
    intro i hi
    have := List.mem_range.1 hi
    rw [hmul, ← Nat.succ_mul]
    exact Nat.mul_le_mul_right _ (by omega)
  rw [key]
  split
  · rename_i h1
    subst h1
    right
    rw [lanes_eq _ hx.contig, show size x = k by omega]
    simp [List.range_succ]
  split
  · exact Res.all_is (fun i hi => Or.inr (gen_eq hx.contig (hin i hi)))
  split
  · rename_i h
    simp only [Bool.and_eq_true, Bool.or_eq_true, beq_iff_eq] at h
    obtain ⟨hf, hkind⟩ := h
    refine Res.all_is (fun i hi => Or.inr (load_eq hx.contig (hin i hi) ?_))
    have hb : bitCeil (T.size * k) = T.size * k := by
      rcases hkind with hkind | hkind
      · obtain ⟨e, he⟩ := hpow hkind
        rw [hsc hkind, Nat.mul_one, he]; exact Abi.bitCeil_two_pow e
      · rw [Nat.mul_comm T.size k]
        have := hkind.2
        rwa [Nat.mul_comm T.size k] at this
    have hle : T.size * k ≤ size x * T.size := by
      rw [Nat.mul_comm]
      have := hin 0 (List.mem_range.2 (by
        rcases Nat.eq_zero_or_pos p with h | h
        · subst h; omega
        · exact h))
      exact Nat.mul_le_mul_right _ (by omega)
    obtain ⟨a, ha⟩ := Reduce.bitCeil_pow (T.size * k)
    obtain ⟨b, hb'⟩ := Reduce.bitCeil_pow (size x * T.size)
    have hd : bitCeil (T.size * k) ∣ bitCeil (size x * T.size) := by
      have := Reduce.bitCeil_mono hle
      rw [ha, hb'] at this ⊢
      exact pow_dvd_pow_of_le this
    apply Nat.mod_eq_zero_of_dvd
    apply Nat.dvd_add
    · exact Nat.dvd_trans hd (Nat.dvd_of_mod_eq_zero (hal hf))
    · rw [hb, Nat.mul_left_comm]; exact Nat.dvd_mul_left _ _
  split
  · rename_i hkind
    have hk1 := hsc hkind
    subst hk1
    refine Res.all_is (fun i hi => Or.inr ?_)
    have := hin i hi
    rw [gen_eq hx.contig (by omega), Nat.mul_one]
  split
  · exact Res.all_is (fun i hi => Or.inr (gen_eq hx.contig (hin i hi)))
  · have hp0 : 0 < p := by
      rcases Nat.eq_zero_or_pos p with h | h
      · subst h; omega
      · exact h
    have hq : size x / p = k := by rw [hmul, Nat.mul_div_cancel_left _ hp0]
    refine Res.all_is (fun i hi => extractPart_is hx cp junk ?_ hp0 ?_ ?_ (hin i hi))
    · rw [hmul]; exact Nat.mul_mod_right _ _
    · rw [hq]; omega
    · rw [hq]

/-! ## `concat` -/

theorem storePack_below (s : Nat) : ∀ (xs : List Obj) (mem : Reg) (p j : Nat), j < p → storePack s mem p xs j = mem j
  | [], _, _, _, _ => rfl
  | x :: xs, mem, p, j, h => by
    rw [storePack, storePack_below s xs _ _ _ (by omega), if_neg (by omega)]

theorem storePack_view (s : Nat) : ∀ (xs : List Obj) (mem : Reg) (p : Nat), (∀ x ∈ xs, Contig x) →
    view s (storePack s mem (s * p) xs) p (xs.map size).sum = (xs.map (lanes s)).flatten
  | [], _, _, _ => by simp [view]
  | x :: xs, mem, p, h => by
    rw [List.map_cons, List.sum_cons, view_append, List.map_cons, List.flatten_cons, storePack, ← Nat.mul_add,
      storePack_view s xs _ _ (fun y hy => h y (by simp [hy])), lanes_eq s (h x (by simp))]
    congr 1
    apply view_congr
    intro j hj
    rw [storePack_below s xs _ _ _ (by rw [Nat.mul_add]; omega), if_pos ⟨by omega, by rw [Nat.mul_add]; omega⟩]
    congr 1; omega

/-- Lanes, elements of each register: every register but the last is full. -/
def ShapeOk : List (Nat × Nat) → Prop
  | [] => True
  | [p] => p.1 ≤ p.2
  | p :: ps => p.1 = p.2 ∧ ShapeOk ps

theorem contig_iff : ∀ (x : Obj), Contig x ↔ ShapeOk (shapeOf x)
  | [] => Iff.rfl
  | [_] => Iff.rfl
  | m :: m' :: ms => by
    have := contig_iff (m' :: ms)
    simp only [Contig, shapeOf, List.map_cons, ShapeOk] at this ⊢
    rw [this]

theorem shapeOf_ofImage (s : Nat) (mem : Reg) : ∀ (sh : List (Nat × Nat)) (p : Nat), shapeOf (ofImage s mem p sh) = sh
  | [], _ => rfl
  | (n, f) :: sh, p => by
    have := shapeOf_ofImage s mem sh (p + s * f)
    simp only [shapeOf, ofImage, List.map_cons] at this ⊢
    rw [this]

theorem image_ofImage (s : Nat) (mem : Reg) : ∀ (sh : List (Nat × Nat)) (p j : Nat), j < (sh.map (fun (q : Nat × Nat) => s * q.2)).sum →
    image s (ofImage s mem p sh) j = mem (p + j)
  | [], _, _, h => by simp at h
  | (n, f) :: sh, p, j, h => by
    simp only [ofImage, image]
    simp only [List.map_cons, List.sum_cons] at h
    split
    · rfl
    · rw [image_ofImage s mem sh _ _ (by omega)]; congr 1; omega

theorem size_shape (x : Obj) : size x = ((shapeOf x).map Prod.fst).sum := by
  simp [size, shapeOf, Function.comp_def]

theorem subscript_eq (s : Nat) : ∀ (xs : List Obj) (i : Nat), (∀ x ∈ xs, Contig x) → i < (xs.map size).sum →
    ∃ a, subscript s i xs = .ok a ∧ ((xs.map (lanes s)).flatten)[i]? = some a
  | [], _, _, h => by simp at h
  | x :: xs, i, hc, h => by
    have hx := hc x (by simp)
    have hl : (lanes s x).length = size x := by rw [lanes_eq s hx, view_length]
    rw [subscript]
    split
    · rename_i hi
      refine ⟨_, at'_eq hx hi, ?_⟩
      rw [List.map_cons, List.flatten_cons, List.getElem?_append_left (by omega), lanes_eq s hx, view_get _ _ _ _ _ hi, Nat.zero_add]
    · rename_i hi
      simp only [List.map_cons, List.sum_cons] at h
      obtain ⟨a, h1, h2⟩ := subscript_eq s xs (i - size x) (fun y hy => hc y (by simp [hy])) (by omega)
      refine ⟨a, h1, ?_⟩
      rw [List.map_cons, List.flatten_cons, List.getElem?_append_right (by omega), hl]; exact h2

theorem concat_spec (s : Nat) (cp : Bool) (shape : List (Nat × Nat)) (xs : List Obj) (hne : xs ≠ []) (hc : ∀ x ∈ xs, Contig x)
    (hs : ShapeOk shape) (hsum : (shape.map Prod.fst).sum = (xs.map size).sum) :
    concat s cp shape xs = .ok ((xs.map (lanes s)).flatten) := by
  unfold concat
  split
  · exact absurd rfl hne
  · simp
  · split
    · have : ∀ i ∈ List.range (xs.map size).sum, subscript s i xs = .ok (((xs.map (lanes s)).flatten).getD i 0#_) := by
        intro i hi
        obtain ⟨a, h1, h2⟩ := subscript_eq s xs i hc (List.mem_range.1 hi)
        rw [h1, List.getD_eq_getElem?_getD, h2]; rfl
      rw [Res.all_ok this]
      congr 1
      apply List.ext_getElem?
      intro i
      rcases Nat.lt_or_ge i (xs.map size).sum with h | h
      · obtain ⟨a, h1, h2⟩ := subscript_eq s xs i hc h
        rw [List.getElem?_map, List.getElem?_range h, h2, Option.map_some, List.getD_eq_getElem?_getD, h2]; rfl
      · have hlen : ((xs.map (lanes s)).flatten).length = (xs.map size).sum := by
          rw [← storePack_view s xs (fun _ => 0#8) 0 hc, view_length]
        rw [List.getElem?_eq_none (by simpa using h), List.getElem?_eq_none (by omega)]
    · have hb : ∀ {sh : List (Nat × Nat)}, ShapeOk sh → s * (sh.map Prod.fst).sum ≤ (sh.map (fun (p : Nat × Nat) => s * p.2)).sum := by
        intro sh h
        induction sh with
        | nil => simp
        | cons p ps ih =>
          simp only [List.map_cons, List.sum_cons, Nat.mul_add]
          cases ps with
          | nil => simp only [List.map_nil, List.sum_nil, Nat.mul_zero, Nat.add_zero]; exact Nat.mul_le_mul_left _ h
          | cons q qs =>
            have h1 := ih h.2
            have h2 : s * p.1 = s * p.2 := by rw [h.1]
            omega
      rw [if_pos (by rw [← hsum]; exact hb hs)]
      congr 1
      have hcon : Contig (ofImage s (storePack s (fun _ => 0#8) 0 xs) 0 shape) := by
        rw [contig_iff, shapeOf_ofImage]; exact hs
      rw [lanes_eq s hcon, size_shape, shapeOf_ofImage, hsum, ← storePack_view s xs (fun _ => 0#8) 0 hc]
      apply view_congr
      intro j hj
      have := hb hs
      rw [hsum] at this
      rw [image_ofImage _ _ _ _ _ (by omega)]; simp

/-! ## objects of an ABI -/

theorem vecBytes_two_pow {t : Target} {s n : Nat} (hs : s ∈ [1, 2, 4, 8]) : ∃ e, vecBytes t s n = 2 ^ e ∧ s ≤ 2 ^ e := by
  unfold vecBytes
  dsimp only
  obtain ⟨k, hk⟩ := Reduce.bitCeil_pow (n * s)
  have hs2 : ∃ a, s = 2 ^ a := by
    rcases four_values hs with h | h | h | h
    · exact ⟨0, h⟩
    · exact ⟨1, h⟩
    · exact ⟨2, h⟩
    · exact ⟨3, h⟩
  obtain ⟨a, ha⟩ := hs2
  split
  · refine ⟨4, rfl, ?_⟩
    rcases four_values hs with h | h | h | h <;> omega
  · split
    · exact ⟨a + 1, by rw [Nat.pow_succ, ← ha, Nat.mul_comm], by rw [Nat.pow_succ, ← ha]; omega⟩
    · exact ⟨k, hk, by omega⟩

theorem mul_fullSize {t : Target} {T : Elem} {a : Tag} (hT : T.Ok) (hv : valid t T a = true) (hn : ∀ n, a ≠ .fixed n) (hs : a ≠ .scalar) :
    ∃ e, T.size * fullSize t T a = 2 ^ e := by
  have h1 := elem_pos hT
  have hvec : vecSizeof t T ≠ T.size := by
    cases a with
    | scalar => exact absurd rfl hs
    | fixed n => exact absurd rfl (hn n)
    | builtin b =>
      rw [valid_builtin h1] at hv
      intro h
      have : b / T.size ≤ T.size / T.size := Nat.div_le_div_right (by omega)
      rw [Nat.div_self h1] at this; omega
    | btmsk b => rw [valid_btmsk h1] at hv; omega
  have hsz := (vec_cases hT hvec).1
  have hf : fullSize t T a = vecBytes t T.size (Abi.size T a) / T.size := by
    cases a with
    | scalar => exact absurd rfl hs
    | fixed n => exact absurd rfl (hn n)
    | builtin b => simp [fullSize, hv]
    | btmsk b => simp [fullSize, hv]
  obtain ⟨e, he, hle⟩ := vecBytes_two_pow (t := t) (n := Abi.size T a) hsz
  refine ⟨e, ?_⟩
  have hd : T.size ∣ 2 ^ e := by
    rcases four_values hsz with h | h | h | h <;> rw [h] at hle ⊢
    · exact ⟨_, (Nat.one_mul _).symm⟩
    · exact pow_dvd_pow_of_le (a := 1) hle
    · exact pow_dvd_pow_of_le (a := 2) hle
    · exact pow_dvd_pow_of_le (a := 3) hle
  rw [hf, he, Nat.mul_div_cancel' hd]

theorem pow_w8 (e : Nat) : 2 ^ e < 16 ∨ 2 ^ e % 8 = 0 := by
  rcases Nat.lt_or_ge e 4 with h | h
  · left
    have : ∀ k < 4, 2 ^ k < 16 := by decide
    exact this e h
  · right
    obtain ⟨k, rfl⟩ := Nat.exists_eq_add_of_le h
    rw [Nat.pow_add]; omega

theorem size_le_full {t : Target} {T : Elem} {a : Tag} (hT : T.Ok) (hv : valid t T a = true) (hn : ∀ n, a ≠ .fixed n) :
    Abi.size T a ≤ fullSize t T a := by
  obtain ⟨h1, h2, h3⟩ := Tuple.ofTag_ok (t := t) hT hv hn
  rw [← h2, ← h3]; exact h1.size_le

theorem elem_w8 {T : Elem} (hT : T.Ok) : T.size < 16 ∨ T.size % 8 = 0 := by
  unfold Elem.Ok at hT
  simp only [List.mem_cons, List.not_mem_nil, or_false] at hT; omega

theorem tag_w8 {t : Target} {T : Elem} {a : Tag} (hT : T.Ok) (hv : valid t T a = true) (hn : ∀ n, a ≠ .fixed n) :
    T.size * fullSize t T a < 16 ∨ T.size * fullSize t T a % 8 = 0 := by
  by_cases hs : a = .scalar
  · subst hs; have := elem_w8 hT; simpa [fullSize] using this
  · obtain ⟨e, he⟩ := mul_fullSize hT hv hn hs
    rw [he]; exact pow_w8 e

theorem shapeOk_of_fullButLast : ∀ (gs : List Geo), (∀ g ∈ gs, g.size ≤ g.full) → Tuple.FullButLast gs →
    ShapeOk (gs.map (fun g => (g.size, g.full)))
  | [], _, _ => trivial
  | [g], h, _ => h g (by simp)
  | g :: g' :: gs, h, hf => ⟨hf.head, shapeOk_of_fullButLast (g' :: gs) (fun a ha => h a (by simp [ha])) hf.tail⟩

/-- Objects of a valid ABI satisfy what the theorems above assume. -/
theorem hasAbi_good {t : Target} (hc : t.Consistent) {T : Elem} (hT : T.Ok) {a : Tag} (hv : valid t T a = true) {x : Obj}
    (hx : HasAbi t T a x) : Good T.size a.isFixed x ∧ size x = Abi.size T a ∧ 0 < size x ∧
      (a.isFixed = false → size x ≠ 1 → ∃ e, alignOf T.size false x = 2 ^ e) := by
  unfold HasAbi at hx
  have hcon : ∀ {l}, shapeFor t T a = l → ShapeOk l → Contig x := by
    intro l h1 h2; rw [contig_iff, hx, h1]; exact h2
  have hsz : ∀ {l}, shapeFor t T a = l → size x = (l.map Prod.fst).sum := by
    intro l h1; rw [size_shape, hx, h1]
  have hnat : (∀ n, a ≠ .fixed n) → shapeFor t T a = [(Abi.size T a, fullSize t T a)] := by
    intro hn
    cases a with
    | scalar => rfl
    | fixed n => exact absurd rfl (hn n)
    | builtin b => rfl
    | btmsk b => rfl
  by_cases hf : a.isFixed
  · cases a with
    | scalar => cases hf
    | builtin b => cases hf
    | btmsk b => cases hf
    | fixed n =>
      have hn1 : 1 ≤ n := by simp only [valid, Bool.and_eq_true, decide_eq_true_eq] at hv; omega
      obtain ⟨r1, r2, r3, r4⟩ := Tuple.regs_facts hc hT (n := n) hn1
      have e1 : shapeFor t T (.fixed n) = (Tuple.regs t T n).map (fun g => (g.size, g.full)) := rfl
      have hsize : size x = n := by
        rw [Tuple.total_eq_sum] at r3
        rw [hsz e1, List.map_map]; exact r3
      refine ⟨⟨hcon e1 (shapeOk_of_fullButLast _ (fun g hg => (r2 g hg).size_le) r4), ?_, by intro h; cases h⟩, hsize, by omega, by intro h; cases h⟩
      intro m hm
      have hmem : (m.n, m.full) ∈ shapeOf x := List.mem_map.2 ⟨m, hm, rfl⟩
      rw [hx, e1] at hmem
      obtain ⟨g, hg, he⟩ := List.mem_map.1 hmem
      obtain ⟨a, ha, rfl⟩ := List.mem_map.1 hg
      have hva := storage_valid hc hT n a ha
      have hna := Tuple.storage_native t T n a ha
      have h3 := (Tuple.ofTag_ok hT hva hna).2.2
      have : m.full = fullSize t T a := by rw [← h3]; exact (congrArg Prod.snd he).symm
      rw [this]
      exact tag_w8 hT hva hna
  · have hn : ∀ n, a ≠ .fixed n := by rintro n rfl; exact hf rfl
    have e1 := hnat hn
    have hff : a.isFixed = false := by simpa using hf
    have hsize : size x = Abi.size T a := by rw [hsz e1]; simp
    rw [hff]
    have hone : ∃ m, x = [m] ∧ m.n = Abi.size T a ∧ m.full = fullSize t T a := by
      rw [e1] at hx
      cases x with
      | nil => simp [shapeOf] at hx
      | cons m ms =>
        simp only [shapeOf, List.map_cons, List.cons.injEq, List.map_eq_nil_iff, Prod.mk.injEq] at hx
        exact ⟨m, by rw [hx.2], hx.1.1, hx.1.2⟩
    obtain ⟨m, rfl, hm1, hm2⟩ := hone
    have hpos : 0 < Abi.size T a := by
      cases a with
      | scalar => exact Nat.one_pos
      | fixed n => exact absurd rfl (hn n)
      | builtin b => have := (valid_gt t T).2 b hv; simp only [Abi.size]; omega
      | btmsk b => have := (valid_gt t T).1 b hv; simp only [Abi.size]; omega
    refine ⟨⟨hcon e1 (size_le_full hT hv hn), ?_, fun _ => ⟨m, rfl⟩⟩, hsize, by omega, ?_⟩
    · intro m' hm'
      rw [List.mem_singleton] at hm'
      subst hm'
      rw [hm2]; exact tag_w8 hT hv hn
    · intro _ h1
      have hs : a ≠ .scalar := by rintro rfl; exact h1 hsize
      obtain ⟨e, he⟩ := mul_fullSize hT hv hn hs
      refine ⟨e, ?_⟩
      show T.size * m.full = _
      rw [hm2]; exact he

/-! ## every `split` of a native object compiles -/

/-- The target can shift a register of `s`-byte elements by whole elements. -/
def CanShift (t : Target) (s w : Nat) : Prop := w = 64 → t.avx512f = true → t.avx512bw = true ∨ s % 4 = 0

theorem shiftRight_noill {t : Target} (f d : Bool) {w s skip : Nat} (v : Reg) (hle : s * skip ≤ w) (hcs : CanShift t s w) :
    shiftRight t f d w (s * skip) v ≠ .ill := by
  unfold shiftRight
  rw [if_neg (by omega)]
  split
  · simp
  split
  · simp
  split
  · rename_i hw
    unfold shr64
    split
    · simp
    split
    · simp
    split
    · simp
    split
    · rename_i hf
      rcases hcs hw hf with hb | h4
      · split
        · simp
        split
        · simp
        split
        · simp
        split
        · simp
        split
        · simp
        split
        · simp
        · rename_i h1 h2 _ _ h3 h4
          simp only [hb, Bool.true_and, decide_eq_true_eq] at h3 h4
          omega
      · have : s * skip % 4 = 0 := by rw [Nat.mul_mod, h4]; simp
        split
        · simp
        split
        · simp
        split
        · simp
        · simp
    · simp
  split
  · simp
  split <;> simp

theorem extractBody_noill {t : Target} {T : Elem} (cp : Bool) (junk : Reg) {idx total comb vpp : Nat} {x : Member}
    (hle : (idx + comb) * vpp ≤ x.full) (hcs : CanShift t T.size (T.size * x.full)) :
    extractBody t T cp junk idx total comb vpp x ≠ .ill := by
  unfold extractBody
  dsimp only
  have h1 : (idx + comb) * vpp * T.size ≤ T.size * x.full := by
    rw [Nat.mul_comm T.size]; exact Nat.mul_le_mul_right _ hle
  rw [if_neg (by simpa using h1)]
  split
  · simp
  split
  · simp
  split
  · simp
  split
  · split <;> simp
  split
  · have hb : T.size * (idx * vpp) ≤ T.size * x.full := by
      apply Nat.mul_le_mul_left
      rw [Nat.add_mul] at hle; omega
    have := shiftRight_noill (t := t) (T.fp && T.size == 4) (T.fp && T.size == 8) (v := x.reg) hb hcs
    rw [Nat.mul_comm (idx * vpp) T.size]
    generalize shiftRight t (T.fp && T.size == 4) (T.fp && T.size == 8) (T.size * x.full) (T.size * (idx * vpp)) x.reg = q at this
    cases q with
    | ill => exact absurd rfl this
    | ub => simp [Res.bind]
    | ok q => simp [Res.bind]
  · simp

theorem extractNative_noill {t : Target} {T : Elem} (cp : Bool) (junk : Reg) {idx total comb : Nat} {x : Member}
    (hd : x.n % total = 0) (ht : 0 < total) (hle : idx + comb ≤ total) (hf : x.n ≤ x.full) (hcs : CanShift t T.size (T.size * x.full)) :
    extractNative t T cp junk idx total comb x ≠ .ill := by
  fun_induction extractNative t T cp junk idx total comb x with
  | case1 idx total comb h ih =>
    obtain ⟨q, hq⟩ := Nat.dvd_of_mod_eq_zero hd
    have hn : x.n = total / 2 * (2 * q) := by
      rw [← Nat.mul_assoc, show total / 2 * 2 = total by omega]; exact hq
    exact ih (by rw [hn]; exact Nat.mul_mod_right _ _) (by omega) (by omega)
  | case2 idx total comb h =>
    apply extractBody_noill cp junk _ hcs
    obtain ⟨q, hq⟩ := Nat.dvd_of_mod_eq_zero hd
    rw [hq, Nat.mul_div_cancel_left _ ht]
    have := Nat.mul_le_mul_right q hle
    omega

theorem Res.Is.eq {α : Type} {r : Res α} {a : α} (h : r.Is a) (h2 : r ≠ .ill) : r = .ok a := h.resolve_left h2

theorem all_noill {α β : Type} {f : α → Res β} : ∀ {l : List α}, (∀ a ∈ l, f a ≠ .ill) → Res.all f l ≠ .ill
  | [], _ => by simp [Res.all]
  | a :: as, h => by
    have h1 := h a (by simp)
    have h2 := all_noill (f := f) (l := as) (fun b hb => h b (by simp [hb]))
    rw [Res.all]
    generalize f a = r at h1
    generalize Res.all f as = q at h2
    cases r with
    | ill => exact absurd rfl h1
    | ub => simp [Res.bind]
    | ok r =>
      cases q with
      | ill => exact absurd rfl h2
      | ub => simp [Res.bind]
      | ok q => simp [Res.bind]

theorem fromReg_noill {s n : Nat} {r : Res Reg} (h : r ≠ .ill) : fromReg s n r ≠ .ill := by
  unfold fromReg
  cases r with
  | ill => exact absurd rfl h
  | ub => simp [Res.bind]
  | ok r => simp [Res.bind]

theorem patterns_noill {t : Target} {T : Elem} (np : Nat) (hnp : 0 < np) (sizes : List Nat) (hsum : sizes.sum = np)
    (part : Nat → Nat → Nat → Nat → Res (List (BitVec (8 * T.size)))) (center : Res (List (BitVec (8 * T.size))))
    (loads : Res (List (List (BitVec (8 * T.size)))))
    (hp : ∀ idx total comb n, np % total = 0 → 0 < total → idx + comb ≤ total → part idx total comb n ≠ .ill)
    (hcen : np % 4 = 0 → center ≠ .ill) (hl : loads ≠ .ill) :
    splitSizes.patterns t T np sizes part center loads ≠ .ill := by
  unfold splitSizes.patterns
  dsimp only
  split
  case isFalse => exact hl
  split
  · rename_i h
    have h2 := (all_eq_replicate (by omega) hsum hnp h).1
    apply all_noill
    intro a ha
    simp only [List.mem_cons, List.not_mem_nil, or_false] at ha
    rcases ha with rfl | rfl <;> exact hp _ _ _ _ h2 (by omega) (by omega)
  split
  · rename_i h
    subst h
    simp only [List.sum_cons, List.sum_nil] at hsum
    apply all_noill
    intro a ha
    simp only [List.mem_cons, List.not_mem_nil, or_false] at ha
    rcases ha with rfl | rfl | rfl <;> exact hp _ _ _ _ (by omega) (by omega) (by omega)
  split
  · rename_i h
    subst h
    simp only [List.sum_cons, List.sum_nil] at hsum
    apply all_noill
    intro a ha
    simp only [List.mem_cons, List.not_mem_nil, or_false] at ha
    rcases ha with rfl | rfl <;> exact hp _ _ _ _ (by omega) (by omega) (by omega)
  split
  · rename_i h
    subst h
    simp only [List.sum_cons, List.sum_nil] at hsum
    apply all_noill
    intro a ha
    simp only [List.mem_cons, List.not_mem_nil, or_false] at ha
    rcases ha with rfl | rfl <;> exact hp _ _ _ _ (by omega) (by omega) (by omega)
  split
  · rename_i h
    subst h
    simp only [List.sum_cons, List.sum_nil] at hsum
    apply all_noill
    intro a ha
    simp only [List.mem_cons, List.not_mem_nil, or_false] at ha
    rcases ha with rfl | rfl | rfl <;> exact hp _ _ _ _ (by omega) (by omega) (by omega)
  split
  · rename_i h
    subst h
    simp only [List.sum_cons, List.sum_nil] at hsum
    apply all_noill
    intro a ha
    simp only [List.mem_cons, List.not_mem_nil, or_false] at ha
    rcases ha with rfl | rfl | rfl <;> exact hp _ _ _ _ (by omega) (by omega) (by omega)
  split
  · rename_i h
    subst h
    simp only [List.sum_cons, List.sum_nil] at hsum
    apply all_noill
    intro a ha
    simp only [List.mem_cons, List.not_mem_nil, or_false] at ha
    rcases ha with rfl | rfl | rfl
    · exact hp _ _ _ _ (by omega) (by omega) (by omega)
    · exact hcen (by omega)
    · exact hp _ _ _ _ (by omega) (by omega) (by omega)
  split
  · rename_i h
    have h2 := (all_eq_replicate (by omega) hsum hnp h).1
    apply all_noill
    intro a ha
    simp only [List.mem_cons, List.not_mem_nil, or_false] at ha
    rcases ha with rfl | rfl | rfl | rfl <;> exact hp _ _ _ _ h2 (by omega) (by omega)
  · exact hl

theorem load_noill (s addr al : Nat) (x : Obj) (off n : Nat) : load s addr al x off n ≠ .ill := by
  unfold load; split <;> simp

theorem gen_noill (s : Nat) (x : Obj) (off n : Nat) : gen s x off n ≠ .ill := by
  apply all_noill
  intro i _
  unfold at'; split <;> simp

theorem centerNative_noill {t : Target} {T : Elem} (junk : Reg) {m : Member} (h4 : m.n % 4 = 0) (h0 : 0 < m.n) :
    centerNative t T junk m ≠ .ill := by
  unfold centerNative
  dsimp only
  rw [if_neg (by simp; omega)]
  repeat' split
  all_goals simp

theorem splitSizes_noill (t : Target) (T : Elem) (cp : List Nat → Bool) (addr : List Nat → Nat) (junk : Reg) {m : Member}
    (hcs : CanShift t T.size (T.size * m.full)) (hf : m.n ≤ m.full) (h1 : 0 < m.n) {sizes : List Nat} (hsum : sizes.sum = m.n)
    (h0 : ∀ n ∈ sizes, 0 < n) : splitSizes t T cp addr junk false sizes [m] ≠ .ill := by
  cases sizes with
  | nil => simp at hsum; omega
  | cons n0 ns =>
    have hsz : size [m] = m.n := by simp [size]
    unfold splitSizes
    dsimp only
    rw [hsz, if_neg (by simpa using hsum)]
    split
    · exact all_noill (fun p _ => gen_noill _ _ _ _)
    split
    · rename_i hn
      have : ns = [] := by
        cases ns with
        | nil => rfl
        | cons a l =>
          have := h0 a (by simp)
          simp only [List.sum_cons] at hsum; omega
      rw [if_pos this]; simp
    · apply patterns_noill _ h1 _ hsum
      · intro idx total comb n hd ht hle
        exact fromReg_noill (extractNative_noill _ junk hd ht hle hf hcs)
      · intro h4
        exact fromReg_noill (centerNative_noill junk h4 h1)
      · exact all_noill (fun p _ => load_noill _ _ _ _ _ _)

theorem splitV_noill (t : Target) (T : Elem) (cp : Bool) (addr : Nat) (junk : Reg) (kind : Kind) (k : Nat) {m : Member}
    (hcs : CanShift t T.size (T.size * m.full)) (hf : m.n ≤ m.full) (h1 : 0 < m.n) (hk : m.n = m.n / k * k) :
    splitV t T cp addr junk false kind k [m] ≠ .ill := by
  have hsz : size [m] = m.n := by simp [size]
  unfold splitV
  dsimp only
  rw [hsz, if_neg (by simpa using hk)]
  have hp : 0 < m.n / k := by
    rcases Nat.eq_zero_or_pos (m.n / k) with h | h
    · rw [h] at hk; omega
    · exact h
  split
  · simp
  split
  · exact all_noill (fun i _ => gen_noill _ _ _ _)
  split
  · exact all_noill (fun i _ => load_noill _ _ _ _ _ _)
  split
  · exact all_noill (fun i _ => gen_noill _ _ _ _)
  split
  · exact all_noill (fun i _ => gen_noill _ _ _ _)
  · refine all_noill (fun i hi => fromReg_noill (extractNative_noill _ junk ?_ hp ?_ hf hcs))
    · rw [Nat.mod_eq_zero_of_dvd]
      exact ⟨k, hk⟩
    · have := List.mem_range.1 hi; omega

theorem canShift {t : Target} (hc : t.Consistent) {T : Elem} (hT : T.Ok) {a : Tag} (hv : valid t T a = true) (hn : ∀ n, a ≠ .fixed n) :
    CanShift t T.size (T.size * fullSize t T a) := by
  intro hw hf
  have h1 := elem_pos hT
  have hfull : a ≠ .scalar → fullSize t T a = vecBytes t T.size (Abi.size T a) / T.size := by
    intro hs
    cases a with
    | scalar => exact absurd rfl hs
    | fixed n => exact absurd rfl (hn n)
    | builtin b => simp [fullSize, hv]
    | btmsk b => simp [fullSize, hv]
  cases a with
  | fixed n => exact absurd rfl (hn n)
  | scalar =>
    simp only [fullSize, Nat.mul_one] at hw
    right; omega
  | builtin b =>
    rw [valid_builtin h1] at hv
    exfalso
    have hb := hv.2.2.2 hf
    have hs : Abi.size T (.builtin b) * T.size ≤ 32 := by
      show b / T.size * T.size ≤ 32
      have := Nat.div_mul_le_self b T.size; omega
    rw [hfull (by simp)] at hw
    have h2 := Nat.mul_div_le (vecBytes t T.size (Abi.size T (.builtin b))) T.size
    have h3 : bitCeil (Abi.size T (.builtin b) * T.size) ≤ 32 := by
      have := Reduce.bitCeil_mono hs
      exact Nat.le_trans this (by decide)
    have hsz : T.size ≤ 16 := by
      have := hT; unfold Elem.Ok at this
      simp only [List.mem_cons, List.not_mem_nil, or_false] at this; omega
    have h4 : vecBytes t T.size (Abi.size T (.builtin b)) ≤ 32 := by
      unfold vecBytes
      dsimp only
      split
      · omega
      · split <;> omega
    omega
  | btmsk b =>
    rw [valid_btmsk h1] at hv
    obtain ⟨hu, h2, _⟩ := hv
    have hsz := (vec_cases hT (t := t) (by omega)).1
    obtain ⟨_, hu⟩ := hu
    rcases hu with hu | hu
    · exact Or.inl hu
    · right; rcases four_values hsz with h | h | h | h <;> omega

end StdSimd.Split
