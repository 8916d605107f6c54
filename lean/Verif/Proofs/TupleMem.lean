import Verif.Proofs.Tuple
namespace StdSimd.Tuple
open Native
open VMask (bit)
variable {α β : Type}

/-! ### generate -/

theorem generate_cons2 {m : Type → Type} [Monad m] (gen : Geo → Nat → m (List α)) (g g' : Geo) (gs : List Geo) (off : Nat) :
    generate gen (g :: g' :: gs) off = (do
      let f ← gen g off
      let r ← generate gen (g' :: gs) (off + g.size)
      pure (f :: r)) := rfl

theorem generate_spec (f : Geo → Nat → Option (List α)) (h : Nat → α) (N : Nat) :
    ∀ (gs : List Geo) (off : Nat), gs ≠ [] → Oks gs → off + total gs ≤ N →
    (∀ g ∈ gs, ∀ off, off + g.size ≤ N → ∃ r, f g off = some r ∧ r.length = g.full ∧ ∀ i < g.size, r[i]? = some (h (off + i))) →
    ∃ r, generate f gs off = some r ∧ Wf gs r ∧ ∀ i < total gs, (lanes gs r)[i]? = some (h (off + i)) := by
  intro gs
  induction gs with
  | nil => intro off hne; exact absurd rfl hne
  | cons g gs ih =>
    intro off _ hok hN hf
    have hg := hok.head
    have hsz := hg.size_le
    rw [total_cons] at hN
    obtain ⟨r, hr1, hr2, hr3⟩ := hf g (by simp) off (by omega)
    cases gs with
    | nil =>
      refine ⟨[r], ?_, ⟨hr2, trivial⟩, ?_⟩
      · simp [generate, hr1]
      · intro i hi
        simp only [total] at hi
        rw [lanes_get_lt hg [] hr2 [] hi]; exact hr3 i hi
    | cons g' gs =>
      obtain ⟨rs, hrs1, hrs2, hrs3⟩ := ih (off + g.size) (by simp) hok.tail (by omega)
        (fun g hg => hf g (by simp [List.mem_cons.1 hg]))
      refine ⟨r :: rs, ?_, ⟨hr2, hrs2⟩, ?_⟩
      · rw [generate_cons2, hr1]; simp [hrs1]
      · intro i hit
        rw [total_cons] at hit
        by_cases hi : i < g.size
        · rw [lanes_get_lt hg _ hr2 _ hi]; exact hr3 i hi
        · rw [lanes_get_ge hg _ hr2 _ (by omega), hrs3 _ (by omega), show off + g.size + (i - g.size) = off + i by omega]

/-! ### masks -/

theorem extract_lanes {n : Nat} (bits : BitMask n true) (hb : bits.Clean) {g : Geo} (hg : g.Ok) (off : Nat)
    (h : off + g.size ≤ n) (hn : n ≤ 64) :
    ∃ e, bits.extract off g.size = some e ∧ (∀ j < g.size, e.lane j = bits.lane (off + j)) ∧
      (BitMask.extractSan n true off g.size = true → e.Clean) := by
  have h1 := hg.one_le
  obtain ⟨e, he, h2, h3⟩ := BitMask.extract_spec (by omega) bits (fun _ => hb) (drop := off) (new := g.size) (by omega)
    h1 (by omega)
  exact ⟨e, he, fun j hj => h2 j hj (by omega), h3⟩

theorem submaskAny_spec {n : Nat} (bits : BitMask n true) (hb : bits.Clean) {g : Geo} (hg : g.Ok) (off : Nat)
    (h : off + g.size ≤ n) (hn : n ≤ 64) :
    ∃ a, submaskAny g off bits = some a ∧ (a = false → ∀ j < g.size, bits.lane (off + j) = false) := by
  obtain ⟨e, he, h2, h3⟩ := extract_lanes bits hb hg off h hn
  refine ⟨e.any, by unfold submaskAny; rw [he]; rfl, ?_⟩
  intro ha j hj
  have hnone : e.isNone = true := by rw [BitMask.any_eq] at ha; simpa using ha
  rw [← h2 j hj]
  exact (BitMask.isNone_iff hg.one_le e h3).1 hnone j hj

theorem makeMask_spec {n : Nat} (bits : BitMask n true) (hb : bits.Clean) {g : Geo} (hg : g.Ok) (off : Nat)
    (h : off + g.size ≤ n) (hn : n ≤ 64) :
    ∃ k, makeMask g off bits = some k ∧ MaskOk g k ∧ MaskClean g k ∧ ∀ j < g.size, mbit g k j = bits.lane (off + j) := by
  obtain ⟨e, he, h2, h3⟩ := extract_lanes bits hb hg off h hn
  obtain ⟨k, hk1, hk2, hk3, hk4⟩ := maskOfBits_spec hg e.sanitized (BitMask.sanitized_clean hg.one_le e h3)
  refine ⟨k, by unfold makeMask; rw [he]; exact hk1, hk2, hk3, fun j hj => ?_⟩
  unfold mbit bit
  rw [hk4, BitMask.lanes_getElem?, if_pos hj]
  change e.sanitized.lane j = _
  rw [BitMask.lane_sanitized_lt hg.one_le e hj, h2 j hj]

/-! ### tests -/

theorem test1_cons2 (f : (g : Geo) → List α → Option (MaskM g)) (g g' : Geo) (gs : List Geo) (x : List α) (xs : Tup α) :
    test1 f (g :: g' :: gs) (x :: xs) = (do
      let k ← f g x
      let r ← test1 f (g' :: gs) xs
      r.prepend (maskToBits g k)) := by
  cases xs <;> rfl

theorem test1_single (f : (g : Geo) → List α → Option (MaskM g)) (g : Geo) (x : List α) :
    test1 f [g] [x] = (do let k ← f g x; pure (maskToBits g k)) := rfl

theorem test2_single (f : (g : Geo) → List α → List α → Option (MaskM g)) (g : Geo) (x y : List α) :
    test2 f [g] [x] [y] = (do let k ← f g x y; pure (maskToBits g k)) := rfl

theorem lanes_eq_of {n : Nat} {s : Bool} (b : BitMask n s) (l : List Bool) (hl : l.length = n)
    (h : ∀ i < n, l[i]? = some (b.lane i)) : b.lanes = l := by
  apply List.ext_getElem?
  intro i
  rw [BitMask.lanes_getElem?]
  split
  · rename_i hi; exact (h i hi).symm
  · exact (List.getElem?_eq_none (by omega)).symm

theorem prepend_lanes {n : Nat} {g : Geo} (hg : g.Ok) (hn : 1 ≤ n) (h64 : n + g.size ≤ 64) (r : BitMask n true)
    (hr : r.Clean) (k : MaskM g) (hk : MaskOk g k) :
    ∃ q, r.prepend (maskToBits g k) = some q ∧ q.Clean ∧ q.lanes = maskLanes g k ++ r.lanes := by
  obtain ⟨h1, h2⟩ := maskToBits_spec hg k hk
  obtain ⟨q, hq, hlt, _⟩ := BitMask.lane_prepend hn hg.one_le h64 r (maskToBits g k)
  refine ⟨q, hq, BitMask.clean_prepend hn hg.one_le h64 r _ hr (fun _ => h2) q hq, ?_⟩
  apply lanes_eq_of
  · rw [List.length_append, length_maskLanes hg k hk, BitMask.lanes, List.length_map, List.length_range]; omega
  · intro i hi
    by_cases hi' : i < g.size
    · rw [List.getElem?_append_left (by rw [length_maskLanes hg k hk]; exact hi'), hlt i hi', ← h1,
        BitMask.lanes_getElem?, if_pos hi']
    · rw [List.getElem?_append_right (by rw [length_maskLanes hg k hk]; omega), length_maskLanes hg k hk,
        BitMask.lanes_getElem?, if_pos (by omega)]
      have hw := BitMask.wordBits_ge (n := n + g.size) (by omega) h64
      rw [BitMask.lane_prepend_ge hn hg.one_le h64 r _ (fun _ => h2) q hq (by omega) (by omega)]

theorem test1_spec (f : (g : Geo) → List α → Option (MaskM g)) (p : α → Bool) :
    ∀ (gs : List Geo) (x : Tup α), gs ≠ [] → Oks gs → total gs ≤ 64 → Wf gs x →
    (∀ g ∈ gs, ∀ x, x.length = g.full → ∃ k, f g x = some k ∧ MaskOk g k ∧ maskLanes g k = (x.take g.size).map p) →
    ∃ b, test1 f gs x = some b ∧ b.Clean ∧ b.lanes = (lanes gs x).map p := by
  intro gs
  induction gs with
  | nil => intro x hne; exact absurd rfl hne
  | cons g gs ih =>
    intro x _ hok h64 hwf hf
    obtain ⟨x, xs, rfl, hx, hxs⟩ := wf_cons hwf
    have hg := hok.head
    obtain ⟨k, hk1, hk2, hk3⟩ := hf g (by simp) x hx
    cases gs with
    | nil =>
      have := wf_nil hxs
      subst this
      obtain ⟨h1, h2⟩ := maskToBits_spec hg k hk2
      refine ⟨maskToBits g k, ?_, h2, ?_⟩
      · rw [test1_single, hk1]; rfl
      have e : lanes [g] [x] = x.take g.size := by simp [lanes]
      rw [e, ← hk3]; exact h1
    | cons g' gs =>
      have h64' := h64
      rw [total] at h64'
      obtain ⟨r, hr1, hr2, hr3⟩ := ih xs (by simp) hok.tail (by omega) hxs (fun g hg => hf g (by simp [List.mem_cons.1 hg]))
      obtain ⟨q, hq1, hq2, hq3⟩ := prepend_lanes hg (total_pos hok.tail (by simp)) h64' r hr2 k hk2
      refine ⟨q, ?_, hq2, ?_⟩
      · rw [test1_cons2, hk1]
        simp only [Option.bind_eq_bind, Option.bind_some, hr1]
        exact hq1
      · rw [lanes_cons, List.map_append, ← hk3, ← hr3]; exact hq3

theorem test2_eq (f : (g : Geo) → List α → List α → Option (MaskM g)) (F : (g : Geo) → List (α × α) → Option (MaskM g))
    (h : ∀ g x y, x.length = g.full → y.length = g.full → f g x y = F g (x.zip y))
    (gs : List Geo) (x y : Tup α) (hx : Wf gs x) (hy : Wf gs y) :
    test2 f gs x y = test1 F gs (zipT x y) := by
  induction gs generalizing x y with
  | nil => rw [wf_nil hx, wf_nil hy]; rfl
  | cons g gs ih =>
    obtain ⟨x, xs, rfl, hx1, hxs⟩ := wf_cons hx
    obtain ⟨y, ys, rfl, hy1, hys⟩ := wf_cons hy
    cases gs with
    | nil =>
      rw [wf_nil hxs, wf_nil hys]
      change test2 f [g] [x] [y] = test1 F [g] [x.zip y]
      rw [test2_single, test1_single, h g x y hx1 hy1]
    | cons g' gs =>
      change (do
          let k ← f g x y
          let r ← test2 f (g' :: gs) xs ys
          r.prepend (maskToBits g k)) = (do
          let k ← F g (x.zip y)
          let r ← test1 F (g' :: gs) (zipT xs ys)
          r.prepend (maskToBits g k))
      rw [h g x y hx1 hy1, ih xs ys hxs hys]

theorem unzip_eq {x y : List α} (h : x.length = y.length) : (x.zip y).map (·.1) = x ∧ (x.zip y).map (·.2) = y := by
  constructor
  · exact List.map_fst_zip (by omega)
  · exact List.map_snd_zip (by omega)

theorem test2_spec (f : (g : Geo) → List α → List α → Option (MaskM g)) (p : α → α → Bool)
    (gs : List Geo) (x y : Tup α) (hne : gs ≠ []) (hok : Oks gs) (h64 : total gs ≤ 64) (hx : Wf gs x) (hy : Wf gs y)
    (hf : ∀ g ∈ gs, ∀ x y, x.length = g.full → y.length = g.full →
      ∃ k, f g x y = some k ∧ MaskOk g k ∧ maskLanes g k = List.zipWith p (x.take g.size) (y.take g.size)) :
    ∃ b, test2 f gs x y = some b ∧ b.Clean ∧ b.lanes = List.zipWith p (lanes gs x) (lanes gs y) := by
  rw [test2_eq f (fun g z => f g (z.map (·.1)) (z.map (·.2)))
    (fun g x y hx hy => by rw [(unzip_eq (by omega)).1, (unzip_eq (by omega)).2]) gs x y hx hy]
  obtain ⟨b, h1, h2, h3⟩ := test1_spec (fun g (z : List (α × α)) => f g (z.map (·.1)) (z.map (·.2))) (fun z => p z.1 z.2) gs (zipT x y)
    hne hok h64 (wf_zipT hx hy) (fun g hg z hz => by
      obtain ⟨k, h1, h2, h3⟩ := hf g hg (z.map (·.1)) (z.map (·.2)) (by simpa using hz) (by simpa using hz)
      refine ⟨k, h1, h2, ?_⟩
      rw [h3, ← List.map_take, ← List.map_take]
      generalize z.take g.size = l
      induction l <;> simp_all)
  refine ⟨b, h1, h2, ?_⟩
  rw [h3, lanes_zipT hok hx hy]
  generalize lanes gs x = a
  generalize lanes gs y = c
  induction a generalizing c with
  | nil => simp
  | cons a as ih => cases c <;> simp_all

/-! ### stores -/

theorem foldEach_cons2 {σ : Type} (f : σ → Geo → Nat → List α → Option σ) (s : σ) (g g' : Geo) (gs : List Geo) (off : Nat)
    (x : List α) (xs : Tup α) : foldEach f s (g :: g' :: gs) off (x :: xs) = (do
      let s' ← f s g off x
      foldEach f s' (g' :: gs) (off + g.size) xs) := by
  cases xs <;> rfl

theorem stored_isSome {mem mem' : Mem β} {base n : Nat} {sel : Nat → Bool} {val : Nat → Option β}
    (h : Stored mem mem' base n sel val) (hv : ∀ i < n, (val i).isSome) {a : Nat} (ha : (mem a).isSome) : (mem' a).isSome := by
  rw [h a]; split
  · rename_i hc; exact hv _ (by omega)
  · exact ha

theorem foldEach_store (f : Mem β → Geo → Nat → List α → Option (Mem β)) (cvt : α → β) (base N : Nat) (sel : Nat → Bool) :
    ∀ (gs : List Geo) (off : Nat) (x : Tup α) (mem : Mem β), gs ≠ [] → Oks gs → Wf gs x → off + total gs ≤ N →
    (∀ g ∈ gs, ∀ off x mem, off + g.size ≤ N → x.length = g.full →
      (∀ i < g.size, sel (off + i) = true → (mem (base + off + i)).isSome) →
      ∃ mem', f mem g off x = some mem' ∧
        Stored mem mem' (base + off) g.size (fun i => sel (off + i)) (fun i => (x[i]?).map cvt)) →
    (∀ i < total gs, sel (off + i) = true → (mem (base + off + i)).isSome) →
    ∃ mem', foldEach f mem gs off x = some mem' ∧
      Stored mem mem' (base + off) (total gs) (fun i => sel (off + i)) (fun i => ((lanes gs x)[i]?).map cvt) := by
  intro gs
  induction gs with
  | nil => intro off x mem hne; exact absurd rfl hne
  | cons g gs ih =>
    intro off x mem _ hok hwf hN hf hm
    obtain ⟨x, xs, rfl, hx, hxs⟩ := wf_cons hwf
    have hg := hok.head
    have hsz := hg.size_le
    have htc := total_cons g gs
    obtain ⟨m1, h1, hs1⟩ := hf g (by simp) off x mem (by omega) hx (fun i hi hsel => hm i (by omega) hsel)
    cases gs with
    | nil =>
      have := wf_nil hxs
      subst this
      refine ⟨m1, by simp [foldEach, h1], ?_⟩
      intro a
      rw [hs1 a]
      show (if base + off ≤ a ∧ a < base + off + g.size ∧ sel (off + (a - (base + off))) = true then _ else _) =
        if base + off ≤ a ∧ a < base + off + g.size ∧ sel (off + (a - (base + off))) = true then _ else _
      by_cases hc : base + off ≤ a ∧ a < base + off + g.size ∧ sel (off + (a - (base + off))) = true
      · rw [if_pos hc, if_pos hc]
        show _ = ((lanes [g] [x])[a - (base + off)]?).map cvt
        rw [lanes_get_lt hg [] hx [] (by omega)]
      · rw [if_neg hc, if_neg hc]
    | cons g' gs =>
      have hv : ∀ i < g.size, ((x[i]?).map cvt).isSome := by
        intro i hi
        have : i < x.length := by omega
        simp [this]
      obtain ⟨m2, h2, hs2⟩ := ih (off + g.size) xs m1 (by simp) hok.tail hxs (by omega)
        (fun g hg => hf g (by simp [List.mem_cons.1 hg]))
        (fun i hi hsel => by
          apply stored_isSome hs1 hv
          have := hm (g.size + i) (by omega) (by rw [← Nat.add_assoc]; exact hsel)
          rw [show base + (off + g.size) + i = base + off + (g.size + i) by omega]; exact this)
      refine ⟨m2, ?_, ?_⟩
      · rw [foldEach_cons2, h1]; exact h2
      · intro a
        rw [hs2 a, hs1 a]
        by_cases hlo : a < base + off + g.size
        · rw [if_neg (by omega)]
          by_cases hc : base + off ≤ a ∧ a < base + off + g.size ∧ sel (off + (a - (base + off))) = true
          · rw [if_pos hc, if_pos ⟨hc.1, by omega, hc.2.2⟩]
            show _ = ((lanes (g :: g' :: gs) (x :: xs))[a - (base + off)]?).map cvt
            rw [lanes_get_lt hg _ hx _ (by omega)]
          · rw [if_neg hc, if_neg (fun h => hc ⟨h.1, hlo, h.2.2⟩)]
        · have e : off + g.size + (a - (base + (off + g.size))) = off + (a - (base + off)) := by omega
          simp only [e]
          by_cases hc : base + off ≤ a ∧ a < base + off + total (g :: g' :: gs) ∧ sel (off + (a - (base + off))) = true
          · rw [if_pos ⟨by omega, by omega, hc.2.2⟩, if_pos hc]
            show _ = ((lanes (g :: g' :: gs) (x :: xs))[a - (base + off)]?).map cvt
            rw [lanes_get_ge hg _ hx _ (by omega)]
            show ((lanes (g' :: gs) xs)[a - (base + (off + g.size))]?).map cvt = _
            rw [show a - (base + (off + g.size)) = a - (base + off) - g.size by omega]
          · rw [if_neg (fun h => hc ⟨by omega, by omega, h.2.2⟩), if_neg hc, if_neg (by omega)]

/-! ### element access -/

theorem get_eq {gs : List Geo} (hok : Oks gs) {t : Tup α} (h : Wf gs t) {i : Nat} (hi : i < total gs) :
    get gs t i = (lanes gs t)[i]? := by
  induction gs generalizing t i with
  | nil => simp [total] at hi
  | cons g gs ih =>
    obtain ⟨x, xs, rfl, hx, hxs⟩ := wf_cons h
    have hg := hok.head
    cases gs with
    | nil =>
      have := wf_nil hxs
      subst this
      simp only [total] at hi
      rw [lanes_get_lt hg [] hx [] hi]; rfl
    | cons g' gs =>
      have e : get (g :: g' :: gs) (x :: xs) i = if i < g.size then Native.get x i else get (g' :: gs) xs (i - g.size) := by
        cases xs <;> rfl
      rw [e]
      rw [total_cons] at hi
      by_cases hi' : i < g.size
      · rw [if_pos hi', lanes_get_lt hg _ hx _ hi']; rfl
      · rw [if_neg hi', lanes_get_ge hg _ hx _ (by omega), ih hok.tail hxs (by omega)]

theorem set_spec {gs : List Geo} (hok : Oks gs) {t : Tup α} (h : Wf gs t) {i : Nat} (hi : i < total gs) (v : α) :
    Wf gs (set gs t i v) ∧ lanes gs (set gs t i v) = (lanes gs t).set i v := by
  induction gs generalizing t i with
  | nil => simp [total] at hi
  | cons g gs ih =>
    obtain ⟨x, xs, rfl, hx, hxs⟩ := wf_cons h
    have hg := hok.head
    have hsz := hg.size_le
    have htake : ∀ j, j < g.size → (x.take g.size ++ lanes gs xs).set j v = (x.set j v).take g.size ++ lanes gs xs := by
      intro j hj
      rw [List.set_append_left _ _ (by simp; omega), List.take_set]
    cases gs with
    | nil =>
      have := wf_nil hxs
      subst this
      simp only [total] at hi
      refine ⟨⟨by simp [Native.set, hx], trivial⟩, ?_⟩
      change lanes [g] [x.set i v] = _
      rw [lanes_cons, lanes_cons, htake i hi]
    | cons g' gs =>
      have e : set (g :: g' :: gs) (x :: xs) i v =
          if i < g.size then Native.set x i v :: xs else x :: set (g' :: gs) xs (i - g.size) v := by
        cases xs <;> rfl
      rw [e]
      rw [total_cons] at hi
      by_cases hi' : i < g.size
      · rw [if_pos hi']
        refine ⟨⟨by simp [Native.set, hx], hxs⟩, ?_⟩
        change lanes (g :: g' :: gs) (x.set i v :: xs) = _
        rw [lanes_cons, lanes_cons, htake i hi']
      · rw [if_neg hi']
        obtain ⟨h1, h2⟩ := ih hok.tail hxs (i := i - g.size) (by omega)
        refine ⟨⟨hx, h1⟩, ?_⟩
        rw [lanes_cons, lanes_cons, h2, List.set_append_right _ _ (by simp; omega)]
        congr 3; simp; omega

/-- Every register but the last is full. -/
def FullButLast (gs : List Geo) : Prop := ∀ g ∈ gs.dropLast, g.size = g.full

theorem FullButLast.tail {g g' : Geo} {gs : List Geo} (h : FullButLast (g :: g' :: gs)) : FullButLast (g' :: gs) :=
  fun x hx => h x (by simp [List.dropLast]; exact Or.inr hx)
theorem FullButLast.head {g g' : Geo} {gs : List Geo} (h : FullButLast (g :: g' :: gs)) : g.size = g.full :=
  h g (by simp [List.dropLast])

theorem lanes_prefix {gs : List Geo} (hok : Oks gs) (hf : FullButLast gs) {t : Tup α} (h : Wf gs t) :
    lanes gs t = t.flatten.take (total gs) := by
  induction gs generalizing t with
  | nil => rw [wf_nil h]; rfl
  | cons g gs ih =>
    obtain ⟨x, xs, rfl, hx, hxs⟩ := wf_cons h
    cases gs with
    | nil =>
      have := wf_nil hxs
      subst this
      simp [lanes, total]
    | cons g' gs =>
      have e := hf.head
      have ht := total_cons g (g' :: gs)
      rw [lanes_cons, ih hok.tail hf.tail hxs, List.flatten_cons, List.take_append, hx]
      congr 1
      · rw [List.take_of_length_le (by omega), List.take_of_length_le (by omega)]
      · congr 1; omega

theorem getAlias_eq {gs : List Geo} (hok : Oks gs) (hf : FullButLast gs) {t : Tup α} (h : Wf gs t) {i : Nat} (hi : i < total gs) :
    getAlias t i = (lanes gs t)[i]? := by
  have key : t.flatten[i]? = (lanes gs t)[i]? := by
    rw [lanes_prefix hok hf h, List.getElem?_take_of_lt hi]
  unfold getAlias
  split
  · rw [← key]; simp [Native.get]
  · exact key

theorem setFlat_eq {gs : List Geo} (hok : Oks gs) (hf : FullButLast gs) {t : Tup α} (h : Wf gs t) {i : Nat} (hi : i < total gs)
    (v : α) : setFlat t i v = set gs t i v := by
  induction gs generalizing t i with
  | nil => simp [total] at hi
  | cons g gs ih =>
    obtain ⟨x, xs, rfl, hx, hxs⟩ := wf_cons h
    have hsz := hok.head.size_le
    cases gs with
    | nil =>
      have := wf_nil hxs
      subst this
      simp only [total] at hi
      simp only [setFlat, set, Native.set]
      rw [if_pos (by omega)]
    | cons g' gs =>
      have e : set (g :: g' :: gs) (x :: xs) i v =
          if i < g.size then Native.set x i v :: xs else x :: set (g' :: gs) xs (i - g.size) v := by
        cases xs <;> rfl
      rw [e]
      rw [total_cons] at hi
      simp only [setFlat]
      rw [hx, ← hf.head]
      by_cases hi' : i < g.size
      · rw [if_pos hi', if_pos hi']; rfl
      · rw [if_neg hi', if_neg hi', ih hok.tail hf.tail hxs (by omega)]

theorem setAlias_eq {gs : List Geo} (hok : Oks gs) (hf : FullButLast gs) {t : Tup α} (h : Wf gs t) {i : Nat} (hi : i < total gs)
    (v : α) : setAlias t i v = set gs t i v := by
  rw [← setFlat_eq hok hf h hi v]
  unfold setAlias
  split
  · rename_i x
    cases gs with
    | nil => simp [total] at hi
    | cons g gs =>
      obtain ⟨y, ys, he, hx, hxs⟩ := wf_cons h
      simp only [List.cons.injEq] at he
      obtain ⟨rfl, rfl⟩ := he
      cases gs with
      | cons _ _ => exact hxs.elim
      | nil =>
        have := hok.head.size_le
        simp only [total] at hi
        simp only [setFlat, Native.set]
        rw [if_pos (by omega)]
  · rfl

end StdSimd.Tuple
