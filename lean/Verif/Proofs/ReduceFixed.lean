import Verif.Proofs.Reduce
import Verif.Proofs.FixedSize
/-! # Reductions of NEON registers and of `fixed_size` objects, masked reductions -/
namespace StdSimd.Reduce
open Spec Tuple Native

variable {α β : Type}

/-! ## NEON -/

theorem neon8 (f : α → α → α) (z a b c d e g h i : α) :
    (let x := List.zipWith f [a, b, c, d, e, g, h, i] (permGroups [1, 0, 3, 2, 5, 4, 7, 6] z [a, b, c, d, e, g, h, i])
     let x := List.zipWith f x (permGroups [3, 2, 1, 0, 7, 6, 5, 4] z x)
     (List.zipWith f x (permGroups [7, 6, 5, 4, 3, 2, 1, 0] z x))[0]?)
      = some (f (f (f a b) (f d c)) (f (f i h) (f e g))) := by
  simp [permGroups, List.range_succ]

theorem neon4 (f : α → α → α) (z a b c d : α) :
    (let x := List.zipWith f [a, b, c, d] (permGroups [1, 0, 3, 2] z [a, b, c, d])
     (List.zipWith f x (permGroups [3, 2, 1, 0] z x))[0]?) = some (f (f a b) (f d c)) := by
  simp [permGroups, List.range_succ]

theorem reduceNeon_spec (f : α → α → α) (zero : α) (s : Nat) : ∀ (k n : Nat) (x : List α), n = 2 ^ k → x.length = n →
    ∃ r, reduceNeon f zero s n x = some r ∧ Combines f x r := by
  intro k
  induction k with
  | zero =>
    intro n x hn hx
    simp at hn
    subst hn
    rw [reduceNeon, if_neg (by decide), if_neg (by omega), if_neg (by decide), if_neg (by decide), if_neg (by decide)]
    exact reduceFull_spec f zero s 0 1 x rfl hx
  | succ k ih =>
    intro n x hn hx
    have hp : 1 ≤ 2 ^ k := Nat.one_le_two_pow
    have hn2 : n = 2 * 2 ^ k := by rw [hn, Nat.pow_succ]; omega
    rw [reduceNeon, if_neg (by omega)]
    by_cases h16 : s * n = 16 ∧ 4 ≤ n
    · rw [if_pos h16]
      have hl : (x.take (n / 2)).length = (x.drop (n / 2)).length := by simp; omega
      obtain ⟨r, hr, hc⟩ := ih (n / 2) (List.zipWith f (x.take (n / 2)) (x.drop (n / 2))) (by omega) (by
        rw [List.length_zipWith, ← hl]; simp; omega)
      refine ⟨r, hr, ?_⟩
      have := hc.zip hl
      rwa [List.take_append_drop] at this
    rw [if_neg h16]
    by_cases h8 : n = 8
    · rw [if_pos h8]
      obtain ⟨a, b, c, d, e, g, h, i, rfl⟩ := list8 (hx.trans h8)
      refine ⟨_, neon8 f zero a b c d e g h i, combines_of_index (.node
        (.node (.node (.leaf 0) (.leaf 1)) (.node (.leaf 3) (.leaf 2)))
        (.node (.node (.leaf 7) (.leaf 6)) (.node (.leaf 4) (.leaf 5)))) _ zero ?_ rfl⟩
      simp only [List.length_cons, List.length_nil]; decide
    rw [if_neg h8]
    by_cases h4 : n = 4
    · rw [if_pos h4]
      obtain ⟨a, b, c, d, rfl⟩ := list4 (hx.trans h4)
      refine ⟨_, neon4 f zero a b c d, combines_of_index (.node (.node (.leaf 0) (.leaf 1)) (.node (.leaf 3) (.leaf 2))) _ zero ?_ rfl⟩
      simp only [List.length_cons, List.length_nil]; decide
    rw [if_neg h4]
    by_cases h2 : n = 2
    · rw [if_pos h2]
      rw [h2] at hx
      match x, hx with
      | [a, b], _ =>
        refine ⟨f a b, by simp [permGroups, List.range_succ], (combines_leaf f a).node (combines_leaf f b)⟩
    rw [if_neg h2]
    exact reduceFull_spec f zero s (k + 1) n x hn hx

/-! ## one register -/

/-- The register sizes that occur: a scalar, or a vector type for two or more elements. -/
def Regular (t : Abi.Target) (s : Nat) (g : Geo) : Prop :=
  g = .scalar ∨ (SizeOk s ∧ 2 ≤ g.size ∧ g.full = fullOf t s g.size)

theorem Regular.full_eq {t : Abi.Target} {s : Nat} {g g' : Geo} (h : Regular t s g) (h' : Regular t s g')
    (e : g.size = g'.size) : g.full = g'.full := by
  rcases h with rfl | ⟨_, h2, h3⟩ <;> rcases h' with rfl | ⟨_, h2', h3'⟩
  · rfl
  · have : Geo.scalar.size = 1 := rfl
    omega
  · have : Geo.scalar.size = 1 := rfl
    omega
  · rw [h3, h3', e]

theorem reduceGeo_spec (t : Abi.Target) (kd : Kind) (f : α → α → α) (zero one : α) (s : Nat) {g : Geo} (hg : g.Ok)
    (hr : Regular t s g) (x : List α) (hx : x.length = g.full) :
    ∃ r m, reduceGeo t kd f zero one s g x = some r ∧ Combines f (x.take g.size ++ List.replicate m (unit zero one kd)) r ∧
      (kd = .other → m = 0) := by
  have hsz := hg.size_le
  cases g with
  | scalar =>
    match x, hx with
    | [a], _ => exact ⟨a, 0, rfl, by simpa [Geo.size] using combines_leaf f a, fun _ => rfl⟩
  | vec w n fl =>
    rcases hr with h | ⟨hs, h2, h3⟩
    · cases h
    · exact reduceNative_spec t kd f zero one hs n x (by simp [Geo.size] at h2; omega) (fun _ => hx.trans h3)
        (by rw [hx]; exact hsz)
  | bitmask n fl =>
    rcases hr with h | ⟨hs, h2, h3⟩
    · cases h
    · exact reduceNative_spec t kd f zero one hs n x (by simp [Geo.size] at h2; omega) (fun _ => hx.trans h3)
        (by rw [hx]; exact hsz)

/-! ## combining registers -/

theorem fold_set (p : Nat → Bool) : ∀ (m : Nat) (bs : List Bool), m ≤ bs.length →
    (List.range m).foldl (fun bs i => bs.set i (p i)) bs = (List.range m).map p ++ bs.drop m := by
  intro m
  induction m with
  | zero => intro bs _; simp
  | succ m ih =>
    intro bs h
    rw [List.range_succ, List.foldl_append, ih bs (by omega)]
    simp only [List.foldl_cons, List.foldl_nil, List.map_append, List.map_cons, List.map_nil]
    rw [List.drop_eq_getElem_cons (by omega : m < bs.length), List.set_append]
    simp only [List.length_map, List.length_range, Nat.lt_irrefl, if_false, Nat.sub_self, List.set_cons_zero,
      List.append_assoc, List.cons_append, List.nil_append]

theorem maskGen_spec (p : Nat → Bool) {g : Geo} (hg : g.Ok) :
    MaskOk g (maskGen p g) ∧ maskLanes g (maskGen p g) = (List.range g.size).map p := by
  cases g with
  | scalar => exact ⟨trivial, by simp [maskLanes, maskGen, Geo.size]⟩
  | vec w n f =>
    have h : ∀ m ≤ n, VMask.Rep n f ((List.range m).foldl (fun (k : VMask w) i => VMask.set k i (p i)) (List.replicate f 0#w))
        ((List.range m).foldl (fun bs i => bs.set i (p i)) (List.replicate n false)) := by
      intro m
      induction m with
      | zero =>
        intro _
        refine ⟨by simp, by simp, hg.2.2.2.1, fun i hi => ?_⟩
        have := hg.2.2.2.1
        simp [List.getElem?_replicate, hi, VMask.elem]; omega
      | succ m ih =>
        intro hm
        rw [List.range_succ, List.foldl_append, List.foldl_append]
        exact VMask.rep_set hg.1 (ih (by omega)) (by omega) _
    have h1 := h n (Nat.le_refl n)
    rw [fold_set p n _ (by simp)] at h1
    simp only [List.drop_replicate, Nat.sub_self, List.replicate_zero, List.append_nil] at h1
    refine ⟨VMask.Rep.wf h1, ?_⟩
    exact h1.lanes_eq hg.1
  | bitmask n f =>
    have h : ∀ m ≤ n, KMask.Rep ((List.range m).foldl (fun (k : KMask n) i => KMask.set k i (p i)) 0)
        ((List.range m).foldl (fun bs i => bs.set i (p i)) (List.replicate n false)) := by
      intro m
      induction m with
      | zero =>
        intro _
        refine ⟨by simp, fun i => ?_⟩
        simp [VMask.bit, List.getElem?_replicate]
        split <;> rfl
      | succ m ih =>
        intro hm
        rw [List.range_succ, List.foldl_append, List.foldl_append]
        exact KMask.rep_set (ih (by omega)) (by omega) _
    have h1 := h n (Nat.le_refl n)
    rw [fold_set p n _ (by simp)] at h1
    simp only [List.drop_replicate, Nat.sub_self, List.replicate_zero, List.append_nil] at h1
    exact ⟨trivial, h1.lanes_eq⟩

theorem combine2_spec (t : Abi.Target) (s : Nat) (f : α → α → α) (zero : α) (c : Bool) {gl gr : Geo} (hl : gl.Ok) (hr : gr.Ok)
    (hrl : Regular t s gl) (hrr : Regular t s gr) (hle : gr.size ≤ gl.size) (l r : List α) (hll : l.length = gl.full)
    (hrr' : r.length = gr.full) :
    (combine2 f zero c gl gr l r).length = gl.full ∧
    (combine2 f zero c gl gr l r).take gl.size
      = List.zipWith f (l.take gr.size) (r.take gr.size) ++ (l.take gl.size).drop gr.size := by
  have hsl := hl.size_le
  have hsr := hr.size_le
  unfold combine2
  by_cases h : gl.size = gr.size
  · rw [if_pos h]
    have hf := hrl.full_eq hrr h
    refine ⟨by simp; omega, ?_⟩
    rw [List.take_zipWith, h, List.drop_take]
    simp
  · rw [if_neg h]
    simp only []
    obtain ⟨hk, hkl⟩ := maskGen_spec (fun j => decide (j < gr.size)) hl
    have hb : ∀ i < gl.size, mbit gl (maskGen (fun j => decide (j < gr.size)) gl) i = decide (i < gr.size) := by
      intro i hi
      unfold mbit
      rw [hkl]
      simp [VMask.bit, hi]
    generalize maskGen (fun j => decide (j < gr.size)) gl = k at hk hkl hb ⊢
    have ht := hintOf_truthful c hl k hk
    have hrs : (resize zero gr gl r).length = gl.full := by simp [resize]
    obtain ⟨e1, e2⟩ := maskedAssign_spec hl k hk _ ht l (resize zero gr gl r) hll hrs
    generalize Native.maskedAssign gl (hintOf c gl k) k l (resize zero gr gl r) = ext at e1 e2 ⊢
    obtain ⟨d1, d2⟩ := maskedAssign_spec hl k hk _ ht l (List.zipWith f l ext) hll (by simp; omega)
    refine ⟨d1, ?_⟩
    apply List.ext_getElem?
    intro i
    by_cases hi : i < gl.size
    · rw [List.getElem?_take_of_lt hi, d2 i hi, hb i hi]
      have hli : l[i]? = some (l[i]'(by omega)) := List.getElem?_eq_getElem (by omega)
      by_cases hir : i < gr.size
      · have hri : r[i]? = some (r[i]'(by omega)) := List.getElem?_eq_getElem (by omega)
        have := e2 i hi
        rw [hb i hi] at this
        simp only [hir, decide_true, if_true] at this ⊢
        have hres : (resize zero gr gl r)[i]? = some (r[i]'(by omega)) := by
          unfold resize
          rw [List.getElem?_map, List.getElem?_range (by omega)]
          simp [hir, hri]
        rw [hres] at this
        rw [List.getElem?_append_left (by simp; omega)]
        simp only [List.getElem?_zipWith, List.getElem?_take_of_lt hir, hli, hri, this]
      · simp only [hir, decide_false, Bool.false_eq_true, if_false]
        rw [List.getElem?_append_right (by simp; omega)]
        have e : (List.zipWith f (l.take gr.size) (r.take gr.size)).length = gr.size := by simp; omega
        rw [e, List.getElem?_drop, show gr.size + (i - gr.size) = i by omega, List.getElem?_take_of_lt hi]
    · rw [List.getElem?_eq_none (by simp; omega), List.getElem?_eq_none (by simp; omega)]

/-- `l'` arises from `l` by combining disjoint groups of operands. -/
def Ref (f : α → α → α) (l l' : List α) : Prop :=
  ∃ parts : List (List α), List.Forall₂ (fun p a => Combines f p a) parts l' ∧ parts.flatten.Perm l

theorem Ref.refl (f : α → α → α) (l : List α) : Ref f l l := by
  refine ⟨l.map (fun z => [z]), ?_, by rw [flatten_singletons]⟩
  rw [List.forall₂_map_left_iff]
  exact List.forall₂_same.2 (fun a _ => combines_leaf f a)

theorem Ref.append {f : α → α → α} {l₁ l₂ l₁' l₂' : List α} (h₁ : Ref f l₁ l₁') (h₂ : Ref f l₂ l₂') :
    Ref f (l₁ ++ l₂) (l₁' ++ l₂') := by
  obtain ⟨p₁, a₁, b₁⟩ := h₁
  obtain ⟨p₂, a₂, b₂⟩ := h₂
  exact ⟨p₁ ++ p₂, List.rel_append a₁ a₂, by rw [List.flatten_append]; exact b₁.append b₂⟩

theorem Ref.perm {f : α → α → α} {l₁ l₂ l' : List α} (h : Ref f l₁ l') (p : l₁.Perm l₂) : Ref f l₂ l' := by
  obtain ⟨q, a, b⟩ := h
  exact ⟨q, a, b.trans p⟩

theorem Ref.zip (f : α → α → α) {xs ys : List α} (h : xs.length = ys.length) : Ref f (xs ++ ys) (List.zipWith f xs ys) :=
  ⟨_, forall₂_pairs f xs ys, flatten_pairs_perm xs ys h⟩

theorem Ref.combines {f : α → α → α} {l l' : List α} {r : α} (h : Ref f l l') (hc : Combines f l' r) : Combines f l r := by
  obtain ⟨p, a, b⟩ := h
  exact (hc.subst a).perm b

theorem combine2_ref (t : Abi.Target) (s : Nat) (f : α → α → α) (zero : α) (c : Bool) {gl gr : Geo} (hl : gl.Ok) (hr : gr.Ok)
    (hrl : Regular t s gl) (hrr : Regular t s gr) (hle : gr.size ≤ gl.size) (l r : List α) (hll : l.length = gl.full)
    (hrr' : r.length = gr.full) :
    Ref f (l.take gl.size ++ r.take gr.size) ((combine2 f zero c gl gr l r).take gl.size) := by
  rw [(combine2_spec t s f zero c hl hr hrl hrr hle l r hll hrr').2]
  have hsl := hl.size_le
  have hsr := hr.size_le
  have h := (Ref.zip f (xs := l.take gr.size) (ys := r.take gr.size) (by simp; omega)).append
    (Ref.refl f ((l.take gl.size).drop gr.size))
  refine h.perm ?_
  rw [List.append_assoc]
  refine (List.Perm.append_left _ List.perm_append_comm).trans ?_
  rw [← List.append_assoc]
  have e : l.take gr.size = (l.take gl.size).take gr.size := by rw [List.take_take, Nat.min_eq_left hle]
  rw [e, List.take_append_drop]

/-- Register lists for which the reduction is defined: non-increasing sizes. -/
structure Good (t : Abi.Target) (s : Nat) (gs : List Geo) : Prop where
  ok : Oks gs
  reg : ∀ g ∈ gs, Regular t s g
  sorted : (gs.map Geo.size).Pairwise (· ≥ ·)

theorem Good.tail {t : Abi.Target} {s : Nat} {g : Geo} {gs : List Geo} (h : Good t s (g :: gs)) : Good t s gs :=
  ⟨h.ok.tail, fun g hg => h.reg g (by simp [hg]), by have := h.sorted; rw [List.map_cons, List.pairwise_cons] at this; exact this.2⟩

theorem combineGeo_sublist : ∀ gs : List Geo, (combineGeo gs).Sublist gs
  | [] => by simp [combineGeo, evens]
  | [g] => by simp [combineGeo, evens]
  | g :: g' :: gs => by
    rw [combineGeo, evens]
    exact ((combineGeo_sublist gs).cons g').cons₂ g

theorem Good.combine {t : Abi.Target} {s : Nat} {gs : List Geo} (h : Good t s gs) : Good t s (combineGeo gs) :=
  have hsub := combineGeo_sublist gs
  ⟨fun g hg => h.ok g (hsub.subset hg), fun g hg => h.reg g (hsub.subset hg), h.sorted.sublist (hsub.map _)⟩

theorem combine_ref (t : Abi.Target) (s : Nat) (f : α → α → α) (zero : α) (c : Bool) : ∀ (gs : List Geo) (x : Tup α),
    Good t s gs → Wf gs x →
    Wf (combineGeo gs) (combine f zero c gs x) ∧ Ref f (lanes gs x) (lanes (combineGeo gs) (combine f zero c gs x))
  | [], [], _, _ => ⟨trivial, Ref.refl f _⟩
  | [], _ :: _, _, hw => absurd hw (by simp [Wf])
  | [g], [], _, hw => absurd hw (by simp [Wf])
  | [g], [x], _, hw => ⟨hw, Ref.refl f _⟩
  | [g], _ :: _ :: _, _, hw => absurd hw (by simp [Wf])
  | g :: g' :: gs, [], _, hw => absurd hw (by simp [Wf])
  | g :: g' :: gs, [_], _, hw => absurd hw (by simp [Wf])
  | g :: g' :: gs, l :: r :: xs, hg, hw => by
    obtain ⟨hl, hr, hw'⟩ := hw
    have hle : g'.size ≤ g.size := by
      have := hg.sorted
      rw [List.map_cons, List.map_cons, List.pairwise_cons] at this
      exact this.1 _ (by simp)
    obtain ⟨i1, i2⟩ := combine_ref t s f zero c gs xs hg.tail.tail hw'
    have hgl := hg.ok g (by simp)
    have hgr := hg.ok g' (by simp)
    have c1 := combine2_spec t s f zero c hgl hgr (hg.reg g (by simp)) (hg.reg g' (by simp)) hle l r hl hr
    have c2 := combine2_ref t s f zero c hgl hgr (hg.reg g (by simp)) (hg.reg g' (by simp)) hle l r hl hr
    rw [combineGeo, evens, combine]
    refine ⟨⟨c1.1, i1⟩, ?_⟩
    rw [lanes_cons, lanes_cons, lanes_cons, ← List.append_assoc]
    exact c2.append i2

theorem wf_single {g : Geo} {x : Tup α} (h : Wf [g] x) : ∃ a, x = [a] ∧ a.length = g.full := by
  match x, h with
  | [a], h => exact ⟨a, rfl, h.1⟩

theorem wf_pair {g g' : Geo} {x : Tup α} (h : Wf [g, g'] x) : ∃ a b, x = [a, b] ∧ a.length = g.full ∧ b.length = g'.full := by
  match x, h with
  | [a, b], h => exact ⟨a, b, rfl, h.1, h.2.1⟩

theorem reduceFixed_spec (t : Abi.Target) (kd : Kind) (f : α → α → α) (zero one : α) (s : Nat) (c : Bool) : ∀ (m : Nat) (gs : List Geo)
    (x : Tup α), gs.length = m → gs ≠ [] → Good t s gs → Wf gs x →
    ∃ r m, reduceFixed t kd f zero one s c gs x = some r ∧ Combines f (lanes gs x ++ List.replicate m (unit zero one kd)) r ∧
      (kd = .other → m = 0) := by
  intro m
  induction m using Nat.strong_induction_on with
  | _ m ih =>
    intro gs x hm hne hg hw
    match gs, hne with
    | [g], _ =>
      obtain ⟨a, rfl, ha⟩ := wf_single hw
      obtain ⟨r, k, h1, h2, h3⟩ := reduceGeo_spec t kd f zero one s (hg.ok g (by simp)) (hg.reg g (by simp)) a ha
      refine ⟨r, k, by rw [reduceFixed]; exact h1, ?_, h3⟩
      simpa [lanes] using h2
    | [g0, g1], _ =>
      obtain ⟨a, b, rfl, ha, hb⟩ := wf_pair hw
      have hok0 := hg.ok g0 (by simp)
      have hok1 := hg.ok g1 (by simp)
      have hle : g1.size ≤ g0.size := by
        have := hg.sorted
        rw [List.map_cons, List.map_cons, List.pairwise_cons] at this
        exact this.1 _ (by simp)
      have hlanes : lanes [g0, g1] [a, b] = a.take g0.size ++ b.take g1.size := by simp [lanes]
      rw [reduceFixed, hlanes]
      obtain ⟨r0, m0, e0, c0, k0⟩ := reduceGeo_spec t kd f zero one s hok0 (hg.reg g0 (by simp)) a ha
      obtain ⟨r1, m1, e1, c1, k1⟩ := reduceGeo_spec t kd f zero one s hok1 (hg.reg g1 (by simp)) b hb
      have hperm : ∀ (u v : List α) (z : α), ((u ++ List.replicate m0 z) ++ (v ++ List.replicate m1 z)).Perm
          ((u ++ v) ++ List.replicate (m0 + m1) z) := by
        intro u v z
        rw [← List.replicate_append_replicate, List.append_assoc, List.append_assoc]
        refine List.Perm.append_left _ ?_
        rw [← List.append_assoc, ← List.append_assoc]
        exact List.Perm.append_right _ List.perm_append_comm
      by_cases h1 : total [g0, g1] > 2 ∧ g1.size = 1
      · rw [if_pos h1]
        have hs1 := hok1.size_le
        have hb0 : b[0]? = some (b[0]'(by omega)) := List.getElem?_eq_getElem (by omega)
        refine ⟨f r0 (b[0]'(by omega)), m0, by rw [e0, hb0]; rfl, ?_, k0⟩
        have := c0.node (combines_leaf f (b[0]'(by omega)))
        refine this.perm ?_
        rw [h1.2]
        have e : b.take 1 = [b[0]'(by omega)] := by
          rw [List.take_succ_eq_append_getElem (by omega : 0 < b.length)]; rfl
        rw [e, List.append_assoc, List.append_assoc]
        exact List.Perm.append_left _ List.perm_append_comm
      rw [if_neg h1]
      by_cases h2 : total [g0, g1] > 4 ∧ g1.size = 2
      · rw [if_pos h2]
        refine ⟨f r0 r1, m0 + m1, by rw [e0, e1]; rfl, (c0.node c1).perm (hperm _ _ _), fun h => by rw [k0 h, k1 h]⟩
      rw [if_neg h2]
      have hc1 := combine2_spec t s f zero c hok0 hok1 (hg.reg g0 (by simp)) (hg.reg g1 (by simp)) hle a b ha hb
      have hc2 := combine2_ref t s f zero c hok0 hok1 (hg.reg g0 (by simp)) (hg.reg g1 (by simp)) hle a b ha hb
      obtain ⟨r, k, d1, d2, d3⟩ := reduceGeo_spec t kd f zero one s hok0 (hg.reg g0 (by simp)) _ hc1.1
      exact ⟨r, k, d1, (hc2.append (Ref.refl f _)).combines d2, d3⟩
    | g0 :: g1 :: g2 :: gs, _ =>
      obtain ⟨w, href⟩ := combine_ref t s f zero c (g0 :: g1 :: g2 :: gs) x hg hw
      have hlen := length_combineGeo (g0 :: g1 :: g2 :: gs)
      obtain ⟨r, k, d1, d2, d3⟩ := ih (combineGeo (g0 :: g1 :: g2 :: gs)).length (by rw [hlen]; simp at hm ⊢; omega)
        (combineGeo (g0 :: g1 :: g2 :: gs)) (combine f zero c (g0 :: g1 :: g2 :: gs) x) rfl (by simp [combineGeo, evens]) hg.combine w
      refine ⟨r, k, by rw [reduceFixed]; exact d1, (href.append (Ref.refl f _)).combines d2, d3⟩

theorem regs_good {t : Abi.Target} (hc : t.Consistent) {T : Abi.Elem} (hT : T.Ok) {n : Nat} (h1 : 1 ≤ n) :
    Good t T.size (regs t T n) := by
  have hok : ∀ a ∈ Abi.storage t T n, (Geo.ofTag t T a).Ok ∧ (Geo.ofTag t T a).size = Abi.size T a ∧
      (Geo.ofTag t T a).full = Abi.fullSize t T a :=
    fun a ha => ofTag_ok hT (Abi.storage_valid hc hT n a ha) (storage_native t T n a ha)
  refine ⟨(regs_facts hc hT h1).2.1, ?_, ?_⟩
  · intro g hg
    obtain ⟨a, ha, rfl⟩ := List.mem_map.1 hg
    obtain ⟨o1, o2, o3⟩ := hok a ha
    have hv := Abi.storage_valid hc hT n a ha
    have hs := Abi.elem_pos hT
    cases a with
    | scalar => exact Or.inl rfl
    | fixed m => exact absurd rfl (storage_native t T n _ ha m)
    | builtin b =>
      have hv' := hv
      simp only [Abi.valid, Bool.and_eq_true, decide_eq_true_eq] at hv'
      right
      refine ⟨?_, by rw [o2]; exact hv'.2.1.1.1, by rw [o3, o2, Abi.fullSize, if_pos hv] <;> first | rfl | nofun⟩
      have hvs : Abi.vecSizeof t T ≠ T.size := by
        intro he
        have h3 := hv'.2.1.1.1
        have h4 := hv'.2.1.2
        rw [he] at h4
        have : b / T.size ≤ T.size / T.size := Nat.div_le_div_right h4
        rw [Nat.div_self (by omega)] at this
        omega
      have := Abi.four_values (Abi.vec_cases hT hvs).1
      exact this
    | btmsk b =>
      have hv' := hv
      simp only [Abi.valid, Bool.and_eq_true, decide_eq_true_eq] at hv'
      right
      refine ⟨?_, by rw [o2]; exact hv'.2.1.1.1, by rw [o3, o2, Abi.fullSize, if_pos hv] <;> first | rfl | nofun⟩
      have hvs : Abi.vecSizeof t T ≠ T.size := by omega
      exact Abi.four_values (Abi.vec_cases hT hvs).1
  · have := Abi.storage_sorted hc hT n
    unfold regs
    rw [List.map_map]
    have e : (Abi.storage t T n).map (Geo.size ∘ Geo.ofTag t T) = (Abi.storage t T n).map (Abi.size T) :=
      List.map_congr_left (fun a ha => (hok a ha).2.1)
    rw [e]; exact this

/-! ## the combined registers form a `fixed_size` object -/

theorem evens_map {γ δ : Type} (f : γ → δ) : ∀ l : List γ, evens (l.map f) = (evens l).map f
  | [] => rfl
  | [_] => rfl
  | a :: b :: l => by
    show f a :: evens (l.map f) = f a :: (evens l).map f
    rw [evens_map f l]

open Abi in
theorem bestAbi_const {t : Target} (hc : t.Consistent) {T : Elem} (hT : T.Ok) (h386 : t.i386 = false) {m : Nat}
    (hm : vecSizeof t T / T.size ≤ m) : bestAbi t T m = bestAbi t T (vecSizeof t T / T.size) := by
  have hs1 := elem_pos hT
  by_cases hv : vecSizeof t T = T.size
  · rw [bestAbi_scalar hs1 hv, bestAbi_scalar hs1 hv]
  obtain ⟨hs, hvs⟩ := vec_cases hT hv
  obtain ⟨_, hs8, hdiv, hmod, hlt, hs2, hle, hpow, hmul⟩ := div_facts hs hvs
  have hx : ∀ n, ¬ Exc t T n := fun n h => by rw [h.1] at h386; exact absurd h386 (by decide)
  have hsmall := bestAbi_small hc hT hv (n := vecSizeof t T / T.size) (by omega) (Nat.le_refl _) (hx _)
  rw [hmul] at hsmall
  rcases Nat.lt_or_ge (vecSizeof t T / T.size) m with h | h
  · have hlarge := bestAbi_large hc hT hv h
    have hexcl : ¬ (valid t T (.btmsk (vecSizeof t T)) = true ∧ valid t T (.builtin (vecSizeof t T)) = true) := by
      rintro ⟨a, b⟩
      rw [valid_btmsk hs1] at a
      rw [valid_builtin hs1] at b
      have h64 := usable_vs hs8 a.1
      have := b.2.2.2 a.1.1
      omega
    rcases hsmall with ⟨a, a'⟩ | ⟨a, a'⟩ <;> rcases hlarge with ⟨b, b'⟩ | ⟨b, b'⟩
    · rw [a, b]
    · exact absurd ⟨a', b'⟩ hexcl
    · exact absurd ⟨b', a'⟩ hexcl
    · rw [a, b]
  · have : m = vecSizeof t T / T.size := by omega
    rw [this]

open Abi in
theorem storage_evens {t : Target} (hc : t.Consistent) {T : Elem} (hT : T.Ok) (h386 : t.i386 = false) (n : Nat) :
    evens (storage t T n) = storage t T ((evens (storage t T n)).map (size T)).sum := by
  have hs1 := elem_pos hT
  have hw : 1 ≤ vecSizeof t T / T.size := by
    by_cases hv : vecSizeof t T = T.size
    · rw [hv, Nat.div_self hs1]
    · obtain ⟨hs, hvs⟩ := vec_cases hT hv
      obtain ⟨_, _, hdiv, _⟩ := div_facts hs hvs
      omega
  have hconst := fun m (h : vecSizeof t T / T.size ≤ m) => bestAbi_const hc hT h386 h
  generalize hW : vecSizeof t T / T.size = W at hw hconst
  have hA : ∀ m, 1 ≤ m → size T (bestAbi t T m) = min m W := by
    intro m h
    rw [← hW]; exact (head_facts hc hT h).2.2.1 h386
  have hbig : ∀ m, W ≤ m → storage t T m = bestAbi t T W :: storage t T (m - W) := by
    intro m h
    rw [storage_pos (by omega), hconst m h, hA W hw, Nat.min_self]
  have hsingle : ∀ m, 1 ≤ m → m ≤ W → storage t T m = [bestAbi t T m] := by
    intro m h1 h2
    rw [storage_pos (by omega), hA m h1, Nat.min_eq_left h2, Nat.sub_self, storage_zero]
  induction n using Nat.strongRecOn with
  | _ n ih =>
    rcases Nat.eq_zero_or_pos n with rfl | h
    · rw [storage_zero]; simp [evens, storage_zero]
    rcases Nat.lt_or_ge W n with h1 | h1
    · rcases Nat.lt_or_ge (2 * W) n with h2 | h2
      · rw [hbig n (by omega), hbig (n - W) (by omega), evens, List.map_cons, List.sum_cons, hA W hw, Nat.min_self,
          hbig (W + _) (by omega), Nat.add_sub_cancel_left]
        rw [← ih (n - W - W) (by omega)]
      · rw [hbig n (by omega), hsingle (n - W) (by omega) (by omega)]
        simp only [evens, List.map_cons, List.map_nil, List.sum_cons, List.sum_nil, hA W hw, Nat.min_self, Nat.add_zero]
        rw [hsingle W hw (Nat.le_refl _)]
    · rw [hsingle n h h1]
      simp only [evens, List.map_cons, List.map_nil, List.sum_cons, List.sum_nil, hA n h, Nat.min_eq_left h1, Nat.add_zero]
      rw [hsingle n h h1]

/-! ## identities and extrema -/

/-- `u` may be added to the operands any number of times. -/
theorem foldOf_pad (f : α → α → α) {u : α} (hu : ∀ a, f a u = a) (l : List α) (hl : l ≠ []) (m : Nat) :
    foldOf f (l ++ List.replicate m u) = foldOf f l := by
  cases l with
  | nil => exact absurd rfl hl
  | cons a l =>
    simp only [List.cons_append, foldOf, List.foldl_append, Option.some.injEq]
    induction m with
    | zero => rfl
    | succ m ih => rw [List.replicate_succ', List.foldl_append, ih]; exact hu _

theorem foldOf_ident (f : α → α → α) {e : α} (he : ∀ a, f e a = a) {l : List α} (hl : l ≠ []) : foldOf f l = some (l.foldl f e) := by
  cases l with
  | nil => exact absurd rfl hl
  | cons a l => simp only [foldOf, List.foldl_cons, he]

theorem foldl_selected (f : α → α → α) {e : α} (he : ∀ a, f a e = a) : ∀ (k : List Bool) (v : List α) (a : α), k.length = v.length →
    (Spec.select k v (List.replicate k.length e)).foldl f a = (Spec.selected k v).foldl f a := by
  intro k
  induction k with
  | nil => intro v a _; simp [Spec.select, Spec.selected]
  | cons b k ih =>
    intro v a h
    cases v with
    | nil => simp at h
    | cons x v =>
      have := ih v
      simp only [Spec.select, Spec.selected, List.length_cons, List.replicate_succ, List.zip_cons_cons, List.zipWith_cons_cons,
        List.foldl_cons] at this ⊢
      cases b with
      | true => simpa using this (f a x) (by simpa using h)
      | false => simpa [he] using this a (by simpa using h)

theorem tree_extremum {le : α → α → Prop} {f : α → α → α} (hf : Picks le f) (htr : ∀ a b c, le a b → le b c → le a c)
    (hrefl : ∀ a, le a a) (t : Tree α) : IsExtremum le t.leaves (t.eval f) := by
  induction t with
  | leaf a => exact ⟨by simp [Tree.leaves, Tree.eval], fun x hx => by
      simp [Tree.leaves] at hx; subst hx; exact hrefl _⟩
  | node l r ihl ihr =>
    obtain ⟨h1, h2, h3⟩ := hf (l.eval f) (r.eval f)
    refine ⟨?_, fun x hx => ?_⟩
    · simp only [Tree.leaves, Tree.eval, List.mem_append]
      rcases h1 with h | h
      · rw [h]; exact Or.inl ihl.1
      · rw [h]; exact Or.inr ihr.1
    · simp only [Tree.leaves, List.mem_append] at hx
      rcases hx with hx | hx
      · exact htr _ _ _ h2 (ihl.2 x hx)
      · exact htr _ _ _ h3 (ihr.2 x hx)

theorem _root_.StdSimd.Spec.Combines.extremum {le : α → α → Prop} {f : α → α → α} (hf : Picks le f)
    (htr : ∀ a b c, le a b → le b c → le a c) (hrefl : ∀ a, le a a) {l : List α} {r : α} (h : Combines f l r) :
    IsExtremum le l r := by
  obtain ⟨t, p, rfl⟩ := h
  have := tree_extremum hf htr hrefl t
  exact ⟨p.mem_iff.1 this.1, fun x hx => this.2 x (p.mem_iff.2 hx)⟩

theorem mem_selected {k : List Bool} {v : List α} {x : α} : x ∈ Spec.selected k v ↔ ∃ i : Nat, k[i]? = some true ∧ v[i]? = some x := by
  unfold Spec.selected
  simp only [List.mem_map, List.mem_filter, Prod.exists, exists_eq_right, exists_eq_right_right]
  rw [List.mem_iff_getElem?]
  simp only [List.getElem?_zip_eq_some]

theorem mem_select {k : List Bool} {v : List α} {e x : α} (h : k.length = v.length) :
    x ∈ Spec.select k v (List.replicate k.length e) ↔ x ∈ Spec.selected k v ∨ (x = e ∧ ∃ i : Nat, k[i]? = some false) := by
  induction k generalizing v with
  | nil => simp [Spec.select, Spec.selected]
  | cons b k ih =>
    cases v with
    | nil => simp at h
    | cons y v =>
      have h' := ih (v := v) (by simpa using h)
      simp only [Spec.select, List.length_cons, List.replicate_succ, List.zip_cons_cons, List.zipWith_cons_cons, List.mem_cons] at h' ⊢
      rw [h', mem_selected, mem_selected]
      constructor
      · rintro (rfl | ⟨i, hi⟩ | ⟨rfl, i, hi⟩)
        · cases b with
          | true => exact Or.inl ⟨0, by simp⟩
          | false => exact Or.inr ⟨by simp, 0, by simp⟩
        · exact Or.inl ⟨i + 1, by simpa using hi⟩
        · exact Or.inr ⟨rfl, i + 1, by simpa using hi⟩
      · rintro (⟨i, hi⟩ | ⟨rfl, i, hi⟩)
        · cases i with
          | zero => simp at hi; left; simp [hi]
          | succ i => right; left; exact ⟨i, by simpa using hi⟩
        · cases i with
          | zero => simp at hi; left; simp [hi]
          | succ i => right; right; exact ⟨rfl, i, by simpa using hi⟩

/-- The extremum of the selected lanes and a neutral value. -/
theorem extremum_selected {le : α → α → Prop} {k : List Bool} {v : List α} {e r : α} (h : k.length = v.length)
    (hex : ∃ x ∈ Spec.selected k v, le x e) (hne : ∀ x, le x e → le e x → x = e)
    (hr : IsExtremum le (Spec.select k v (List.replicate k.length e)) r) : IsExtremum le (Spec.selected k v) r := by
  obtain ⟨h1, h2⟩ := hr
  refine ⟨?_, fun x hx => h2 x ((mem_select h).2 (Or.inl hx))⟩
  rcases (mem_select h).1 h1 with h3 | ⟨rfl, _⟩
  · exact h3
  · obtain ⟨x, hx, hle⟩ := hex
    have := hne x hle (h2 x ((mem_select h).2 (Or.inl hx)))
    exact this ▸ hx

end StdSimd.Reduce
