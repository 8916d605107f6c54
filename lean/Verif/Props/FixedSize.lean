import Verif.Proofs.FixedSize
/-!
# Property theorems about `simd<T, fixed_size<n>>`  (C01, C02, C09-C15)

`regs t T n` is the sequence of native registers in which the library stores `n` elements of type `T` on target `t`
(`C07_storage`); an object is a tuple of register contents, `Wf (regs t T n) x` says that each register has its
number of elements.  Padding elements are arbitrary everywhere.  `lanes (regs t T n) x` is what the user sees: the list
of the `n` elements.  `α` is the type of element values.
-/
namespace StdSimd.Props
open StdSimd Tuple Native
variable {α β : Type} {t : Abi.Target} {T : Abi.Elem} {n : Nat}

/-- The number of lanes is `n`. -/
theorem C01_size (ht : t.Consistent) (hT : T.Ok) (h1 : 1 ≤ n) {x : Tup α} (hx : Wf (regs t T n) x) :
    (lanes (regs t T n) x).length = n := by
  obtain ⟨_, hok, htot, _⟩ := regs_facts ht hT h1
  rw [length_lanes hok hx, htot]

/-! ## C01: element-wise operators -/

/-- C01. Unary operations (`-`, `~`, shifts by an `int`, one-argument math functions). -/
theorem C01_unary (ht : t.Consistent) (hT : T.Ok) (h1 : 1 ≤ n) (f : α → α) {x : Tup α} (hx : Wf (regs t T n) x) :
    ∃ r, Tuple.unary (fun a => some (f a)) (regs t T n) x = some r ∧ Wf (regs t T n) r ∧
      lanes (regs t T n) r = (lanes (regs t T n) x).map f := by
  obtain ⟨hne, hok, htot, _⟩ := regs_facts ht hT h1
  unfold Tuple.unary
  rw [applyPerChunk1_eq _ _ 0]
  obtain ⟨r, e, hw, hl⟩ := forEach1_spec (fun _ _ (xx : List α) => map1 (fun a => some (f a)) xx) (fun _ _ => True) (fun _ => f) n
    (regs t T n) 0 x hne hok hx (by omega)
    (fun g _ off x _ hx _ => ⟨x.map f, map1_total f x, by simp [hx], fun i _ => by simp⟩) (fun _ _ _ => trivial)
  exact ⟨r, e, hw, List.ext_getElem? (fun i => by rw [hl, List.getElem?_map])⟩

/-- C01. `++`, `--`. -/
theorem C01_increment (ht : t.Consistent) (hT : T.Ok) (h1 : 1 ≤ n) (f : α → α) {x : Tup α} (hx : Wf (regs t T n) x) :
    ∃ r, Tuple.incr (fun a => some (f a)) (regs t T n) x = some r ∧ Wf (regs t T n) r ∧
      lanes (regs t T n) r = (lanes (regs t T n) x).map f := by
  obtain ⟨r, h⟩ := C01_unary ht hT h1 f hx
  refine ⟨r, ?_, h.2⟩
  rw [← h.1]
  unfold Tuple.unary Tuple.incr
  rw [applyPerChunk1_eq _ _ 0]

/-- C01. Binary operations (`+`, `-`, `*`, `&`, `|`, `^`, `min`, `max`, two-argument math functions) with a total element
operation; division is C23. -/
theorem C01_binary (ht : t.Consistent) (hT : T.Ok) (h1 : 1 ≤ n) (f : α → α → α) {x y : Tup α} (hx : Wf (regs t T n) x)
    (hy : Wf (regs t T n) y) :
    ∃ r, Tuple.binary (fun a b => some (f a b)) (regs t T n) x y = some r ∧ Wf (regs t T n) r ∧
      lanes (regs t T n) r = List.zipWith f (lanes (regs t T n) x) (lanes (regs t T n) y) := by
  obtain ⟨hne, hok, htot, _⟩ := regs_facts ht hT h1
  unfold Tuple.binary
  rw [applyPerChunk2_eq _ _ 0]
  obtain ⟨r, e, hw, hl⟩ := forEach2_spec (fun _ _ (xx yy : List α) => map2 (fun a b => some (f a b)) xx yy) (fun _ _ _ => True)
    (fun _ => f) n (regs t T n) 0 x y hne hok hx hy (by omega)
    (fun g _ off x y _ hx hy _ => ⟨_, map2_total f x y, by simp [hx, hy], fun i _ a b ha hb => by
      simp only [List.getElem?_map, List.zip, List.getElem?_zipWith, ha, hb]; rfl⟩) (fun _ _ _ _ _ => trivial)
  refine ⟨r, e, hw, List.ext_getElem? (fun i => ?_)⟩
  have hlr := length_lanes hok hw
  have hlx := length_lanes hok hx
  have hly := length_lanes hok hy
  rw [List.getElem?_zipWith]
  by_cases hi : i < total (regs t T n)
  · rw [List.getElem?_eq_getElem (l := lanes _ x) (by omega), List.getElem?_eq_getElem (l := lanes _ y) (by omega)]
    exact hl i _ _ (List.getElem?_eq_getElem (by omega)) (List.getElem?_eq_getElem (by omega))
  · rw [List.getElem?_eq_none (by omega), List.getElem?_eq_none (l := lanes _ x) (by omega)]

/-- C01. Three-argument math functions (`fma`). -/
theorem C01_ternary (ht : t.Consistent) (hT : T.Ok) (h1 : 1 ≤ n) (f : α → α → α → α) {x y z : Tup α}
    (hx : Wf (regs t T n) x) (hy : Wf (regs t T n) y) (hz : Wf (regs t T n) z) :
    ∃ r, Tuple.ternary (fun a b c => some (f a b c)) (regs t T n) x y z = some r ∧ Wf (regs t T n) r ∧
      lanes (regs t T n) r = List.zipWith (fun a (p : α × α) => f a p.1 p.2) (lanes (regs t T n) x)
        ((lanes (regs t T n) y).zip (lanes (regs t T n) z)) := by
  obtain ⟨hne, hok, htot, _⟩ := regs_facts ht hT h1
  unfold Tuple.ternary
  rw [applyPerChunk3_eq (fun _ xx yy zz => map3 (fun a b c => some (f a b c)) xx yy zz)
    (fun _ xx (p : List (α × α)) => map2 (fun a (p : α × α) => some (f a p.1 p.2)) xx p) _ _ _ _ hy hz
    (fun g _ x y z _ _ => rfl), applyPerChunk2_eq _ _ 0]
  have hyz := wf_zipT hy hz
  obtain ⟨r, e, hw, hl⟩ := forEach2_spec (fun _ _ (xx : List α) (p : List (α × α)) => map2 (fun a (p : α × α) => some (f a p.1 p.2)) xx p)
    (fun _ _ _ => True) (fun _ a p => f a p.1 p.2) n (regs t T n) 0 x (zipT y z) hne hok hx hyz (by omega)
    (fun g _ off x y _ hx hy _ => ⟨_, map2_total (fun a (p : α × α) => f a p.1 p.2) x y, by simp [hx, hy], fun i _ a b ha hb => by
      simp only [List.getElem?_map, List.zip, List.getElem?_zipWith, ha, hb]; rfl⟩) (fun _ _ _ _ _ => trivial)
  refine ⟨r, e, hw, List.ext_getElem? (fun i => ?_)⟩
  have hlr := length_lanes hok hw
  have hlx := length_lanes hok hx
  have hly := length_lanes hok hyz
  rw [← lanes_zipT hok hy hz, List.getElem?_zipWith]
  by_cases hi : i < total (regs t T n)
  · rw [List.getElem?_eq_getElem (l := lanes _ x) (by omega), List.getElem?_eq_getElem (l := lanes _ (zipT y z)) (by omega)]
    exact hl i _ _ (List.getElem?_eq_getElem (by omega)) (List.getElem?_eq_getElem (by omega))
  · rw [List.getElem?_eq_none (by omega), List.getElem?_eq_none (l := lanes _ x) (by omega)]

/-- C01. Broadcast construction. -/
theorem C01_broadcast (ht : t.Consistent) (hT : T.Ok) (h1 : 1 ≤ n) (v : α) :
    Wf (regs t T n) (Tuple.broadcast (regs t T n) v) ∧
    lanes (regs t T n) (Tuple.broadcast (regs t T n) v) = List.replicate n v := by
  obtain ⟨hne, hok, htot, _⟩ := regs_facts ht hT h1
  have key : generate (m := Option) (fun g _ => pure (Native.broadcast g v)) (regs t T n) 0 = some (Tuple.broadcast (regs t T n) v) := by
    unfold Tuple.broadcast
    have : ∀ (gs : List Geo) off, generate (m := Option) (fun g _ => pure (Native.broadcast g v)) gs off =
        some (Id.run (generate (m := Id) (fun g _ => pure (Native.broadcast g v)) gs off)) := by
      intro gs
      induction gs with
      | nil => intro _; rfl
      | cons g gs ih =>
        intro off
        cases gs with
        | nil => rfl
        | cons g' gs => rw [generate_cons2, generate_cons2, ih]; rfl
    exact this _ _
  obtain ⟨r, e, hw, hl⟩ := generate_spec (fun g _ => some (Native.broadcast g v)) (fun _ => v) n (regs t T n) 0 hne hok (by omega)
    (fun g hg off _ => ⟨_, rfl, length_broadcast g v, fun i hi => broadcast_get (hok g hg) v hi⟩)
  have e2 : some r = some (Tuple.broadcast (regs t T n) v) := by rw [← e, ← key]; rfl
  cases e2
  refine ⟨hw, List.ext_getElem? (fun i => ?_)⟩
  have hlr := length_lanes hok hw
  by_cases hi : i < n
  · rw [hl i (by omega), List.getElem?_replicate, if_pos hi]
  · rw [List.getElem?_eq_none (by omega), List.getElem?_eq_none (by simp; omega)]

/-! ## C02: comparisons -/

/-- C02. Comparison operators `==`, `<`, `<=` (and on vectors other than AVX-512 integers `!=`). -/
theorem C02_compare (ht : t.Consistent) (hT : T.Ok) (h1 : 1 ≤ n) (h64 : n ≤ 64) (p : α → α → Bool) {x y : Tup α}
    (hx : Wf (regs t T n) x) (hy : Wf (regs t T n) y) :
    ∃ b, Tuple.cmp p (regs t T n) x y = some b ∧ b.Clean ∧
      b.lanes = List.zipWith p (lanes (regs t T n) x) (lanes (regs t T n) y) := by
  obtain ⟨hne, hok, htot, _⟩ := regs_facts ht hT h1
  exact test2_spec _ p _ x y hne hok (by omega) hx hy (fun g hg x y hx hy => cmp_spec p (hok g hg) x y hx hy)

/-- C02. `operator!=`: although the AVX-512 integer `!=` sets phantom bits in a native mask (C32), they do not reach the
`fixed_size` mask. -/
theorem C02_not_equal [DecidableEq α] (ht : t.Consistent) (hT : T.Ok) (h1 : 1 ≤ n) (h64 : n ≤ 64) {x y : Tup α}
    (hx : Wf (regs t T n) x) (hy : Wf (regs t T n) y) :
    ∃ b, Tuple.cmpNe (regs t T n) x y = some b ∧ b.Clean ∧
      b.lanes = List.zipWith (fun a c => decide (a ≠ c)) (lanes (regs t T n) x) (lanes (regs t T n) y) := by
  obtain ⟨hne, hok, htot, _⟩ := regs_facts ht hT h1
  have h := test2_spec (fun g xx yy => Native.cmpNe g xx yy) (fun a b => a != b) _ x y hne hok (by omega) hx hy
    (fun g hg x y hx hy => cmpNe_spec (hok g hg) x y hx hy)
  have e : (fun (a b : α) => a != b) = fun a c => decide (a ≠ c) := by
    funext a b; by_cases h : a = b <;> simp [h]
  rw [e] at h
  exact h

/-- C02. Classification (`isnan`, `isfinite`, `isnormal`). -/
theorem C02_classify (ht : t.Consistent) (hT : T.Ok) (h1 : 1 ≤ n) (h64 : n ≤ 64) (p : α → Bool) {x : Tup α}
    (hx : Wf (regs t T n) x) :
    ∃ b, Tuple.classify p (regs t T n) x = some b ∧ b.Clean ∧ b.lanes = (lanes (regs t T n) x).map p := by
  obtain ⟨hne, hok, htot, _⟩ := regs_facts ht hT h1
  exact test1_spec _ p _ x hne hok (by omega) hx (fun g hg x hx => classify_spec p (hok g hg) x hx)

/-- C02. `isinf`, `signbit`, whose native AVX-512 results may have phantom bits. -/
theorem C02_classify_raw (ht : t.Consistent) (hT : T.Ok) (h1 : 1 ≤ n) (h64 : n ≤ 64) (p : α → Bool) {x : Tup α}
    (hx : Wf (regs t T n) x) :
    ∃ b, Tuple.classifyRaw p (regs t T n) x = some b ∧ b.Clean ∧ b.lanes = (lanes (regs t T n) x).map p := by
  obtain ⟨hne, hok, htot, _⟩ := regs_facts ht hT h1
  exact test1_spec _ p _ x hne hok (by omega) hx (fun g hg x hx => classifyRaw_spec p (hok g hg) x hx)

/-- C02. `operator!`. -/
theorem C02_negate (ht : t.Consistent) (hT : T.Ok) (h1 : 1 ≤ n) (h64 : n ≤ 64) (p : α → Bool) {x : Tup α}
    (hx : Wf (regs t T n) x) :
    ∃ b, Tuple.negate p (regs t T n) x = some b ∧ b.Clean ∧ b.lanes = (lanes (regs t T n) x).map p := by
  obtain ⟨hne, hok, htot, _⟩ := regs_facts ht hT h1
  exact negate_spec p _ x hne hok (by omega) hx

/-! ## C09: element access -/

/-- C09. `v[i]` reads lane `i` in both forms of the code (recursion over the registers, aliasing read). -/
theorem C09_read (ht : t.Consistent) (hT : T.Ok) (h1 : 1 ≤ n) {x : Tup α} (hx : Wf (regs t T n) x) {i : Nat} (hi : i < n) :
    Tuple.get (regs t T n) x i = (lanes (regs t T n) x)[i]? ∧ Tuple.getAlias x i = (lanes (regs t T n) x)[i]? ∧
    ((lanes (regs t T n) x)[i]?).isSome := by
  obtain ⟨_, hok, htot, hf⟩ := regs_facts ht hT h1
  exact ⟨Tuple.get_eq hok hx (by omega), getAlias_eq hok hf hx (by omega), by
    rw [List.getElem?_eq_getElem (by rw [length_lanes hok hx]; omega)]; rfl⟩

/-- C09. `v[i] = a` changes lane `i` to `a` and no other lane, in both forms. -/
theorem C09_write (ht : t.Consistent) (hT : T.Ok) (h1 : 1 ≤ n) {x : Tup α} (hx : Wf (regs t T n) x) {i : Nat} (hi : i < n)
    (a : α) :
    Wf (regs t T n) (Tuple.set (regs t T n) x i a) ∧
    lanes (regs t T n) (Tuple.set (regs t T n) x i a) = (lanes (regs t T n) x).set i a ∧
    Tuple.setAlias x i a = Tuple.set (regs t T n) x i a := by
  obtain ⟨_, hok, htot, hf⟩ := regs_facts ht hT h1
  obtain ⟨h2, h3⟩ := set_spec hok hx (i := i) (by omega) a
  exact ⟨h2, h3, setAlias_eq hok hf hx (by omega) a⟩

/-- C09. Any sequence of element writes behaves as writes to an array. -/
theorem C09_write_history (ht : t.Consistent) (hT : T.Ok) (h1 : 1 ≤ n) {x : Tup α} (hx : Wf (regs t T n) x)
    (ws : List (Nat × α)) (hws : ∀ w ∈ ws, w.1 < n) :
    Wf (regs t T n) (ws.foldl (fun v (w : Nat × α) => Tuple.set (regs t T n) v w.1 w.2) x) ∧
    lanes (regs t T n) (ws.foldl (fun v (w : Nat × α) => Tuple.set (regs t T n) v w.1 w.2) x) =
      ws.foldl (fun (l : List α) (w : Nat × α) => l.set w.1 w.2) (lanes (regs t T n) x) := by
  induction ws generalizing x with
  | nil => exact ⟨hx, rfl⟩
  | cons w ws ih =>
    obtain ⟨h2, h3, _⟩ := C09_write ht hT h1 hx (hws w (by simp)) w.2
    obtain ⟨h4, h5⟩ := ih h2 (fun w hw => hws w (by simp [hw]))
    exact ⟨h4, by rw [List.foldl_cons, h5, h3]; rfl⟩

/-- C09 for a native register with any padding. -/
theorem C09_native {g : Geo} (hg : g.Ok) {x : List α} (hx : x.length = g.full) {i : Nat} (hi : i < g.size) (a : α) :
    Native.get x i = (x.take g.size)[i]? ∧ (Native.set x i a).length = g.full ∧
    (Native.set x i a).take g.size = (x.take g.size).set i a := by
  have := hg.size_le
  refine ⟨by rw [List.getElem?_take_of_lt hi]; rfl, by simp [Native.set, hx], ?_⟩
  apply List.ext_getElem?
  intro j
  simp only [Native.set, List.getElem?_take, List.getElem?_set, List.length_take]
  by_cases hj : j < g.size
  · by_cases hij : i = j
    · have h3 : j < x.length := by omega
      have h4 : j < min g.size x.length := by omega
      simp [hj, hij, h3, h4]
    · simp [hj, hij]
  · have hij : i ≠ j := by omega
    simp [hj, hij]

/-! ## C10: generators -/

/-- C10. For a generator with side effects in any monad, construction is: call `gen 0`, ..., `gen (n-1)` once each in this
order, then build an object `F [gen 0, ..., gen (n-1)]` whose lanes are these values. -/
theorem C10_generator (ht : t.Consistent) (hT : T.Ok) (h1 : 1 ≤ n) (zero : α) :
    ∃ F : List α → Tup α, (∀ xs, xs.length = n → Wf (regs t T n) (F xs) ∧ lanes (regs t T n) (F xs) = xs) ∧
      ∀ (m : Type → Type) [Monad m] [LawfulMonad m] (gen : Nat → m α),
        Tuple.generator (regs t T n) zero gen = (do let xs ← (List.range n).mapM gen; pure (F xs)) := by
  obtain ⟨hne, hok, htot, _⟩ := regs_facts ht hT h1
  refine ⟨pack zero (regs t T n), fun xs hxs => pack_spec zero hok (by omega), ?_⟩
  intro m _ _ gen
  unfold Tuple.generator
  rw [generate_gen zero gen (total (regs t T n)) (regs t T n) 0 hne hok, htot, List.range_eq_range']
  exact fun g hg => size_le_total hg

/-- C10, read off for a generator that logs its calls: the log is exactly `[0, ..., n-1]`, the lanes are the values. -/
theorem C10_calls (ht : t.Consistent) (hT : T.Ok) (h1 : 1 ≤ n) (zero : α) (gen : Nat → α) :
    ∃ r, Tuple.generator (m := StateM (List Nat)) (regs t T n) zero (fun i log => (gen i, log ++ [i])) [] =
        (r, List.range n) ∧ Wf (regs t T n) r ∧ lanes (regs t T n) r = (List.range n).map gen := by
  obtain ⟨F, hF, hgen⟩ := C10_generator ht hT h1 zero
  have hlog : ∀ (l : List Nat) (log : List Nat), (l.mapM (m := StateM (List Nat)) (fun i log => (gen i, log ++ [i]))) log =
      (l.map gen, log ++ l) := by
    intro l
    induction l with
    | nil => intro log; simp; rfl
    | cons a l ih =>
      intro log
      rw [List.mapM_cons]
      change (match (l.mapM (m := StateM (List Nat)) (fun i log => (gen i, log ++ [i]))) (log ++ [a]) with
        | (xs, s) => (gen a :: xs, s)) = _
      rw [ih]; simp
  have hr := hgen (StateM (List Nat)) (fun i log => (gen i, log ++ [i]))
  refine ⟨F ((List.range n).map gen), ?_, hF _ (by simp)⟩
  rw [hr]
  change (match ((List.range n).mapM (m := StateM (List Nat)) (fun i log => (gen i, log ++ [i]))) [] with
        | (xs, s) => (F xs, s)) = _
  rw [hlog]; simp

/-! ## C11, C12: loads and stores -/

/-- C11. `copy_from(mem)` with the `n` elements readable: lane `i` is the converted `mem[i]`; elements outside
`mem[0..n-1]` may be unmapped (an access to an unmapped element would make the load undefined). -/
theorem C11_load (ht : t.Consistent) (hT : T.Ok) (h1 : 1 ≤ n) {U : Abi.Elem} (hU : U.Ok) (same : Bool) (cvt : β → α) (zero : α)
    (mem : Mem β) (base : Nat) (f : Nat → β) (hm : ∀ i < n, mem (base + i) = some (f i)) :
    ∃ r, Tuple.load (Xfer.of t U same) cvt zero (regs t T n) mem base = some r ∧ Wf (regs t T n) r ∧
      lanes (regs t T n) r = (List.range n).map (fun i => cvt (f i)) := by
  obtain ⟨hne, hok, htot, _⟩ := regs_facts ht hT h1
  obtain ⟨r, e, hw, hl⟩ := generate_spec (fun g off => Native.load (Xfer.of t U same) cvt zero g mem (base + off))
    (fun i => cvt (f i)) n (regs t T n) 0 hne hok (by omega)
    (fun g hg off hoff => load_spec _ (Xfer.of_ok t hU same) cvt zero (hok g hg) mem (base + off) (fun i => f (off + i))
      (fun i hi => by rw [Nat.add_assoc]; exact hm (off + i) (by omega)))
  refine ⟨r, e, hw, List.ext_getElem? (fun i => ?_)⟩
  have hlr := length_lanes hok hw
  by_cases hi : i < n
  · rw [hl i (by omega)]; simp [hi]
  · rw [List.getElem?_eq_none (by omega), List.getElem?_eq_none (by simp; omega)]

/-- C12. `copy_to(mem)` makes `mem[i]` the converted lane `i` and changes nothing else. -/
theorem C12_store (ht : t.Consistent) (hT : T.Ok) (h1 : 1 ≤ n) {U : Abi.Elem} (hU : U.Ok) (same : Bool) (cvt : α → β)
    {x : Tup α} (hx : Wf (regs t T n) x) (mem : Mem β) (base : Nat) (hm : ∀ i < n, (mem (base + i)).isSome) :
    ∃ mem', Tuple.store (Xfer.of t U same) cvt (regs t T n) x mem base = some mem' ∧
      (∀ i < n, mem' (base + i) = ((lanes (regs t T n) x)[i]?).map cvt) ∧
      (∀ a, (a < base ∨ base + n ≤ a) → mem' a = mem a) := by
  obtain ⟨hne, hok, htot, _⟩ := regs_facts ht hT h1
  obtain ⟨mem', e, hs⟩ := foldEach_store (fun m g off native => Native.store (Xfer.of t U same) cvt g native m (base + off)) cvt base n
    (fun _ => true) (regs t T n) 0 x mem hne hok hx (by omega)
    (fun g hg off x mem hoff hx hm => store_spec _ (Xfer.of_ok t hU same) cvt (hok g hg) x hx mem (base + off) (fun i hi => hm i hi rfl))
    (fun i hi _ => by rw [Nat.add_zero]; exact hm i (by omega))
  rw [Nat.add_zero, htot] at hs
  refine ⟨mem', e, fun i hi => ?_, fun a ha => ?_⟩
  · rw [hs, if_pos ⟨by omega, by omega, rfl⟩, Nat.add_sub_cancel_left]
  · rw [hs, if_neg (by omega)]

/-! ## C13, C14: masked loads and stores -/

/-- C13. `where(k, v).copy_from(mem)`: only the selected elements need to be mapped; lane `i` becomes the converted
`mem[i]` if selected and keeps its value otherwise.  `p g` is the instruction family used for registers of geometry `g`;
the masks handed to the native code never have set padding (`makeMask_spec`), so every family is correct. -/
theorem C13_masked_load (ht : t.Consistent) (hT : T.Ok) (h1 : 1 ≤ n) (h64 : n ≤ 64) (p : Geo → MaskedPath) (cvt : β → α)
    {v : Tup α} (hv : Wf (regs t T n) v) (k : BitMask n true) (hk : k.Clean) (mem : Mem β) (base : Nat) (f : Nat → β)
    (hm : ∀ i < n, k.lanes[i]? = some true → mem (base + i) = some (f i)) :
    ∃ r, Tuple.maskedLoad p cvt (regs t T n) v k mem base = some r ∧ Wf (regs t T n) r ∧
      lanes (regs t T n) r = Spec.select k.lanes ((List.range n).map (fun i => cvt (f i))) (lanes (regs t T n) v) := by
  obtain ⟨hne, hok, htot, _⟩ := regs_facts ht hT h1
  have hm' : ∀ i < n, k.lane i = true → mem (base + i) = some (f i) := fun i hi h => hm i hi ((lanes_get_iff k hi).2 h)
  obtain ⟨r, e, hw, hl⟩ := forEach1_spec (fun g off native => do
      let a ← submaskAny g off k
      if a then do
        let k ← makeMask g off k
        Native.maskedLoad (p g) cvt g native k mem (base + off)
      else pure native) (fun _ _ => True) (fun i a => if k.lane i then cvt (f i) else a) n (regs t T n) 0 v hne hok hv (by omega)
    (fun g hg off x hoff hx _ => by
      have hgo := hok g hg
      obtain ⟨a, ha, hz⟩ := submaskAny_spec k hk hgo off hoff h64
      obtain ⟨kk, hk1, hk2, hk3, hk4⟩ := makeMask_spec k hk hgo off hoff h64
      have hgl := hgo.size_le
      cases a with
      | false =>
        refine ⟨x, by rw [ha]; rfl, hx, fun i hi => ?_⟩
        rw [hz rfl i hi]; simp
      | true =>
        obtain ⟨r, e, hrl, hr⟩ := maskedLoad_spec (p g) cvt hgo kk hk2 (fun _ => hk3) x hx mem (base + off) (fun i => f (off + i))
          (fun i hi hb => by rw [Nat.add_assoc]; exact hm' (off + i) (by omega) (by rw [← hk4 i hi]; exact hb))
        refine ⟨r, by rw [ha]; simp [hk1, e], hrl, fun i hi => ?_⟩
        rw [hr i hi, hk4 i hi, List.getElem?_eq_getElem (l := x) (by omega)]
        cases k.lane (off + i) <;> simp) (fun _ _ _ => trivial)
  refine ⟨r, e, hw, ?_⟩
  have hlr := length_lanes hok hw
  have hlv := length_lanes hok hv
  apply select_ext
  · simp [length_bmlanes]
  · rw [length_bmlanes]; omega
  · rw [length_bmlanes]; omega
  · intro i hi
    rw [length_bmlanes] at hi
    rw [hl i, Nat.zero_add, List.getElem?_eq_getElem (l := lanes _ v) (by omega)]
    simp only [lanes_get_iff k hi]
    cases k.lane i <;> simp [hi]

/-- C14. `where(k, v).copy_to(mem)`: only the selected elements need to be mapped; they receive the converted lanes and
nothing else changes. -/
theorem C14_masked_store (ht : t.Consistent) (hT : T.Ok) (h1 : 1 ≤ n) (h64 : n ≤ 64) (p : Geo → MaskedPath) (cvt : α → β)
    (junk : α) {v : Tup α} (hv : Wf (regs t T n) v) (k : BitMask n true) (hk : k.Clean) (mem : Mem β) (base : Nat)
    (hm : ∀ i < n, k.lanes[i]? = some true → (mem (base + i)).isSome) :
    ∃ mem', Tuple.maskedStore p cvt junk (regs t T n) v mem base k = some mem' ∧
      (∀ i < n, k.lanes[i]? = some true → mem' (base + i) = ((lanes (regs t T n) v)[i]?).map cvt) ∧
      (∀ a, (¬ ∃ i < n, k.lanes[i]? = some true ∧ a = base + i) → mem' a = mem a) := by
  obtain ⟨hne, hok, htot, _⟩ := regs_facts ht hT h1
  obtain ⟨mem', e, hs⟩ := foldEach_store (fun m g off native => do
      let a ← submaskAny g off k
      if a then do
        let k ← makeMask g off k
        Native.maskedStore (p g) cvt junk g native m (base + off) k
      else pure m) cvt base n k.lane (regs t T n) 0 v mem hne hok hv (by omega)
    (fun g hg off x mem hoff hx hm => by
      have hgo := hok g hg
      obtain ⟨a, ha, hz⟩ := submaskAny_spec k hk hgo off hoff h64
      obtain ⟨kk, hk1, hk2, hk3, hk4⟩ := makeMask_spec k hk hgo off hoff h64
      cases a with
      | false =>
        refine ⟨mem, by rw [ha]; rfl, fun a => ?_⟩
        rw [if_neg]
        rintro ⟨h1, h2, h3⟩
        have := hz rfl (a - (base + off)) (by omega)
        simp only [] at h3
        rw [this] at h3; exact absurd h3 (by decide)
      | true =>
        obtain ⟨mem', e, hs⟩ := maskedStore_spec (p g) cvt junk hgo kk hk2 (fun _ => hk3) x hx mem (base + off)
          (fun i hi hb => hm i hi (by rw [← hk4 i hi]; exact hb))
        refine ⟨mem', by rw [ha]; simp [hk1, e], fun a => ?_⟩
        rw [hs a]
        by_cases hc : base + off ≤ a ∧ a < base + off + g.size
        · have := hk4 (a - (base + off)) (by omega)
          simp only [this]
        · rw [if_neg (fun h => hc ⟨h.1, h.2.1⟩), if_neg (fun h => hc ⟨h.1, h.2.1⟩)])
    (fun i hi hb => by
      rw [Nat.zero_add] at hb
      rw [Nat.add_zero]; exact hm i (by omega) ((lanes_get_iff k (by omega)).2 hb))
  rw [Nat.add_zero, htot] at hs
  refine ⟨mem', e, fun i hi hb => ?_, fun a ha => ?_⟩
  · rw [hs, if_pos ⟨by omega, by omega, by rw [Nat.add_sub_cancel_left]; simpa using (lanes_get_iff k hi).1 hb⟩,
      Nat.add_sub_cancel_left]
  · rw [hs, if_neg]
    rintro ⟨h2, h3, h4⟩
    have h4 : k.lane (0 + (a - base)) = true := h4
    rw [Nat.zero_add] at h4
    exact ha ⟨a - base, by omega, (lanes_get_iff k (by omega)).2 h4, by omega⟩

/-! ## C15: where expressions -/

/-- C15. `where(k, v) = x`, whether or not the compiler knows parts of the mask (`c`). -/
theorem C15_assign (ht : t.Consistent) (hT : T.Ok) (h1 : 1 ≤ n) (h64 : n ≤ 64) (c : Nat → Bool) (k : BitMask n true) (hk : k.Clean)
    {v x : Tup α} (hv : Wf (regs t T n) v) (hx : Wf (regs t T n) x) :
    ∃ r, Tuple.maskedAssign c (regs t T n) k v x = some r ∧ Wf (regs t T n) r ∧
      lanes (regs t T n) r = Spec.select k.lanes (lanes (regs t T n) x) (lanes (regs t T n) v) := by
  obtain ⟨hne, hok, htot, _⟩ := regs_facts ht hT h1
  obtain ⟨r, e, hw, hl⟩ := forEach2_spec (fun g off (l r : List α) => do
      let k ← makeMask g off k
      pure (Native.maskedAssign g (hintOf (c off) g k) k l r)) (fun _ _ _ => True) (fun i a b => if k.lane i then b else a) n
    (regs t T n) 0 v x hne hok hv hx (by omega)
    (fun g hg off v x hoff hv hx _ => by
      have hgo := hok g hg
      obtain ⟨kk, hk1, hk2, _, hk4⟩ := makeMask_spec k hk hgo off hoff h64
      obtain ⟨h2, h3⟩ := maskedAssign_spec hgo kk hk2 _ (hintOf_truthful (c off) hgo kk hk2) v x hv hx
      refine ⟨_, by rw [hk1]; rfl, h2, fun i hi a b ha hb => ?_⟩
      rw [h3 i hi, hk4 i hi, ha, hb]
      cases k.lane (off + i) <;> rfl) (fun _ _ _ _ _ => trivial)
  exact ⟨r, e, hw, select_of_lanes hok hw hv hx k htot (fun i a b ha hb => by have := hl i a b ha hb; rwa [Nat.zero_add] at this)⟩

/-- C15 (partial). `where(k, v) = a` for a scalar `a`, provided that the all-zero bit pattern is the only value that
compares equal to 0. Missing: `a == -0.0` known to the compiler, where the code assigns `+0.0`, see
`C15_assign_negative_zero`. -/
theorem C15_assign_scalar_partial (ht : t.Consistent) (hT : T.Ok) (h1 : 1 ≤ n) (h64 : n ≤ 64) (c : Nat → Bool) (isZero : α → Bool)
    (zero : α) (k : BitMask n true) (hk : k.Clean) {v : Tup α} (hv : Wf (regs t T n) v) (a : α)
    (hz : isZero a = true → a = zero) :
    ∃ r, Tuple.maskedAssignScalar c isZero zero (regs t T n) k v a = some r ∧ Wf (regs t T n) r ∧
      lanes (regs t T n) r = Spec.select k.lanes (List.replicate n a) (lanes (regs t T n) v) := by
  obtain ⟨hne, hok, htot, _⟩ := regs_facts ht hT h1
  obtain ⟨r, e, hw, hl⟩ := forEach1_spec (fun g off (l : List α) => do
      let k ← makeMask g off k
      pure (Native.maskedAssignScalar g (hintOf (c off) g k) isZero zero k l a)) (fun _ _ => True)
      (fun i b => if k.lane i then a else b) n (regs t T n) 0 v hne hok hv (by omega)
    (fun g hg off v hoff hv _ => by
      have hgo := hok g hg
      have hsz := hgo.size_le
      obtain ⟨kk, hk1, hk2, _, hk4⟩ := makeMask_spec k hk hgo off hoff h64
      obtain ⟨h2, h3⟩ := maskedAssignScalar_spec hgo kk hk2 _ (hintOf_truthful (c off) hgo kk hk2) isZero zero v hv a hz
      refine ⟨_, by rw [hk1]; rfl, h2, fun i hi => ?_⟩
      rw [h3 i hi, hk4 i hi, List.getElem?_eq_getElem (l := v) (by omega)]
      cases k.lane (off + i) <;> rfl) (fun _ _ _ => trivial)
  refine ⟨r, e, hw, ?_⟩
  have hlr := length_lanes hok hw
  have hlv := length_lanes hok hv
  apply select_ext
  · simp [length_bmlanes]
  · rw [length_bmlanes]; omega
  · rw [length_bmlanes]; omega
  · intro i hi
    rw [length_bmlanes] at hi
    rw [hl i, Nat.zero_add, List.getElem?_eq_getElem (l := lanes _ v) (by omega)]
    simp only [lanes_get_iff k hi]
    cases k.lane i <;> simp [hi]

/-- C15 (partial). `where(k, v) op= x` for an operation `f` defined for all operands. Missing: operations that are
undefined for some operands of unselected lanes, see `C15_division_in_unselected_lane`. -/
theorem C15_compound_partial (ht : t.Consistent) (hT : T.Ok) (h1 : 1 ≤ n) (h64 : n ≤ 64) (c : Nat → Bool) (f : α → α → α)
    (k : BitMask n true) (hk : k.Clean) {v x : Tup α} (hv : Wf (regs t T n) v) (hx : Wf (regs t T n) x) :
    ∃ r, Tuple.maskedCassign c (regs t T n) k v x (fun _ l r => map2 (fun a b => some (f a b)) l r) = some r ∧ Wf (regs t T n) r ∧
      lanes (regs t T n) r = Spec.select k.lanes (List.zipWith f (lanes (regs t T n) v) (lanes (regs t T n) x))
        (lanes (regs t T n) v) := by
  obtain ⟨hne, hok, htot, _⟩ := regs_facts ht hT h1
  obtain ⟨r, e, hw, hl⟩ := forEach2_spec (fun g off (l r : List α) => do
      let k ← makeMask g off k
      Native.maskedCassign g (hintOf (c off) g k) k l r (fun l r => map2 (fun a b => some (f a b)) l r)) (fun _ _ _ => True)
      (fun i a b => if k.lane i then f a b else a) n
    (regs t T n) 0 v x hne hok hv hx (by omega)
    (fun g hg off v x hoff hv hx _ => by
      have hgo := hok g hg
      obtain ⟨kk, hk1, hk2, _, hk4⟩ := makeMask_spec k hk hgo off hoff h64
      obtain ⟨s, h0, h2, h3⟩ := maskedCassign_spec hgo kk hk2 _ (hintOf_truthful (c off) hgo kk hk2) v x hv
        (fun l r => map2 (fun a b => some (f a b)) l r) _ (map2_total f v x) (by simp [hv, hx])
      refine ⟨s, by rw [hk1]; exact h0, h2, fun i hi a b ha hb => ?_⟩
      rw [h3 i hi, hk4 i hi]
      simp only [List.getElem?_map, List.zip, List.getElem?_zipWith, ha, hb]
      cases k.lane (off + i) <;> rfl) (fun _ _ _ _ _ => trivial)
  refine ⟨r, e, hw, ?_⟩
  have hlr := length_lanes hok hw
  have hlv := length_lanes hok hv
  have hlx := length_lanes hok hx
  apply select_ext
  · simp [length_bmlanes]; omega
  · rw [length_bmlanes]; omega
  · rw [length_bmlanes]; omega
  · intro i hi
    rw [length_bmlanes] at hi
    have ha := List.getElem?_eq_getElem (l := lanes (regs t T n) v) (i := i) (by omega)
    have hb := List.getElem?_eq_getElem (l := lanes (regs t T n) x) (i := i) (by omega)
    rw [hl i _ _ ha hb, Nat.zero_add, List.getElem?_zipWith, ha, hb]
    simp only [lanes_get_iff k hi]
    cases k.lane i <;> simp

/-- C15 (partial). `where(k, v) op= a` with a scalar operand. Missing: as `C15_compound_partial`. -/
theorem C15_compound_scalar_partial (ht : t.Consistent) (hT : T.Ok) (h1 : 1 ≤ n) (h64 : n ≤ 64) (c : Nat → Bool) (f : α → α → α)
    (k : BitMask n true) (hk : k.Clean) {v : Tup α} (hv : Wf (regs t T n) v) (b : α) :
    ∃ r, Tuple.maskedCassignScalar c (regs t T n) k v b (fun _ l r => map2 (fun a b => some (f a b)) l r) = some r ∧
      Wf (regs t T n) r ∧
      lanes (regs t T n) r = Spec.select k.lanes ((lanes (regs t T n) v).map (f · b)) (lanes (regs t T n) v) := by
  obtain ⟨hne, hok, htot, _⟩ := regs_facts ht hT h1
  obtain ⟨r, e, hw, hl⟩ := forEach1_spec (fun g off (l : List α) => do
      let k ← makeMask g off k
      Native.maskedCassign g (hintOf (c off) g k) k l (Native.broadcast g b) (fun l r => map2 (fun a b => some (f a b)) l r))
      (fun _ _ => True) (fun i a => if k.lane i then f a b else a) n
    (regs t T n) 0 v hne hok hv (by omega)
    (fun g hg off v hoff hv _ => by
      have hgo := hok g hg
      have hsz := hgo.size_le
      obtain ⟨kk, hk1, hk2, _, hk4⟩ := makeMask_spec k hk hgo off hoff h64
      obtain ⟨s, h0, h2, h3⟩ := maskedCassign_spec hgo kk hk2 _ (hintOf_truthful (c off) hgo kk hk2) v (Native.broadcast g b) hv
        (fun l r => map2 (fun a b => some (f a b)) l r) _ (map2_total f v _) (by simp [hv, length_broadcast])
      refine ⟨s, by rw [hk1]; exact h0, h2, fun i hi => ?_⟩
      have ha := List.getElem?_eq_getElem (l := v) (i := i) (by omega)
      rw [h3 i hi, hk4 i hi]
      simp only [List.getElem?_map, List.zip, List.getElem?_zipWith, ha, broadcast_get hgo b hi]
      cases k.lane (off + i) <;> rfl) (fun _ _ _ => trivial)
  refine ⟨r, e, hw, ?_⟩
  have hlr := length_lanes hok hw
  have hlv := length_lanes hok hv
  apply select_ext
  · simp [length_bmlanes]; omega
  · rw [length_bmlanes]; omega
  · rw [length_bmlanes]; omega
  · intro i hi
    rw [length_bmlanes] at hi
    rw [hl i, Nat.zero_add, List.getElem?_map, List.getElem?_eq_getElem (l := lanes _ v) (by omega)]
    simp only [lanes_get_iff k hi]
    cases k.lane i <;> simp

/-- C15. `++where(k, v)`, `-where(k, v)` etc. for an operation defined for all operands. -/
theorem C15_unary (ht : t.Consistent) (hT : T.Ok) (h1 : 1 ≤ n) (h64 : n ≤ 64) (c : Nat → Bool) (f : α → α)
    (k : BitMask n true) (hk : k.Clean) {v : Tup α} (hv : Wf (regs t T n) v) :
    ∃ r, Tuple.maskedUnary c (regs t T n) k v (fun _ l => map1 (fun a => some (f a)) l) = some r ∧ Wf (regs t T n) r ∧
      lanes (regs t T n) r = Spec.select k.lanes ((lanes (regs t T n) v).map f) (lanes (regs t T n) v) := by
  obtain ⟨hne, hok, htot, _⟩ := regs_facts ht hT h1
  obtain ⟨r, e, hw, hl⟩ := forEach1_spec (fun g off (l : List α) => do
      let k ← makeMask g off k
      Native.maskedUnary g (hintOf (c off) g k) k l (fun l => map1 (fun a => some (f a)) l)) (fun _ _ => True)
      (fun i a => if k.lane i then f a else a) n
    (regs t T n) 0 v hne hok hv (by omega)
    (fun g hg off v hoff hv _ => by
      have hgo := hok g hg
      have hsz := hgo.size_le
      obtain ⟨kk, hk1, hk2, _, hk4⟩ := makeMask_spec k hk hgo off hoff h64
      obtain ⟨s, h0, h2, h3⟩ := maskedCassign_spec hgo kk hk2 _ (hintOf_truthful (c off) hgo kk hk2) v v hv
        (fun l _ => map1 (fun a => some (f a)) l) _ (map1_total f v) (by simp [hv])
      refine ⟨s, by rw [hk1]; rw [← h0, ← maskedUnary_eq]; rfl, h2, fun i hi => ?_⟩
      have ha := List.getElem?_eq_getElem (l := v) (i := i) (by omega)
      rw [h3 i hi, hk4 i hi, List.getElem?_map, ha]
      cases k.lane (off + i) <;> rfl) (fun _ _ _ => trivial)
  refine ⟨r, e, hw, ?_⟩
  have hlr := length_lanes hok hw
  have hlv := length_lanes hok hv
  apply select_ext
  · simp [length_bmlanes]; omega
  · rw [length_bmlanes]; omega
  · rw [length_bmlanes]; omega
  · intro i hi
    rw [length_bmlanes] at hi
    rw [hl i, Nat.zero_add, List.getElem?_map, List.getElem?_eq_getElem (l := lanes _ v) (by omega)]
    simp only [lanes_get_iff k hi]
    cases k.lane i <;> simp

/-! ## non-vacuity

AVX2, `float`: eleven elements are stored in a full 8-element register and a 3-element register with one padding
element. AVX-512: nineteen are stored in a 16-element register with a bit mask and a partial one of three elements. -/

/-- An AVX2 target. -/
def exAvx2 : Abi.Target := { sse := true, sse2 := true, avx := true, avx2 := true, x86_64 := true }
/-- An AVX-512 target. -/
def exAvx512 : Abi.Target :=
  { sse := true, sse2 := true, avx := true, avx2 := true, avx512f := true, avx512bw := true, avx512vl := true, x86_64 := true }

theorem exAvx2_ok : exAvx2.Consistent := by constructor <;> decide
theorem exAvx512_ok : exAvx512.Consistent := by constructor <;> decide

theorem exRegs_avx2 : regs exAvx2 ⟨4, true⟩ 11 = [.vec 32 8 8, .vec 32 3 4] := by
  unfold regs
  rw [Abi.storage_pos (by decide), show (11 - Abi.size ⟨4, true⟩ (Abi.bestAbi exAvx2 ⟨4, true⟩ 11)) = 3 by decide +kernel,
    Abi.storage_pos (by decide), show (3 - Abi.size ⟨4, true⟩ (Abi.bestAbi exAvx2 ⟨4, true⟩ 3)) = 0 by decide +kernel, Abi.storage_zero]
  decide +kernel

theorem exRegs_avx512 : regs exAvx512 ⟨4, true⟩ 19 = [.bitmask 16 16, .bitmask 3 4] := by
  unfold regs
  rw [Abi.storage_pos (by decide), show (19 - Abi.size ⟨4, true⟩ (Abi.bestAbi exAvx512 ⟨4, true⟩ 19)) = 3 by decide +kernel,
    Abi.storage_pos (by decide), show (3 - Abi.size ⟨4, true⟩ (Abi.bestAbi exAvx512 ⟨4, true⟩ 3)) = 0 by decide +kernel, Abi.storage_zero]
  decide +kernel

/-- An 11-element object whose padding element is 99. -/
def exTup : Tup Nat := [[1, 2, 3, 4, 5, 6, 7, 8], [9, 10, 11, 99]]

theorem exTup_wf : Wf (regs exAvx2 ⟨4, true⟩ 11) exTup := by rw [exRegs_avx2]; exact ⟨rfl, rfl, trivial⟩

-- C01: the padding element does not show
example : lanes (regs exAvx2 ⟨4, true⟩ 11) exTup = [1, 2, 3, 4, 5, 6, 7, 8, 9, 10, 11] ∧
    ∃ r, Tuple.binary (fun a b => some (a + b)) (regs exAvx2 ⟨4, true⟩ 11) exTup exTup = some r ∧
      lanes (regs exAvx2 ⟨4, true⟩ 11) r = [2, 4, 6, 8, 10, 12, 14, 16, 18, 20, 22] := by
  have h : lanes (regs exAvx2 ⟨4, true⟩ 11) exTup = [1, 2, 3, 4, 5, 6, 7, 8, 9, 10, 11] := by rw [exRegs_avx2]; rfl
  obtain ⟨r, e, _, hl⟩ := C01_binary exAvx2_ok (T := ⟨4, true⟩) (n := 11) (by decide) (by decide) (· + ·) exTup_wf exTup_wf
  exact ⟨h, r, e, by rw [hl, h]; rfl⟩

-- C02: 11 lanes compared, no other bit
example : ∃ b, Tuple.cmp (fun a b : Nat => decide (a < b)) (regs exAvx2 ⟨4, true⟩ 11) exTup
      (Tuple.broadcast (regs exAvx2 ⟨4, true⟩ 11) 4) = some b ∧ b.Clean ∧
      b.lanes = [true, true, true, false, false, false, false, false, false, false, false] := by
  obtain ⟨hw, hl⟩ := C01_broadcast exAvx2_ok (T := ⟨4, true⟩) (n := 11) (by decide) (by decide) 4
  obtain ⟨b, e, hc, hb⟩ := C02_compare exAvx2_ok (T := ⟨4, true⟩) (n := 11) (by decide) (by decide) (by decide)
    (fun a b : Nat => decide (a < b)) exTup_wf hw
  refine ⟨b, e, hc, ?_⟩
  rw [hb, hl, exRegs_avx2]; rfl

-- C09: writes in both registers
example : lanes (regs exAvx2 ⟨4, true⟩ 11) (Tuple.set (regs exAvx2 ⟨4, true⟩ 11) (Tuple.set (regs exAvx2 ⟨4, true⟩ 11) exTup 9 0) 2 0)
    = [1, 2, 0, 4, 5, 6, 7, 8, 9, 0, 11] := by rw [exRegs_avx2]; rfl

-- C11: exactly 11 mapped cells
example : ∃ r, Tuple.load (Xfer.of exAvx2 ⟨1, false⟩ false) (fun b : Nat => b + 1) 0 (regs exAvx2 ⟨4, true⟩ 11)
    (fun a => if 100 ≤ a ∧ a < 111 then some a else none) 100 = some r ∧
    lanes (regs exAvx2 ⟨4, true⟩ 11) r = [101, 102, 103, 104, 105, 106, 107, 108, 109, 110, 111] := by
  obtain ⟨r, e, _, hl⟩ := C11_load exAvx2_ok (T := ⟨4, true⟩) (n := 11) (by decide) (by decide) (U := ⟨1, false⟩) (by decide) false
    (fun b : Nat => b + 1) 0 (fun a => if 100 ≤ a ∧ a < 111 then some a else none) 100 (fun i => 100 + i) (fun i hi => by
      rw [if_pos (by omega)])
  exact ⟨r, e, by rw [hl]; rfl⟩

-- C13, C14, C15 on AVX-512: only lanes 1 and 17 selected, only cells 101 and 117 mapped
example : ∃ r, Tuple.maskedLoad (fun _ => .raw) (fun b : Nat => b) (regs exAvx512 ⟨4, true⟩ 19)
      (Tuple.broadcast (regs exAvx512 ⟨4, true⟩ 19) 0) (BitMask.ofULL 19 true 0x20002#64)
      (fun a => if a = 101 ∨ a = 117 then some a else none) 100 = some r ∧
      lanes (regs exAvx512 ⟨4, true⟩ 19) r = [0, 101, 0, 0, 0, 0, 0, 0, 0, 0, 0, 0, 0, 0, 0, 0, 0, 117, 0] := by
  obtain ⟨hw, hl⟩ := C01_broadcast exAvx512_ok (T := ⟨4, true⟩) (n := 19) (by decide) (by decide) 0
  have hb : (BitMask.ofULL 19 true 0x20002#64).lanes =
    [false, true, false, false, false, false, false, false, false, false, false, false, false, false, false, false, false, true, false] := by
    decide
  obtain ⟨r, e, _, hr⟩ := C13_masked_load exAvx512_ok (T := ⟨4, true⟩) (n := 19) (by decide) (by decide) (by decide)
    (fun _ => .raw) (fun b : Nat => b) hw (BitMask.ofULL 19 true 0x20002#64) (fun i hi => by
      by_cases h : i < 32
      · have : ∀ j < 32, 19 ≤ j → (BitMask.ofULL 19 true 0x20002#64).lane j = false := by decide
        exact this i h hi
      · exact BitMask.lane_oob _ (by rw [show arraySize 19 = 1 by decide, show wordBits 19 = 32 by decide]; omega))
    (fun a => if a = 101 ∨ a = 117 then some a else none) 100 (fun i => 100 + i) (by rw [hb]; decide)
  refine ⟨r, e, ?_⟩
  rw [hr, hl, hb]; rfl

end StdSimd.Props
