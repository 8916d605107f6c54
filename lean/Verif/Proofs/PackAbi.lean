import Verif.Proofs.Pack
import Verif.Proofs.MultiAbi
import Verif.Props.Split
/-!
# `split` and `concat` of the objects of programs
-/
namespace StdSimd.SimdClass
open Spec Spec.Program Spec.Control Spec.Multi Spec.Pack Native MaskSplit Tuple

theorem elem_ofElems {e : Nat} (he : 0 < e) (f : Nat → BitVec (8 * e)) (i : Nat) : MaskVec.elem e (MaskVec.ofElems e f) i = f i := by
  apply BitVec.eq_of_getLsbD_eq
  intro j hj
  unfold MaskVec.elem MaskVec.ofElems
  have h1 : j / 8 < e := by omega
  rw [X86.getLsbD_join (by omega), X86.getLsbD_lane, Nat.mul_add_div he, Nat.div_eq_of_lt h1, Nat.add_zero, Nat.mul_add_mod, Nat.mod_eq_of_lt h1]
  have : 8 * (j / 8) + j % 8 = j := by omega
  rw [this]
  simp [hj, Nat.mod_lt]

theorem sw_sw {w v : Nat} (h : w = v) (x : BitVec w) : (x.setWidth v).setWidth w = x := by subst h; simp

theorem lanes_toObj {w s : Nat} (hs : 0 < s) : ∀ {gs : List Geo} (_ : Oks gs) {x : Tup (BitVec w)} (_ : Wf gs x),
    Split.lanes s (toObj s gs x) = (Tuple.lanes gs x).map fun v => v.setWidth (8 * s)
  | [], _, [], _ => rfl
  | g :: gs, hg, r :: rs, h => by
    have ih := lanes_toObj hs (gs := gs) (fun g' h' => hg g' (List.mem_cons_of_mem _ h')) h.2
    have hle := (hg g List.mem_cons_self).size_le
    have h1 : Split.mlanes s ⟨g.size, g.full, MaskVec.ofElems s fun i => (r.getD i 0#w).setWidth (8 * s)⟩ = (r.take g.size).map fun v => v.setWidth (8 * s) := by
      unfold Split.mlanes
      have hlen := h.1
      apply List.ext_getElem
      · simp; omega
      · intro i h1 h2
        simp only [List.getElem_map, List.getElem_range, elem_ofElems hs]
        have : i < r.length := by simp at h2; omega
        simp [this]
    simp only [Split.lanes, toObj, Tuple.lanes, List.zipWith_cons_cons, List.map_cons, List.flatten_cons, List.map_append] at ih ⊢
    rw [h1, ih]
  | [], _, _ :: _, h => absurd h (by simp [Wf])
  | _ :: _, _, [], h => absurd h (by simp [Wf])

theorem shape_toObj {w s : Nat} : ∀ {gs : List Geo} {x : Tup (BitVec w)} (_ : Wf gs x), Split.shapeOf (toObj s gs x) = gs.map fun g => (g.size, g.full)
  | [], [], _ => rfl
  | g :: gs, r :: rs, h => by
    have ih := shape_toObj (s := s) h.2
    simp only [Split.shapeOf, toObj, List.zipWith_cons_cons, List.map_cons] at ih ⊢
    rw [ih]
  | [], _ :: _, h => absurd h (by simp [Wf])
  | _ :: _, [], h => absurd h (by simp [Wf])

theorem shapeFor_eq {t : Abi.Target} {T : Abi.Elem} (hT : T.Ok) {a : Abi.Tag} (hv : Abi.valid t T a = true) :
    (abiRegs t T (shape t T a)).map (fun g => (g.size, g.full)) = Split.shapeFor t T a := by
  cases a with
  | fixed n => rfl
  | scalar => rfl
  | builtin b => obtain ⟨_, h2, h3⟩ := ofTag_ok hT hv nofun; simp [abiRegs, shape, Split.shapeFor, h2, h3]
  | btmsk b => obtain ⟨_, h2, h3⟩ := ofTag_ok hT hv nofun; simp [abiRegs, shape, Split.shapeFor, h2, h3]

theorem ofLanes_spec {α : Type} (pad : Nat → α) : ∀ {gs : List Geo} (_ : Oks gs) (l : List α) (_ : l.length = total gs),
    Wf gs (ofLanes pad gs l) ∧ Tuple.lanes gs (ofLanes pad gs l) = l
  | [], _, l, h => by
    have : l = [] := List.eq_nil_of_length_eq_zero (by simpa [total] using h)
    subst this; exact ⟨trivial, rfl⟩
  | g :: gs, hg, l, h => by
    have hle := (hg g List.mem_cons_self).size_le
    have h : l.length = g.size + total gs := by rw [h]; cases gs <;> simp [total]; omega
    obtain ⟨h1, h2⟩ := ofLanes_spec pad (gs := gs) (fun g' h' => hg g' (List.mem_cons_of_mem _ h')) (l.drop g.size) (by rw [List.length_drop]; omega)
    have hlt : (l.take g.size).length = g.size := by rw [List.length_take]; omega
    refine ⟨⟨?_, h1⟩, ?_⟩
    · simp only [List.length_append, hlt, List.length_map, List.length_range]; omega
    · simp only [Tuple.lanes, ofLanes, List.zipWith_cons_cons, List.flatten_cons] at h2 ⊢
      rw [h2, List.take_left' hlt, List.take_append_drop]

section
variable {ι : Type} {K : ι → Kind} {β : ι → Type} {t : Abi.Target} {T : ι → Abi.Elem} {tag : ι → Abi.Tag}

/-- For which types the calls of a program are well-formed and the functions correct. -/
def abiRules (t : Abi.Target) (T : ι → Abi.Elem) (tag : ι → Abi.Tag) (env : PackEnv K) : Rules ι where
  imp a b := IsFixed (shape t (T a) (tag a)) ∧ IsFixed (shape t (T b) (tag b))
  vres a b := T a = T b
  res a b := Resizable (shape t (T a) (tag a)) (shape t (T b) (tag b))
  concat b tys := (∀ a ∈ tys, T a = T b) ∧ Abi.deduce t (T b) (Abi.size (T b) (tag b)) = some (tag b)
  split a tys := (∀ b ∈ tys, T b = T a ∧ Abi.deduce t (T a) (Abi.size (T b) (tag b)) = some (tag b)) ∧
    ((tag a).isFixed = true → ∀ x, Split.HasAbi t (T a) (tag a) x →
      Split.splitSizes t (T a) (env.cp a) (env.addr a) env.junk true (tys.map fun b => Abi.size (T b) (tag b)) x ≠ .ill)
  splitTo a b := T b = T a ∧ ((tag a).isFixed = true → (tag b = .scalar → (T a).size ≠ 12) ∧ ∀ x, Split.HasAbi t (T a) (tag a) x →
      Split.splitV t (T a) (env.cpTo a) (env.addrTo a) env.junk true (partKind (tag b)) (Abi.size (T b) (tag b)) x ≠ .ill)
  msplit a b := T b = T a ∧ ¬ (PartialAvx t (T a) (tag a) ∧ Abi.size (T a) (tag a) = 2 * Abi.size (T b) (tag b))

/-- Objects are aligned as their types demand. -/
structure Aligned (t : Abi.Target) (T : ι → Abi.Elem) (tag : ι → Abi.Tag) (env : PackEnv K) : Prop where
  native : ∀ a l, (tag a).isFixed = false → env.addr a l % Props.objAlign t (T a) (tag a) = 0
  fixed : ∀ a l, (tag a).isFixed = true → env.addr a l % Props.objAlign t (T a) (.fixed l.sum) = 0
  whole : ∀ a, env.addrTo a % Props.objAlign t (T a) (tag a) = 0

theorem conv_eq {K K' : Kind} (h : K = K') (x : K.Bits) : conv h x = BitVec.setWidth K'.width (show BitVec K.width from x) := by
  subst h; exact (BitVec.setWidth_eq _).symm

variable (ht : t.Consistent) (hT : ∀ a, (T a).Ok) (hv : ∀ a, Abi.valid t (T a) (tag a) = true) (hw : ∀ a, (K a).width = 8 * (T a).size)
  (C : ∀ a, Cfg (K a) (β a)) (env : PackEnv K)

include ht hT hv in
/-- The bytes of an object with known elements. -/
theorem objOf_spec (a : ι) {x : (abiImpl (C a) t (T a) (shape t (T a) (tag a))).V} {f : Nat → (K a).Bits}
    (hx : abiVR (C a) t (T a) (shape t (T a) (tag a)) x f) :
    Split.HasAbi t (T a) (tag a) (objOf t T tag C a x) ∧
      Split.lanes (T a).size (objOf t T tag C a x) =
        (List.range (Abi.size (T a) (tag a))).map fun i => BitVec.setWidth (8 * (T a).size) (show BitVec (K a).width from f i) := by
  obtain ⟨s1, s2⟩ := shape_ok (hT a) (hv a)
  obtain ⟨o1, o2, o3⟩ := abiRegs_facts ht (hT a) s1
  rw [abiVR_iff (C a) t (T a) s1] at hx
  refine ⟨(shape_toObj hx.1).trans (shapeFor_eq (hT a) (hv a)), ?_⟩
  rw [objOf, lanes_toObj (Abi.elem_pos (hT a)) o1 hx.1]
  have hl : Tuple.lanes (abiRegs t (T a) (shape t (T a) (tag a))) (toRegs (C a) t (T a) (shape t (T a) (tag a)) x) =
      (List.range (Abi.size (T a) (tag a))).map f := by
    apply List.ext_getElem?
    intro i
    by_cases hi : i < (shape t (T a) (tag a)).size
    · rw [hx.2 i hi, List.getElem?_map, List.getElem?_range (by omega)]; rfl
    · rw [List.getElem?_eq_none (by rw [length_lanes o1 hx.1, o2]; omega), List.getElem?_eq_none (by simp; omega)]
  rw [hl, List.map_map]
  rfl

include ht hT hv in
/-- An object with given elements. -/
theorem fill_spec {w : Nat} (b : ι) (l : List (BitVec w)) (hl : l.length = Abi.size (T b) (tag b)) :
    ∃ y, fill t T tag C env b l = some y ∧
      abiVR (C b) t (T b) (shape t (T b) (tag b)) y fun i => BitVec.setWidth (K b).width (l.getD i 0#w) := by
  obtain ⟨s1, s2⟩ := shape_ok (hT b) (hv b)
  obtain ⟨o1, o2, o3⟩ := abiRegs_facts ht (hT b) s1
  obtain ⟨h1, h2⟩ := ofLanes_spec (env.pad b) o1 (l.map fun x => (x.setWidth (K b).width : BitVec (K b).width)) (by rw [List.length_map, hl, o2, s2])
  obtain ⟨y, hy, hy'⟩ := ofRegs_wf (C b) t (T b) _ h1
  refine ⟨y, hy, ?_⟩
  rw [abiVR_iff (C b) t (T b) s1, hy']
  refine ⟨h1, fun i hi => ?_⟩
  have hi : i < l.length := by omega
  have h2' := congrArg (fun (l : List (K b).Bits) => l[i]?) h2
  refine h2'.trans ?_
  change (l.map fun x => (x.setWidth (K b).width : BitVec (K b).width))[i]? = _
  simp [hi]

include hw in
/-- An element read from the bytes of an object, as an element of a type with the same elements. -/
theorem back {a b : ι} (h : K b = K a) (x : (K a).Bits) :
    BitVec.setWidth (K b).width (BitVec.setWidth (8 * (T a).size) (show BitVec (K a).width from x)) = conv h.symm x := by
  rw [conv_eq, BitVec.setWidth_setWidth_of_le _ (by rw [h, hw a])]

include ht hT hv hw in
/-- The objects made from a list of parts. -/
theorem fillAll_spec (Y : Types K β) (hn : ∀ a, Y.n a = Abi.size (T a) (tag a)) (a : ι) (tys : List {b : ι // K b = K a}) (l : List (K a).Bits)
    (hsum : (tys.map fun b => Y.n b.1).sum = l.length) :
    ∃ rs : List (Arg (fun a => abiImpl (C a) t (T a) (shape t (T a) (tag a))) a),
      (tys.zip (Spec.split (tys.map fun b => Y.n b.1) (l.map fun x => BitVec.setWidth (8 * (T a).size) (show BitVec (K a).width from x)))).mapM
        (fun q => (fill t T tag C env q.1.1 q.2).map fun y => (⟨q.1.1, q.1.2, y⟩ : Arg (fun a => abiImpl (C a) t (T a) (shape t (T a) (tag a))) a)) = some rs ∧
      rs.map (fun r => (⟨r.ty, r.elem⟩ : {b : ι // K b = K a})) = tys ∧
      List.Forall₂ (Holds Y (fun a => abiVR (C a) t (T a) (shape t (T a) (tag a)))) rs (Spec.split (tys.map fun b => Y.n b.1) l) := by
  induction tys generalizing l with
  | nil => exact ⟨[], by simp, rfl, .nil⟩
  | cons b tys ih =>
    rw [List.map_cons, List.sum_cons] at hsum
    obtain ⟨rs, h1, h2, h3⟩ := ih (l.drop (Y.n b.1)) (by rw [List.length_drop]; omega)
    have hlen : (l.take (Y.n b.1)).length = Y.n b.1 := by rw [List.length_take]; omega
    obtain ⟨y, hy, hyv⟩ := fill_spec ht hT hv C env b.1
      ((l.take (Y.n b.1)).map fun x => BitVec.setWidth (8 * (T a).size) (show BitVec (K a).width from x)) (by rw [List.length_map, hlen, hn])
    refine ⟨⟨b.1, b.2, y⟩ :: rs, ?_, by rw [List.map_cons, h2], .cons ⟨hlen, ?_⟩ h3⟩
    · simp only [List.map_cons, Spec.split, List.zip_cons_cons, List.mapM_cons]
      rw [← List.map_take, ← List.map_drop, h1, hy]
      rfl
    · have s2 := (shape_ok (hT b.1) (hv b.1)).2
      have hg : (fun i => BitVec.setWidth (K b.1).width (((l.take (Y.n b.1)).map fun x => BitVec.setWidth (8 * (T a).size)
          (show BitVec (K a).width from x)).getD i 0#(8 * (T a).size))) = fun i => conv b.2.symm ((l.take (Y.n b.1)).getD i 0#(K a).width) := by
        funext i
        rw [← back hw b.2]
        congr 1
        simp only [List.getD, List.getElem?_map]
        cases (l.take (Y.n b.1))[i]? with
        | none => simp
        | some v => rfl
      rw [hg] at hyv
      exact hyv

include ht hT hv hw in
theorem abi_packs (Y : Types K β) (hn : ∀ a, Y.n a = Abi.size (T a) (tag a)) (ha : Aligned t T tag env) :
    PackCorrect (abiPacks t T tag C env) Y (abiRules t T tag env) (fun a => abiVR (C a) t (T a) (shape t (T a) (tag a)))
      (fun a => abiMR (C a) t (T a) (shape t (T a) (tag a))) where
  concat := by
    intro b xs ls hr hne hsum hx
    obtain ⟨hr1, hr2⟩ := hr
    have hs : ∀ r ∈ xs, T r.ty = T b := fun r h => hr1 _ (List.mem_map_of_mem h)
    have hsz : ∀ a, (shape t (T a) (tag a)).size = Y.n a := fun a => by rw [hn, (shape_ok (hT a) (hv a)).2]
    have hobj : ∀ r l, T r.ty = T b → Holds Y (fun a => abiVR (C a) t (T a) (shape t (T a) (tag a))) r l →
        Split.HasAbi t (T b) (tag r.ty) (objOf t T tag C r.ty r.val) ∧
        Split.lanes (T b).size (objOf t T tag C r.ty r.val) = l.map fun x => BitVec.setWidth (8 * (T b).size) (show BitVec (K b).width from x) := by
      intro r l e h
      obtain ⟨h1, h2⟩ := objOf_spec ht hT hv C r.ty h.2
      rw [e] at h1 h2
      refine ⟨h1, h2.trans ?_⟩
      apply List.ext_getElem
      · simp only [List.length_map, List.length_range, h.1, hn, e]
      · intro i i1 i2
        have i3 : i < l.length := by simpa using i2
        simp only [List.getElem_map, List.getElem_range, List.getD, List.getElem?_eq_getElem i3, Option.getD_some]
        rw [conv_eq]
        exact BitVec.setWidth_setWidth_of_le _ (by rw [r.elem, hw b])
    have hfa : List.Forall₂ (fun (r : Arg (fun a => abiImpl (C a) t (T a) (shape t (T a) (tag a))) b) l =>
        Split.lanes (T b).size (objOf t T tag C r.ty r.val) = l.map fun x => BitVec.setWidth (8 * (T b).size) (show BitVec (K b).width from x)) xs ls := by
      clear hne hsum hr1
      induction hx with
      | nil => exact .nil
      | @cons r l xs ls h _ ih => exact .cons (hobj r l (hs r List.mem_cons_self) h).2 (ih fun r h => hs r (List.mem_cons_of_mem _ h))
    have hab : ∀ r ∈ xs, Split.HasAbi t (T b) (tag r.ty) (objOf t T tag C r.ty r.val) := by
      clear hne hsum hr1 hfa
      induction hx with
      | nil => intro r h; simp at h
      | @cons r l xs ls h _ ih =>
        intro r' h'
        rcases List.mem_cons.1 h' with rfl | h'
        · exact (hobj _ l (hs _ List.mem_cons_self) h).1
        · exact ih (fun r h => hs r (List.mem_cons_of_mem _ h)) r' h'
    have hls : (xs.map fun r => Split.lanes (T b).size (objOf t T tag C r.ty r.val)) =
        ls.map fun l => l.map fun x => BitVec.setWidth (8 * (T b).size) (show BitVec (K b).width from x) := by
      clear hx hne hsum hr1 hs hab
      induction hfa with
      | nil => rfl
      | cons h _ ih => rw [List.map_cons, List.map_cons, h, ih]
    have hll : ls.flatten.length = Y.n b := by
      rw [← hsum, List.length_flatten]
      congr 1
      clear hne hsum hr1 hs hab hls hfa
      induction hx with
      | nil => rfl
      | cons h _ ih => rw [List.map_cons, List.map_cons, ih, h.1]
    have hc := Props.C19_concat ht (hT b) env.cpAll (xs.map fun r => (tag r.ty, objOf t T tag C r.ty r.val)) (by simpa using hne)
      (by
        intro p hp
        obtain ⟨r, hr, rfl⟩ := List.mem_map.1 hp
        exact ⟨by rw [← hs r hr]; exact hv r.ty, hab r hr⟩) (r := tag b) (hv b) (by
        rw [← hn, ← hsum, List.map_map]
        congr 1
        apply List.map_congr_left
        intro r hr
        rw [hn, hs r hr]; rfl)
    rw [List.map_map, List.map_map] at hc
    obtain ⟨y, hy, hyv⟩ := fill_spec ht hT hv C env b (ls.flatten.map fun x => BitVec.setWidth (8 * (T b).size) (show BitVec (K b).width from x))
      (by rw [List.length_map, hll, hn])
    refine ⟨y, ?_, ?_⟩
    · simp only [abiPacks]
      rw [if_pos (by
        rw [show (xs.map fun r => (shape t (T r.ty) (tag r.ty)).size) = xs.map fun r => Y.n r.ty from List.map_congr_left fun r _ => hsz r.ty, hsum, hn]
        exact hr2)]
      have hc' : Split.concat (T b).size env.cpAll (Split.shapeFor t (T b) (tag b)) (xs.map fun r => objOf t T tag C r.ty r.val) =
          .ok (ls.flatten.map fun x => BitVec.setWidth (8 * (T b).size) (show BitVec (K b).width from x)) := by
        refine hc.trans ?_
        rw [List.map_flatten, ← hls]
        rfl
      rw [hc']
      exact hy
    · have hg : (fun i => BitVec.setWidth (K b).width ((ls.flatten.map fun x => BitVec.setWidth (8 * (T b).size)
          (show BitVec (K b).width from x)).getD i 0#(8 * (T b).size))) = fun i => ls.flatten.getD i 0#(K b).width := by
        funext i
        simp only [List.getD, List.getElem?_map]
        cases ls.flatten[i]? with
        | none => simp
        | some v => exact sw_sw (hw b) _
      rw [hg] at hyv
      exact hyv
  split := by
    intro a tys x f hr hne hsum hx
    obtain ⟨hr1, hr2⟩ := hr
    obtain ⟨h1, h2⟩ := objOf_spec ht hT hv C a hx
    have hsz : ∀ a, (shape t (T a) (tag a)).size = Y.n a := fun a => by rw [hn, (shape_ok (hT a) (hv a)).2]
    have hsizes : (tys.map fun b => (shape t (T b.1) (tag b.1)).size) = tys.map fun b => Y.n b.1 := List.map_congr_left fun b _ => hsz b.1
    have hpos : ∀ n ∈ tys.map fun b => Y.n b.1, 0 < n := by
      intro n h
      obtain ⟨b, _, rfl⟩ := List.mem_map.1 h
      rw [← hsz]
      exact (shape_ok (hT b.1) (hv b.1)).1.bounds.1
    have hsp : Split.splitSizes t (T a) (env.cp a) (env.addr a) env.junk (tag a).isFixed (tys.map fun b => Y.n b.1) (objOf t T tag C a x) =
        .ok (Spec.split (tys.map fun b => Y.n b.1) (Split.lanes (T a).size (objOf t T tag C a x))) := by
      cases hf : (tag a).isFixed with
      | false => exact Props.C19_split_sizes_native ht (hT a) (hv a) hf h1 _ _ _ _ hpos (by rw [hsum, hn]) (ha.native a _ hf)
      | true =>
        have := Props.C19_split_sizes ht (hT a) (hv a) h1 (env.cp a) (env.addr a) env.junk _ hpos (by rw [hsum, hn]) (by
          have := ha.fixed a (tys.map fun b => Y.n b.1) hf
          rw [hsum, hn] at this
          cases htag : tag a with
          | fixed n => rw [htag] at this; exact this
          | scalar => rw [htag] at hf; cases hf
          | builtin b => rw [htag] at hf; cases hf
          | btmsk b => rw [htag] at hf; cases hf) (fun _ l => ha.fixed a l hf)
        rw [hf] at this
        refine this.resolve_left ?_
        have h := hr2 hf _ h1
        rwa [List.map_map, show (tys.map ((fun b => Abi.size (T b) (tag b)) ∘ Subtype.val)) = tys.map fun b => Y.n b.1 from
          List.map_congr_left fun b _ => (hn b.1).symm] at h
    rw [h2, ← hn] at hsp
    obtain ⟨rs, g1, g2, g3⟩ := fillAll_spec ht hT hv hw C env Y hn a tys ((List.range (Y.n a)).map f) (by rw [hsum]; simp)
    refine ⟨rs, ?_, g2, g3⟩
    simp only [abiPacks]
    rw [if_pos, hsizes, hsp]
    · rw [List.map_map] at g1
      exact g1
    · rw [List.all_eq_true]
      intro b hb
      have := (hr1 b.1 (List.mem_map_of_mem hb)).2
      rw [hsz, hn, this]
      simp
  splitTo := by
    intro a b h x f k hr hk hx
    obtain ⟨hr1, hr2⟩ := hr
    obtain ⟨h1, h2⟩ := objOf_spec ht hT hv C a hx
    have hsz : ∀ a, (shape t (T a) (tag a)).size = Y.n a := fun a => by rw [hn, (shape_ok (hT a) (hv a)).2]
    have hpos : 0 < Y.n b := by rw [← hsz]; exact (shape_ok (hT b) (hv b)).1.bounds.1
    have hdiv : Abi.size (T a) (tag a) / Y.n b = k := by rw [← hn, hk]; exact Nat.mul_div_cancel _ hpos
    have hsc : partKind (tag b) = .scalar → Y.n b = 1 := by
      rw [hn]
      cases tag b with
      | scalar => intro _; rfl
      | fixed n => intro h; cases h
      | builtin b => intro h; cases h
      | btmsk b => intro h; cases h
    have hsp : Split.splitV t (T a) (env.cpTo a) (env.addrTo a) env.junk (tag a).isFixed (partKind (tag b)) (Y.n b) (objOf t T tag C a x) =
        .ok (Spec.split (List.replicate k (Y.n b)) (Split.lanes (T a).size (objOf t T tag C a x))) := by
      cases hf : (tag a).isFixed with
      | false =>
        rw [Props.C19_split_parts_native ht (hT a) (hv a) hf h1 (env.cpTo a) (env.addrTo a) env.junk (partKind (tag b)) (Y.n b) hpos hsc
          (by rw [← hn, hk]; exact Nat.dvd_mul_left _ _) (ha.whole a), hdiv]
      | true =>
        have := Props.C19_split_parts_partial ht (hT a) (hv a) h1 (env.cpTo a) (env.addrTo a) env.junk (partKind (tag b)) (Y.n b) hpos hsc
          (ha.whole a) (fun _ h => (hr2 hf).1 (by
            cases htag : tag b with
            | scalar => rfl
            | fixed n => rw [htag] at h; cases h
            | builtin b => rw [htag] at h; cases h
            | btmsk b => rw [htag] at h; cases h))
        rw [hf, hdiv] at this
        refine this.resolve_left ?_
        have h := (hr2 hf).2 _ h1
        rwa [← hn] at h
    rw [h2, ← hn] at hsp
    have hrep : ((List.replicate k (⟨b, h⟩ : {b : ι // K b = K a})).map fun b => Y.n b.1) = List.replicate k (Y.n b) := by simp
    obtain ⟨rs, g1, g2, g3⟩ := fillAll_spec ht hT hv hw C env Y hn a (List.replicate k ⟨b, h⟩) ((List.range (Y.n a)).map f) (by simp [hk])
    rw [hrep] at g1 g3
    have hlen : ∀ (k : Nat) (l : List (BitVec (8 * (T a).size))), (Spec.split (List.replicate k (Y.n b)) l).length = k := by
      intro k
      induction k with
      | zero => intro l; rfl
      | succ k ih => intro l; simp [List.replicate_succ, Spec.split, ih]
    -- the results, without their types
    have key : ∀ (ls : List (List (BitVec (8 * (T a).size)))) (rs : List (Arg (fun a => abiImpl (C a) t (T a) (shape t (T a) (tag a))) a)),
        ((List.replicate ls.length (⟨b, h⟩ : {b : ι // K b = K a})).zip ls).mapM (fun q => (fill t T tag C env q.1.1 q.2).map fun y =>
          (⟨q.1.1, q.1.2, y⟩ : Arg (fun a => abiImpl (C a) t (T a) (shape t (T a) (tag a))) a)) = some rs →
        ∃ ys, ls.mapM (fill t T tag C env b) = some ys ∧ rs = ys.map fun y => ⟨b, h, y⟩ := by
      intro ls
      induction ls with
      | nil => intro rs h; simp at h; exact ⟨[], by simp, h⟩
      | cons l ls ih =>
        intro rs hrs
        simp only [List.length_cons, List.replicate_succ, List.zip_cons_cons, List.mapM_cons, Option.bind_eq_bind, Option.bind_eq_some_iff,
          Option.map_eq_some_iff] at hrs
        obtain ⟨r, ⟨y, hy, rfl⟩, rs', hrs', e⟩ := hrs
        obtain ⟨ys, h1, rfl⟩ := ih rs' hrs'
        refine ⟨y :: ys, ?_, ?_⟩
        · simp only [List.mapM_cons, hy, h1]; rfl
        · cases e; rfl
    rw [List.map_map] at g1
    obtain ⟨ys, y1, rfl⟩ := key _ rs (by rw [hlen]; exact g1)
    refine ⟨ys, ?_, ?_⟩
    · simp only [abiPacks]
      rw [hsz, hsp]
      exact y1
    · rwa [List.forall₂_map_left_iff] at g3
  msplit := by
    intro a b x f k hr hk hx
    obtain ⟨hr1, hr2⟩ := hr
    have hpos : 0 < Y.n b := by rw [hn, ← (shape_ok (hT b) (hv b)).2]; exact (shape_ok (hT b) (hv b)).1.bounds.1
    have hvb : Abi.valid t (T a) (tag b) = true := hr1 ▸ hv b
    have hm := fun x hx => Props.C19_split_mask_partial (hT a) (hv a) hvb (parts := k) (by rw [← hn, hk, hn b, hr1]) (by
      rintro ⟨h1, h2⟩
      exact hr2 ⟨h1, by rw [← hn, ← hn, hk, h2]⟩) x hx
    have hmabi : mabi t (T a) (tag b) = shape t (T b) (tag b) := by rw [shape_eq, hr1]
    rw [hmabi, ← shape_eq] at hm
    rw [abiMR_iff (C a) t (T a) (shape_ok (hT a) (hv a)).1] at hx
    obtain ⟨rs, h1, h2, h3⟩ := hm _ hx.1
    have hl : MaskSplit.lanes (shape t (T a) (tag a)) (toData (C a) t (T a) _ x) = (List.range (Y.n a)).map f := by
      apply List.ext_getElem?
      intro i
      have s2 := (shape_ok (hT a) (hv a)).2
      by_cases hi : i < (shape t (T a) (tag a)).size
      · rw [hx.2 i hi, List.getElem?_map, List.getElem?_range (by rw [hn]; omega)]; rfl
      · rw [List.getElem?_eq_none (by rw [MaskSplit.length_lanes (shape_ok (hT a) (hv a)).1 _ hx.1]; omega),
          List.getElem?_eq_none (by simp [hn]; omega)]
    have hnb : Abi.size (T a) (tag b) = Y.n b := by rw [hn, hr1]
    rw [hl, hnb] at h3
    refine ⟨rs.map (ofData (C b) t (T b) _), by simp only [abiPacks, h1]; rfl, ?_⟩
    rw [List.forall₂_map_left_iff, ← h3, List.forall₂_map_right_iff, List.forall₂_same]
    intro d hd
    have hlen := MaskSplit.length_lanes (shape_ok (hT b) (hv b)).1 d (h2 d hd)
    refine ⟨by rw [hlen, (shape_ok (hT b) (hv b)).2, hn], ?_⟩
    refine (abiMR_iff (C b) t (T b) (shape_ok (hT b) (hv b)).1 _ _).2 ?_
    rw [toData_ofData]
    refine ⟨h2 d hd, fun i hi => ?_⟩
    rw [List.getElem?_eq_getElem (by omega)]
    simp [List.getD, List.getElem?_eq_getElem (show i < (MaskSplit.lanes _ d).length by omega)]

end

end StdSimd.SimdClass
