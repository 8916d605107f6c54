import Verif.Proofs.MaskCast
import Verif.Proofs.MultiFixed
/-!
# Programs on objects of several element types and ABIs
-/
namespace StdSimd.SimdClass
open Spec Spec.Program Spec.Control Spec.Multi Native MaskSplit Tuple

section impl
variable {K : Kind} {β : Type}

/-- The elements of an object. -/
def abiVR (C : Cfg K β) (t : Abi.Target) (T : Abi.Elem) : (s : MAbi) → (abiImpl C t T s).V → (Nat → K.Bits) → Prop
  | .native g => NV g
  | .fixed n => FV (regs t T n) n

/-- The elements of a mask. -/
def abiMR (C : Cfg K β) (t : Abi.Target) (T : Abi.Elem) : (s : MAbi) → (abiImpl C t T s).M → (Nat → Bool) → Prop
  | .native g => NM g
  | .fixed n => FM n

theorem nv_fv {g : Geo} (hg : g.Ok) {x : List K.Bits} {f : Nat → K.Bits} : NV g x f ↔ FV [g] g.size [x] f := by
  have hl : Tuple.lanes [g] [x] = x.take g.size := by simp [Tuple.lanes]
  constructor
  · intro h
    refine ⟨⟨h.1, trivial⟩, fun i hi => ?_⟩
    rw [hl, List.getElem?_take_of_lt hi]; exact h.2 i hi
  · intro h
    refine ⟨h.1.1, fun i hi => ?_⟩
    have := h.2 i hi
    rwa [hl, List.getElem?_take_of_lt hi] at this

theorem abiVR_iff (C : Cfg K β) (t : Abi.Target) (T : Abi.Elem) {s : MAbi} (hs : s.Ok) (x : (abiImpl C t T s).V) (f : Nat → K.Bits) :
    abiVR C t T s x f ↔ FV (abiRegs t T s) s.size (toRegs C t T s x) f := by
  cases s with
  | native g => exact nv_fv hs
  | fixed n => exact Iff.rfl

theorem abiMR_iff (C : Cfg K β) (t : Abi.Target) (T : Abi.Elem) {s : MAbi} (hs : s.Ok) (k : (abiImpl C t T s).M) (b : Nat → Bool) :
    abiMR C t T s k b ↔ MOk s (toData C t T s k) ∧ ∀ i < s.size, (MaskSplit.lanes s (toData C t T s k))[i]? = some (b i) := by
  cases s with
  | native g =>
    refine and_congr_right fun hk => ?_
    have hlen := Native.length_maskLanes (g := g) hs k hk
    refine forall_congr' fun i => forall_congr' fun hi => ?_
    change VMask.bit (maskLanes g k) i = b i ↔ (maskLanes g k)[i]? = some (b i)
    have hi : i < g.size := hi
    rw [VMask.bit, List.getElem?_eq_getElem (by omega)]
    simp
  | fixed n =>
    refine and_congr_right fun hk => ?_
    refine forall_congr' fun i => forall_congr' fun hi => ?_
    have hi : i < n := hi
    have key : ∀ k : BitMask n true, k.lane i = b i ↔ k.lanes[i]? = some (b i) := by
      intro k
      rw [BitMask.lanes_getElem?, if_pos hi]
      simp
    exact key k

theorem toData_ofData (C : Cfg K β) (t : Abi.Target) (T : Abi.Elem) (s : MAbi) (k : Data s) : toData C t T s (ofData C t T s k) = k := by
  cases s <;> rfl

theorem ofRegs_wf (C : Cfg K β) (t : Abi.Target) (T : Abi.Elem) (s : MAbi) {y : Tup K.Bits} (h : Wf (abiRegs t T s) y) :
    ∃ x, ofRegs C t T s y = some x ∧ toRegs C t T s x = y := by
  cases s with
  | native g =>
    match y, h with
    | [r], _ => exact ⟨r, rfl, rfl⟩
  | fixed n => exact ⟨y, rfl, rfl⟩

theorem shape_eq (t : Abi.Target) (T : Abi.Elem) (a : Abi.Tag) : shape t T a = mabi t T a := by cases a <;> rfl

theorem shape_ok {t : Abi.Target} {T : Abi.Elem} (hT : T.Ok) {a : Abi.Tag} (hv : Abi.valid t T a = true) :
    (shape t T a).Ok ∧ (shape t T a).size = Abi.size T a := by rw [shape_eq]; exact mabi_ok hT hv

theorem geos_shape (t : Abi.Target) (T : Abi.Elem) (a : Abi.Tag) : Convert.geos t T a = abiRegs t T (shape t T a) := by cases a <;> rfl

theorem abiRegs_facts {t : Abi.Target} (ht : t.Consistent) {T : Abi.Elem} (hT : T.Ok) {s : MAbi} (hs : s.Ok) :
    Oks (abiRegs t T s) ∧ total (abiRegs t T s) = s.size ∧ FullButLast (abiRegs t T s) := by
  cases s with
  | native g =>
    refine ⟨fun g' hg' => ?_, ?_, fun g' h => by simp [abiRegs] at h⟩
    · rw [List.mem_singleton.1 hg']; exact hs
    · simp [abiRegs, total, MAbi.size]
  | fixed n => exact (regs_facts ht hT hs.1).2

theorem regular_of_valid {t : Abi.Target} {T : Abi.Elem} (hT : T.Ok) {a : Abi.Tag} (hv : Abi.valid t T a = true) (hn : ∀ m, a ≠ .fixed m) :
    Reduce.Regular t T.size (Geo.ofTag t T a) := by
  obtain ⟨o1, o2, o3⟩ := ofTag_ok hT hv hn
  have hs := Abi.elem_pos hT
  cases a with
  | scalar => exact Or.inl rfl
  | fixed m => exact absurd rfl (hn m)
  | builtin b =>
    have hv' := hv
    simp only [Abi.valid, Bool.and_eq_true, decide_eq_true_eq] at hv'
    right
    refine ⟨?_, by rw [o2]; exact hv'.2.1.1.1, by rw [o3, o2, Abi.fullSize, if_pos hv] <;> first | rfl | nofun⟩
    have hvs : Abi.vecSizeof t T ≠ T.size := by
      intro he
      have h3 := hv'.2.1.1.1
      have h4 := hv'.2.1.2
      rw [he] at h4
      have : b / T.size ≤ T.size / T.size := Nat.div_le_div_right h4
      rw [Nat.div_self (by omega)] at this
      omega
    exact Abi.four_values (Abi.vec_cases hT hvs).1
  | btmsk b =>
    have hv' := hv
    simp only [Abi.valid, Bool.and_eq_true, decide_eq_true_eq] at hv'
    right
    refine ⟨?_, by rw [o2]; exact hv'.2.1.1.1, by rw [o3, o2, Abi.fullSize, if_pos hv] <;> first | rfl | nofun⟩
    have hvs : Abi.vecSizeof t T ≠ T.size := by omega
    exact Abi.four_values (Abi.vec_cases hT hvs).1

theorem abi_correct {t : Abi.Target} (ht : t.Consistent) {T : Abi.Elem} (hT : T.Ok) {s : MAbi} (hs : s.Ok) {E : Program.Elem K} (C : Cfg K β)
    (hR : ∀ g ∈ abiRegs t T s, Implements C.R E g) {U : Abi.Elem} (hU : U.Ok) (same : Bool) (hX : C.xfer = Xfer.of t U same)
    (hp : ∀ g, s = .native g → C.path g = .raw → Exact g) :
    Correct (abiImpl C t T s) E C.ld C.st (abiVR C t T s) (abiMR C t T s) := by
  cases s with
  | native g => exact native_correct hs C (hR g (List.mem_singleton.2 rfl)) hU same hX (hp g rfl)
  | fixed n => exact fixed_correct ht hT hs.1 hs.2 C hR hU same hX

/-- `find_last_set` of masks of this type does not see unused bits. -/
def AbiLast : MAbi → Prop
  | .native g => LastOk g
  | .fixed _ => True

/-- The code path of the mask functions is one for masks of this type. -/
def AbiFit (p : VecPath) (wide : Bool) : MAbi → Prop
  | .native g => FnsFit p wide g
  | .fixed _ => True

theorem abi_red {t : Abi.Target} (ht : t.Consistent) {T : Abi.Elem} (hT : T.Ok) {a : Abi.Tag} (hv : Abi.valid t T a = true) (C : Cfg K β)
    (A : Arith K) {p : VecPath} {wide : Bool} (c : Bool) (hf : AbiFit p wide (shape t T a)) (isConst : (abiImpl C t T (shape t T a)).M → Bool) :
    RedCorrect (abiRed C t T A p wide c (shape t T a) isConst) A (AbiLast (shape t T a)) (abiVR C t T (shape t T a)) (abiMR C t T (shape t T a)) := by
  have hs := (shape_ok hT hv).1
  cases a with
  | fixed n => exact fixed_red ht hT hs.1 hs.2 C A c isConst
  | scalar => exact native_red (g := Geo.ofTag t T .scalar) hs (regular_of_valid hT hv (by simp)) hf C A isConst
  | builtin b => exact native_red (g := Geo.ofTag t T (.builtin b)) hs (regular_of_valid hT hv (by simp)) hf C A isConst
  | btmsk b => exact native_red (g := Geo.ofTag t T (.btmsk b)) hs (regular_of_valid hT hv (by simp)) hf C A isConst

end impl

/-- Types with `fixed_size` ABI. -/
def IsFixed : MAbi → Prop
  | .fixed _ => True
  | .native _ => False

theorem implicitMask_spec {a b : MAbi} (ha : IsFixed a) (hb : IsFixed b) (e : a.size = b.size) (k : Data a) (hk : MOk a k) :
    ∃ r, implicitMask a b k = some r ∧ MOk b r ∧ MaskSplit.lanes b r = MaskSplit.lanes a k := by
  cases a with
  | native g => exact ha.elim
  | fixed n =>
    cases b with
    | native g => exact hb.elim
    | fixed m =>
      obtain rfl : n = m := e
      exact ⟨k, by simp [implicitMask, sameWidth], hk, rfl⟩

theorem implicitVal_spec {α γ : Type} (c : Convert.Ctx α γ) {t : Abi.Target} (ht : t.Consistent) {T U : Abi.Elem} (hT : T.Ok) (hU : U.Ok) {a b : MAbi}
    (ha : IsFixed a) (hb : IsFixed b) (e : a.size = b.size) (hok : a.Ok) {x : Tup α} (hx : Wf (abiRegs t T a) x) :
    ∃ y, implicitVal c t T U a b x = some y ∧ Wf (abiRegs t U b) y ∧ Tuple.lanes (abiRegs t U b) y = (Tuple.lanes (abiRegs t T a) x).map c.cast := by
  cases a with
  | native g => exact ha.elim
  | fixed n =>
    cases b with
    | native g => exact hb.elim
    | fixed m =>
      obtain rfl : n = m := e
      obtain ⟨y, h, hw, hl⟩ := Props.C21_implicit c t ht T U hT hU n hok.1 x hx
      exact ⟨y, (if_pos rfl).trans h, hw, hl⟩

variable {ι : Type} {K : ι → Kind} {β : ι → Type}

theorem abi_casts {t : Abi.Target} (ht : t.Consistent) {T : ι → Abi.Elem} (hT : ∀ a, (T a).Ok) (Y : Types K β) {tag : ι → Abi.Tag}
    (hv : ∀ a, Abi.valid t (T a) (tag a) = true) (hn : ∀ a, Y.n a = Abi.size (T a) (tag a)) (C : ∀ a, Cfg (K a) (β a))
    (ctx : ∀ a b, Convert.Ctx (K a).Bits (K b).Bits)
    (hcast : ∀ a b x y, Y.cv a b x = some y → (ctx a b).cast x = y) (same ident : ι → ι → Bool)
    (hsame : ∀ a b, same a b = true → T a = T b) (hident : ∀ a b, ident a b = true → T a = T b) :
    CastCorrect (abiCasts t T tag C ctx same ident) Y (fun a b => IsFixed (shape t (T a) (tag a)) ∧ IsFixed (shape t (T b) (tag b))) (fun a b => T a = T b)
      (fun a b => Resizable (shape t (T a) (tag a)) (shape t (T b) (tag b))) (fun a => abiVR (C a) t (T a) (shape t (T a) (tag a)))
      (fun a => abiMR (C a) t (T a) (shape t (T a) (tag a))) := by
  have hok := fun a => (shape_ok (hT a) (hv a)).1
  have hsz := fun a => ((shape_ok (hT a) (hv a)).2.trans (hn a).symm : (shape t (T a) (tag a)).size = Y.n a)
  have mcast : ∀ a b (k : (abiImpl (C a) t (T a) (shape t (T a) (tag a))).M) f, Resizable (shape t (T a) (tag a)) (shape t (T b) (tag b)) →
      abiMR (C a) t (T a) (shape t (T a) (tag a)) k f →
      ∃ y, (maskCast _ _ (toData (C a) t (T a) _ k)).map (ofData (C b) t (T b) (shape t (T b) (tag b))) = some y ∧
        abiMR (C b) t (T b) (shape t (T b) (tag b)) y (fun i => if i < Y.n a then f i else false) := by
    intro a b k f hr hk
    rw [abiMR_iff _ _ _ (hok a)] at hk
    obtain ⟨r, e, h1, h2⟩ := maskCast_spec (hok a) (hok b) hr _ hk.1
    refine ⟨_, by rw [e]; rfl, ?_⟩
    rw [abiMR_iff _ _ _ (hok b), toData_ofData]
    refine ⟨h1, fun i hi => ?_⟩
    rw [h2]
    simp only [Spec.resize, List.getElem?_map, List.getElem?_range hi, Option.map_some]
    by_cases h : i < Y.n a
    · rw [if_pos h, hk.2 i (by rw [hsz a]; exact h)]; rfl
    · rw [if_neg h, List.getElem?_eq_none (by rw [MaskSplit.length_lanes (hok a) _ hk.1, hsz a]; omega)]; rfl
  refine { size := fun a => ?_, val := ?_, mask := ?_, maskResize := ?_, resize := ?_ }
  · rw [← hsz a]
    cases tag a <;> rfl
  · intro i a b x f g hi e hx hf
    rw [abiVR_iff _ _ _ (hok a)] at hx
    have get : ∀ y : Tup (K b).Bits, Wf (abiRegs t (T b) (shape t (T b) (tag b))) y →
        Tuple.lanes (abiRegs t (T b) (shape t (T b) (tag b))) y =
          (Tuple.lanes (abiRegs t (T a) (shape t (T a) (tag a))) (toRegs (C a) t (T a) _ x)).map (ctx a b).cast →
        ∃ z, (some y).bind (ofRegs (C b) t (T b) (shape t (T b) (tag b))) = some z ∧ abiVR (C b) t (T b) (shape t (T b) (tag b)) z g := by
      intro y hw hl
      obtain ⟨z, hz, hz'⟩ := ofRegs_wf (C b) t (T b) _ hw
      refine ⟨z, hz, ?_⟩
      rw [abiVR_iff _ _ _ (hok b), hz']
      refine ⟨hw, fun j hj => ?_⟩
      rw [hsz b, ← e] at hj
      rw [hl, List.getElem?_map, hx.2 j (by rw [hsz a]; exact hj), Option.map_some, hcast a b _ _ (hf j hj)]
    cases i with
    | true =>
      obtain ⟨h1, h2⟩ := hi rfl
      obtain ⟨y, h, hw, hl⟩ := implicitVal_spec (ctx a b) ht (hT a) (hT b) h1 h2 (by rw [hsz a, hsz b]; exact e) (hok a) hx.1
      obtain ⟨z, hz, hz'⟩ := get y hw hl
      exact ⟨z, (congrArg (fun o => Option.bind o (ofRegs (C b) t (T b) (shape t (T b) (tag b)))) h).trans hz, hz'⟩
    | false =>
      obtain ⟨y, h, hw, hl⟩ := Props.C21_static_simd_cast (ctx a b) t ht (T a) (T b) (hT a) (hT b) (same a b) (ident a b) (hsame a b)
        (hident a b) (tag a) (tag b) (hv a) (hv b) (by rw [← hn a, ← hn b]; exact e) (toRegs (C a) t (T a) _ x) (by rw [geos_shape]; exact hx.1)
      rw [geos_shape] at hw
      rw [geos_shape, geos_shape] at hl
      obtain ⟨z, hz, hz'⟩ := get y hw hl
      exact ⟨z, (congrArg (fun o => Option.bind o (ofRegs (C b) t (T b) (shape t (T b) (tag b)))) h).trans hz, hz'⟩
  · intro i a b x f hi e hx
    cases i with
    | true =>
      obtain ⟨h1, h2⟩ := hi rfl
      rw [abiMR_iff _ _ _ (hok a)] at hx
      obtain ⟨r, h3, h4, h5⟩ := implicitMask_spec h1 h2 (by rw [hsz a, hsz b]; exact e) _ hx.1
      refine ⟨_, congrArg (Option.map (ofData (C b) t (T b) (shape t (T b) (tag b)))) h3, ?_⟩
      rw [abiMR_iff _ _ _ (hok b), toData_ofData, h5, hsz b, ← e, ← hsz a]
      exact ⟨h4, hx.2⟩
    | false =>
      obtain ⟨y, h, hm⟩ := mcast a b x f (Resizable.of_size (by rw [hsz a, hsz b]; exact e)) hx
      refine ⟨y, ?_, ?_⟩
      · refine Eq.trans ?_ h
        change Option.map _ (if _ then _ else _) = _
        rw [if_neg (by simp), if_pos (by rw [hsz a, hsz b]; exact e)]
      · rw [abiMR_iff _ _ _ (hok b)] at hm ⊢
        refine ⟨hm.1, fun j hj => ?_⟩
        rw [hm.2 j hj, if_pos (by rw [e, ← hsz b]; exact hj)]
  · intro a b x f hr hx
    exact mcast a b x f hr hx
  · intro a b x f h e hx
    rw [abiVR_iff _ _ _ (hok a)] at hx
    obtain ⟨o1, o2, o3⟩ := abiRegs_facts ht (hT a) (hok a)
    obtain ⟨p1, p2, p3⟩ := abiRegs_facts ht (hT b) (hok b)
    obtain ⟨y, h1, h2⟩ := resizeRegs_fv h (tag a == tag b) (match tag a with | .fixed _ => true | _ => false) o1 o3 p1 p3 (hok a).bounds.1
      (hok b).bounds.1 o2 p2 (fun h' => by rw [e, show tag a = tag b by simpa using h']) hx
    obtain ⟨z, hz, hz'⟩ := ofRegs_wf (C b) t (T b) _ h2.1
    refine ⟨z, (congrArg (fun o => Option.bind o (ofRegs (C b) t (T b) (shape t (T b) (tag b)))) h1).trans hz, ?_⟩
    rw [abiVR_iff _ _ _ (hok b), hz', ← hsz a]
    exact h2

end StdSimd.SimdClass
