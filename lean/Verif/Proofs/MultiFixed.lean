import Verif.Proofs.Multi
import Verif.Proofs.ControlImpl
import Verif.Props.Convert
import Verif.Props.Resize
/-!
# The conversions between `fixed_size` types are correct
-/
namespace StdSimd.SimdClass
open Spec Spec.Program Spec.Control Spec.Multi Native Tuple

theorem fixed_resize_get {n m : Nat} (h1 : 1 ≤ n) (hm : 1 ≤ m) (h64 : m ≤ 64) {k : BitMask n true} {b : Nat → Bool} (h : FM n k b) :
    ∃ y, Resize.fixed m k = some y ∧ FM m y (fun i => if i < n then b i else false) := by
  obtain ⟨y, hy, hc, hl⟩ := Props.C43_mask_to_fixed_size h1 hm h64 k h.1
  refine ⟨y, hy, hc, fun i hi => ?_⟩
  have e := congrArg (fun l => l[i]?) hl
  simp only [Spec.resize, BitMask.lanes_getElem?, if_pos hi, List.getElem?_map, List.getElem?_range hi, Option.map_some, Option.some.injEq] at e
  rw [e]
  by_cases h' : i < n
  · dsimp only; rw [if_pos h', if_pos h', h.2 i h']; rfl
  · dsimp only; rw [if_neg h', if_neg h']; rfl

theorem sameWidth_fm {n m : Nat} (e : n = m) {k : BitMask n true} {b : Nat → Bool} (h : FM n k b) :
    ∃ y, sameWidth (n := m) k = some y ∧ FM m y b := by
  subst e
  exact ⟨k, by simp [sameWidth], h⟩

theorem valid_fixed {t : Abi.Target} {T : Abi.Elem} {n : Nat} (h : Abi.valid t T (.fixed n) = true) : 1 ≤ n ∧ n ≤ 64 := by
  simp only [Abi.valid, Abi.maxFixedSize, Bool.and_eq_true, decide_eq_true_eq] at h
  refine ⟨h.1, Nat.le_trans h.2 ?_⟩
  split <;> omega

theorem chop_wf {α : Type} : ∀ (gs : List Geo) (x : List α), x.length = (gs.map Geo.full).sum → Wf gs (chop (gs.map Geo.full) x)
  | [], _, _ => trivial
  | g :: gs, x, h => by
    simp only [List.map_cons, List.sum_cons] at h
    exact ⟨by rw [List.length_take]; omega, chop_wf gs (x.drop g.full) (by rw [List.length_drop]; omega)⟩

theorem chop_flatten {α : Type} : ∀ (ns : List Nat) (x : List α), x.length = ns.sum → (chop ns x).flatten = x
  | [], x, h => by
    have : x = [] := List.eq_nil_of_length_eq_zero h
    subst this; rfl
  | n :: ns, x, h => by
    simp only [List.sum_cons] at h
    simp only [chop, List.flatten_cons]
    rw [chop_flatten ns (x.drop n) (by rw [List.length_drop]; omega), List.take_append_drop]

theorem wf_length {α : Type} : ∀ {gs : List Geo} {x : Tup α}, Wf gs x → x.flatten.length = (gs.map Geo.full).sum
  | [], [], _ => rfl
  | [], _ :: _, h => h.elim
  | _ :: _, [], h => h.elim
  | g :: gs, r :: rs, h => by simp [h.1, wf_length h.2, List.sum_cons]

theorem total_le {gs : List Geo} (hok : Oks gs) : total gs ≤ (gs.map Geo.full).sum := by
  rw [total_eq_sum]
  induction gs with
  | nil => simp
  | cons g gs ih =>
    have := (hok g (by simp)).size_le
    have := ih (fun g hg => hok g (by simp [hg]))
    simp only [List.map_cons, List.sum_cons]
    omega

theorem resizeRegs_spec {α : Type} (z : α) (sameAbi fixed : Bool) {gs gs' : List Geo} (hok : Oks gs) (hf : FullButLast gs) (hok' : Oks gs')
    (hf' : FullButLast gs') {n m : Nat} (hn : 1 ≤ n) (hm : 1 ≤ m) (ht : total gs = n) (ht' : total gs' = m) (hs : sameAbi = true → gs = gs')
    {x : Tup α} (hx : Wf gs x) :
    ∃ y, resizeRegs z sameAbi fixed n m gs' x = some y ∧ Wf gs' y ∧ lanes gs' y = Spec.resize z m (lanes gs x) := by
  have hl := total_le hok
  have hl' := total_le hok'
  have hlen := wf_length hx
  obtain ⟨r, h1, h2, h3⟩ := Props.C43_values z sameAbi fixed (n := n) (m := m) (mfull := (gs'.map Geo.full).sum) (x := x.flatten) hn hm
    (by omega) (by omega) (fun h => by rw [hs h] at ht hlen; exact ⟨ht.symm.trans ht', hlen.symm⟩)
  refine ⟨chop (gs'.map Geo.full) r, by rw [resizeRegs, h1]; rfl, chop_wf gs' r h2, ?_⟩
  rw [lanes_prefix hok' hf' (chop_wf gs' r h2), chop_flatten _ r h2, lanes_prefix hok hf hx, ht, ht', h3]

theorem resizeRegs_fv {K K' : Kind} (h : K = K') (sameAbi fixed : Bool) {gs gs' : List Geo} (hok : Oks gs) (hf : FullButLast gs) (hok' : Oks gs')
    (hf' : FullButLast gs') {n m : Nat} (hn : 1 ≤ n) (hm : 1 ≤ m) (ht : total gs = n) (ht' : total gs' = m) (hs : sameAbi = true → gs = gs')
    {x : Tup K.Bits} {f : Nat → K.Bits} (hx : FV gs n x f) :
    ∃ y, resizeRegs 0#K'.width sameAbi fixed n m gs' (recast h x) = some y ∧
      FV gs' m y (fun i => if i < n then (h ▸ f i : K'.Bits) else 0#K'.width) := by
  subst h
  obtain ⟨y, h1, h2, h3⟩ := resizeRegs_spec 0#K.width sameAbi fixed hok hf hok' hf' hn hm ht ht' hs hx.1
  refine ⟨y, h1, h2, fun i hi => ?_⟩
  rw [h3]
  simp only [Spec.resize, List.getElem?_map, List.getElem?_range hi, Option.map_some]
  have hll : (lanes gs x).length = n := by rw [length_lanes hok hx.1, ht]
  by_cases h : i < n
  · rw [if_pos h, hx.2 i h]; rfl
  · rw [if_neg h, List.getElem?_eq_none (by omega)]; rfl

variable {ι : Type} {K : ι → Kind} {β : ι → Type}

theorem fixed_casts {t : Abi.Target} (ht : t.Consistent) {T : ι → Abi.Elem} (hT : ∀ a, (T a).Ok) (Y : Types K β) 
    (hv : ∀ a, Abi.valid t (T a) (.fixed (Y.n a)) = true) (C : ∀ a, Cfg (K a) (β a)) (ctx : ∀ a b, Convert.Ctx (K a).Bits (K b).Bits)
    (hcast : ∀ a b x y, Y.cv a b x = some y → (ctx a b).cast x = y) (same ident : ι → ι → Bool)
    (hsame : ∀ a b, same a b = true → T a = T b) (hident : ∀ a b, ident a b = true → T a = T b) :
    CastCorrect (fixedCasts t T Y.n C ctx same ident) Y (fun _ _ => True) (fun a b => T a = T b) (fun _ _ => True) (fun a => FV (regs t (T a) (Y.n a)) (Y.n a)) (fun a => FM (Y.n a)) where
  size := fun _ => rfl
  val := by
    intro i a b x f g _ e hx hf
    have get : ∀ y : Tup (K b).Bits, Wf (regs t (T b) (Y.n b)) y →
        lanes (regs t (T b) (Y.n b)) y = (lanes (regs t (T a) (Y.n a)) x).map (ctx a b).cast → FV (regs t (T b) (Y.n b)) (Y.n b) y g := by
      intro y hw hl
      refine ⟨hw, fun j hj => ?_⟩
      rw [← e] at hj
      rw [hl, List.getElem?_map, hx.2 j hj, Option.map_some, hcast a b _ _ (hf j hj)]
    cases i with
    | true =>
      obtain ⟨y, h, hw, hl⟩ := Props.C21_implicit (ctx a b) t ht (T a) (T b) (hT a) (hT b) (Y.n a) (valid_fixed (hv a)).1 x hx.1
      refine ⟨y, ?_, get y (e ▸ hw) ?_⟩
      · exact (if_pos e).trans h
      · rw [← e]; exact hl
    | false =>
      obtain ⟨y, h, hw, hl⟩ := Props.C21_static_simd_cast (ctx a b) t ht (T a) (T b) (hT a) (hT b) (same a b) (ident a b) (hsame a b)
        (hident a b) (.fixed (Y.n a)) (.fixed (Y.n b)) (hv a) (hv b) e x hx.1
      exact ⟨y, h, get y hw hl⟩
  mask := by
    intro i a b x f _ e hx
    cases i with
    | true => exact sameWidth_fm e hx
    | false =>
      obtain ⟨y, h, hm⟩ := fixed_resize_get (valid_fixed (hv a)).1 (valid_fixed (hv b)).1 (valid_fixed (hv b)).2 hx
      refine ⟨y, ?_, hm.1, fun j hj => ?_⟩
      · exact (if_pos e).trans h
      · rw [hm.2 j hj]; simp only []; rw [if_pos (e ▸ hj)]
  maskResize := by
    intro a b x f _ hx
    exact fixed_resize_get (valid_fixed (hv a)).1 (valid_fixed (hv b)).1 (valid_fixed (hv b)).2 hx
  resize := by
    intro a b x f h e hx
    obtain ⟨_, o1, o2, o3⟩ := regs_facts ht (hT a) (valid_fixed (hv a)).1
    obtain ⟨_, p1, p2, p3⟩ := regs_facts ht (hT b) (valid_fixed (hv b)).1
    exact resizeRegs_fv h _ _ o1 o3 p1 p3 (valid_fixed (hv a)).1 (valid_fixed (hv b)).1 o2 p2
      (fun h' => by rw [e, show Y.n a = Y.n b by simpa using h']) hx

end StdSimd.SimdClass
