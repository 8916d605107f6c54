import Verif.Model.ClassifyRet
import Verif.Proofs.ChunksLayout
import Verif.Proofs.Storage
import Verif.Props.FloatBits
/-!
# Property theorems about the result of `fpclassify` on registers (C54)

`fpclassify` of a fixed_size simd calls `fpclassify` of its registers.  Each call returns an object of the type the caller
expects, whose element `i` is the class of element `i`.
-/
namespace StdSimd.Props
open Spec Abi Chunks ClassifyRet

private abbrev f32 : Elem := ⟨4, true⟩
private abbrev f64 : Elem := ⟨8, true⟩
private abbrev bin32 : Fmt := ⟨8, 23⟩
private abbrev bin64 : Fmt := ⟨11, 52⟩

private theorem ok32 : bin32.Ok := by constructor <;> decide
private theorem ok64 : bin64.Ok := by constructor <;> decide

private theorem cap_f32 {t : Target} (hc : t.Consistent) (hs : t.sse = true → t.sse2 = true) (hv : t.vsx = true → t.vmx = true) :
    (cap t f32 ≤ cap t int) ∨ (cap t f32 = 8 ∧ cap t int = 4) := by
  have := hc.avx
  unfold cap vecSizeof
  cases h1 : t.avx512bw <;> cases h2 : t.avx512f <;> cases h3 : t.avx2 <;> cases h4 : t.avx <;> cases h5 : t.sse2 <;>
    simp_all <;> (cases h7 : t.power8 <;> cases h8 : t.vmx <;> simp_all) <;>
    (cases h9 : t.neonA64 <;> cases h10 : t.neonA32 <;> cases h11 : t.neon <;> cases h12 : t.neonFloat <;> simp_all)

private theorem cap_f64 {t : Target} (hc : t.Consistent) :
    (cap t f64 ≤ cap t int) ∨ (cap t f64 = 2 ∧ cap t int = 1) := by
  have := hc.avx
  unfold cap vecSizeof
  cases h1 : t.avx512bw <;> cases h2 : t.avx512f <;> cases h3 : t.avx2 <;> cases h4 : t.avx <;> cases h5 : t.sse2 <;>
    simp_all <;> split_ifs <;> simp_all

private theorem intOk : int.Ok := by decide

private theorem ofPick {t : Target} (hc : t.Consistent) {n : Nat} (h2 : 2 ≤ n) (hn : n ≤ cap t int) :
    storage t int n = [pick t int n] ∧ size int (pick t int n) = n ∧ fullSize t int (pick t int n) = vecBytes t 4 n / 4 := by
  refine ⟨storage_small hc intOk (by decide) (by omega) hn, pick_size intOk n, ?_⟩
  rw [pick_full hc intOk (by decide) (by omega) hn, fullOf, if_neg (by omega)]

private theorem pick_ne {t : Target} {n : Nat} (h2 : n ≠ 1) : pick t int n ≠ .scalar := by
  unfold pick; rw [if_neg h2]; split <;> simp

private theorem ret_float {t : Target} (hc : t.Consistent) (hs : t.sse = true → t.sse2 = true)
    (hv : t.vsx = true → t.vmx = true) {n : Nat} (h2 : 2 ≤ n) (hn : n ≤ cap t f32) (tmp : List (BitVec 32))
    (hx : vecBytes t 4 n / 4 ≤ tmp.length) :
    ∃ r, retFloat t n tmp = some r ∧ r.map (·.1) = storage t int n ∧ regLanes int r = tmp.take n := by
  have hle : n ≤ vecBytes t 4 n / 4 := Tuple.le_fullSize (by decide) t
  unfold retFloat
  by_cases hsm : n ≤ cap t int
  · obtain ⟨e, hz, hf⟩ := ofPick hc h2 hsm
    rw [e]
    simp only []
    rw [hf, if_pos (by rw [List.length_take]; omega)]
    exact ⟨_, rfl, rfl, by simp [regLanes, hz, List.take_take, Nat.min_eq_left hle]⟩
  · obtain h | ⟨h8, h4⟩ := cap_f32 hc hs hv
    · omega
    · have hb := storage_big (U := int) hc intOk (by decide) (n := n) (by omega)
      rw [h4] at hb
      have hz4 : size int (pick t int 4) = 4 := pick_size intOk 4
      have hf4 : fullSize t int (pick t int 4) = 4 := by
        have := full_cap (U := int) hc intOk (by decide)
        rwa [h4] at this
      have hvb : vecBytes t 4 n = 32 := by
        unfold vecBytes
        have : n = 5 ∨ n = 6 ∨ n = 7 ∨ n = 8 := by omega
        rcases this with rfl | rfl | rfl | rfl <;> cases t.i386 <;> decide
      rw [hvb] at hx ⊢
      have hlen : (tmp.take (32 / 4)).length = 8 := by rw [List.length_take]; omega
      have h1' : 1 ≤ n - 4 := by omega
      have hst : storage t int (n - 4) = [pick t int (n - 4)] := storage_small hc intOk (by decide) h1' (by omega)
      have hzn : size int (pick t int (n - 4)) = n - 4 := pick_size intOk _
      rw [hb, hst]
      simp only [hlen]
      rw [if_pos ⟨pick_ne (by decide), hf4⟩]
      by_cases h5 : n = 5
      · subst h5
        have hsc : pick t int (5 - 4) = .scalar := rfl
        rw [hsc, if_pos rfl]
        refine ⟨_, rfl, rfl, ?_⟩
        match tmp, hx with
        | a :: b :: c :: d :: e :: f :: g :: h :: r, _ => 
          simp only [regLanes, List.map_cons, List.map_nil, List.flatten_cons, List.flatten_nil, List.append_nil, hz4]
          rfl
      · rw [if_neg (pick_ne (by omega))]
        have hfn : fullSize t int (pick t int (n - 4)) = vecBytes t 4 (n - 4) / 4 := by
          rw [pick_full hc intOk (by decide) h1' (by omega), fullOf, if_neg (by omega)]
        have hge : n - 4 ≤ vecBytes t 4 (n - 4) / 4 := Tuple.le_fullSize (by decide) t
        have hle4 : vecBytes t 4 (n - 4) / 4 ≤ 4 := by
          unfold vecBytes
          have : n = 6 ∨ n = 7 ∨ n = 8 := by omega
          rcases this with rfl | rfl | rfl <;> cases t.i386 <;> decide
        rw [hfn, if_pos (by omega)]
        refine ⟨_, rfl, rfl, ?_⟩
        simp only [regLanes, List.map_cons, List.map_nil, List.flatten_cons, List.flatten_nil, List.append_nil, hz4, hzn]
        have : n = 6 ∨ n = 7 ∨ n = 8 := by omega
        rw [List.take_take (i := n - 4), Nat.min_eq_left hge]
        match tmp, hx with
        | a :: b :: c :: d :: e :: f :: g :: h :: r, _ =>
          rcases this with rfl | rfl | rfl <;> simp

private theorem ret_double {t : Target} (hc : t.Consistent) {n : Nat} (h2 : 2 ≤ n) (hn : n ≤ cap t f64) (cs : List Nat)
    (hcs : ∀ c ∈ cs, c ≤ 4) (hx : vecBytes t 8 n / 8 = cs.length) :
    ∃ r, retDouble t n (cs.map (BitVec.ofNat 64)) = some r ∧ r.map (·.1) = storage t int n ∧
      regLanes int r = (cs.take n).map (BitVec.ofNat 32) := by
  have hle : n ≤ vecBytes t 8 n / 8 := Tuple.le_fullSize (by decide) t
  have hsw : ∀ c ∈ cs, (BitVec.ofNat 64 c).setWidth 32 = BitVec.ofNat 32 c := by
    intro c hm
    have := hcs c hm
    apply BitVec.eq_of_toNat_eq
    simp only [BitVec.toNat_setWidth, BitVec.toNat_ofNat]
    omega
  have hmap : ∀ l : List Nat, (∀ c ∈ l, c ∈ cs) → (l.map (BitVec.ofNat 64)).map (·.setWidth 32) = l.map (BitVec.ofNat 32) := by
    intro l hl
    rw [List.map_map]
    exact List.map_congr_left fun c hm => hsw c (hl c hm)
  have hpk : (cs.map (BitVec.ofNat 64)).map FloatBits.packs64 = cs.map (BitVec.ofNat 32) := by
    rw [List.map_map]
    exact List.map_congr_left fun c hm => FloatBits.packs64_small (by have := hcs c hm; omega)
  have h8 : n ≤ 8 := by
    refine Nat.le_trans hn ?_
    unfold cap vecSizeof
    simp only []
    repeat' split
    all_goals decide
  unfold retDouble
  by_cases hsm : n ≤ cap t int
  · obtain ⟨e, hz, hf⟩ := ofPick hc h2 hsm
    rw [e]
    simp only [List.length_map]
    have hq : ∀ l : List (BitVec 32), regLanes int [(pick t int n, l)] = l.take n := by
      intro l; simp [regLanes, hz]
    split_ifs with c1 c2 c3 c4
    · exact ⟨_, rfl, rfl, by rw [hq, hpk, List.map_take]⟩
    · exfalso
      apply c2
      rw [hf]
      have hl := c1.2
      rw [← hx] at hl
      clear * - hl h8 h2
      unfold vecBytes at hl ⊢
      have : n = 2 ∨ n = 3 ∨ n = 4 ∨ n = 5 ∨ n = 6 ∨ n = 7 ∨ n = 8 := by omega
      rcases this with rfl | rfl | rfl | rfl | rfl | rfl | rfl <;> cases h : t.i386 <;> rw [h] at hl <;> revert hl <;> decide
    · exact ⟨_, rfl, rfl, by rw [hq, hmap cs (fun _ h => h), List.map_take]⟩
    · exfalso
      apply c4
      rw [hf]
      have hl := c3.2
      rw [← hx] at hl
      clear * - hl h8 h2
      unfold vecBytes at hl ⊢
      have : n = 2 ∨ n = 3 ∨ n = 4 ∨ n = 5 ∨ n = 6 ∨ n = 7 ∨ n = 8 := by omega
      rcases this with rfl | rfl | rfl | rfl | rfl | rfl | rfl <;> cases h : t.i386 <;> rw [h] at hl <;> revert hl <;> decide
    · refine ⟨_, rfl, rfl, ?_⟩
      rw [hq, ← List.map_take, List.take_take, Nat.min_self, ← List.map_take, hmap _ (fun _ h => List.mem_of_mem_take h)]
  · obtain h | ⟨hd, h1⟩ := cap_f64 hc
    · omega
    · have hn2 : n = 2 := by omega
      subst hn2
      have hb := storage_big (U := int) hc intOk (by decide) (n := 2) (by omega)
      have hst : storage t int (2 - cap t int) = [pick t int 1] := by
        rw [h1]; exact storage_small hc intOk (by decide) (by decide) (by omega)
      rw [hst, h1] at hb
      rw [hb]
      simp only []
      rw [if_pos ⟨trivial, rfl, rfl⟩]
      refine ⟨_, rfl, rfl, ?_⟩
      match cs, hx, hsw with
      | [], hx, _ => simp at hx; omega
      | [a], hx, _ => simp at hx; omega
      | a :: b :: r, _, hsw =>
        have ha := hsw a (by simp)
        have hb := hsw b (by simp)
        have hp : pick t int 1 = .scalar := rfl
        simp only [regLanes, hp, size, List.map_cons, List.map_nil, List.flatten_cons, List.flatten_nil, List.append_nil,
          List.getD_cons_zero, List.getD_cons_succ, ha, hb]
        rfl

private theorem class_le (f : Fmt) (x : f.Bits) : f.fpclassify x ≤ 4 := by
  unfold Fmt.fpclassify; repeat' split <;> try omega

/-- **C54** (partial: not on targets with SSE but without SSE2, see below): `fpclassify` of a register of `n` `float`s returns
an object with the registers of `fixed_size_simd<int, n>`, and its element `i` is the class of element `i`.  `xs` are the
slots of the register, padding included. -/
theorem C54_fpclassify_float_partial {t : Target} (hc : t.Consistent) (hs : t.sse = true → t.sse2 = true)
    (hv : t.vsx = true → t.vmx = true) {n : Nat} (h2 : 2 ≤ n) (hn : n ≤ vecSizeof t ⟨4, true⟩ / 4)
    (xs : List (⟨8, 23⟩ : Fmt).Bits) (hx : vecBytes t 4 n / 4 ≤ xs.length) :
    ∃ r, retFloat t n (xs.map fun x => BitVec.ofNat 32 (FloatBits.fpclassify ⟨8, 23⟩ x)) = some r ∧
      r.map (·.1) = storage t ⟨4, false⟩ n ∧
      regLanes ⟨4, false⟩ r = (xs.take n).map (fun x => BitVec.ofNat 32 (Fmt.fpclassify ⟨8, 23⟩ x)) := by
  obtain ⟨r, e, ht, hl⟩ := ret_float hc hs hv h2 hn (xs.map fun x => BitVec.ofNat 32 (FloatBits.fpclassify ⟨8, 23⟩ x))
    (by rw [List.length_map]; exact hx)
  refine ⟨r, e, ht, hl.trans ?_⟩
  rw [← List.map_take]
  exact List.map_congr_left fun x _ => by rw [C34_fpclassify ok32]

/-- **C54**: `fpclassify` of a register of `n` `double`s, on every target. -/
theorem C54_fpclassify_double {t : Target} (hc : t.Consistent) {n : Nat} (h2 : 2 ≤ n)
    (hn : n ≤ vecSizeof t ⟨8, true⟩ / 8) (xs : List (⟨11, 52⟩ : Fmt).Bits) (hx : vecBytes t 8 n / 8 = xs.length) :
    ∃ r, retDouble t n (xs.map fun x => BitVec.ofNat 64 (FloatBits.fpclassify ⟨11, 52⟩ x)) = some r ∧
      r.map (·.1) = storage t ⟨4, false⟩ n ∧
      regLanes ⟨4, false⟩ r = (xs.take n).map (fun x => BitVec.ofNat 32 (Fmt.fpclassify ⟨11, 52⟩ x)) := by
  obtain ⟨r, e, ht, hl⟩ := ret_double hc h2 hn (xs.map fun x => FloatBits.fpclassify ⟨11, 52⟩ x)
    (by
      intro c hm
      obtain ⟨x, _, rfl⟩ := List.mem_map.1 hm
      rw [C34_fpclassify ok64]; exact class_le _ _)
    (by rw [List.length_map]; exact hx)
  rw [List.map_map] at e
  refine ⟨r, e, ht, hl.trans ?_⟩
  rw [← List.map_take, List.map_map]
  exact List.map_congr_left fun x _ => by simp only [Function.comp]; rw [C34_fpclassify ok64]

private def p3 : Target := { sse := true, i386 := true }

/-- **C54 fails on x86 with SSE but without SSE2** (Pentium III): there `int`s are not vectorized, the result of
`fpclassify` of two, three or four `float`s consists of scalars, and the code has no branch for that: it is ill-formed. -/
theorem C54_fpclassify_sse_false : p3.Consistent ∧ vecSizeof p3 ⟨4, true⟩ / 4 = 4 ∧
    ∀ n, 2 ≤ n → n ≤ 4 → ∀ tmp, retFloat p3 n tmp = none := by
  have hc : p3.Consistent := by constructor <;> decide
  have hcap : cap p3 int = 1 := by decide
  refine ⟨hc, by decide, ?_⟩
  intro n h2 h4 tmp
  have hb : ∀ m, 2 ≤ m → storage p3 int m = .scalar :: storage p3 int (m - 1) := by
    intro m hm
    have := storage_big (U := int) hc intOk (by decide) (n := m) (by omega)
    rw [hcap] at this; exact this
  have h1 : storage p3 int 1 = [.scalar] := storage_small hc intOk (by decide) (by decide) (by omega)
  unfold retFloat
  have : n = 2 ∨ n = 3 ∨ n = 4 := by omega
  rcases this with rfl | rfl | rfl
  · rw [hb 2 (by decide), h1]; simp
  · rw [hb 3 (by decide), hb 2 (by decide), h1]
  · rw [hb 4 (by decide), hb 3 (by decide), hb 2 (by decide), h1]

/-- The hypotheses are met: six `float`s with AVX but not AVX2, in two registers of `int`s. -/
private def avx1 : Target := { sse := true, sse2 := true, avx := true, x86_64 := true }
example : avx1.Consistent ∧ (avx1.sse = true → avx1.sse2 = true) ∧ (avx1.vsx = true → avx1.vmx = true) ∧
    6 ≤ vecSizeof avx1 ⟨4, true⟩ / 4 ∧ vecBytes avx1 4 6 / 4 = 8 := by
  refine ⟨by constructor <;> decide, by decide, by decide, by decide, by decide⟩
example : 3 ≤ vecSizeof avx1 ⟨8, true⟩ / 8 ∧ vecBytes avx1 8 3 / 8 = 4 := by decide

end StdSimd.Props
