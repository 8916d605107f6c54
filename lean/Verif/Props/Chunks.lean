import Verif.Proofs.Chunks
import Verif.Proofs.ChunksRet
import Verif.Props.FixedSize
/-!
# C54: fixed_size math functions are element-wise also if arguments or results have another element type

`lanesOf t U tags s` are the elements of the fixed_size object `s` with register list `tags`, in order.  An object of
type `fixed_size_simd<U, n>` has the register list `storage t U n` and `sizeOf t U (storage t U n)` slots.
-/
namespace StdSimd.Props
open Abi Chunks
variable {V : Type}

/-- An operand is an object of type `fixed_size_simd<elem, n>`; only arguments with the element type of the first one
have the same type as that. -/
structure OperandOk (t : Target) (T : Elem) (n : Nat) (a : Operand V) : Prop where
  ok : a.elem.Ok
  big : 4 ≤ a.elem.size
  same : a.same = true → a.elem = T
  len : a.obj.length = sizeOf t a.elem (storage t a.elem n)

/-- The elements of an operand. -/
def opLanes (t : Target) (n : Nat) (a : Operand V) : List V := lanesOf t a.elem (storage t a.elem n) a.obj

/-- **C54** (partial: not on i386, see below): a fixed_size math function with any number of further arguments, of any
element types, applies the scalar function to element `i` of every argument, for every `i`; arguments passed as
non-const lvalues receive the new values of their elements and all others are unchanged. -/
theorem C54_call_partial {t : Target} (hc : t.Consistent) (h386 : t.i386 = false) {T : Elem} (hT : T.Ok) (hT4 : 4 ≤ T.size)
    (F : ElemFun V) (junk : V) {n : Nat} (h1 : 1 ≤ n) (x : List V) (more : List (Operand V))
    (hm : ∀ a ∈ more, OperandOk t T n a) :
    ∃ res objs, mathCall t T n F junk x more = some (res, objs) ∧
      lanesOf t T (storage t T n) res = (List.range n).map (fun i =>
        (F ((lanesOf t T (storage t T n) x).getD i junk) (more.map (fun a => (opLanes t n a).getD i junk))).1) ∧
      objs.length = more.length ∧
      ∀ j, (hj : j < more.length) → ∃ o, objs[j]? = some o ∧
        lanesOf t more[j].elem (storage t more[j].elem n) o =
          if more[j].writable then (List.range n).map (fun i =>
            (F ((lanesOf t T (storage t T n) x).getD i junk) (more.map (fun a => (opLanes t n a).getD i junk))).2.getD j junk)
          else opLanes t n more[j] := by
  let args : List (Arg V) := more.map (fun a => ⟨a.elem, a.same, a.writable, a.obj, 0, storage t a.elem n, 0⟩)
  have hat : ∀ a ∈ args, At t T n 0 a := by
    intro a ha
    obtain ⟨b, hb, rfl⟩ := List.mem_map.1 ha
    have h := hm b hb
    exact ⟨h.ok, h.big, h.same, h.len, Nat.dvd_zero _, rfl, rfl, cap_pos h.ok⟩
  obtain ⟨res, e, hr⟩ := loop hc h386 hT hT4 F junk x n
    (fun i => F (x.getD i junk) (args.map (fun a => a.obj.getD i junk))) n 0 rfl (by omega) (Nat.dvd_zero _) args hat
    (fun _ _ _ => rfl)
  have hG : ∀ i < n, F ((lanesOf t T (storage t T n) x).getD i junk) (more.map (fun a => (opLanes t n a).getD i junk))
      = F (x.getD i junk) (args.map (fun a => a.obj.getD i junk)) := by
    intro i hi
    rw [lanesOf_storage hc hT hT4, List.map_map]
    have h0 : ∀ l : List V, (l.take n).getD i junk = l.getD i junk := fun l => by
      rw [List.getD_eq_getElem?_getD, List.getD_eq_getElem?_getD, List.getElem?_take_of_lt hi]
    rw [h0]
    congr 1
    apply List.map_congr_left
    intro a ha
    have h := hm a ha
    unfold opLanes
    rw [lanesOf_storage hc h.ok h.big, h0]; rfl
  refine ⟨res, _, e, ?_, by rw [fin_length]; simp [args], ?_⟩
  · rw [lanesOf_storage hc hT hT4]
    simp only [Nat.sub_zero, Nat.zero_add] at hr
    rw [hr]
    exact List.map_congr_left (fun i hi => by rw [hG i (List.mem_range.1 hi)])
  · intro j hj
    have hja : j < args.length := by simpa [args] using hj
    refine ⟨_, fin_get args 0 j hja, ?_⟩
    have h := hm more[j] (List.getElem_mem _)
    have ea : args[j] = ⟨more[j].elem, more[j].same, more[j].writable, more[j].obj, 0, storage t more[j].elem n, 0⟩ := by
      simp [args]
    rw [ea]
    simp only [List.take_zero, List.nil_append, Nat.sub_zero, Nat.zero_add]
    rw [lanesOf_storage hc h.ok h.big]
    by_cases hw : more[j].writable = true
    · rw [if_pos hw, if_pos hw, List.take_left' (by simp)]
      exact List.map_congr_left (fun i hi => by rw [hG i (List.mem_range.1 hi)])
    · rw [if_neg hw, if_neg hw]
      unfold opLanes
      rw [lanesOf_storage hc h.ok h.big]

/-- **C54** for `ldexp`, `scalbn` and `scalbln`: the exponent is read element by element and not changed. -/
theorem C54_ldexp_partial {t : Target} (hc : t.Consistent) (h386 : t.i386 = false) {T U : Elem} (hT : T.Ok) (hT4 : 4 ≤ T.size)
    (hU : U.Ok) (hU4 : 4 ≤ U.size) (f : V → V → V) (junk : V) {n : Nat} (h1 : 1 ≤ n) (x y : List V)
    (hy : y.length = sizeOf t U (storage t U n)) :
    ∃ res y', mathCall t T n (fun a b => (f a (b.getD 0 junk), b)) junk x [⟨U, false, false, y⟩] = some (res, [y']) ∧
      lanesOf t T (storage t T n) res = (List.range n).map (fun i =>
        f ((lanesOf t T (storage t T n) x).getD i junk) ((lanesOf t U (storage t U n) y).getD i junk)) ∧
      lanesOf t U (storage t U n) y' = lanesOf t U (storage t U n) y := by
  obtain ⟨res, objs, e, hr, hl, ho⟩ := C54_call_partial hc h386 hT hT4 (fun a b => (f a (b.getD 0 junk), b)) junk h1 x
    [⟨U, false, false, y⟩] (by
      intro a ha
      rw [List.mem_singleton] at ha
      subst ha
      exact ⟨hU, hU4, by simp, hy⟩)
  match objs, hl with
  | [y'], _ =>
    obtain ⟨o, h1, h2⟩ := ho 0 (by simp)
    simp only [List.getElem?_cons_zero, Option.some.injEq] at h1
    subst h1
    exact ⟨res, y', e, hr, h2⟩

/-- **C54** for `frexp`: every element gets its fraction and its exponent. -/
theorem C54_frexp_partial {t : Target} (hc : t.Consistent) (h386 : t.i386 = false) {T U : Elem} (hT : T.Ok) (hT4 : 4 ≤ T.size)
    (hU : U.Ok) (hU4 : 4 ≤ U.size) (f g : V → V) (junk : V) {n : Nat} (h1 : 1 ≤ n) (x y : List V)
    (hx : n ≤ (lanesOf t T (storage t T n) x).length) (hy : y.length = sizeOf t U (storage t U n)) :
    ∃ res y', mathCall t T n (fun a _ => (f a, [g a])) junk x [⟨U, false, true, y⟩] = some (res, [y']) ∧
      lanesOf t T (storage t T n) res = (lanesOf t T (storage t T n) x).map f ∧
      lanesOf t U (storage t U n) y' = (lanesOf t T (storage t T n) x).map g := by
  obtain ⟨res, objs, e, hr, hl, ho⟩ := C54_call_partial hc h386 hT hT4 (fun a _ => (f a, [g a])) junk h1 x
    [⟨U, false, true, y⟩] (by
      intro a ha
      rw [List.mem_singleton] at ha
      subst ha
      exact ⟨hU, hU4, by simp, hy⟩)
  have hlx : (lanesOf t T (storage t T n) x).length = n := by
    rw [lanesOf_storage hc hT hT4] at hx ⊢
    rw [List.length_take] at hx ⊢
    omega
  have hmap : ∀ k : V → V, (List.range n).map (fun i => k ((lanesOf t T (storage t T n) x).getD i junk))
      = (lanesOf t T (storage t T n) x).map k := by
    intro k
    apply List.ext_getElem
    · simp [hlx]
    · intro i h1 h2
      have : i < (lanesOf t T (storage t T n) x).length := by simpa using h2
      simp [List.getD_eq_getElem?_getD, this]
  match objs, hl with
  | [y'], _ =>
    obtain ⟨o, h1, h2⟩ := ho 0 (by simp)
    simp only [List.getElem?_cons_zero, Option.some.injEq] at h1
    subst h1
    exact ⟨res, y', e, by rw [hr]; exact hmap f, h2.trans (hmap g)⟩

/-- **C54** for functions whose result has another element type (`ilogb`, `lrint`, `llrint`, `lround`, `llround`,
`fpclassify`): the result has the type the caller expects and its element `i` is the function of element `i`. -/
theorem C54_result {t : Target} (hc : t.Consistent) {T R : Elem} (hT : T.Ok) (hR : R.Ok) (hfp : T.fp = true)
    (hT4 : 4 ≤ T.size) (hR4 : 4 ≤ R.size) (F : V → V) (junk : V) {n : Nat} (h1 : 1 ≤ n) (x : List V) (hx : n ≤ x.length) :
    ∃ s, mathRet t T R n F junk x = some s ∧ s.map (·.1) = storage t R n ∧
      regLanes R s = (lanesOf t T (storage t T n) x).map F := by
  refine ⟨_, mathRet_spec hc hT hR hfp hT4 hR4 F junk h1 x hx, regsOf_tags hc hR hR4 _ _, ?_⟩
  rw [regLanes_regsOf hR (cap_pos hR) n _ (by simp; omega), lanesOf_storage hc hT hT4, List.take_of_length_le (by simp; omega)]

/-! ## i386 -/

/-- A 32-bit x86 target with SSE2. -/
def exI386 : Target := { sse := true, sse2 := true, i386 := true }
theorem exI386_ok : exI386.Consistent := by constructor <;> decide

private abbrev f64 : Elem := ⟨8, true⟩
private abbrev i32 : Elem := ⟨4, false⟩

private theorem st_i386_f64 : storage exI386 f64 4 = [.builtin 16, .builtin 16] := by
  rw [storage_pos (by decide), show (4 - size f64 (bestAbi exI386 f64 4)) = 2 by decide +kernel,
    storage_pos (by decide), show (2 - size f64 (bestAbi exI386 f64 2)) = 0 by decide +kernel, storage_zero]
  decide +kernel

private theorem st_i386_i32 : storage exI386 i32 4 = [.builtin 16] := by
  rw [storage_pos (by decide), show (4 - size i32 (bestAbi exI386 i32 4)) = 0 by decide +kernel, storage_zero]
  decide +kernel

private theorem st_i386_i32_2 : storage exI386 i32 2 = [.builtin 8] := by
  rw [storage_pos (by decide), show (2 - size i32 (bestAbi exI386 i32 2)) = 0 by decide +kernel, storage_zero]
  decide +kernel

/-- **C54 fails on i386**: there a register of two `int`s has four slots, so that the copy of the second half of four
exponents leaves the object: `ldexp` of four `double`s reads out of bounds, whatever the arguments are. -/
theorem C54_ldexp_i386_false (F : ElemFun V) (junk : V) (w : Bool) (x : List V) (y0 y1 y2 y3 : V) :
    OperandOk exI386 f64 4 (⟨i32, false, w, [y0, y1, y2, y3]⟩ : Operand V) ∧
    mathCall exI386 f64 4 F junk x [⟨i32, false, w, [y0, y1, y2, y3]⟩] = none := by
  refine ⟨⟨?_, Nat.le_refl 4, by simp, ?_⟩, ?_⟩
  · show i32.Ok; decide
  · show 4 = Chunks.sizeOf exI386 i32 (storage exI386 i32 4)
    rw [st_i386_i32]; decide +kernel
  · have e1 : Chunks.sizeOf exI386 i32 [.builtin 8] = 4 := by decide +kernel
    have e2 : sndPos exI386 f64 (.builtin 16) [.builtin 16] = 2 := by decide +kernel
    have e3 : fullSize exI386 i32 (.builtin 8) = 4 := by decide +kernel
    have s1 : size f64 (.builtin 16) = 2 := rfl
    have s2 : size i32 (.builtin 16) = 4 := rfl
    have s3 : size i32 (.builtin 8) = 2 := rfl
    unfold mathCall
    simp only [List.map_cons, List.map_nil, st_i386_f64, st_i386_i32]
    unfold applyPerChunk
    simp only [s1]
    cases w <;> simp [extract, st_i386_i32_2, e1, writeBacks, outputs, writeBack, assignFront, assignTup, write, skip, s1, s2, s3, applyPerChunk,
      setLanes, call, List.range_succ, lanesOf]

/-! ## cases -/

private theorem st_f64 : storage exAvx2 f64 11 = [.builtin 32, .builtin 32, .builtin 24] := by
  rw [storage_pos (by decide), show (11 - size f64 (bestAbi exAvx2 f64 11)) = 7 by decide +kernel,
    storage_pos (by decide), show (7 - size f64 (bestAbi exAvx2 f64 7)) = 3 by decide +kernel,
    storage_pos (by decide), show (3 - size f64 (bestAbi exAvx2 f64 3)) = 0 by decide +kernel, storage_zero]
  decide +kernel

private theorem st_i32 : storage exAvx2 i32 11 = [.builtin 32, .builtin 12] := by
  rw [storage_pos (by decide), show (11 - size i32 (bestAbi exAvx2 i32 11)) = 3 by decide +kernel,
    storage_pos (by decide), show (3 - size i32 (bestAbi exAvx2 i32 3)) = 0 by decide +kernel, storage_zero]
  decide +kernel

private def xs : List Nat := [10, 20, 30, 40, 50, 60, 70, 80, 90, 100, 110, 999]
private def es : List Nat := [1, 2, 3, 4, 5, 6, 7, 8, 9, 10, 11, 998, 997, 996, 995, 994]

-- eleven doubles are in registers of 4, 4 and 3, the exponents in registers of 8 and 3: the second chunk takes the upper
-- half of the first exponent register; padding (9xx) does not show
example : ∃ res y', mathCall exAvx2 f64 11 (fun a b => (a + b.getD 0 0, b)) 0 xs [⟨i32, false, false, es⟩] = some (res, [y']) ∧
    lanesOf exAvx2 f64 (storage exAvx2 f64 11) res = [11, 22, 33, 44, 55, 66, 77, 88, 99, 110, 121] := by
  obtain ⟨res, y', e, h, _⟩ := C54_ldexp_partial exAvx2_ok rfl (T := f64) (U := i32) (by decide) (by decide) (by decide)
    (by decide) (fun a b : Nat => a + b) 0 (n := 11) (by decide) xs es (by rw [st_i32]; decide +kernel)
  refine ⟨res, y', e, ?_⟩
  rw [h, st_f64, st_i32]
  decide +kernel

-- three arguments: one of the type of the first, one output of another type
example : ∃ res objs, mathCall exAvx2 f64 11 (fun a b => (a + b.getD 0 0, [7, a * 2])) 0 xs
      [⟨f64, true, false, xs⟩, ⟨i32, false, true, es⟩] = some (res, objs) ∧
    lanesOf exAvx2 f64 (storage exAvx2 f64 11) res = [20, 40, 60, 80, 100, 120, 140, 160, 180, 200, 220] ∧
    ∃ o, objs[1]? = some o ∧
      lanesOf exAvx2 i32 (storage exAvx2 i32 11) o = [20, 40, 60, 80, 100, 120, 140, 160, 180, 200, 220] := by
  obtain ⟨res, objs, e, h, _, ho⟩ := C54_call_partial exAvx2_ok rfl (T := f64) (by decide) (by decide)
    (fun a b : _ => (a + b.getD 0 0, [7, a * 2])) (0 : Nat) (n := 11) (by decide) xs
    [⟨f64, true, false, xs⟩, ⟨i32, false, true, es⟩] (by
      intro a ha
      simp only [List.mem_cons, List.not_mem_nil, or_false] at ha
      rcases ha with rfl | rfl
      · exact ⟨by decide, by decide, fun _ => rfl, by show _ = Chunks.sizeOf exAvx2 f64 (storage exAvx2 f64 11); rw [st_f64]; decide +kernel⟩
      · exact ⟨by decide, by decide, by simp, by show _ = Chunks.sizeOf exAvx2 i32 (storage exAvx2 i32 11); rw [st_i32]; decide +kernel⟩)
  obtain ⟨o, h1, h2⟩ := ho 1 (by decide)
  refine ⟨res, objs, e, ?_, o, h1, ?_⟩
  · rw [h]; simp only [opLanes, List.map_cons, List.map_nil]; rw [st_f64, st_i32]; decide +kernel
  · refine h2.trans ?_
    simp only [opLanes, List.map_cons, List.map_nil]
    show List.map _ _ = _
    rw [st_f64]; decide +kernel

-- lrint: the int registers of 4, 4 and 3 become registers of 8 and 3
example : ∃ s, mathRet exAvx2 f64 i32 11 (fun a => a / 10) 0 xs = some s ∧ s.map (·.1) = [.builtin 32, .builtin 12] ∧
    regLanes i32 s = [1, 2, 3, 4, 5, 6, 7, 8, 9, 10, 11] := by
  obtain ⟨s, e, h1, h2⟩ := C54_result exAvx2_ok (T := f64) (R := i32) (by decide) (by decide) rfl (by decide) (by decide)
    (fun a : Nat => a / 10) 0 (n := 11) (by decide) xs (by decide)
  refine ⟨s, e, by rw [h1, st_i32], ?_⟩
  rw [h2, st_f64]; decide +kernel

end StdSimd.Props
