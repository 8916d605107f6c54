import Verif.Proofs.MaskedConvertAbi
import Verif.Proofs.SimdNative
/-!
# C14: masked stores to memory of another type
-/
namespace StdSimd.Props
open StdSimd Native Abi

variable {α β : Type} {t : Target} {T U : Elem}

/-- C14 (partial) for native registers and memory of any type: `where(k, v).copy_to(mem)` with elements of type `T`, memory of type `U` and
any conversion between them, whichever implementation the library chooses and however many pieces the converted register needs, writes the
converted values of the selected lanes and nothing else.  `b` is the ABI `deduce_t<U, n>` of the pieces.  Missing: masks with set padding
elements or phantom bits, see `C14_converting_store_out_of_bounds`. -/
theorem C14_converting_store_partial (ht : t.Consistent) (hT : T.Ok) (hU : U.Ok) (q : CvtFeat) (ident : Bool) (p : MaskedPath) (cvt : α → β)
    (junk : α) (a b : Tag) (ha : valid t T a = true) (hf : ∀ m, a ≠ .fixed m) (hs : a ≠ .scalar)
    (hb : U.size < vecSizeof t U → deduce t U (min (Abi.size T a) ((Xfer.of t U ident).max / U.size)) = some b)
    (v : List α) (hv : v.length = (Geo.ofTag t T a).full) (k : MaskM (Geo.ofTag t T a)) (hk : MaskOk (Geo.ofTag t T a) k)
    (hc : MaskClean (Geo.ofTag t T a) k) (mem : Mem β) (base : Nat)
    (hm : ∀ i < Abi.size T a, (maskLanes (Geo.ofTag t T a) k)[i]? = some true → (mem (base + i)).isSome) :
    ∃ mem', maskedStoreAny t q T U ident p cvt junk (Geo.ofTag t T a) (Geo.ofTag t U b) v mem base k = some mem' ∧
      (∀ i < Abi.size T a, (maskLanes (Geo.ofTag t T a) k)[i]? = some true → mem' (base + i) = ((v.take (Abi.size T a))[i]?).map cvt) ∧
      (∀ x, (¬ ∃ i < Abi.size T a, (maskLanes (Geo.ofTag t T a) k)[i]? = some true ∧ x = base + i) → mem' x = mem x) := by
  obtain ⟨hg, hgs, _⟩ := Tuple.ofTag_ok hT ha hf
  have hsg : Geo.ofTag t T a ≠ .scalar := by
    cases a with
    | scalar => exact absurd rfl hs
    | fixed m => exact absurd rfl (hf m)
    | builtin c => simp [Geo.ofTag]
    | btmsk c => simp [Geo.ofTag]
  have hn2 : 2 ≤ Abi.size T a := by
    have hsT := elem_pos hT
    cases a with
    | scalar => exact absurd rfl hs
    | fixed m => exact absurd rfl (hf m)
    | builtin c => rw [valid_builtin hsT] at ha; exact ha.1
    | btmsk c => rw [valid_btmsk hsT] at ha; exact ha.2.2.1
  rw [← hgs] at hm ⊢
  have hm' : ∀ i < (Geo.ofTag t T a).size, mbit (Geo.ofTag t T a) k i = true → (mem (base + i)).isSome :=
    fun i hi h => hm i hi ((mbit_iff hg k hk hi).2 h)
  have main : ∃ mem', maskedStoreAny t q T U ident p cvt junk (Geo.ofTag t T a) (Geo.ofTag t U b) v mem base k = some mem' ∧
      Stored mem mem' base (Geo.ofTag t T a).size (mbit (Geo.ofTag t T a) k) (fun i => (v[i]?).map cvt) := by
    unfold maskedStoreAny
    simp only []
    split
    · exact maskedStore_spec .bits cvt junk hg k hk (fun h => absurd h (by decide)) v hv mem base hm'
    · split
      · exact maskedStore_spec p cvt junk hg k hk (fun _ => hc) v hv mem base hm'
      · split
        · rename_i h
          have hvs : vecSizeof t U > U.size := by
            simp only [Bool.and_eq_true, decide_eq_true_eq] at h; exact h.1
          obtain ⟨hvb, hbs, hfb, hsb⟩ := piece_tag ht hU hvs ident hn2 b (hb hvs)
          obtain ⟨hug, hus, _⟩ := Tuple.ofTag_ok hU hvb hfb
          have hsu : Geo.ofTag t U b ≠ .scalar := by
            cases b with
            | scalar => exact absurd rfl hsb
            | fixed m => exact absurd rfl (hfb m)
            | builtin c => simp [Geo.ofTag]
            | btmsk c => simp [Geo.ofTag]
          refine maskedStoreConvert_spec (Xfer.of t U ident) p cvt (cvt junk) hg hug hsg hsu ?_ ?_ v hv k hk hc mem base hm'
          · rw [hus, hgs]; exact hbs
          · intro hlt
            rw [hgs] at hlt
            exact split_facts ht hT hU hvs ident ha hf hs hvb hfb hsb hbs hlt
        · exact maskedStore_spec .iter cvt junk hg k hk (fun h => absurd h (by decide)) v hv mem base hm'
  obtain ⟨mem', e, hst⟩ := main
  refine ⟨mem', e, fun i hi hb' => ?_, fun x hx => ?_⟩
  · rw [hst, if_pos ⟨by omega, by omega, by rw [Nat.add_sub_cancel_left]; exact (mbit_iff hg k hk hi).1 hb'⟩,
      Nat.add_sub_cancel_left, List.getElem?_take_of_lt hi]
  · rw [hst, if_neg]
    rintro ⟨h1, h2, h3⟩
    exact hx ⟨x - base, by omega, (mbit_iff hg k hk (by omega)).2 h3, by omega⟩

/-- C14 for native registers outside of x86 (NEON, POWER) and memory of any type, for every mask: padding elements of the mask do not matter,
because `_S_masked_store_nocvt` looks at the lanes only. -/
theorem C14_converting_store_no_x86 (ht : t.Consistent) (havx : t.avx = false) (hT : T.Ok) (hU : U.Ok) (q : CvtFeat) (hq : q.x86 = false)
    (ident : Bool) (p : MaskedPath) (hp : p ≠ .raw) (cvt : α → β) (junk : α) (a b : Tag) (ha : valid t T a = true) (hf : ∀ m, a ≠ .fixed m)
    (hs : a ≠ .scalar)
    (hb : U.size < vecSizeof t U → deduce t U (min (Abi.size T a) ((Xfer.of t U ident).max / U.size)) = some b)
    (v : List α) (hv : v.length = (Geo.ofTag t T a).full) (k : MaskM (Geo.ofTag t T a)) (hk : MaskOk (Geo.ofTag t T a) k)
    (mem : Mem β) (base : Nat)
    (hm : ∀ i < Abi.size T a, (maskLanes (Geo.ofTag t T a) k)[i]? = some true → (mem (base + i)).isSome) :
    ∃ mem', maskedStoreAny t q T U ident p cvt junk (Geo.ofTag t T a) (Geo.ofTag t U b) v mem base k = some mem' ∧
      (∀ i < Abi.size T a, (maskLanes (Geo.ofTag t T a) k)[i]? = some true → mem' (base + i) = ((v.take (Abi.size T a))[i]?).map cvt) ∧
      (∀ x, (¬ ∃ i < Abi.size T a, (maskLanes (Geo.ofTag t T a) k)[i]? = some true ∧ x = base + i) → mem' x = mem x) := by
  obtain ⟨hg, hgs, _⟩ := Tuple.ofTag_ok hT ha hf
  have hsT := elem_pos hT
  have ha2 : t.avx2 = false := by cases h : t.avx2 with | false => rfl | true => have := ht.avx2 h; simp [havx] at this
  have hff : t.avx512f = false := by cases h : t.avx512f with | false => rfl | true => have := ht.f h; simp [ha2] at this
  have hbw : t.avx512bw = false := by cases h : t.avx512bw with | false => rfl | true => have := ht.bw h; simp [hff] at this
  have hmax : (Xfer.of t U ident).max = 16 := by simp [Xfer.of, hff, hbw, ha2, havx]
  obtain ⟨c, rfl⟩ : ∃ c, a = .builtin c := by
    cases a with
    | scalar => exact absurd rfl hs
    | fixed m => exact absurd rfl (hf m)
    | builtin c => exact ⟨c, rfl⟩
    | btmsk c => rw [valid_btmsk hsT] at ha; simp [Usable, hff] at ha
  have ha' := (valid_builtin hsT c).1 ha
  rw [← hgs] at hm ⊢
  have hm' : ∀ i < (Geo.ofTag t T (.builtin c)).size, mbit (Geo.ofTag t T (.builtin c)) k i = true → (mem (base + i)).isSome :=
    fun i hi h => hm i hi ((mbit_iff hg k hk hi).2 h)
  have main : ∃ mem', maskedStoreAny t q T U ident p cvt junk (Geo.ofTag t T (.builtin c)) (Geo.ofTag t U b) v mem base k = some mem' ∧
      Stored mem mem' base (Geo.ofTag t T (.builtin c)).size (mbit (Geo.ofTag t T (.builtin c)) k) (fun i => (v[i]?).map cvt) := by
    unfold maskedStoreAny
    simp only []
    rw [if_neg (by simp [hq])]
    split
    · exact maskedStore_spec p cvt junk hg k hk (fun h => absurd h hp) v hv mem base hm'
    · split
      · rename_i h
        simp only [Bool.and_eq_true, decide_eq_true_eq, viaDecomposition, hq, Bool.not_false, if_true, Bool.not_eq_true', bne_eq_false_iff_eq] at h
        obtain ⟨hvs, hsize⟩ := h
        obtain ⟨hvb, hbs, hfb, hsb⟩ := piece_tag ht hU hvs ident ha'.1 b (hb hvs)
        obtain ⟨hug, hus, _⟩ := Tuple.ofTag_ok hU hvb hfb
        have hc16 : c ≤ 16 := by
          have h16 : vecSizeof t T ≤ 16 := by
            rcases Nat.lt_or_ge 8 T.size with h8 | h8
            · have : vecSizeof t T = T.size := by unfold vecSizeof; rw [if_neg (by omega)]
              have hd : c / T.size ≤ T.size / T.size := Nat.div_le_div_right (by omega)
              rw [Nat.div_self hsT] at hd; omega
            · unfold vecSizeof
              rw [if_pos h8]
              simp only [hbw, hff, ha2, havx, Bool.false_and, Bool.false_eq_true, if_false]
              repeat' split
              all_goals omega
          omega
        have hn : c / T.size ≤ (Xfer.of t U ident).max / U.size := by
          rw [hmax, ← hsize]; exact Nat.div_le_div_right hc16
        have hmin : Abi.size U b = c / T.size := by
          rw [hbs]; show min (c / T.size) _ = _; omega
        obtain ⟨d, rfl⟩ : ∃ d, b = .builtin d := by
          cases b with
          | scalar => exact absurd rfl hsb
          | fixed m => exact absurd rfl (hfb m)
          | builtin d => exact ⟨d, rfl⟩
          | btmsk d => rw [valid_btmsk (elem_pos hU)] at hvb; simp [Usable, hff] at hvb
        have hgeo : Geo.ofTag t U (.builtin d) = .vec (8 * U.size) (c / T.size) (fullSize t U (.builtin d)) := by
          simp only [Geo.ofTag, hmin]
        rw [hgeo] at hug ⊢
        exact maskedStoreConvert_lanes (Xfer.of t U ident) p hp cvt (cvt junk) hg hug hn v hv k hk mem base hm'
      · exact maskedStore_spec .iter cvt junk hg k hk (fun h => absurd h (by decide)) v hv mem base hm'
  obtain ⟨mem', e, hst⟩ := main
  refine ⟨mem', e, fun i hi hb' => ?_, fun x hx => ?_⟩
  · rw [hst, if_pos ⟨by omega, by omega, by rw [Nat.add_sub_cancel_left]; exact (mbit_iff hg k hk hi).1 hb'⟩,
      Nat.add_sub_cancel_left, List.getElem?_take_of_lt hi]
  · rw [hst, if_neg]
    rintro ⟨h1, h2, h3⟩
    exact hx ⟨x - base, by omega, (mbit_iff hg k hk (by omega)).2 h3, by omega⟩

-- non-vacuity: SSE2, three `float`s stored as `double`s: two pieces, of which the second is partly used
private def sse2T : Target := { sse := true, sse2 := true, x86_64 := true }
private def sse2Q : CvtFeat := ⟨true, false, false, false⟩
private def f32 : Elem := ⟨4, true⟩
private def f64 : Elem := ⟨8, true⟩
private def i8 : Elem := ⟨1, false⟩

example : sse2T.Consistent ∧ f32.Ok ∧ f64.Ok ∧ valid sse2T f32 (.builtin 12) = true ∧ Geo.ofTag sse2T f32 (.builtin 12) = .vec 32 3 4 ∧
    deduce sse2T f64 (min 3 ((Xfer.of sse2T f64 false).max / 8)) = some (.builtin 16) ∧
    Geo.ofTag sse2T f64 (.builtin 16) = .vec 64 2 2 ∧
    viaDecomposition sse2T sse2Q f32 f64 16 = false ∧
    MaskOk (.vec 32 3 4) ([-1#32, 0#32, -1#32, 0#32] : VMask 32) := by
  refine ⟨by constructor <;> decide, by decide, by decide, by decide, by decide, by decide, by decide, by decide, ⟨rfl, by simp⟩⟩
example : (maskedStoreAny sse2T sse2Q f32 f64 false .raw (fun x : Nat => x + 100) 0 (.vec 32 3 4) (.vec 64 2 2) [5, 6, 7, 8]
    (fun x => if x < 13 then some 0 else none) 10 ([-1#32, 0#32, -1#32, 0#32] : VMask 32)).map
      (fun m => (List.range 14).map m) =
    some [some 0, some 0, some 0, some 0, some 0, some 0, some 0, some 0, some 0, some 0, some 105, some 0, some 107, none] := by decide

-- AVX-512: 16 bytes stored as `double`s: two pieces of eight, the mask is cut by a shift
private def avx512T : Target :=
  { sse := true, sse2 := true, x86_64 := true, avx := true, avx2 := true, avx512f := true, avx512bw := true, avx512vl := true }
example : valid avx512T i8 (.btmsk 16) = true ∧ Geo.ofTag avx512T i8 (.btmsk 16) = .bitmask 16 16 ∧
    deduce avx512T f64 (min 16 ((Xfer.of avx512T f64 false).max / 8)) = some (.btmsk 64) ∧
    Geo.ofTag avx512T f64 (.btmsk 64) = .bitmask 8 8 := by decide
example : (maskedStoreAny avx512T ⟨true, true, true, true⟩ i8 f64 false .raw (fun x : Nat => x) 0 (.bitmask 16 16) (.bitmask 8 8)
    (List.range 16) (fun x => if x = 3 ∨ x = 8 ∨ x = 15 then some 99 else none) 0 (0b1000000100001000#16 : KMask 16)).map
      (fun m => (List.range 17).map m) =
    some [none, none, none, some 3, none, none, none, none, some 8, none, none, none, none, none, none, some 15, none] := by decide

-- AArch64: three `float`s stored as `int`s, with a set padding element in the mask: the fourth element of the array is not touched
private def neonT : Target := { neon := true, neonA32 := true, neonA64 := true, neonFloat := true, aarch64 := true }
example : neonT.Consistent ∧ valid neonT f32 (.builtin 12) = true ∧ Geo.ofTag neonT f32 (.builtin 12) = .vec 32 3 4 ∧
    deduce neonT ⟨4, false⟩ (min 3 ((Xfer.of neonT ⟨4, false⟩ false).max / 4)) = some (.builtin 12) := by
  refine ⟨by constructor <;> decide, by decide, by decide, by decide⟩
example : (maskedStoreAny neonT ⟨false, false, false, false⟩ f32 ⟨4, false⟩ false .elem (fun x : Nat => x + 100) 0 (.vec 32 3 4) (.vec 32 3 4)
    [5, 6, 7, 8] (fun x => if x < 3 then some 0 else none) 0 ([-1#32, 0#32, -1#32, -1#32] : VMask 32)).map
      (fun m => (List.range 5).map m) = some [some 105, some 0, some 107, none, none] := by decide

/-- C14, negation for converting stores, without AVX: `x`, `y` and `v` vectors of three `float`s; `where(x == y, v).copy_to(mem)` with `mem`
an array of three `double`s writes `mem[3]`, because the comparison sets the padding element of the mask and the second piece of the
converted register is stored with that element selected. -/
theorem C14_converting_store_out_of_bounds :
    ∃ k, Native.cmp (fun a b : Nat => a == b) (.vec 32 3 4) [1, 2, 3, 0] [1, 2, 9, 0] = some k ∧
      maskLanes (.vec 32 3 4) k = [true, true, false] ∧
      maskedStoreAny sse2T sse2Q f32 f64 false .raw (fun x : Nat => x) 0 (Geo.ofTag sse2T f32 (.builtin 12)) (Geo.ofTag sse2T f64 (.builtin 16))
        [5, 6, 7, 8] (fun a => if a < 3 then some 0 else none) 0 k = none ∧
      (maskedStoreAny sse2T sse2Q f32 f64 false .raw (fun x : Nat => x) 0 (Geo.ofTag sse2T f32 (.builtin 12)) (Geo.ofTag sse2T f64 (.builtin 16))
        [5, 6, 7, 8] (fun _ => some 0) 0 k).map (fun m => m 3) = some (some 8) :=
  ⟨_, rfl, by decide, by decide, by decide⟩

end StdSimd.Props
