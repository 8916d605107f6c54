import Verif.Proofs.X86ConvertTab
import Verif.Proofs.X86ConvertVal
import Verif.Model.Convert
/-!
# C46: conversions between integer types in x86 registers are `static_cast` of every element

For all contents of the registers (and of the bytes nobody specifies), all sizes and signs of the element types, all register sizes, all
numbers of registers and all instruction sets from SSE2 to AVX-512.  The finite set of instantiations is handled by symbolic execution of the
generated programs; the symbolic execution is proved sound for all contents.
-/
namespace StdSimd.Props
open Spec X86Convert

/-- Whenever `__convert_x86<_To>(v0, ..., v{k-1})` compiles, element `i` of the result is `static_cast` of element `i` of the arguments (that is
element `i % n` of argument `i / n` if an argument has `n` elements), for every element that has a place in the result. -/
theorem C46_int_conversion {c : Cfg} {bt bs k : Nat} (hf : c.ft.Consistent) (hs : c.s ∈ [1, 2, 4, 8]) (hd : c.d ∈ [1, 2, 4, 8])
    (hbs : bs ∈ [2, 4, 8, 16, 32, 64]) (hbt : bt ∈ [2, 4, 8, 16, 32, 64]) (hk : k ∈ [1, 2, 4, 8, 16]) (hl : Legal c bt bs k)
    {e : Expr} (he : convert c bt bs k = some e) (args : Nat → Nat → BitVec 8) (junk : Nat → BitVec 8)
    {i : Nat} (hi : i < min (bt / c.d) (k * (bs / c.s))) :
    elemBits c.d (e.eval (bytes junk) args) i
      = castBits c.d (intValue c.sgn c.s (elemBits c.s (args (i / (bs / c.s))) (i % (bs / c.s)))) := by
  have h := check_all hf hs hd hbs hbt hk hl
  unfold check at h
  rw [he] at h
  dsimp only at h
  have hg := (Bool.and_eq_true_iff.mp h).2
  have h2 : c.s ≤ bs := by
    rcases hl.1 with h | h
    · have := h.1; omega
    · have : c.s ≤ 8 := by
        simp only [List.mem_cons, List.not_mem_nil, or_false] at hs; omega
      omega
  have hs1 : 1 ≤ c.s := by simp only [List.mem_cons, List.not_mem_nil, or_false] at hs; omega
  have hd1 : 1 ≤ c.d := by simp only [List.mem_cons, List.not_mem_nil, or_false] at hd; omega
  have hdiv : bs = bs / c.s * c.s := by
    simp only [List.mem_cons, List.not_mem_nil, or_false] at hs hbs
    rcases hs with h | h | h | h <;> rw [h] at h2 ⊢ <;> omega
  have := good_elem hs1 hd1 hdiv (Nat.div_pos h2 hs1) hg args junk hi
  rwa [Nat.zero_add] at this

/-- Which instantiations compile: all but the two exceptions below.  (Finding: with AVX512BW and without AVX512VL no 16 elements of 16 bits can be
converted to 8 bits.) -/
theorem C46_compiles {c : Cfg} {bt bs k : Nat} (hf : c.ft.Consistent) (hs : c.s ∈ [1, 2, 4, 8]) (hd : c.d ∈ [1, 2, 4, 8])
    (hbs : bs ∈ [2, 4, 8, 16, 32, 64]) (hbt : bt ∈ [2, 4, 8, 16, 32, 64]) (hk : k ∈ [1, 2, 4, 8, 16]) (hl : Legal c bt bs k) :
    (convert c bt bs k).isSome = true ↔
      ¬ ((c.s = 2 ∧ c.d = 1 ∧ c.ft.bw = true ∧ c.ft.vl = false ∧ min (bt / c.d) (k * (bs / c.s)) = 16)
        ∨ (c.s = 1 ∧ c.d = 1 ∧ bs = 2 ∧ bt = 64 ∧ k = 1)) := by
  have h := check_all hf hs hd hbs hbt hk hl
  unfold check at h
  show _ ↔ ¬ IllFormed c bt bs k
  cases he : convert c bt bs k with
  | none => rw [he] at h; simpa using h
  | some e =>
    rw [he] at h
    dsimp only at h
    have := (Bool.and_eq_true_iff.mp h).1
    simpa using this

/-- What conversions between `simd` types (C21) assume about `__convert_x86`: the elements of the register it returns are those of the
element-level model, for some contents of the unspecified elements. -/
theorem C46_refines_elements {c : Cfg} {bt bs k : Nat} (hf : c.ft.Consistent) (hs : c.s ∈ [1, 2, 4, 8]) (hd : c.d ∈ [1, 2, 4, 8])
    (hbs : bs ∈ [2, 4, 8, 16, 32, 64]) (hbt : bt ∈ [2, 4, 8, 16, 32, 64]) (hk : k ∈ [1, 2, 4, 8, 16]) (hl : Legal c bt bs k)
    {e : Expr} (he : convert c bt bs k = some e) (args : Nat → Nat → BitVec 8) (junk : Nat → BitVec 8) :
    Convert.convertX86 (α := Nat) (β := Nat)
        ⟨fun n => castBits c.d (intValue c.sgn c.s n), 0, 0, fun _ => 0, elemBits c.d (e.eval (bytes junk) args), fun _ => true⟩
        (bt / c.d) (bs / c.s)
        ((List.range k).map (fun (a : Nat) => (List.range (bs / c.s)).map (fun (i : Nat) => elemBits c.s (args a) i)))
      = some ((List.range (bt / c.d)).map (fun (i : Nat) => elemBits c.d (e.eval (bytes junk) args) i)) := by
  have hv := fun (i : Nat) (hi : i < min (bt / c.d) (k * (bs / c.s))) => C46_int_conversion hf hs hd hbs hbt hk hl he args junk hi
  have hl3 := hl.2.2
  generalize hM : bt / c.d = M at *
  generalize hN : bs / c.s = N at *
  have hcat : ∀ (xs : List (List Nat)), (∀ (i : Nat), i < k * N → i < M → xs.flatten[i]? = some (elemBits c.s (args (i / N)) (i % N))) →
      xs.flatten.length = k * N → Convert.pad (elemBits c.d (e.eval (bytes junk) args)) M
        ((xs.flatten.map (fun n => castBits c.d (intValue c.sgn c.s n))))
        = (List.range M).map (fun (i : Nat) => elemBits c.d (e.eval (bytes junk) args) i) := by
    intro xs hx hlen
    unfold Convert.pad
    refine List.map_congr_left (fun i hi => ?_)
    have hi := List.mem_range.mp hi
    rw [List.getElem?_map]
    by_cases h : i < k * N
    · rw [hx i h hi, hv i (by omega)]; rfl
    · rw [List.getElem?_eq_none (by omega)]; rfl
  have hflat : ∀ (k i : Nat), i < k * N →
      ((List.range k).map (fun (a : Nat) => (List.range N).map (fun (i : Nat) => elemBits c.s (args a) i))).flatten[i]?
        = some (elemBits c.s (args (i / N)) (i % N)) := by
    intro k
    induction k with
    | zero => intro i hi; omega
    | succ k ih =>
      intro i hi
      rw [List.range_succ, List.map_append, List.flatten_append]
      have hlen : ((List.range k).map (fun (a : Nat) => (List.range N).map (fun (i : Nat) => elemBits c.s (args a) i))).flatten.length
          = k * N := by
        rw [List.length_flatten, List.map_map]
        have : (List.length ∘ fun (a : Nat) => (List.range N).map (fun (i : Nat) => elemBits c.s (args a) i)) = fun _ => N := by
          funext a; simp
        rw [this, List.map_const', List.sum_replicate_nat, List.length_range]
      rcases Nat.lt_or_ge i (k * N) with h | h
      · rw [List.getElem?_append_left (by omega), ih i h]
      · rw [List.getElem?_append_right (by omega), hlen]
        have hlt : i - k * N < N := by rw [Nat.succ_mul] at hi; omega
        have e : i = N * k + (i - k * N) := by rw [Nat.mul_comm N k]; omega
        have e1 : i / N = k := by rw [e, Nat.mul_add_div (by omega), Nat.div_eq_of_lt hlt, Nat.add_zero]
        have e2 : i % N = i - k * N := by
          conv => lhs; rw [e]
          rw [Nat.mul_add_mod, Nat.mod_eq_of_lt hlt]
        simp [hlt, e1, e2]
  have hlen : ((List.range k).map (fun (a : Nat) => (List.range N).map (fun (i : Nat) => elemBits c.s (args a) i))).flatten.length
      = k * N := by
    rw [List.length_flatten, List.map_map]
    have : (List.length ∘ fun (a : Nat) => (List.range N).map (fun (i : Nat) => elemBits c.s (args a) i)) = fun _ => N := by
      funext a; simp
    rw [this, List.map_const', List.sum_replicate_nat, List.length_range]
  by_cases h1 : k = 1
  · subst h1
    unfold Convert.convertX86
    simp only [List.range_one, List.map_cons, List.map_nil, List.length_map, List.length_range, if_true]
    congr 1
    have := hv
    unfold Convert.pad
    refine List.map_congr_left (fun i hi => ?_)
    have hi := List.mem_range.mp hi
    rw [List.getElem?_map, List.getElem?_take]
    by_cases h : i < min M N
    · rw [if_pos h, hv i (by omega)]
      have : i < N := by omega
      simp [this, Nat.div_eq_of_lt this, Nat.mod_eq_of_lt this]
    · rw [if_neg h]; rfl
  · have hfit : k * N ≤ M := by rcases hl3 with h | h; exact absurd h h1; exact h
    have hk' : k ∈ [2, 4, 8, 16] := by
      simp only [List.mem_cons, List.not_mem_nil, or_false] at hk ⊢; omega
    unfold Convert.convertX86
    split
    · rename_i x hx
      have := congrArg List.length hx
      simp at this; omega
    · rw [if_pos]
      · congr 1
        exact hcat _ (fun i hi _ => hflat k i hi) hlen
      · refine ⟨by simpa using hk', by simpa using hfit, fun x hx => ?_⟩
        obtain ⟨a, -, rfl⟩ := List.mem_map.mp hx
        simp

/-- Without SSE4.1, conversions to wider elements make several registers of 16 bytes at once: element `j` of register `p` is
`static_cast` of element `p * (16 / d) + j`, for all elements of the argument that the requested number of registers covers. -/
theorem C46_convert_all_sse2 {sgn : Bool} {s d n nparts : Nat} (hs : s ∈ [1, 2, 4]) (hd : d ∈ [2, 4, 8]) (hsd : s < d) (hn : 2 ≤ n)
    (hns : n * s ≤ 16) (hp : nparts = 0 ∨ nparts = (n + 16 / d - 1) / (16 / d)) :
    ∃ rs, convertAll sgn 5 s d n (ceil16 (n * s)) nparts (.arg 0 (ceil16 (n * s))) = some rs
      ∧ rs.length = (if nparts = 0 then n / (16 / d) else nparts)
      ∧ ∀ (args : Nat → Nat → BitVec 8) (junk : Nat → BitVec 8) (p j : Nat), j < 16 / d → p * (16 / d) + j < n → p < rs.length →
        ∃ r, rs[p]? = some r ∧ r.size = some 16
          ∧ elemBits d (r.eval (bytes junk) args) j = castBits d (intValue sgn s (elemBits s (args 0) (p * (16 / d) + j))) := by
  have hs1 : 1 ≤ s := by simp only [List.mem_cons, List.not_mem_nil, or_false] at hs; omega
  have hd1 : 1 ≤ d := by omega
  have hns' : n ≤ n * s := Nat.le_mul_of_pos_right n hs1
  have h := checkAll_all s hs d hd hsd sgn n (List.mem_range.mpr (by omega)) hn hns nparts (by simpa using hp)
  unfold checkAll at h
  split at h
  · exact absurd h (by simp)
  · rename_i l hl
    have h' := Bool.and_eq_true_iff.mp h
    refine ⟨l, hl, by simpa using h'.1, fun args junk p j hj hpj hpl => ?_⟩
    have hx := List.all_eq_true.mp h'.2 p (List.mem_range.mpr hpl)
    split at hx
    · exact absurd hx (by simp)
    · rename_i r hr
      have hx' := Bool.and_eq_true_iff.mp hx
      refine ⟨r, hr, by simpa using hx'.1, ?_⟩
      have hceil := ceil16_spec s hs n (List.mem_range.mpr (by omega)) hn hns
      have hg := good_elem (c := ⟨sse2, sgn, s, d⟩) hs1 hd1 hceil.2.1 hceil.2.2 hx'.2 args junk (i := j) (by omega)
      have hlt : p * (16 / d) + j < ceil16 (n * s) / s :=
        Nat.lt_of_lt_of_le hpj ((Nat.le_div_iff_mul_le hs1).mpr hceil.1)
      rw [Nat.div_eq_of_lt hlt, Nat.mod_eq_of_lt hlt] at hg
      exact hg

/-! ## The hypotheses are met -/

private abbrev avx2 : Ft := ⟨true, true, true, false, false, false⟩
private abbrev bwNoVl : Ft := ⟨true, true, true, true, false, true⟩

/-- Two registers of four `long long` to one of eight `short`, AVX2. -/
example : avx2.Consistent ∧ Legal ⟨avx2, true, 8, 2⟩ 16 32 2 ∧ (convert ⟨avx2, true, 8, 2⟩ 16 32 2).isSome = true := by
  unfold Ft.Consistent; decide +kernel

/-- Eight registers of two `long long` to one of 16 `signed char`, SSE2. -/
example : sse2.Consistent ∧ Legal ⟨sse2, true, 8, 1⟩ 16 16 8 ∧ (convert ⟨sse2, true, 8, 1⟩ 16 16 8).isSome = true := by
  unfold Ft.Consistent; decide +kernel

/-- The values: -2 as `signed char` becomes 0xfffffffe, 0xfe as `unsigned char` becomes 254, 0x12345678 becomes 0x78. -/
example : castBits 4 (intValue true 1 0xfe) = 0xfffffffe ∧ castBits 4 (intValue false 1 0xfe) = 254
    ∧ castBits 1 (intValue true 4 0x12345678) = 0x78 := by decide

/-- The finding: 16 `short` in one register of 32 bytes to 16 `signed char`. -/
theorem C46_bw_without_vl_ill_formed : bwNoVl.Consistent ∧ Legal ⟨bwNoVl, true, 2, 1⟩ 16 32 1 ∧ convert ⟨bwNoVl, true, 2, 1⟩ 16 32 1 = none := by
  unfold Ft.Consistent
  refine ⟨by decide, by decide, ?_⟩
  have : (convert ⟨bwNoVl, true, 2, 1⟩ 16 32 1).isSome = false := by decide +kernel
  simpa using this

/-- Sixteen `unsigned char` become eight registers of `unsigned long long`. -/
example : (convertAll false 5 1 8 16 16 0 (.arg 0 16)).map List.length = some 8 := by decide +kernel

end StdSimd.Props
