import Verif.Proofs.X86Convert
/-! # Register conversions: all instantiations, executed symbolically -/
namespace StdSimd.X86Convert
open Spec

/-- All consistent instruction sets. -/
def fts : List Ft :=
  [⟨false, false, false, false, false, false⟩, ⟨true, false, false, false, false, false⟩, ⟨true, true, false, false, false, false⟩,
   ⟨true, true, true, false, false, false⟩, ⟨true, true, true, true, false, false⟩, ⟨true, true, true, true, true, false⟩,
   ⟨true, true, true, true, false, true⟩, ⟨true, true, true, true, true, true⟩]

theorem mem_fts {ft : Ft} (h : ft.Consistent) : ft ∈ fts := by
  obtain ⟨a, b, c, d, e, f⟩ := ft
  revert h
  unfold Ft.Consistent
  revert a b c d e f
  decide

/-- The instantiations that do not compile: 16 elements from 2 bytes to 1 byte with AVX512BW and without AVX512VL (`__lo256`,
simd_x86_conversions.h:445-447), and two bytes to 64 (`__zero_extend` has no factor 32, simd.h:2030-2031). -/
def IllFormed (c : Cfg) (bt bs k : Nat) : Prop :=
  (c.s = 2 ∧ c.d = 1 ∧ c.ft.bw = true ∧ c.ft.vl = false ∧ min (bt / c.d) (k * (bs / c.s)) = 16)
    ∨ (c.s = 1 ∧ c.d = 1 ∧ bs = 2 ∧ bt = 64 ∧ k = 1)

instance (c : Cfg) (bt bs k : Nat) : Decidable (IllFormed c bt bs k) := inferInstanceAs (Decidable (_ ∨ _))

def check (c : Cfg) (bt bs k : Nat) : Bool :=
  match convert c bt bs k with
  | none => decide (IllFormed c bt bs k)
  | some e => !decide (IllFormed c bt bs k) && good c bs 0 (min (bt / c.d) (k * (bs / c.s)) * c.d) e

def tab (s d : Nat) : Bool :=
  fts.all fun ft => [false, true].all fun sgn => [2, 4, 8, 16, 32, 64].all fun bs => [2, 4, 8, 16, 32, 64].all fun bt =>
    [1, 2, 4, 8, 16].all fun k => !decide (Legal ⟨ft, sgn, s, d⟩ bt bs k) || check ⟨ft, sgn, s, d⟩ bt bs k

theorem tab11 : tab 1 1 = true := by decide +kernel
theorem tab12 : tab 1 2 = true := by decide +kernel
theorem tab14 : tab 1 4 = true := by decide +kernel
theorem tab18 : tab 1 8 = true := by decide +kernel
theorem tab21 : tab 2 1 = true := by decide +kernel
theorem tab22 : tab 2 2 = true := by decide +kernel
theorem tab24 : tab 2 4 = true := by decide +kernel
theorem tab28 : tab 2 8 = true := by decide +kernel
theorem tab41 : tab 4 1 = true := by decide +kernel
theorem tab42 : tab 4 2 = true := by decide +kernel
theorem tab44 : tab 4 4 = true := by decide +kernel
theorem tab48 : tab 4 8 = true := by decide +kernel
theorem tab81 : tab 8 1 = true := by decide +kernel
theorem tab82 : tab 8 2 = true := by decide +kernel
theorem tab84 : tab 8 4 = true := by decide +kernel
theorem tab88 : tab 8 8 = true := by decide +kernel

theorem tab_all {s d : Nat} (hs : s ∈ [1, 2, 4, 8]) (hd : d ∈ [1, 2, 4, 8]) : tab s d = true := by
  simp only [List.mem_cons, List.not_mem_nil, or_false] at hs hd
  rcases hs with rfl | rfl | rfl | rfl <;> rcases hd with rfl | rfl | rfl | rfl
  · exact tab11
  · exact tab12
  · exact tab14
  · exact tab18
  · exact tab21
  · exact tab22
  · exact tab24
  · exact tab28
  · exact tab41
  · exact tab42
  · exact tab44
  · exact tab48
  · exact tab81
  · exact tab82
  · exact tab84
  · exact tab88

/-- Every instantiation is as wanted. -/
theorem check_all {c : Cfg} {bt bs k : Nat} (hf : c.ft.Consistent) (hs : c.s ∈ [1, 2, 4, 8]) (hd : c.d ∈ [1, 2, 4, 8])
    (hbs : bs ∈ [2, 4, 8, 16, 32, 64]) (hbt : bt ∈ [2, 4, 8, 16, 32, 64]) (hk : k ∈ [1, 2, 4, 8, 16]) (hl : Legal c bt bs k) :
    check c bt bs k = true := by
  obtain ⟨ft, sgn, s, d⟩ := c
  have h := tab_all hs hd
  unfold tab at h
  have h := List.all_eq_true.mp h ft (mem_fts hf)
  have h := List.all_eq_true.mp h sgn (by cases sgn <;> simp)
  have h := List.all_eq_true.mp h bs hbs
  have h := List.all_eq_true.mp h bt hbt
  have h := List.all_eq_true.mp h k hk
  simpa [hl] using h

/-! ## `__convert_all` with SSE2 -/

/-- SSE2 and nothing else. -/
def sse2 : Ft := ⟨false, false, false, false, false, false⟩

/-- All parts exist, have 16 bytes, and as many bytes of them as there are elements are as wanted. -/
def checkAll (sgn : Bool) (s d n nparts : Nat) : Bool :=
  match convertAll sgn 5 s d n (ceil16 (n * s)) nparts (.arg 0 (ceil16 (n * s))) with
  | none => false
  | some l =>
    (l.length == if nparts = 0 then n / (16 / d) else nparts)
      && (List.range l.length).all (fun (p : Nat) =>
        match l[p]? with
        | none => false
        | some e => decide (e.size = some 16) && good ⟨sse2, sgn, s, d⟩ (ceil16 (n * s)) (p * (16 / d)) (min (16 / d) (n - p * (16 / d)) * d) e)

theorem checkAll_all : ∀ s ∈ [1, 2, 4], ∀ d ∈ [2, 4, 8], s < d → ∀ sgn, ∀ n ∈ List.range 17, 2 ≤ n → n * s ≤ 16 →
    ∀ nparts ∈ [0, (n + 16 / d - 1) / (16 / d)], checkAll sgn s d n nparts = true := by
  decide +kernel

end StdSimd.X86Convert
