import Verif.Model.X86FloatConvert
import Verif.Proofs.X86ConvertTab
/-! # Register conversions from and to floating point: all instantiations, executed symbolically -/
namespace StdSimd.X86FloatConvert
open Spec

/-- All consistent instruction sets. -/
def fts : List Ft :=
  X86Convert.fts.flatMap fun i => [false, true].flatMap fun a => [false, true].flatMap fun d => [false, true].flatMap fun m =>
    if (!i.avx2 || a) && (!a || i.sse41) && (!d || i.f) && (!m || a) then [⟨i, a, d, m⟩] else []

theorem mem_fts {ft : Ft} (h : ft.Consistent) : ft ∈ fts := by
  obtain ⟨i, a, d, m⟩ := ft
  obtain ⟨h0, h1, h2, h3, h4⟩ := h
  refine List.mem_flatMap.mpr ⟨i, X86Convert.mem_fts h0, List.mem_flatMap.mpr ⟨a, by cases a <;> simp, List.mem_flatMap.mpr
    ⟨d, by cases d <;> simp, List.mem_flatMap.mpr ⟨m, by cases m <;> simp, ?_⟩⟩⟩⟩
  rw [if_pos]
  · exact List.mem_singleton.mpr rfl
  · dsimp only at h1 h2 h3 h4
    revert h1 h2 h3 h4
    cases i.avx2 <;> cases a <;> cases i.sse41 <;> cases d <;> cases i.f <;> cases m <;> simp

/-- Conversions of at least eight 64-bit integers to `float` with AVX2 and without AVX512DQ. -/
def Inexact (ft : Ft) (T U : Ty) (bt bs k : Nat) : Prop :=
  T.fp = false ∧ T.size = 8 ∧ U = f32 ∧ ft.i.avx2 = true ∧ ft.dq = false ∧ 8 ≤ min (bt / U.size) (k * (bs / T.size))

instance (ft : Ft) (T U : Ty) (bt bs k : Nat) : Decidable (Inexact ft T U bt bs k) := inferInstanceAs (Decidable (_ ∧ _))

/-- `u32 → f64` by way of signed integers. -/
def viaSigned (t : Tm) : Tm := .add 8 (.ofInt true 4 8 (.xor 0x80000000 t)) (.lit 8 0x80000000)

/-- The terms for exact or correctly rounded conversions. -/
def good (ft : Ft) (T U : Ty) (t : Tm) : List Tm :=
  match T.fp, U.fp with
  | true, true => if T.size = U.size then [t] else [.fcvt T.size U.size t]
  | false, true =>
    if T.size ≤ 2 then [.ofInt true 4 U.size (.icast T.sgn T.size 4 t)]
    else .ofInt T.sgn T.size U.size t ::
      (if T.size = 8 then (if U.size = 8 then [i64Split T.sgn t] else [])
       else if T.sgn then [] else if U.size = 8 then (if ft.i.f then [] else [viaSigned t]) else [u32Split t])
  | true, false =>
    if U.size ≤ 2 then [.icast true 4 U.size (.scast T.size true 4 t), .icast true 4 U.size (.trunc T.size true 4 t)]
    else [.scast T.size U.sgn U.size t, .trunc T.size U.sgn U.size t] ++
      (if T.size = 8 ∧ U.size = 4 ∧ U.sgn = false then [.xor 0x80000000 (shifted t)] else [])
  | false, false => []

/-- The terms for conversions of 64-bit integers to `float` with more than one rounding. -/
def rounded (T : Ty) (t : Tm) : List Tm :=
  if T.sgn then [halves (.ofInt true 4 4) t, halves512 t, .fcvt 8 4 (i64Split true t)] else [halves u32Split t, u64Split t]

/-- Element `i` of the result is one of the wanted terms of element `i` of the arguments, for every `i` that exists. -/
def check (ft : Ft) (T U : Ty) (bt bs k : Nat) : Bool :=
  match convert ft T U bt bs k with
  | none => false
  | some r => (List.range (min (bt / U.size) (k * (bs / T.size)))).all fun i =>
    let a : Tm := .arg (i / (bs / T.size)) (i % (bs / T.size))
    let t := r.getD i .junk
    if Inexact ft T U bt bs k then decide (t ∈ rounded T a) else decide (t ∈ good ft T U a)

def tab (T U : Ty) : Bool :=
  fts.all fun ft => [2, 4, 8, 16, 32, 64].all fun bs => [2, 4, 8, 16, 32, 64].all fun bt =>
    [1, 2, 4, 8, 16].all fun k => !decide (Legal ft T U bt bs k) || check ft T U bt bs k

end StdSimd.X86FloatConvert
