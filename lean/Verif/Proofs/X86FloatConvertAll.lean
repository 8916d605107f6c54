import Verif.Proofs.X86FloatConvertTabA
import Verif.Proofs.X86FloatConvertTabB
import Verif.Proofs.X86FloatConvertTabC
/-! # Register conversions from and to floating point: every instantiation is as wanted -/
namespace StdSimd.X86FloatConvert
open Spec

theorem tab_all {T U : Ty} (hT : T.Supported) (hU : U.Supported) (h : T.fp = true ∨ U.fp = true) : tab T U = true := by
  obtain ⟨a, b, c⟩ := T
  obtain ⟨a', b', c'⟩ := U
  unfold NumType.Supported at hT hU
  dsimp only at hT hU h
  rcases hT with ⟨rfl, rfl, hc⟩ | ⟨rfl, hc⟩
  · rcases hU with ⟨rfl, rfl, hc'⟩ | ⟨rfl, hc'⟩
    · rcases hc with rfl | rfl <;> rcases hc' with rfl | rfl
      · exact tab_f32_f32
      · exact tab_f32_f64
      · exact tab_f64_f32
      · exact tab_f64_f64
    · rcases hc with rfl | rfl <;> cases b' <;> rcases hc' with rfl | rfl | rfl | rfl
      · exact tab_f32_u8
      · exact tab_f32_u16
      · exact tab_f32_u32
      · exact tab_f32_u64
      · exact tab_f32_s8
      · exact tab_f32_s16
      · exact tab_f32_s32
      · exact tab_f32_s64
      · exact tab_f64_u8
      · exact tab_f64_u16
      · exact tab_f64_u32
      · exact tab_f64_u64
      · exact tab_f64_s8
      · exact tab_f64_s16
      · exact tab_f64_s32
      · exact tab_f64_s64
  · rcases hU with ⟨rfl, rfl, hc'⟩ | ⟨rfl, hc'⟩
    · rcases hc' with rfl | rfl <;> cases b <;> rcases hc with rfl | rfl | rfl | rfl
      · exact tab_u8_f32
      · exact tab_u16_f32
      · exact tab_u32_f32
      · exact tab_u64_f32
      · exact tab_s8_f32
      · exact tab_s16_f32
      · exact tab_s32_f32
      · exact tab_s64_f32
      · exact tab_u8_f64
      · exact tab_u16_f64
      · exact tab_u32_f64
      · exact tab_u64_f64
      · exact tab_s8_f64
      · exact tab_s16_f64
      · exact tab_s32_f64
      · exact tab_s64_f64
    · simp at h

theorem check_all {ft : Ft} {T U : Ty} {bt bs k : Nat} (hf : ft.Consistent) (hT : T.Supported) (hU : U.Supported)
    (h : T.fp = true ∨ U.fp = true) (hbs : bs ∈ [2, 4, 8, 16, 32, 64]) (hbt : bt ∈ [2, 4, 8, 16, 32, 64]) (hk : k ∈ [1, 2, 4, 8, 16])
    (hl : Legal ft T U bt bs k) : check ft T U bt bs k = true := by
  have h := tab_all hT hU h
  unfold tab at h
  have h := List.all_eq_true.mp h ft (mem_fts hf)
  have h := List.all_eq_true.mp h bs hbs
  have h := List.all_eq_true.mp h bt hbt
  have h := List.all_eq_true.mp h k hk
  simpa [hl] using h

/-- The result exists, and its elements are computed by terms of the wanted form. -/
theorem lanes {ft : Ft} {T U : Ty} {bt bs k : Nat} (hf : ft.Consistent) (hT : T.Supported) (hU : U.Supported)
    (h : T.fp = true ∨ U.fp = true) (hbs : bs ∈ [2, 4, 8, 16, 32, 64]) (hbt : bt ∈ [2, 4, 8, 16, 32, 64]) (hk : k ∈ [1, 2, 4, 8, 16])
    (hl : Legal ft T U bt bs k) :
    ∃ r : Reg, convert ft T U bt bs k = some r ∧ r.length = bt / U.size ∧ ∀ i < min (bt / U.size) (k * (bs / T.size)),
      if Inexact ft T U bt bs k then r.getD i .junk ∈ rounded T (.arg (i / (bs / T.size)) (i % (bs / T.size)))
      else r.getD i .junk ∈ good ft T U (.arg (i / (bs / T.size)) (i % (bs / T.size))) := by
  have hc := check_all hf hT hU h hbs hbt hk hl
  unfold check at hc
  cases hr : convert ft T U bt bs k with
  | none => rw [hr] at hc; simp at hc
  | some r =>
    rw [hr] at hc
    refine ⟨r, rfl, ?_, fun i hi => ?_⟩
    · unfold convert at hr
      cases hv : conv ft 12 T U bt bs ((List.range k).map (fun a => (List.range (bs / T.size)).map (Tm.arg a))) with
      | none => rw [hv] at hr; simp at hr
      | some v =>
        rw [hv] at hr
        simp only [Option.bind_eq_bind, Option.bind_some] at hr
        split at hr
        · rename_i hlen; simp at hr; rw [← hr]; exact hlen
        · simp at hr
    · have := List.all_eq_true.mp hc i (List.mem_range.mpr hi)
      split
      · rename_i hx; simpa [hx] using this
      · rename_i hx; simpa [hx] using this

end StdSimd.X86FloatConvert
