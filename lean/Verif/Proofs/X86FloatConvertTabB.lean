import Verif.Proofs.X86FloatConvertTab
/-! # Table: `double` to integers -/
namespace StdSimd.X86FloatConvert

theorem tab_f64_s8 : tab f64 ⟨false, true, 1⟩ = true := by decide +kernel
theorem tab_f64_u8 : tab f64 ⟨false, false, 1⟩ = true := by decide +kernel
theorem tab_f64_s16 : tab f64 ⟨false, true, 2⟩ = true := by decide +kernel
theorem tab_f64_u16 : tab f64 ⟨false, false, 2⟩ = true := by decide +kernel
theorem tab_f64_s32 : tab f64 ⟨false, true, 4⟩ = true := by decide +kernel
theorem tab_f64_u32 : tab f64 ⟨false, false, 4⟩ = true := by decide +kernel
theorem tab_f64_s64 : tab f64 ⟨false, true, 8⟩ = true := by decide +kernel
theorem tab_f64_u64 : tab f64 ⟨false, false, 8⟩ = true := by decide +kernel

end StdSimd.X86FloatConvert
