import Verif.Proofs.X86FloatConvertTab
/-! # Table: integers to floating point, and between `float` and `double` -/
namespace StdSimd.X86FloatConvert

theorem tab_s8_f32 : tab ⟨false, true, 1⟩ f32 = true := by decide +kernel
theorem tab_s8_f64 : tab ⟨false, true, 1⟩ f64 = true := by decide +kernel
theorem tab_u8_f32 : tab ⟨false, false, 1⟩ f32 = true := by decide +kernel
theorem tab_u8_f64 : tab ⟨false, false, 1⟩ f64 = true := by decide +kernel
theorem tab_s16_f32 : tab ⟨false, true, 2⟩ f32 = true := by decide +kernel
theorem tab_s16_f64 : tab ⟨false, true, 2⟩ f64 = true := by decide +kernel
theorem tab_u16_f32 : tab ⟨false, false, 2⟩ f32 = true := by decide +kernel
theorem tab_u16_f64 : tab ⟨false, false, 2⟩ f64 = true := by decide +kernel
theorem tab_s32_f32 : tab ⟨false, true, 4⟩ f32 = true := by decide +kernel
theorem tab_s32_f64 : tab ⟨false, true, 4⟩ f64 = true := by decide +kernel
theorem tab_u32_f32 : tab ⟨false, false, 4⟩ f32 = true := by decide +kernel
theorem tab_u32_f64 : tab ⟨false, false, 4⟩ f64 = true := by decide +kernel
theorem tab_s64_f32 : tab ⟨false, true, 8⟩ f32 = true := by decide +kernel
theorem tab_s64_f64 : tab ⟨false, true, 8⟩ f64 = true := by decide +kernel
theorem tab_u64_f32 : tab ⟨false, false, 8⟩ f32 = true := by decide +kernel
theorem tab_u64_f64 : tab ⟨false, false, 8⟩ f64 = true := by decide +kernel
theorem tab_f32_f32 : tab f32 f32 = true := by decide +kernel
theorem tab_f32_f64 : tab f32 f64 = true := by decide +kernel
theorem tab_f64_f32 : tab f64 f32 = true := by decide +kernel
theorem tab_f64_f64 : tab f64 f64 = true := by decide +kernel

end StdSimd.X86FloatConvert
