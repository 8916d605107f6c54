import Verif.Proofs.X86FloatConvertTab
/-! # Table: `float` to integers -/
namespace StdSimd.X86FloatConvert

theorem tab_f32_s8 : tab f32 ⟨false, true, 1⟩ = true := by decide +kernel
theorem tab_f32_u8 : tab f32 ⟨false, false, 1⟩ = true := by decide +kernel
theorem tab_f32_s16 : tab f32 ⟨false, true, 2⟩ = true := by decide +kernel
theorem tab_f32_u16 : tab f32 ⟨false, false, 2⟩ = true := by decide +kernel
theorem tab_f32_s32 : tab f32 ⟨false, true, 4⟩ = true := by decide +kernel
theorem tab_f32_u32 : tab f32 ⟨false, false, 4⟩ = true := by decide +kernel
theorem tab_f32_s64 : tab f32 ⟨false, true, 8⟩ = true := by decide +kernel
theorem tab_f32_u64 : tab f32 ⟨false, false, 8⟩ = true := by decide +kernel

end StdSimd.X86FloatConvert
