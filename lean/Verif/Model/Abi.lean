import Verif.Model.BitMask
/-!
# Model of ABI tags, their validity and their selection

experimental/bits/simd.h: `__vectorized_sizeof`, `native`, `compatible`, `__vector_type_n`,
`__find_next_valid_abi`, `_AbiList`, `__deduce_impl`; experimental/bits/simd_builtin.h: `_VecBuiltin`,
`_VecBltnBtmsk`; experimental/bits/simd_fixed_size.h: `__fixed_size_storage_builder`, `_Fixed`.
-/
namespace StdSimd.Abi

/-- The preprocessor-selected constants the ABI machinery looks at (simd.h:467-528, simd_detail.h:52-195):
one Boolean per `__have_*` constant used below plus the architecture macros `__i386__`, `__x86_64__`,
`__aarch64__`, `__ARM_NEON`. -/
structure Target where
  sse : Bool := false
  sse2 : Bool := false
  avx : Bool := false
  avx2 : Bool := false
  avx512f : Bool := false
  avx512bw : Bool := false
  avx512vl : Bool := false
  vmx : Bool := false
  vsx : Bool := false
  power8 : Bool := false
  neon : Bool := false
  neonA32 : Bool := false
  neonA64 : Bool := false
  neonFloat : Bool := false
  i386 : Bool := false
  x86_64 : Bool := false
  aarch64 : Bool := false
  deriving DecidableEq

/-- Implications between the feature macros that every compiler guarantees (`-mavx512bw` implies
`-mavx512f`, ...; `__x86_64__` implies SSE2 by simd_detail.h:73-82; AArch64 implies NEON).  Environment
assumption, listed in DESIGN.md. -/
structure Target.Consistent (t : Target) : Prop where
  bw : t.avx512bw = true → t.avx512f = true
  vl : t.avx512vl = true → t.avx512f = true
  f : t.avx512f = true → t.avx2 = true
  avx2 : t.avx2 = true → t.avx = true
  avx : t.avx = true → t.sse2 = true
  sse2 : t.sse2 = true → t.sse = true
  x64 : t.x86_64 = true → t.sse2 = true
  a64 : t.aarch64 = true → t.neonA64 = true
  a64neon : t.neonA64 = true → t.neonA32 = true
  a32neon : t.neonA32 = true → t.neon = true

/-- A vectorizable arithmetic type: its size in bytes and whether it is a floating-point type
(`__is_vectorizable`, simd.h:335-342; `bool` is excluded). -/
structure Elem where
  size : Nat
  fp : Bool
  deriving DecidableEq

/-- The sizes arithmetic types have on the supported targets: 1, 2, 4, 8, and `long double` (12 or 16). -/
def Elem.Ok (T : Elem) : Prop := T.size ∈ [1, 2, 4, 8, 12, 16]

instance (T : Elem) : Decidable T.Ok := inferInstanceAs (Decidable (T.size ∈ _))

/-- `__vectorized_sizeof<_Tp>()` (simd.h:2574-2623). -/
def vecSizeof (t : Target) (T : Elem) : Nat :=
  if T.size ≤ 8 then
    if t.avx512bw then 64
    else if t.avx512f && decide (T.size ≥ 4) then 64
    else if t.avx2 then 32
    else if t.avx && T.fp then 32
    else if t.sse2 then 16
    else if t.sse && (T.fp && T.size == 4) then 16
    else if t.power8 || (t.vmx && decide (T.size < 8)) || (t.vsx && T.fp) then 16
    else if t.neonA64 || (t.neonA32 && !(T.fp && T.size == 8)) then 16
    else if t.neon && decide (T.size < 8) && (t.neonFloat || !T.fp) then 16
    else T.size
  else T.size

/-- ABI tags: `_VecBltnBtmsk<bytes>`, `_VecBuiltin<bytes>`, `scalar`, `fixed_size<N>`. -/
inductive Tag where
  | btmsk (bytes : Nat)
  | builtin (bytes : Nat)
  | scalar
  | fixed (n : Nat)
  deriving DecidableEq

/-- `sizeof(__vector_type_t<_Tp, _Np>)` for `_Np ≥ 2` (simd.h:1354-1370), including the i386 exception that
8-byte vectors are widened to 16 bytes. -/
def vecBytes (t : Target) (s n : Nat) : Nat :=
  let np2 := bitCeil (n * s)
  if t.i386 && np2 == 8 then 16 else if np2 < 2 * s then 2 * s else np2

/-- `simd_abi::max_fixed_size<_Tp>` (simd.h:2628-2630). -/
def maxFixedSize (t : Target) (T : Elem) : Nat := if t.avx512bw && T.size == 1 then 64 else 32

/-- `_S_is_valid_v<_Tp>`: `_VecBltnBtmsk` (simd_builtin.h:1069-1089), `_VecBuiltin`
(simd_builtin.h:935-949), scalar (simd_scalar.h:69-78), `_Fixed` (simd_fixed_size.h:1170-1182). -/
def valid (t : Target) (T : Elem) : Tag → Bool
  | .btmsk b => decide (b > 1) && t.avx512f && (t.avx512bw || decide (T.size ≥ 4))
      && decide (vecSizeof t T > T.size)
      && (decide (b / T.size > 1) && decide (b % T.size = 0) && decide (b ≤ 64)
        && (decide (b > 32) || t.avx512vl))
  | .builtin b => decide (b > 1)
      && (decide (b / T.size > 1) && decide (b % T.size = 0) && decide (b ≤ vecSizeof t T)
        && (!t.avx512f || decide (b ≤ 32)))
  | .scalar => true
  | .fixed n => decide (n > 0) && decide (n ≤ maxFixedSize t T)

/-- `_S_size<_Tp>` (simd_builtin.h:932-933, 1067-1068; simd_scalar.h:60-61; simd_fixed_size.h:1167). -/
def size (T : Elem) : Tag → Nat
  | .btmsk b => b / T.size
  | .builtin b => b / T.size
  | .scalar => 1
  | .fixed n => n

/-- `_S_full_size<_Tp>` (via `_GnuTraits`/`_InvalidTraits`/`_SimdWrapper`: simd_builtin.h:819, simd.h:706,
2466-2467; scalar: simd_scalar.h:63-64, simd.h:4128). -/
def fullSize (t : Target) (T : Elem) : Tag → Nat
  | .scalar => 1
  | .fixed n => n
  | a => if valid t T a then vecBytes t T.size (size T a) / T.size else 0

/-- `_S_is_partial<_Tp>` (simd_builtin.h:820, simd.h:707, 2469, 4130). -/
def isPartial (t : Target) (T : Elem) : Tag → Bool
  | .scalar => false
  | .fixed _ => false
  | a => if valid t T a then fullSize t T a != size T a else false

/-- Half of the next power of two is smaller: the recursion of `__find_next_valid_abi` makes progress. -/
theorem bitCeil_half_lt {b : Nat} (h : 1 ≤ b) : bitCeil b / 2 < b := by
  unfold bitCeil
  split
  · omega
  · have : 2 ^ (b - 1).log2 ≤ b - 1 := Nat.log2_self_le (by omega)
    rw [Nat.pow_succ, Nat.mul_div_cancel _ (by omega)]; omega

/-- `__find_next_valid_abi<_Abi, _Bytes, _Tp>::_S_choose()` (simd.h:4152-4171); `mk` is the ABI template.
Element size 0 (impossible) ends the recursion. -/
def findNext (t : Target) (T : Elem) (mk : Nat → Tag) (bytes : Nat) : Tag :=
  let next := bitCeil bytes / 2
  if _h : next < T.size * 2 ∨ T.size = 0 then mk bytes
  else if isPartial t T (mk next) == false && valid t T (mk next) then mk next
  else findNext t T mk next
  termination_by bytes
  decreasing_by
    apply bitCeil_half_lt
    rcases Nat.eq_zero_or_pos bytes with h0 | h0
    · subst h0
      have : bitCeil 0 / 2 = 0 := by decide
      omega
    · exact h0

/-- One level of `_AbiList<_A0, _Rest...>::_S_determine_best_abi` (simd.h:4199-4227) for a vector ABI
template `mk`, with the choice of the remaining list as parameter. -/
def bestWith (t : Target) (T : Elem) (n : Nat) (mk : Nat → Tag) (rest : Tag) : Tag :=
  let bytes := T.size * n
  if n = 1 then .scalar
  else if valid t T (mk bytes) && decide (fullSize t T (mk bytes) / 2 < n) then mk bytes
  else
    let b := findNext t T mk bytes
    if valid t T b && decide (size T b ≤ n) then b else rest

/-- `_AllNativeAbis::_BestAbi<_Tp, _Np>` (simd.h:4199-4239): the list is `_VecBltnBtmsk`, `_VecBuiltin`,
`__scalar_abi_wrapper`; for the latter the next valid ABI is `scalar` (simd.h:4173-4175), which is valid and
has size `1 ≤ _Np`; if `sizeof(_Tp) == _Bytes` it decays to `scalar` too. -/
def bestAbi (t : Target) (T : Elem) (n : Nat) : Tag :=
  bestWith t T n .btmsk (bestWith t T n .builtin .scalar)

/-- Sizes of chosen ABIs never exceed the request and are positive, which is what lets
`__fixed_size_storage_builder` terminate. -/
theorem size_bestWith (t : Target) (T : Elem) (n : Nat) (h1 : 1 ≤ n) (mk : Nat → Tag)
    (hmk : ∀ b, size T (mk b) = b / T.size) (hv : ∀ b, valid t T (mk b) = true → 1 < b / T.size)
    (hfn : ∀ b, ∃ b', findNext t T mk b = mk b') (rest : Tag)
    (hr : 1 ≤ size T rest ∧ size T rest ≤ n) :
    1 ≤ size T (bestWith t T n mk rest) ∧ size T (bestWith t T n mk rest) ≤ n := by
  unfold bestWith
  split
  · simp [size]; exact h1
  · simp only []
    split
    · rename_i h
      rw [Bool.and_eq_true] at h
      have h1 := hv _ h.1
      rw [hmk]
      refine ⟨by omega, ?_⟩
      rcases Nat.eq_zero_or_pos T.size with h0 | h0
      · rw [h0]; simp
      · rw [Nat.mul_div_cancel_left _ h0]; omega
    · split
      · rename_i h
        simp only [Bool.and_eq_true, decide_eq_true_eq] at h
        obtain ⟨b', hb'⟩ := hfn (T.size * n)
        rw [hb'] at h ⊢
        have h1 := hv _ h.1
        exact ⟨by rw [hmk]; omega, h.2⟩
      · exact hr

theorem findNext_mk (t : Target) (T : Elem) (mk : Nat → Tag) (b : Nat) : ∃ b', findNext t T mk b = mk b' := by
  fun_induction findNext t T mk b with
  | case1 b => exact ⟨b, rfl⟩
  | case2 b => exact ⟨_, rfl⟩
  | case3 b _ _ _ ih => exact ih

theorem valid_gt (t : Target) (T : Elem) :
    (∀ b, valid t T (.btmsk b) = true → 1 < b / T.size) ∧ (∀ b, valid t T (.builtin b) = true → 1 < b / T.size) := by
  constructor
  · intro b h; simp [valid] at h; omega
  · intro b h; simp [valid] at h; omega

theorem size_bestAbi (t : Target) (T : Elem) (n : Nat) (h1 : 1 ≤ n) :
    1 ≤ size T (bestAbi t T n) ∧ size T (bestAbi t T n) ≤ n := by
  unfold bestAbi
  apply size_bestWith _ _ _ h1 _ (fun _ => rfl) (valid_gt t T).1 (findNext_mk t T _)
  apply size_bestWith _ _ _ h1 _ (fun _ => rfl) (valid_gt t T).2 (findNext_mk t T _)
  simp [size]; exact h1

/-- `__fixed_size_storage_builder<_Tp, _Np, _SimdTuple<_Tp>>::type` (simd_fixed_size.h:1008-1029): the ABI
list of the `_SimdTuple` that stores `_Np` elements. -/
def storage (t : Target) (T : Elem) (n : Nat) : List Tag :=
  if h : n = 0 then []
  else
    let next := bestAbi t T n
    next :: storage t T (n - size T next)
  termination_by n
  decreasing_by have := size_bestAbi t T n (by omega); omega

/-- `_AllNativeAbis::_S_has_valid_abi`, `_FirstValidAbi` (simd.h:4187-4197): first of `_VecBltnBtmsk<s*N>`,
`_VecBuiltin<s*N>`, `scalar` (if `sizeof(_Tp) == s*N`) that is valid. -/
def firstValidAbi (t : Target) (T : Elem) (n : Nat) : Option Tag :=
  if valid t T (.btmsk (T.size * n)) then some (.btmsk (T.size * n))
  else if valid t T (.builtin (T.size * n)) then some (.builtin (T.size * n))
  else if T.size = T.size * n then some .scalar
  else none

/-- `simd_abi::deduce_t<_Tp, _Np>` (simd.h:2721-2739, 4248-4263): native ABI if one matches, else
`fixed_size<_Np>` if valid; otherwise the member `type` does not exist (`none`). -/
def deduce (t : Target) (T : Elem) (n : Nat) : Option Tag :=
  match firstValidAbi t T n with
  | some a => some a
  | none => if valid t T (.fixed n) then some (.fixed n) else none

/-- `simd_abi::native<_Tp>` (simd.h:2652-2666). -/
def native (t : Target) (T : Elem) : Tag :=
  let b := vecSizeof t T
  if b = T.size then .scalar
  else if t.avx512vl || (t.avx512f && b == 64) then .btmsk b
  else .builtin b

/-- `simd_abi::compatible<_Tp>` (simd.h:2633-2648). -/
def compatible (t : Target) (T : Elem) : Tag :=
  if t.x86_64 || t.aarch64 then (if T.size ≤ 8 then .builtin 16 else .scalar)
  else if t.neon then
    (if decide (T.size < 8) && (t.neonFloat || !T.fp) then .builtin 16 else .scalar)
  else .scalar

end StdSimd.Abi
