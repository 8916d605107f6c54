import Verif.Model.BitMask
import Verif.Model.BitOps
import Verif.Model.Memory
/-!
# Model of `_MaskImplFixedSize<_Np>` (experimental/bits/simd_fixed_size.h:1850-2062) and of the
`simd_mask` operators built on it (experimental/bits/simd.h:4268-4763)

The member type is `_SanitizedBitMask<_Np>` (simd_fixed_size.h:1861), `1 ≤ _Np ≤ 64` (static_assert at
simd_fixed_size.h:1853-1856).
-/
namespace StdSimd.FixedMask
variable {n : Nat}

/-- `_MaskMember` (simd_fixed_size.h:1861). -/
abbrev Member (n : Nat) := BitMask n true

/-- `_S_broadcast` (simd_fixed_size.h:1871-1875). -/
def broadcast (n : Nat) (x : Bool) : Member n :=
  if x then (BitMask.zero n true).not else BitMask.zero n true

/-- `_S_to_bits` (simd_fixed_size.h:1894-1902). -/
def toBits {s : Bool} (x : BitMask n s) : BitMask n true := x.sanitized

/-- `_S_bit_not` / `simd_mask::operator!` (simd_fixed_size.h:1973-1975, simd.h:4414-4416). -/
def bitNot (x : Member n) : Member n := x.not
/-- `_S_logical_and`, `_S_bit_and` (simd_fixed_size.h:1965-1967, 1977-1979). -/
def bitAnd (x y : Member n) : Member n := x.and y
/-- `_S_logical_or`, `_S_bit_or` (simd_fixed_size.h:1969-1971, 1981-1983). -/
def bitOr (x y : Member n) : Member n := x.or y
/-- `_S_bit_xor` (simd_fixed_size.h:1985-1987). -/
def bitXor (x y : Member n) : Member n := x.xor y
/-- `operator!=` on `simd_mask` (simd.h:4494-4496). -/
def neq (x y : Member n) : Member n := bitXor x y
/-- `operator==` on `simd_mask` (simd.h:4490-4492): `!operator!=(x, y)`. -/
def eq (x y : Member n) : Member n := bitNot (neq x y)

/-- `_S_set` (simd_fixed_size.h:1990-1992). -/
def set (k : Member n) (i : Nat) (x : Bool) : Member n := k.set i x

/-- `_S_masked_assign(k, lhs, rhs)` (simd_fixed_size.h:1995-1998). -/
def maskedAssign (k lhs rhs : Member n) : Member n := (lhs.and k.not).or (rhs.and k)
/-- `_S_masked_assign(k, lhs, bool)` (simd_fixed_size.h:2001-2009). -/
def maskedAssignBool (k lhs : Member n) (rhs : Bool) : Member n :=
  if rhs then lhs.or k else lhs.and k.not

/-- `_S_all_of` (simd_fixed_size.h:2012-2015). -/
def allOf (k : Member n) : Bool := k.all
/-- `_S_any_of` (simd_fixed_size.h:2018-2021). -/
def anyOf (k : Member n) : Bool := k.any
/-- `_S_none_of` (simd_fixed_size.h:2024-2027). -/
def noneOf (k : Member n) : Bool := k.isNone
/-- `_S_some_of` (simd_fixed_size.h:2030-2039). -/
def someOf (k : Member n) : Bool := if n = 1 then false else k.any && !k.all
/-- `_S_popcount` (simd_fixed_size.h:2042-2045). -/
def popcount (k : Member n) : Nat := k.count
/-- `_S_find_first_set` (simd_fixed_size.h:2048-2052); more than one word fails a `static_assert`. -/
def findFirstSet (k : Member n) : Option Nat := k.toULL.map ctz
/-- `_S_find_last_set` (simd_fixed_size.h:2055-2059): `bit_width(...) - 1` as `int`. -/
def findLastSet (k : Member n) : Option Int := k.toULL.map (fun x => (bitWidth x : Int) - 1)

/-- `_S_masked_load` (simd_fixed_size.h:1937-1945): visit the set bits of the mask, read the bool array
at exactly these indices. -/
def maskedLoad (merge mask : Member n) (mem : Mem Bool) (base : Nat) : Option (Member n) := do
  let bits ← mask.toULL
  (bitIteration bits).foldlM (fun (r : Member n) i => do
    let b ← mem.read (base + i)
    pure (r.set i b)) merge

/-- `_S_masked_store` (simd_fixed_size.h:1958-1962). -/
def maskedStore (v : Member n) (mem : Mem Bool) (base : Nat) (k : Member n) : Option (Mem Bool) := do
  let bits ← k.toULL
  (bitIteration bits).foldlM (fun (m : Mem Bool) i => do
    let b ← v.get i
    m.write (base + i) b) mem

/-- `all_of` evaluated through element reads, the constant-propagation branch (simd.h:4631-4637). -/
def allOfConst (k : Member n) : Option Bool :=
  (List.range n).foldlM (fun acc i => do let b ← k.get i; pure (acc && b)) true
/-- `any_of`, constant-propagation branch (simd.h:4646-4652). -/
def anyOfConst (k : Member n) : Option Bool :=
  (List.range n).foldlM (fun acc i => do let b ← k.get i; pure (acc || b)) false
/-- `some_of`, constant-propagation branch (simd.h:4676-4682): some neighbouring lanes differ. -/
def someOfConst (k : Member n) : Option Bool :=
  (List.range (n - 1)).foldlM (fun acc i => do
    let a ← k.get (i + 1); let b ← k.get i; pure (acc || (a != b))) false

end StdSimd.FixedMask
