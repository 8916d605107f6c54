import Verif.Model.MaskVec
import Verif.Model.Tuple
/-!
# Model of `split` and `concat` (simd.h:3586-3983) and of the functions they use

`__extract_part`, `__shift_elements_right` (simd_builtin.h:97-280), `__extract_part` of a `_SimdTuple`
(simd_fixed_size.h:936-1005), `__extract_center`, `_SizeList`, `__store_pack_of_simd` (simd.h:3586-3700, 3939-3948).

A `simd` object is a sequence of registers, each a function from byte numbers to bytes with its number of lanes and its size in
elements; a native object has one register.  An operation the compiler rejects is `ill`; a read outside an object or a false
alignment promise is `ub`.
-/
namespace StdSimd.Split
open MaskVec Abi

/-- Result of an instantiation: a value, ill-formed (the program does not compile), undefined behaviour. -/
inductive Res (α : Type) where
  | ok (a : α)
  | ill
  | ub
  deriving DecidableEq

namespace Res
/-- Sequencing. -/
def bind {α β : Type} : Res α → (α → Res β) → Res β
  | ok a, f => f a
  | ill, _ => ill
  | ub, _ => ub
instance : Monad Res where
  pure := ok
  bind := bind
/-- A pack expansion: one result for each element of the list. -/
def all {α β : Type} (f : α → Res β) : List α → Res (List β)
  | [] => ok []
  | a :: as => bind (f a) (fun b => bind (all f as) (fun bs => ok (b :: bs)))
end Res

/-- One register: `n` lanes in a register of `full` elements. -/
structure Member where
  n : Nat
  full : Nat
  reg : Reg

/-- The data of a `simd` object: `first`, `second.first`, ... (simd_fixed_size.h:288-307). -/
abbrev Obj := List Member

/-- `size()`. -/
def size (x : Obj) : Nat := (x.map Member.n).sum
/-- `sizeof` of the members, elements of `s` bytes. -/
def bytes (s : Nat) (x : Obj) : Nat := (x.map (fun m => s * m.full)).sum
/-- Abstraction: the element values. -/
def mlanes (s : Nat) (m : Member) : List (BitVec (8 * s)) := (List.range m.n).map (elem s m.reg)
/-- Abstraction: the element values of the object, in order. -/
def lanes (s : Nat) (x : Obj) : List (BitVec (8 * s)) := (x.map (mlanes s)).flatten
/-- The object representation: byte `j` of the object. -/
def image (s : Nat) : Obj → Reg
  | [] => fun _ => 0#8
  | m :: ms => fun j => if j < s * m.full then m.reg j else image s ms (j - s * m.full)

/-- Lanes and elements of the registers of an object. -/
def shapeOf (x : Obj) : List (Nat × Nat) := x.map (fun m => (m.n, m.full))
/-- Lanes and elements of the registers of `simd<T, Abi>` (C07, simd_builtin.h:812-813, simd_scalar.h:95). -/
def shapeFor (t : Target) (T : Elem) : Tag → List (Nat × Nat)
  | .fixed n => (Tuple.regs t T n).map (fun g => (g.size, g.full))
  | .scalar => [(1, 1)]
  | a => [(Abi.size T a, fullSize t T a)]

/-- `__is_fixed_size_abi_v` (simd.h:455-463). -/
def _root_.StdSimd.Abi.Tag.isFixed : Tag → Bool
  | .fixed _ => true
  | _ => false
/-- `x` has the registers of a `simd<T, a>`. -/
def HasAbi (t : Target) (T : Elem) (a : Tag) (x : Obj) : Prop := shapeOf x = shapeFor t T a
instance (t : Target) (T : Elem) (a : Tag) (x : Obj) : Decidable (HasAbi t T a x) :=
  inferInstanceAs (Decidable (shapeOf x = shapeFor t T a))

/-! ## `__shift_elements_right` -/

/-- `_mm_alignr_epi8(a, b, k)`: bytes `k, k+1, ...` of `b` followed by `a`, then zeros. -/
def alignr (a b : Reg) (k : Nat) : Reg := fun i =>
  if i + k < 16 then b (i + k) else if i + k < 32 then a (i + k - 16) else 0#8
/-- `_mm256_alignr_epi8`, `_mm512_alignr_epi8`: in each 128-bit block. -/
def alignrBlocks (a b : Reg) (k : Nat) : Reg := fun i =>
  alignr (fun j => a (16 * (i / 16) + j)) (fun j => b (16 * (i / 16) + j)) k (i % 16)
/-- `_mm_srli_si128(a, k)`. -/
def srli128 (a : Reg) (k : Nat) : Reg := fun i => if i + k < 16 then a (i + k) else 0#8
/-- `_mm256_permute2x128_si256(a, a, 0x81)`: the upper block moves down, the upper block is zeroed. -/
def permute81 (a : Reg) : Reg := fun i => if i < 16 then a (16 + i) else 0#8
/-- `_mm512_shuffle_i32x4(a, b, imm)`: blocks `imm[1:0]`, `imm[3:2]` of `a`, blocks `imm[5:4]`, `imm[7:6]` of `b`. -/
def shuffleBlocks (a b : Reg) (imm : Nat) : Reg := fun i =>
  let blk := imm / 4 ^ (i / 16) % 4
  (if i < 32 then a else b) (16 * blk + i % 16)
/-- `_mm512_alignr_epi64(0, v, k)` (`g = 8`), `_mm512_alignr_epi32(0, v, k)` (`g = 4`). -/
def alignrElems (g : Nat) (v : Reg) (k : Nat) : Reg := fun i => if i + g * k < 64 then v (i + g * k) else 0#8
/-- `__zero_extend` of a register of `w` bytes (simd.h:1953-2038). -/
def zext (w : Nat) (a : Reg) : Reg := fun i => if i < w then a i else 0#8

/-- The chunk size of the portable path (simd_builtin.h:185-188). -/
def chunkSize (sh : Nat) : Nat := if sh % 8 = 0 then 8 else if sh % 4 = 0 then 4 else if sh % 2 = 0 then 2 else 1

/-- The portable path (simd_builtin.h:183-196): the chunks from `shift / chunksize` on, then zeros. -/
def shrGeneric (w sh : Nat) (v : Reg) : Reg :=
  let c := chunkSize sh
  fun i => if i / c < (w - sh) / c then v (c * (sh / c + i / c) + i % c) else 0#8

/-- `__shift_elements_right` of a 16-byte register (simd_builtin.h:105-121); `f32x4`, `f64x2`: the element type. -/
def shr16 (t : Target) (f32x4 f64x2 : Bool) (sh : Nat) (v : Reg) : Reg :=
  if sh = 0 then v
  else if sh = 16 then zero
  else if t.sse && sh == 8 && f32x4 then fun i => v (8 + i % 8)            -- `_mm_movehl_ps(v, v)`: the upper half twice
  else if t.sse2 && sh == 8 && f64x2 then fun i => v (8 + i % 8)           -- `_mm_unpackhi_pd(v, v)`: the upper half twice
  else if t.sse2 then srli128 v sh
  else shrGeneric 16 sh v

/-- `__shift_elements_right` of a 32-byte register (simd_builtin.h:122-146). -/
def shr32 (t : Target) (f32x4 f64x2 : Bool) (sh : Nat) (v : Reg) : Reg :=
  if sh = 0 then v
  else if sh = 32 then zero
  else if sh = 16 then zext 16 (hi 16 v)
  else if t.avx2 && decide (sh < 16) then alignrBlocks (permute81 v) v sh
  else if t.avx && decide (sh < 16) then concat (alignr (hi 16 v) v sh) (srli128 (hi 16 v) sh)
  else if sh > 16 then zext 16 (shr16 t f32x4 f64x2 (sh - 16) (hi 16 v))
  else shrGeneric 32 sh v

/-- `__shift_elements_right` of a 64-byte register (simd_builtin.h:147-181). -/
def shr64 (t : Target) (f32x4 f64x2 : Bool) (sh : Nat) (v : Reg) : Res Reg :=
  if sh = 0 then .ok v
  else if sh = 64 then .ok zero
  else if sh = 32 then .ok (zext 32 (hi 32 v))
  else if t.avx512f then
    if sh ≥ 48 then .ok (zext 16 (shr16 t f32x4 f64x2 (sh - 48) (hi 48 v)))
    else if sh ≥ 32 then .ok (zext 32 (shr32 t f32x4 f64x2 (sh - 32) (hi 32 v)))
    else if sh % 8 = 0 then .ok (alignrElems 8 v (sh / 8))
    else if sh % 4 = 0 then .ok (alignrElems 4 v (sh / 4))
    else if t.avx512bw && decide (sh < 16) then .ok (alignrBlocks (shuffleBlocks v v 0xf9) v sh)
    else if t.avx512bw && decide (sh < 32) then
      .ok (alignrBlocks (shuffleBlocks v zero 0xee) (shuffleBlocks v v 0xf9) (sh - 16))
    else .ill
  else .ok (shrGeneric 64 sh v)

/-- `__shift_elements_right<__shift>(v)` for a register of `w` bytes (simd_builtin.h:97-198). -/
def shiftRight (t : Target) (f32x4 f64x2 : Bool) (w sh : Nat) (v : Reg) : Res Reg :=
  if sh > w then .ill                                          -- static_assert
  else if w = 16 then .ok (shr16 t f32x4 f64x2 sh v)
  else if w = 32 then .ok (shr32 t f32x4 f64x2 sh v)
  else if w = 64 then shr64 t f32x4 f64x2 sh v
  else if sh = 0 then .ok v
  else if sh = w then .ok zero
  else .ok (shrGeneric w sh v)

/-! ## `__extract_part` of one register -/

/-- The body of `__extract_part<_Index, _Total, _Combine>(_SimdWrapper<_Tp, _Np>)` (simd_builtin.h:212-263) for registers of
`s`-byte elements: `vpp` values per part.  `cp` is `__x._M_is_constprop()`.  The result register has at least `return_size`
elements; `junk` is what the bytes beyond them may be. -/
def extractBody (t : Target) (T : Elem) (cp : Bool) (junk : Reg) (idx total comb vpp : Nat) (x : Member) : Res Reg :=
  let s := T.size
  let skip := idx * vpp
  let ret := vpp * comb
  let w := s * x.full
  let wR := vecBytes t s ret
  if ¬ (idx + comb) * vpp * s ≤ w then .ill                                   -- static_assert
  else if cp then .ok (fun j => if j < s * ret then x.reg (s * skip + j) else junk j)
  else if idx = 0 ∧ total = 1 then .ok x.reg
  else if idx = 0 then .ok (fun j => if j < wR then x.reg j else junk j)       -- `__intrin_bitcast`
  else if (t.x86_64 || t.i386) && w == 32 && decide (ret * s ≤ 16) then
    if skip * s = 16 then .ok (hi 16 x.reg) else .ok (alignr (hi 16 x.reg) x.reg (skip * s))
  else if (skip % ret ≠ 0 ∨ wR ≥ 8) ∧ (skip + ret) * s ≤ 64 ∧ w ≥ 16 then
    Res.bind (shiftRight t (T.fp && T.size == 4) (T.fp && T.size == 8) w (skip * s) x.reg)
      (fun r => .ok (fun j => if j < wR then r j else junk j))
  else .ok (fun j => if j < ret * s then x.reg (s * skip + j) else 0#8)        -- memcpy

/-- `__extract_part<_Index, _Total, _Combine>(_SimdWrapper<_Tp, _Np>)` (simd_builtin.h:204-266). -/
def extractNative (t : Target) (T : Elem) (cp : Bool) (junk : Reg) (idx total comb : Nat) (x : Member) : Res Reg :=
  if idx % 2 = 0 ∧ total % 2 = 0 ∧ comb % 2 = 0 ∧ total ≠ 0 then
    extractNative t T cp junk (idx / 2) (total / 2) (comb / 2) x
  else extractBody t T cp junk idx total comb (x.n / total) x
  termination_by total
  decreasing_by omega

/-! ## `__extract_part` of a `_SimdTuple` -/

/-- `__extract_part<_Index, _Total, _Combine>(_SimdTuple)` (simd_fixed_size.h:936-1005).  `cp` is `_M_is_constprop()` of the member
looked at. -/
def extractTuple (t : Target) (T : Elem) (cp : Bool) (junk : Reg) (idx total comb : Nat) : Obj → Res Reg
  | [] => .ill
  | m :: ms =>
    let s := T.size
    let np := size (m :: ms)
    if ¬ (idx + comb ≤ total ∧ 1 ≤ total ∧ total ≤ np ∧ np % total = 0) then .ill   -- static_asserts
    else
      let vpp := np / total
      let skip := idx * vpp
      let ret := vpp * comb
      if idx = 0 ∧ m.n = ret then .ok m.reg
      else if idx = 0 ∧ total = comb then .ill                                   -- returns the tuple, not a register
      else if idx = 0 ∧ ret ≤ m.n then .ok (fun j => if j < vecBytes t s ret then m.reg j else junk j)
      else if m.n ≤ skip then
        if m.n % vpp = 0 then extractTuple t T cp junk (idx - m.n / vpp) (total - m.n / vpp) comb ms
        else extractTuple t T cp junk (skip - m.n) (np - m.n) ret ms
      else if ret > m.n - skip then
        if s * (skip + ret) ≤ bytes s (m :: ms) then                             -- load of `ret` elements, element_aligned
          .ok (fun j => if j < s * ret then image s (m :: ms) (s * skip + j) else junk j)
        else .ub
      else if m.n % vpp = 0 then extractNative t T cp junk idx (m.n / vpp) comb m
      else extractNative t T cp junk skip m.n (comb * vpp) m

/-- `__extract_part` of the data of a `simd` (a register, or a `_SimdTuple` for fixed_size). -/
def extractPart (t : Target) (T : Elem) (cp : Bool) (junk : Reg) (fixed : Bool) (idx total comb : Nat) (x : Obj) : Res Reg :=
  if fixed then extractTuple t T cp junk idx total comb x
  else match x with
    | [m] => extractNative t T cp junk idx total comb m
    | _ => .ill

/-- `__extract_center(_SimdWrapper)` (simd.h:3633-3676). -/
def centerNative (t : Target) (T : Elem) (junk : Reg) (x : Member) : Res Reg :=
  let s := T.size
  if ¬ (x.n ≥ 4 ∧ x.n % 4 = 0) then .ill
  else
    let x86 := t.x86_64 || t.i386
    if x86 && t.avx512f && s * x.n == 64 then .ok (shuffleBlocks x.reg x.reg (1 + 2 * 0x4 + 2 * 0x10 + 3 * 0x40))
    else if x86 && s * x.n == 32 && T.fp then .ok (fun i => if i < 8 then x.reg (8 + i) else x.reg (16 + (i - 8)))   -- `_mm_shuffle_pd(lo, hi, 1)`
    else if x86 && s * x.full == 32 && decide (s * x.n ≤ 32) then .ok (alignr (hi 16 x.reg) x.reg (s * x.n / 4))
    else .ok (fun j => if j < s * x.n / 2 then x.reg (s * x.n / 4 + j) else junk j)

/-- `__extract_center` of the data of a `simd` (simd.h:3678-3688 for a `_SimdTuple`). -/
def extractCenter (t : Target) (T : Elem) (cp : Bool) (junk : Reg) (fixed : Bool) (x : Obj) : Res Reg :=
  match x with
  | [m] => centerNative t T junk m
  | _ => if fixed then extractTuple t T cp junk 1 4 2 x else .ill

/-! ## `split` of values -/

/-- `__x[i]` for `i < size()` (C08); `simd_cast` to the same value type and size copies all of them (C21). -/
def at' (s : Nat) (x : Obj) (i : Nat) : Res (BitVec (8 * s)) :=
  match (lanes s x)[i]? with
  | some a => .ok a
  | none => .ub

/-- `_V([&](auto j) { return x[off + j]; })`. -/
def gen (s : Nat) (x : Obj) (off n : Nat) : Res (List (BitVec (8 * s))) := Res.all (fun j => at' s x (off + j)) (List.range n)

/-- `_V(element_ptr + off, flags)` where the flag promises the alignment `al`: loads `n` elements from the object representation of
an object at address `addr`.  Reading outside the object and a false promise are undefined. -/
def load (s addr al : Nat) (x : Obj) (off n : Nat) : Res (List (BitVec (8 * s))) :=
  if s * (off + n) ≤ bytes s x ∧ (addr + s * off) % al = 0 then
    .ok ((List.range n).map (fun j => elem s (fun b => image s x (s * off + b)) j))
  else .ub

/-- A part initialised from a register. -/
def fromReg (s n : Nat) (r : Res Reg) : Res (List (BitVec (8 * s))) := Res.bind r (fun r => .ok ((List.range n).map (elem s r)))

/-- `alignof(simd<_Tp, _Ap>)`: of the register, or `bit_ceil(_Np * sizeof(_Tp))` for fixed_size (simd_builtin.h:814,
simd_scalar.h:99, simd_fixed_size.h:1216-1217, simd.h:5158). -/
def alignOf (s : Nat) (fixed : Bool) (x : Obj) : Nat :=
  if fixed then bitCeil (size x * s) else match x with | [m] => s * m.full | _ => 1

/-- The alignment promised for a part that starts at element `off` (simd.h:3900-3906). -/
def overAlign (s base off : Nat) : Nat :=
  let a := base - (off * s) % base
  let b := ((a - 1) &&& a) ^^^ a
  if b = 0 then a else b

/-- Which kind of `simd` a part is. -/
inductive Kind where
  | scalar | fixed | native
  deriving DecidableEq

/-- The kind `simd_abi::deduce_t<_Tp, n>` selects (simd.h:2721-2739, 4248-4263); `none`: no such type. -/
def kindOf (t : Target) (T : Elem) (n : Nat) : Option Kind :=
  (deduce t T n).map (fun | .scalar => .scalar | .fixed _ => .fixed | _ => .native)

/-- `_SizeList::_S_before<i>` for all `i` (simd.h:3613-3621), with the sizes. -/
def offsets : Nat → List Nat → List (Nat × Nat)
  | _, [] => []
  | off, n :: ns => (off, n) :: offsets (off + n) ns

/-- `split<_Sizes...>(simd)` (simd.h:3815-3921).  `cp` and `addr` tell for the object at each level of the recursion through
`__split_wrapper` (3690-3700) whether the compiler knows its value and where it is stored. -/
def splitSizes (t : Target) (T : Elem) (cp : List Nat → Bool) (addr : List Nat → Nat) (junk : Reg) (fixed : Bool) :
    List Nat → Obj → Res (List (List (BitVec (8 * T.size))))
  | [], _ => .ill
  | n0 :: ns, x =>
    let s := T.size
    let np := size x
    let sizes := n0 :: ns
    let part (idx total comb n : Nat) := fromReg s n (extractPart t T (cp sizes) junk fixed idx total comb x)
    let loads := Res.all (fun (p : Nat × Nat) => load s (addr sizes) (overAlign s (alignOf s fixed x) p.1) x p.1 p.2)
      (offsets 0 sizes)
    if sizes.sum ≠ np then .ill                                                  -- enable_if (simd.h:3582-3584)
    else if cp sizes then Res.all (fun (p : Nat × Nat) => gen s x p.1 p.2) (offsets 0 sizes)
    else if np = n0 then (if ns = [] then .ok [lanes s x] else .ill)
    else match fixed, x with
      | true, m :: ms =>
        if m.n = n0 then
          if kindOf t T n0 = some .fixed then .ill                               -- static_assert
          else Res.bind (splitSizes t T cp addr junk true ns ms) (fun ps => .ok (mlanes s m :: ps))
        else patterns t T np sizes part (fromReg s (np / 2) (extractCenter t T (cp sizes) junk fixed x)) loads
      | _, _ => patterns t T np sizes part (fromReg s (np / 2) (extractCenter t T (cp sizes) junk fixed x)) loads
where
  /-- The cases without scalar or fixed_size parts (simd.h:3852-3895), then the loads. -/
  patterns (t : Target) (T : Elem) (np : Nat) (sizes : List Nat)
      (part : Nat → Nat → Nat → Nat → Res (List (BitVec (8 * T.size)))) (center : Res (List (BitVec (8 * T.size))))
      (loads : Res (List (List (BitVec (8 * T.size))))) : Res (List (List (BitVec (8 * T.size)))) :=
    let seq := fun (l : List (Res (List (BitVec (8 * T.size))))) => Res.all id l
    if sizes.all (fun n => kindOf t T n == some .native) then
      if sizes.all (fun n => n * 2 == np) then seq [part 0 2 1 (np / 2), part 1 2 1 (np / 2)]
      else if sizes = [np / 3, np / 3, np / 3] then
        seq [part 0 3 1 (np / 3), part 1 3 1 (np / 3), part 2 3 1 (np / 3)]
      else if sizes = [2 * np / 3, np / 3] then seq [part 0 3 2 (2 * np / 3), part 2 3 1 (np / 3)]
      else if sizes = [np / 3, 2 * np / 3] then seq [part 0 3 1 (np / 3), part 1 3 2 (2 * np / 3)]
      else if sizes = [np / 2, np / 4, np / 4] then
        seq [part 0 2 1 (np / 2), part 2 4 1 (np / 4), part 3 4 1 (np / 4)]
      else if sizes = [np / 4, np / 4, np / 2] then
        seq [part 0 4 1 (np / 4), part 1 4 1 (np / 4), part 1 2 1 (np / 2)]
      else if sizes = [np / 4, np / 2, np / 4] then seq [part 0 4 1 (np / 4), center, part 3 4 1 (np / 4)]
      else if sizes.all (fun n => n * 4 == np) then
        seq [part 0 4 1 (np / 4), part 1 4 1 (np / 4), part 2 4 1 (np / 4), part 3 4 1 (np / 4)]
      else loads
    else loads

/-- `split<_V>(simd)` (simd.h:3704-3771); `k` is `_V::size()`, `kind` its ABI. -/
def splitV (t : Target) (T : Elem) (cp : Bool) (addr : Nat) (junk : Reg) (fixed : Bool) (kind : Kind) (k : Nat) (x : Obj) :
    Res (List (List (BitVec (8 * T.size)))) :=
  let s := T.size
  let parts := size x / k
  if size x ≠ parts * k then .ill                                -- enable_if
  else if parts = 1 then .ok [lanes s x]
  else if cp then Res.all (fun i => gen s x (i * k) k) (List.range parts)
  -- a fixed_size object is aligned to `bit_ceil(k * s)`: no padding means `k * s` is that size
  else if fixed && (kind == .scalar || (kind == .fixed && bitCeil (k * s) == s * k)) then
    Res.all (fun i => load s addr (bitCeil (s * k)) x (i * k) k) (List.range parts)            -- vector_aligned
  else if kind = .scalar then Res.all (fun i => gen s x i 1) (List.range parts)
  else if kind = .fixed then Res.all (fun i => gen s x (i * k) k) (List.range parts)
  else Res.all (fun i => fromReg s k (extractPart t T cp junk fixed i parts 1 x)) (List.range parts)

/-! ## `concat` -/

/-- `__store_pack_of_simd(mem, xs...)` (simd.h:3939-3948): `memcpy` of `sizeof(_Tp) * size` bytes of each object in turn. -/
def storePack (s : Nat) : Reg → Nat → List Obj → Reg
  | mem, _, [] => mem
  | mem, p, x :: xs =>
    storePack s (fun j => if p ≤ j ∧ j < p + s * size x then image s x (j - p) else mem j) (p + s * size x) xs

/-- The registers of an object whose object representation is `mem`: `shape` lists lanes and elements of each register. -/
def ofImage (s : Nat) (mem : Reg) : Nat → List (Nat × Nat) → Obj
  | _, [] => []
  | p, (n, f) :: sh => ⟨n, f, fun j => mem (p + j)⟩ :: ofImage s mem (p + s * f) sh

/-- `__subscript_in_pack<_I>(xs...)` (simd.h:3926-3935). -/
def subscript (s : Nat) : Nat → List Obj → Res (BitVec (8 * s))
  | _, [] => .ill
  | i, x :: xs => if i < size x then at' s x i else subscript s (i - size x) xs

/-- `concat(xs...)` (simd.h:3952-3972); `shape` is the register sequence of the result type, `cp` tells that the values of all
arguments are known to the compiler. -/
def concat (s : Nat) (cp : Bool) (shape : List (Nat × Nat)) (xs : List Obj) : Res (List (BitVec (8 * s))) :=
  match xs with
  | [] => .ill
  | [x] => .ok (lanes s x)                                       -- simd_cast
  | xs =>
    if cp then Res.all (fun i => subscript s i xs) (List.range (xs.map size).sum)
    else if s * (xs.map size).sum ≤ (shape.map (fun (p : Nat × Nat) => s * p.2)).sum then
      .ok (lanes s (ofImage s (storePack s (fun _ => 0#8) 0 xs) 0 shape))
    else .ub

end StdSimd.Split
