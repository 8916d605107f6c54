import Verif.Model.Abi
/-!
# Model of `_SimdTuple` functions whose arguments or results have another element type

experimental/bits/simd_fixed_size.h: `_WithOffset`, `_M_extract_argument`, `_M_skip_argument`, `_M_assign_front`,
`_M_apply_per_chunk`, `_M_apply_r`, `__simd_tuple_concat`, `__simd_tuple_pop_front`, `__optimize_simd_tuple` and the
fixed_size math functions that use them (`ldexp`, `scalbn`, `scalbln`, `frexp`, `remquo`; `ilogb`, `lrint`, `llrint`,
`lround`, `llround`, `fpclassify`).

A `_SimdTuple` object is the list of its element-sized slots, padding included: the code copies parts of such objects
with `memcpy`, so their layout matters.  `V` is the union of the values of all element types.  A copy that leaves the
complete object is undefined behaviour, `none`; a call that fails a `static_assert` or reaches `__assert_unreachable` is
ill-formed, `none` too.
-/
namespace StdSimd.Chunks
open Abi
variable {V : Type}

/-! ## object layout, in slots of one element -/

/-- Next multiple of `a`. -/
def roundUp (n a : Nat) : Nat := (n + (a - 1)) / a * a

/-- Alignment of `_SimdTupleData<_FirstType, _SecondType>` (simd_fixed_size.h:292-307): that of the strictest member; a
vector register is aligned to its size, a scalar occupies one slot. -/
def alignOf (t : Target) (U : Elem) : List Tag → Nat
  | [] => 1
  | a :: as => max (fullSize t U a) (alignOf t U as)

/-- Offset of the member `second` (simd_fixed_size.h:295-297). -/
def sndPos (t : Target) (U : Elem) (a : Tag) (as : List Tag) : Nat := roundUp (fullSize t U a) (alignOf t U as)

/-- `sizeof(_SimdTuple<...>)`; the `second` of the last register is static (simd_fixed_size.h:309-313). -/
def sizeOf (t : Target) (U : Elem) : List Tag → Nat
  | [] => 0
  | [a] => fullSize t U a
  | a :: b :: as => roundUp (sndPos t U a (b :: as) + sizeOf t U (b :: as)) (alignOf t U (a :: b :: as))

/-- The elements of an object: the first `size` slots of every register. -/
def lanesOf (t : Target) (U : Elem) : List Tag → List V → List V
  | [], _ => []
  | [a], s => s.take (size U a)
  | a :: b :: as, s => s.take (size U a) ++ lanesOf t U (b :: as) (s.drop (sndPos t U a (b :: as)))

/-- Overwrite the elements of an object, leaving padding alone. -/
def setLanes (t : Target) (U : Elem) : List Tag → List V → List V → List V
  | [], s, _ => s
  | [a], s, v => v.take (size U a) ++ s.drop (size U a)
  | a :: b :: as, s, v =>
    v.take (size U a) ++ (s.take (sndPos t U a (b :: as))).drop (size U a)
      ++ setLanes t U (b :: as) (s.drop (sndPos t U a (b :: as))) (v.drop (size U a))

/-! ## arguments -/

/-- A further argument of `_M_apply_per_chunk`: a reference to the sub-tuple with ABI list `tags` that starts at slot
`pos` of the complete object `obj`; `off` is the offset of `_WithOffset<off, _SimdTuple>` (simd_fixed_size.h:213-233), 0
for a plain `_SimdTuple` (264-265).  `same`: its element type is the one of the tuple the function is called on.
`writable`: it was passed as non-const lvalue. -/
structure Arg (V : Type) where
  elem : Elem
  same : Bool
  writable : Bool
  obj : List V
  pos : Nat
  tags : List Tag
  off : Nat

/-- What `_M_extract_argument` returns: a register (`reg`) or a `_SimdTuple`, with its slots. -/
structure Piece (V : Type) where
  reg : Bool
  tags : List Tag
  slots : List V

/-- `_M_extract_argument` (simd_fixed_size.h:425-447) called on a tuple with ABI list `xs`, whose first register has `m`
elements.  Simplification: the branch for constant evaluation (432-438) is not modelled, the math functions are not
usable in constant expressions. -/
def extract (t : Target) (xs : List Tag) (m : Nat) (a : Arg V) : Option (Piece V) :=
  match a.tags with
  | [] => none
  | b :: _ =>
    if a.same && decide (a.tags = xs) && decide (a.off = 0) then
      some ⟨true, [b], (a.obj.drop a.pos).take (fullSize t a.elem b)⟩
    else
      let r := storage t a.elem m
      if a.pos + a.off + sizeOf t a.elem r ≤ a.obj.length then
        some ⟨false, r, (a.obj.drop (a.pos + a.off)).take (sizeOf t a.elem r)⟩
      else none

/-- `__tup.second`. -/
def second (t : Target) (a : Arg V) : Option (Arg V) :=
  match a.tags with
  | [] => none
  | b :: bs => some { a with pos := a.pos + sndPos t a.elem b bs, tags := bs, off := 0 }

/-- `__simd_tuple_pop_front<_Np>` (simd_fixed_size.h:94-108): position and ABI list of what is left. -/
def popFront (t : Target) (U : Elem) : List Tag → Nat → Nat → Option (Nat × List Tag)
  | [], n, pos => if n = 0 then some (pos, []) else none
  | b :: bs, n, pos =>
    if n = 0 then some (pos, b :: bs)
    else if size U b ≤ n then popFront t U bs (n - size U b) (pos + sndPos t U b bs)
    else none

/-- `_M_skip_argument` (simd_fixed_size.h:449-469) called on a tuple whose first register has `m` elements; `__add_offset`
adds to an existing offset (239-262). -/
def skip (t : Target) (m : Nat) (a : Arg V) : Option (Arg V) :=
  match a.tags with
  | [] => none
  | b :: _ =>
    let s := size a.elem b
    if m = s ∧ a.off = 0 then second t a
    else if m > s ∧ m % s = 0 ∧ a.off = 0 then
      (popFront t a.elem a.tags m a.pos).map (fun p => { a with pos := p.1, tags := p.2, off := 0 })
    else if m + a.off < s then some { a with off := m + a.off }
    else if m + a.off = s then second t a
    else none

/-- `__builtin_memcpy` to slot `p` of an object. -/
def write (obj : List V) (p : Nat) (v : List V) : Option (List V) :=
  if p + v.length ≤ obj.length then some (obj.take p ++ v ++ obj.drop (p + v.length)) else none

/-- `_M_assign_front<_Offset>(const _SimdTuple<_Tp, ...>&)` (simd_fixed_size.h:471-482 if the first ABIs agree, 492-499
otherwise): the destination has ABI list `ds` and starts at slot `pos`, the source has ABI list `ss`. -/
def assignTup (t : Target) (U : Elem) (off : Nat) :
    List Tag → Nat → List Tag → List V → List V → Option (List V)
  | d :: ds, pos, s :: ss, src, obj =>
    if d = s then
      if off = 0 then do
        let obj1 ← write obj pos (src.take (fullSize t U s))
        if ss = [] then pure obj1
        else if ds.length ≥ ss.length then
          assignTup t U 0 ds (pos + sndPos t U d ds) ss (src.drop (sndPos t U s ss)) obj1
        else none
      else none
    else write obj (pos + off) (src.take (((s :: ss).map (size U)).sum))
  | _, _, _, _, _ => none

/-- `_M_assign_front` for both kinds of sources; for a register simd_fixed_size.h:484-490. -/
def assignFront (t : Target) (a : Arg V) (p : Piece V) : Option (Arg V) :=
  if p.reg then
    if a.off = 0 then (write a.obj a.pos p.slots).map (fun o => { a with obj := o }) else none
  else (assignTup t a.elem a.off a.tags a.pos p.tags p.slots a.obj).map (fun o => { a with obj := o })

/-- The write-back of one argument in `_M_apply_per_chunk` (simd_fixed_size.h:518-528): the copy made by
`_M_extract_argument`, as changed by the call, is assigned to the argument if that is not const. -/
def writeBack (t : Target) (a : Arg V) (p : Piece V) : Option (Arg V) :=
  if a.writable then assignFront t a p else some a

/-! ## `_M_apply_per_chunk` -/

/-- The function called on a chunk, for every element: `F x args` is the result and the new values of the further
arguments (`__name(x[i], more[i]...)`, simd_builtin.h:1922-1928, 2000-2011; for `frexp` simd_math.h:640-737).  The native
functions themselves are modelled elsewhere or are those of libm. -/
abbrev ElemFun (V : Type) := V → List V → V × List V

/-- The results of a chunk. -/
def call (F : ElemFun V) (junk : V) (m : Nat) (x : List V) (ys : List (List V)) : List (V × List V) :=
  (List.range m).map (fun i => F (x.getD i junk) (ys.map (fun y => y.getD i junk)))

/-- Extracted arguments after the call: argument number `j` received the `j`-th output. -/
def outputs (t : Target) (junk : V) (res : List (V × List V)) : List (Elem × Piece V) → Nat → List (Piece V)
  | [], _ => []
  | (U, p) :: ps, j =>
    { p with slots := setLanes t U p.tags p.slots (res.map (fun r => r.2.getD j junk)) } :: outputs t junk res ps (j + 1)

/-- Pairwise write-back. -/
def writeBacks (t : Target) : List (Arg V) → List (Piece V) → Option (List (Arg V))
  | [], [] => some []
  | a :: as, p :: ps => do
    let a' ← writeBack t a p
    let as' ← writeBacks t as ps
    pure (a' :: as')
  | _, _ => none

/-- `_M_apply_per_chunk(fun, more...)` (simd_fixed_size.h:502-552) on the tuple with ABI list `xs` and slots `x`: the slots of
the result and the objects the further arguments refer to.  Padding of the result is `junk`.  The branch without
write-back (540-551) is the same computation with no argument to write to. -/
def applyPerChunk (t : Target) (T : Elem) (F : ElemFun V) (junk : V) :
    List Tag → List V → List (Arg V) → Option (List V × List (List V))
  | [], _, _ => none
  | a :: as, x, more => do
    let m := size T a
    let ps ← more.mapM (extract t (a :: as) m)
    let ups := List.zip (more.map (·.elem)) ps
    let res := call F junk m (x.take m) (ups.map (fun up => lanesOf t up.1 up.2.tags up.2.slots))
    let more1 ← writeBacks t more (outputs t junk res ups 0)
    let first := res.map (·.1) ++ List.replicate (fullSize t T a - m) junk
    if as = [] then pure (first, more1.map (·.obj))
    else do
      let more2 ← more1.mapM (skip t m)
      let r ← applyPerChunk t T F junk as (x.drop (sndPos t T a as)) more2
      pure (first ++ List.replicate (sndPos t T a as - fullSize t T a) junk ++ r.1, r.2)

/-- A further argument as the caller passes it: element type, whether that is the type of the first argument, whether it
is passed as non-const lvalue, and the slots of the fixed_size object. -/
structure Operand (V : Type) where
  elem : Elem
  same : Bool
  writable : Bool
  obj : List V

/-- The fixed_size math functions with further arguments, `_S_remquo` and `_S_frexp` (simd_fixed_size.h:1595-1614,
1678-1703): `more` are the whole fixed_size objects, each with its element type. -/
def mathCall (t : Target) (T : Elem) (n : Nat) (F : ElemFun V) (junk : V) (x : List V)
    (more : List (Operand V)) : Option (List V × List (List V)) :=
  applyPerChunk t T F junk (storage t T n) x
    (more.map (fun a => ⟨a.elem, a.same, a.writable, a.obj, 0, storage t a.elem n, 0⟩))

/-! ## `_M_apply_r` and `__optimize_simd_tuple` -/

/-- A tuple as the list of its registers. -/
abbrev Regs (V : Type) := List (Tag × List V)

/-- `__fixed_size_storage_t<_RetTp, m>::_S_generate` of a value per element (simd_builtin.h:1938-1952; scalar:
simd_scalar.h:383-384, 443-460, 507-508). -/
def genRegs (t : Target) (R : Elem) (junk : V) : List Tag → List V → Regs V
  | [], _ => []
  | a :: as, v =>
    (a, v.take (size R a) ++ List.replicate (fullSize t R a - size R a) junk) :: genRegs t R junk as (v.drop (size R a))

/-- `_M_apply_r<_R>(fun)` (simd_fixed_size.h:554-565) with `__simd_tuple_concat` (71-84). -/
def applyR (t : Target) (T R : Elem) (F : V → V) (junk : V) : List Tag → List V → Option (Regs V)
  | [], _ => none
  | a :: as, x =>
    let first := genRegs t R junk (storage t R (size T a)) ((x.take (size T a)).map F)
    if as = [] then some first
    else (applyR t T R F junk as (x.drop (sndPos t T a as))).map (fun r => first ++ r)

/-- The elements of a tuple given by registers. -/
def regLanes (R : Elem) (x : Regs V) : List V := (x.map (fun r => r.2.take (size R r.1))).flatten

/-- `_SimdTraits<_Tp, _Abi>::_SimdMember`: the element type itself for scalar, else a `_SimdWrapper` of the size. -/
def member (R : Elem) : Tag → Bool × Nat
  | .scalar => (true, 1)
  | a => (false, size R a)

/-- `__simd_tuple_pop_front` on registers. -/
def popRegs (R : Elem) : Regs V → Nat → Option (Regs V)
  | [], n => if n = 0 then some [] else none
  | r :: rs, n => if n = 0 then some (r :: rs) else if size R r.1 ≤ n then popRegs R rs (n - size R r.1) else none

/-- The slots of a tuple given by registers; what lies between and behind the registers is `junk`. -/
def slotsOf (t : Target) (R : Elem) (junk : V) : Regs V → List V
  | [] => []
  | [r] => r.2
  | r :: r' :: rs =>
    r.2 ++ List.replicate (sndPos t R r.1 ((r' :: rs).map (·.1)) - r.2.length) junk ++ slotsOf t R junk (r' :: rs)

/-- A register of a tuple with uninitialised padding. -/
def mkReg (t : Target) (R : Elem) (junk : V) (a : Tag) (v : List V) : Tag × List V :=
  (a, v ++ List.replicate (fullSize t R a - v.length) junk)

/-- `__optimize_simd_tuple` (simd_fixed_size.h:811-862).  `fuel` bounds the number of registers (each call removes one or
more); a result whose type does not fit the declared one is ill-formed. -/
def optimize (t : Target) (R : Elem) (junk : V) : Nat → Regs V → Option (Regs V)
  | _, [] => some []
  | _, [x] => some [x]
  | 0, _ => none
  | fuel + 1, x0 :: x1 :: xs =>
    let all := x0 :: x1 :: xs
    let n := (all.map (fun r => size R r.1)).sum
    match storage t R n with
    | [] => none
    | r0 :: rs =>
      let tail (first : Tag × List V) (rest : Regs V) : Option (Regs V) :=
        (optimize t R junk fuel rest).bind (fun s => if s.map (·.1) = rs then some (first :: s) else none)
      if r0 :: rs = all.map (·.1) then some all
      else if member R r0 = member R x0.1 then tail (r0, x0.2) (x1 :: xs)
      else if x0.1 = .scalar ∨ isPartial t R x0.1 = true then
        if size R r0 ≤ n then
          (popRegs R all (size R r0)).bind (fun rest =>
            tail (mkReg t R junk r0 ((regLanes R all).take (size R r0))) rest)
        else none
      else if x0.1 = x1.1 ∧ size R r0 = size R x0.1 + size R x1.1 then
        tail (mkReg t R junk r0 (x0.2.take (size R x0.1) ++ x1.2.take (size R x1.1))) xs
      else if xs.length ≥ 2 ∧ size R r0 = 4 * size R x0.1 ∧ (xs[1]?.map (fun r => size R r.1)) = some (size R x0.1) then
        match xs with
        | x2 :: x3 :: ys =>
          tail (mkReg t R junk r0 (x0.2 ++ x1.2 ++ (x2.2 ++ x3.2))) ys
        | _ => none
      else if sizeOf t R (r0 :: rs) = sizeOf t R (all.map (·.1)) then
        some (genRegs t R junk (r0 :: rs) ((slotsOf t R junk all).take n))
      else none

/-- The fixed_size math functions whose result has another element type (simd_fixed_size.h:1590-1593): the result must
have the type `__fixed_size_storage_t<_RetTp, _Np>`. -/
def mathRet (t : Target) (T R : Elem) (n : Nat) (F : V → V) (junk : V) (x : List V) : Option (Regs V) :=
  (applyR t T R F junk (storage t T n) x).bind (fun r =>
    (optimize t R junk r.length r).bind (fun s => if s.map (·.1) = storage t R n then some s else none))

end StdSimd.Chunks
