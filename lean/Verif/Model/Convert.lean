import Verif.Model.Tuple
/-!
# Model of the conversions between `simd` types (experimental/bits/simd_converter.h)

`_SimdConverter` (simd_converter.h:34-350), `__vector_convert` (simd_builtin.h:284-519), `__convert_all` (simd_builtin.h:555-798),
`__to_simd_tuple` (simd_fixed_size.h:676-785), `__simd_tuple_pop_front` and `__simd_tuple_concat` (simd_fixed_size.h:71-109).

Everything is at the level of elements: a register is the list of its elements, padding included.  `none` is a program that does not
compile (a failing `static_assert`, `__assert_unreachable`, a result of the wrong type, too many initializers) or that reads outside an
object.
-/
namespace StdSimd.Convert
open Abi Tuple

/-- What a conversion depends on besides the shapes.  `cast` is `static_cast<_To>` of one element; `zeroA`, `zeroB` are the value-initialized
elements; `junkA`, `junkB` are the unspecified contents of padding elements; `x86 xs` says that `__vector_convert(xs...)` takes the branch
for x86 (simd_builtin.h:501-512: the workaround macro is defined and `_M_is_constprop()` is false for some argument). -/
structure Ctx (α β : Type) where
  cast : α → β
  zeroA : α
  zeroB : β
  junkA : Nat → α
  junkB : Nat → β
  x86 : List (List α) → Bool

variable {α β : Type}

/-- Number of elements of `__vector_type_t<_Tp, _Np>` (simd.h:1343-1370): the element itself for `_Np == 1`. -/
def vecFull (t : Target) (T : Elem) (n : Nat) : Nat := if n = 1 then 1 else vecBytes t T.size n / T.size

/-- Bring a register to `n` elements: drop elements at the end or append unspecified ones. -/
def pad (junk : Nat → α) (n : Nat) (x : List α) : List α := (List.range n).map (fun i => (x[i]?).getD (junk i))

/-- `__extract_part` of `len` elements from element `off` on, out of the first `n` elements of `v`
(simd_builtin.h:200-280; its instruction sequences are `Split.extractNative`). -/
def extract (c : Ctx α β) (t : Target) (T : Elem) (n off len : Nat) (v : List α) : Option (List α) :=
  if off + len ≤ n ∧ n ≤ v.length then some (pad c.junkA (vecFull t T len) ((v.drop off).take len)) else none

/-- `_To{...}`: a vector of `full` elements, missing initializers are zero, too many are an error. -/
def braced (zero : β) (full : Nat) (xs : List β) : Option (List β) :=
  if xs.length ≤ full then some (xs ++ List.replicate (full - xs.length) zero) else none

/-- `__vector_convert<_To>(xs...)` with an index sequence of length `k` (simd_builtin.h:284-492; there are overloads for 1 to 16
arguments). -/
def convertIdx (c : Ctx α β) (full k : Nat) (xs : List (List α)) : Option (List β) := do
  if ¬ (1 ≤ xs.length ∧ xs.length ≤ 16) then none
  let parts ← xs.mapM (fun (x : List α) => (List.range k).mapM (fun (i : Nat) => x[i]?))
  braced c.zeroB full (parts.flatten.map c.cast)

/-- `__convert_x86<_To>(xs...)` (simd_x86_conversions.h; overloads for 1, 2, 4, 8 and 16 arguments, which must fit into the result if
there are several: static_asserts at 881, 1422, 1840), as a function of elements.  Simplification: the instruction sequences are not modelled here.  The elements after the converted ones are unspecified. -/
def convertX86 (c : Ctx α β) (full k : Nat) (xs : List (List α)) : Option (List β) :=
  match xs with
  | [x] => if x.length = k then some (pad c.junkB full ((x.take (min full k)).map c.cast)) else none
  | xs =>
    if xs.length ∈ [2, 4, 8, 16] ∧ xs.length * k ≤ full ∧ (∀ x ∈ xs, x.length = k) then
      some (pad c.junkB full (xs.flatten.map c.cast))
    else none

/-- `__vector_convert<_To>(_SimdWrapper<_From, n>... xs)` (simd_builtin.h:494-519); the registers have `m` elements, `full` is the number of
elements of `_To`.  Zero registers are appended until the number of arguments is a power of two. -/
def vectorConvert (c : Ctx α β) (full n m : Nat) (xs : List (List α)) : Option (List β) :=
  if n = m ∧ c.x86 xs = true then
    convertX86 c full m (xs ++ List.replicate (bitCeil xs.length - xs.length) (List.replicate m c.zeroA))
  else convertIdx c full (if xs.length = 1 then min full n else n) xs

/-- `__convert_all<__vector_type_t<_To, k>, 0, off>(v)` for a register `v` of `n` lanes (simd_builtin.h:555-798).  The branch for SSE2 without
SSE4.1 (594-764) makes the same registers with unpack instructions if `n` exceeds the size of `_To` (its only use). -/
def convertAll (c : Ctx α β) (t : Target) (T U : Elem) (k n off : Nat) (v : List α) : Option (List (List β)) :=
  if k = 1 then
    if off < v.length then (List.range (n - off)).mapM (fun (i : Nat) => (v[i + off]?).map (fun a => [c.cast a])) else none
  else
    let f := vecFull t U k
    if n - off > f then
      (List.range ((n - off) / f)).mapM (fun (i : Nat) => do
        let p ← extract c t T n (i * f + off) f v
        vectorConvert c f f (vecFull t T f) [p])
    else if off = 0 then do
      let r ← vectorConvert c f n v.length [v]
      pure [r]
    else do
      let p ← extract c t T n off (n - off) v
      let r ← vectorConvert c f (n - off) (vecFull t T (n - off)) [p]
      pure [r]

/-- An argument of `__to_simd_tuple`: an array of registers, or of elements (`scalar`). -/
structure Arr (β : Type) where
  scalar : Bool
  regs : List (List β)

/-- `__to_simd_tuple<_Tp, np, off>(from...)` (simd_fixed_size.h:681-785).  `cur` are the vectors at the front of the argument list, `rest` the
arrays behind them (expanded by the overload for arrays, 763-785, when they come to the front; that overload is not viable if the offset is
given explicitly, `ex`).  `fuel` bounds the depth of the template recursion. -/
def toTuple (c : Ctx α β) (t : Target) (U : Elem) : (fuel np off : Nat) → (ex : Bool) → List (List β) → List (Arr β) → Option (Tup β)
  | 0, _, _, _, _, _ => none
  | _ + 1, _, _, _, [], [] => none
  | fuel + 1, np, _, ex, [], a :: rest =>
    if ex then none
    else if a.scalar then
      if rest.isEmpty ∧ storage t U np = List.replicate a.regs.length .scalar then some a.regs else none
    else if a.regs.isEmpty then none
    else toTuple c t U fuel np 0 false a.regs rest
  | fuel + 1, np, off, _, v :: vs, rest =>
    let f := v.length
    if ¬ off < f then none                                                             -- static_assert
    else match regs t U np with
    | [] => none
    | [g] =>
      if np = 1 then (v[off]?).map (fun b => [[b]])
      else if off = 0 ∧ np ≤ f then some [pad c.junkB g.full v]
      else if off * 2 = f ∧ np ≤ f / 2 then some [pad c.junkB g.full (v.drop (f / 2))]
      else if off * 4 = f ∧ np ≤ f / 4 then some [pad c.junkB g.full ((v.drop (f / 4)).take (f / 4))]
      else none
    | g :: _ =>
      if g.size = 1 then do
        let b ← v[off]?
        let r ← if off + 1 < f then toTuple c t U fuel (np - 1) (off + 1) true (v :: vs) rest
                else toTuple c t U fuel (np - 1) 0 true vs rest
        pure ([b] :: r)
      else if f = g.size ∧ off = 0 then do
        if f ≠ g.full then none                                                         -- `_R{from0, ...}`: same vector type
        let r ← toTuple c t U fuel (np - g.size) 0 false vs rest
        pure (v :: r)
      else if f > g.size ∧ off = 0 then do
        let r ← toTuple c t U fuel (np - g.size) g.size true (v :: vs) rest
        pure (pad c.junkB g.full v :: r)
      else if off * 4 = f ∧ 4 * g.size ≤ f then do
        let r ← toTuple c t U fuel (np - g.size) (off + g.size) true (v :: vs) rest
        pure (pad c.junkB g.full ((v.drop (2 * (f / 4))).take (f / 4)) :: r)            -- `__extract_part<2, 4>`
      else if off * 2 = f ∧ 4 * g.size ≤ f then do
        let r ← toTuple c t U fuel (np - g.size) (off + g.size) true (v :: vs) rest
        pure (pad c.junkB g.full ((v.drop (2 * (f / 4))).take (f / 4)) :: r)
      else if off * 2 = f ∧ g.size ≤ f / 2 then do
        let r ← toTuple c t U fuel (np - g.size) 0 true vs rest
        pure (pad c.junkB g.full (v.drop (f / 2)) :: r)
      else none

/-- `__simd_tuple_pop_front<np>(x)` (simd_fixed_size.h:94-109) for the member sizes `ss`: how many members are dropped. -/
def popFront : Nat → List Nat → Option Nat
  | 0, _ => some 0
  | _ + 1, [] => none
  | np + 1, s :: ss => if s ≤ np + 1 then (popFront (np + 1 - s) ss).map (· + 1) else none

/-- `_SimdConverter<_From, A, _To, R>()(xs...)` of ABI tags that are not `fixed_size` (simd_converter.h:34-79): scalar to scalar, scalar to
vector (the number of arguments must be the size of the result), vector to vector.  There is no vector to scalar conversion. -/
def nativeCvt (c : Ctx α β) (t : Target) (U : Elem) (a r : Geo) (xs : List (List α)) : Option (List β) :=
  match a, r with
  | .scalar, .scalar => match xs with
    | [[x]] => some [c.cast x]
    | _ => none
  | _, .scalar => none
  | .scalar, r => if xs.length = r.size ∧ (∀ x ∈ xs, x.length = 1) then braced c.zeroB (vecFull t U r.size) (xs.flatten.map c.cast) else none
  | a, r => vectorConvert c (vecFull t U r.size) a.size a.full xs

/-- The stages of the branch for one argument register and several result registers (simd_converter.h:153-214): `__convert_all` for the
remaining result registers from element `done` on, at most `fuel` times, until all `n` elements are converted. -/
def stages (c : Ctx α β) (t : Target) (T U : Elem) (n : Nat) (x : List α) : (fuel done : Nat) → List Tag → Option (List (Arr β))
  | 0, _, _ => none
  | fuel + 1, done, ret => do
    let r ← ret.head?
    let s := Abi.size U r
    let chunks ← convertAll c t T U s n done x
    let now := chunks.length * s
    if done + now = n then pure [⟨s == 1, chunks⟩]
    else do
      let j ← popFront now (ret.map (Abi.size U))
      let more ← stages c t T U n x fuel (done + now) (ret.drop j)
      pure (⟨s == 1, chunks⟩ :: more)

/-- `_SimdConverter<_From, fixed_size<n>, _To, fixed_size<n>>` (simd_converter.h:103-265); `same`: both are integers of the same size
(or the same type, in which case the identity is used instead: simd.h:801-808). -/
def fixedCvt (c : Ctx α β) (t : Target) (T U : Elem) (same : Bool) (n : Nat) (x : Tup α) : Option (Tup β) :=
  if same then some (x.map (fun (r : List α) => r.map c.cast))                                -- `__bit_cast`
  else if h0 : n = 0 then none
  else match x with
  | [] => none
  | f :: xs =>
    let a := bestAbi t T n                                -- the first ABI tag of `_Arg`, the others are `as`
    let r := bestAbi t U n                                -- the first ABI tag of `_Ret`, the others are `rs`
    let sa := Abi.size T a
    let sr := Abi.size U r
    let as := storage t T (n - sa)
    let rs := storage t U (n - sr)
    let ga := Geo.ofTag t T a
    let gr := Geo.ofTag t U r
    if r = .scalar then
      if rs.all (· == .scalar) then
        (List.range n).mapM (fun (i : Nat) => (Tuple.get (regs t T n) (f :: xs) i).map (fun (v : α) => [c.cast v]))
      else none
    else if sa = sr then do
      let y ← nativeCvt c t U ga gr [f]
      if as.isEmpty then (if rs.isEmpty then pure [y] else none)
      else do
        let ys ← fixedCvt c t T U same (n - sa) xs
        if storage t U (n - sa) = rs then pure (y :: ys) else none
    else if sa > sr then
      if as.isEmpty then do
        let arrs ← stages c t T U n f 4 0 (r :: rs)
        toTuple c t U (n + 5) n 0 false [] arrs
      else do
        let chunks ← convertAll c t T U sr sa 0 f
        let y ← toTuple c t U (n + 5) sa 0 false [] [⟨false, chunks⟩]
        let ys ← fixedCvt c t T U same (n - sa) xs
        if storage t U sa ++ storage t U (n - sa) = r :: rs then pure (y ++ ys) else none
    else if rs.isEmpty ∧ n % sa ≠ 0 then
      if isPartial t U r then do
        let l ← (List.range n).mapM (fun (i : Nat) => (Tuple.get (regs t T n) (f :: xs) i).map c.cast)
        let v ← braced c.zeroB (vecFull t U sr) l
        pure [v]
      else none
    else do
      if as.isEmpty then none
      let k := (sr + sa - 1) / sa
      if ((a :: as).take k).length = k ∧ ((a :: as).take k).all (· == a) then do
        let y ← nativeCvt c t U ga gr ((f :: xs).take k)
        if rs.isEmpty then pure [y]
        else do
          let j ← popFront sr ((a :: as).map (Abi.size T))
          if (a :: as).drop j = storage t T (n - sr) ∧ rs = storage t U (n - sr) then do
            let ys ← fixedCvt c t T U same (n - sr) ((f :: xs).drop j)
            pure (y :: ys)
          else none
      else none
  termination_by n
  decreasing_by
    all_goals
      have h1 := size_bestAbi t T n (by omega)
      have h2 := size_bestAbi t U n (by omega)
      omega

/-- Is the ABI list of one tag only (`_S_is_homogeneous`, simd_fixed_size.h:341). -/
def homogeneous : List Tag → Bool
  | [] => false
  | a :: as => as.all (· == a)

/-- `_SimdConverter<_From, A, _To, fixed_size<n>>` (simd_converter.h:268-306) for a register `x` of a tag `a` that is not `fixed_size`. -/
def toFixed (c : Ctx α β) (t : Target) (T U : Elem) (same : Bool) (a : Tag) (n : Nat) (x : List α) : Option (Tup β) :=
  if Abi.size T a ≠ n then none                                                           -- static_assert
  else if a = .scalar then match x with                                                   -- simd_converter.h:83-90
    | [v] => some [[c.cast v]]
    | _ => none
  else match storage t U n with
  | [r] => do
    let y ← vectorConvert c (Geo.ofTag t U r).full (Geo.ofTag t T a).size (Geo.ofTag t T a).full [x]
    pure [y]
  | _ => match storage t T n with
    | [_] => fixedCvt c t T U same n [x]
    | [p, q] =>
      let gp := Geo.ofTag t T p
      let gq := Geo.ofTag t T q
      if gp.full + gq.full ≤ x.length then
        fixedCvt c t T U same n [x.take gp.full, (x.drop gp.full).take gq.full]
      else none
    | _ => none

/-- `_SimdConverter<_From, fixed_size<n>, _To, A>` (simd_converter.h:309-350, 93-100) for a tag `a` that is not `fixed_size`. -/
def ofFixed (c : Ctx α β) (t : Target) (T U : Elem) (same : Bool) (n : Nat) (a : Tag) (x : Tup α) : Option (List β) :=
  if Abi.size U a ≠ n then none                                                           -- static_assert
  else if a = .scalar then match x with
    | [[v]] => some [c.cast v]
    | _ => none
  else match storage t T n, x with
  | [p], [f] => vectorConvert c (vecFull t U n) (Geo.ofTag t T p).size (Geo.ofTag t T p).full [f]
  | p :: ps, x =>
    if homogeneous (p :: ps) then
      if p = .scalar then (if x.length = n ∧ (∀ r ∈ x, r.length = 1) then braced c.zeroB (vecFull t U n) (x.flatten.map c.cast) else none)
      else vectorConvert c (vecFull t U n) (Geo.ofTag t T p).size (Geo.ofTag t T p).full x
    else if (storage t U n).length = 1 then (fixedCvt c t T U same n x).bind List.head?
    else do
      let l ← (List.range n).mapM (fun (i : Nat) => Tuple.get (regs t T n) x i)
      let v ← braced c.zeroA (vecFull t T n) l
      vectorConvert c (vecFull t U n) n (vecFull t T n) [v]
  | _, _ => none

/-- The registers of a `simd<_Tp, a>` object: one, or those of the `_SimdTuple` for `fixed_size` (simd_builtin.h:981, simd_scalar.h:91,
simd_fixed_size.h:1199). -/
def geos (t : Target) (T : Elem) : Tag → List Geo
  | .fixed n => regs t T n
  | a => [Geo.ofTag t T a]

/-- `static_simd_cast<simd<_To, b>>(const simd<_From, a>& x)` (simd.h:2881-2897): the choice of the `_SimdConverter` specialization
(simd_converter.h:34-350, simd.h:801-808); `ident` says `_From` and `_To` are the same type.  Also reached from `simd_cast`
(simd.h:2911-2916) and the explicit converting constructor (simd.h:4941-4948). -/
def staticSimdCast (c : Ctx α β) (t : Target) (T U : Elem) (same ident : Bool) (a b : Tag) (x : Tup α) : Option (Tup β) :=
  if Abi.size T a ≠ Abi.size U b then none                                                 -- no return type: simd.h:2836-2839
  else if ident ∧ a = b then some (x.map (fun (r : List α) => r.map c.cast))               -- `return __x`
  else match a, b with
    | .fixed n, .fixed _ => fixedCvt c t T U same n x
    | .fixed n, b => (ofFixed c t T U same n b x).map (fun (r : List β) => [r])
    | a, .fixed n => match x with
      | [r] => toFixed c t T U same a n r
      | _ => none
    | a, b => match x with
      | [r] => (nativeCvt c t U (Geo.ofTag t T a) (Geo.ofTag t U b) [r]).map (fun (r : List β) => [r])
      | _ => none

/-- The implicit conversion between `fixed_size` objects (simd.h:4929-4939): the source is copied to a `std::array` (`operator array`,
simd_fixed_size.h:1233-1241: the first bytes of its registers, which are contiguous: `Align.layout`), from which the result is loaded
(`Tuple.load`).  The alignment promised for the array is the subject of `Align.convertFixed`. -/
def implicitCvt (c : Ctx α β) (t : Target) (T U : Elem) (n : Nat) (x : Tup α) : Option (Tup β) :=
  let arr := x.flatten.take n
  if arr.length = n then
    Tuple.load (Native.Xfer.of t T false) c.cast c.zeroB (regs t U n) (fun (i : Nat) => arr[i]?) 0
  else none

end StdSimd.Convert
