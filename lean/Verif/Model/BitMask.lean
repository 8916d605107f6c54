/-!
# Model of `_BitMask<_Np, _Sanitized>`  (experimental/bits/simd.h)

`_BitMask` stores `_Np` Booleans in an array of unsigned words.  A word is modelled by `BitVec w`; the
array by a list of exactly `_S_array_size` words.  The word type `bool` used for `_Np == 1` is `BitVec 1`.
-/
namespace StdSimd

/-- `__div_roundup` (simd.h:651-653). -/
def divRoundup (a b : Nat) : Nat := (a + b - 1) / b

/-- `std::__bit_ceil`: least power of two not below `n` (`1` for `n = 0`). Library function of <bit>,
used at simd.h:985-987. -/
def bitCeil (n : Nat) : Nat := if n ≤ 1 then 1 else 2 ^ (Nat.log2 (n - 1) + 1)

/-- `_BitMask::_NBytes` (simd.h:983). -/
def nBytes (n : Nat) : Nat := divRoundup n 8

/-- `sizeof(_BitMask::_Tp)` (simd.h:985-987): `bool` for one bit, otherwise the unsigned integer with
`min(sizeof(unsigned long long), bit_ceil(_NBytes))` bytes. -/
def wordBytes (n : Nat) : Nat := if n = 1 then 1 else min 8 (bitCeil (nBytes n))

/-- Number of value bits of `_BitMask::_Tp` (simd.h:985-987); a `bool` has one value bit. -/
def wordBits (n : Nat) : Nat := if n = 1 then 1 else 8 * wordBytes n

/-- `_BitMask::_S_array_size` (simd.h:989). -/
def arraySize (n : Nat) : Nat := divRoundup (nBytes n) (wordBytes n)

/-- `_BitMask::_S_unused_bits` (simd.h:993-994). -/
def unusedBits (n : Nat) : Nat := if n = 1 then 0 else arraySize n * wordBytes n * 8 - n

/-- `_BitMask::_S_bitmask` (simd.h:996). -/
def wordMask (n : Nat) : BitVec (wordBits n) := BitVec.allOnes (wordBits n) >>> unusedBits n

/-- `_BitMask<_Np, _Sanitized>` (simd.h:978-991). `san` is the template argument `_Sanitized`. -/
structure BitMask (n : Nat) (san : Bool) where
  words : List (BitVec (wordBits n))
  len : words.length = arraySize n

namespace BitMask
variable {n m : Nat} {s s' : Bool}

/-- Abstraction: lane `i` of the mask is bit `i % w` of word `i / w` (the layout documented by
`operator[]`, simd.h:1176-1190). -/
def lane (x : BitMask n s) (i : Nat) : Bool :=
  match x.words[i / wordBits n]? with
  | some w => w.getLsbD (i % wordBits n)
  | none => false

/-- Abstraction: the sequence of the `n` lanes. -/
def lanes (x : BitMask n s) : List Bool := (List.range n).map x.lane

/-- The promise made by the template argument `_Sanitized == true` (comments at simd.h:1018, 1026,
1085-1086): every bit at a position not below `n` is zero. -/
def Clean (x : BitMask n s) : Prop := ∀ i, n ≤ i → x.lane i = false

/-- Conversion of an `unsigned long long` to the word type; for `bool` this is `!= 0`
(`static_cast<_Tp>(__x)`, simd.h:1001). -/
def castWord (n : Nat) (x : BitVec 64) : BitVec (wordBits n) :=
  if n = 1 then BitVec.setWidth _ (BitVec.ofBool (x != 0)) else x.setWidth _

/-- `_BitMask(unsigned long long)` (simd.h:1000-1001): first word from the argument, others zero; the
argument is *not* sanitised. -/
def ofULL (n : Nat) (s : Bool) (x : BitVec 64) : BitMask n s where
  words := (castWord n x :: List.replicate (arraySize n) 0#_).take (arraySize n)
  len := by simp

/-- Value initialisation `_BitMask __r = {}` (simd.h:1058). -/
def zero (n : Nat) (s : Bool) : BitMask n s := ⟨List.replicate (arraySize n) 0#_, by simp⟩

/-- Apply `f` to the last word (used for `_M_bits[_S_array_size - 1] op= ...`). -/
def modifyLast {w : Nat} (f : BitVec w → BitVec w) (l : List (BitVec w)) : List (BitVec w) :=
  l.modify (l.length - 1) f

/-- `_M_sanitized()` (simd.h:1050-1065): copy every word, then mask the last word when there are unused
bits; already sanitised masks are returned unchanged. -/
def sanitized (x : BitMask n s) : BitMask n true :=
  if s then ⟨x.words, x.len⟩
  else if n = 1 then ⟨x.words, x.len⟩
  else if unusedBits n > 0 then
    ⟨modifyLast (fun w => w &&& wordMask n) x.words, by simp [modifyLast, x.len]⟩
  else ⟨x.words, x.len⟩

/-- `_M_to_bits` / `to_ullong` / `to_ulong` (simd.h:1018-1040); requires a single word (`static_assert`)
and is the identity on that word. -/
def toULL (x : BitMask n s) : Option (BitVec 64) :=
  match x.words with
  | [w] => some (w.setWidth 64)
  | _ => none

/-- `_M_prepend(lsb)` (simd.h:1067-1082): shift own bits up by `_Mp`, or-in the sanitised low part.
Only for results that fit one word (`__assert_unreachable` otherwise: `none`). -/
def prepend (x : BitMask n s) (lsb : BitMask m s') : Option (BitMask (n + m) s) :=
  if h : arraySize (n + m) = 1 then
    match x.words[0]?, lsb.sanitized.words[0]? with
    | some a, some b =>
      let r : BitVec (wordBits (n + m)) := a.setWidth (wordBits (n + m))
      let r : BitVec (wordBits (n + m)) := r <<< m
      let r : BitVec (wordBits (n + m)) := r ||| b.setWidth (wordBits (n + m))
      some ⟨[r], by simp [h]⟩
    | _, _ => none
  else none

/-- The `_Sanitized` argument of the type returned by `_M_extract` (simd.h:1095-1102). -/
def extractSan (n : Nat) (s : Bool) (drop new : Nat) : Bool :=
  if new = 1 then true
  else (new + drop == wordBytes n * 8 && new + drop ≤ n)
    || ((s || n == wordBytes n * 8) && n ≤ new + drop)

/-- `_M_extract<_DropLsb, _NewSize>()` (simd.h:1087-1104). `none` when a `static_assert` fails. -/
def extract (x : BitMask n s) (drop new : Nat) : Option (BitMask new (extractSan n s drop new)) :=
  if drop < n ∧ drop + new ≤ 64 then
    match x.words[0]? with
    | some w =>
      if new = 1 then some (ofULL _ _ (BitVec.setWidth 64 w &&& (1#64 <<< drop)))
      else some (ofULL _ _ (BitVec.setWidth 64 w >>> drop))
    | none => none
  else none

/-- `all()` (simd.h:1106-1121). -/
def all (x : BitMask n s) : Bool :=
  if n = 1 then x.words.head? != some 0
  else
    let k := x.sanitized
    k.words.dropLast.all (· == BitVec.allOnes _) && k.words.getLast? == some (wordMask n)

/-- `any()` (simd.h:1123-1139). -/
def any (x : BitMask n s) : Bool :=
  if n = 1 then x.words.head? != some 0
  else
    let k := x.sanitized
    k.words.dropLast.any (· != 0) || k.words.getLast? != some 0

/-- `none()` (simd.h:1141-1156). -/
def isNone (x : BitMask n s) : Bool :=
  if n = 1 then x.words.head? == some 0
  else
    let k := x.sanitized
    k.words.dropLast.all (· == 0) && k.words.getLast? == some 0

/-- `__builtin_popcountll` of one word. -/
def popcountWord {w : Nat} (x : BitVec w) : Nat := (List.range w).countP (fun i => x.getLsbD i)

/-- `count()` (simd.h:1158-1174).  Note: for `_Sanitized == false` (and `_Np != 1`) the code returns
`_M_sanitized().none()`; the model does the same. -/
def count (x : BitMask n s) : Nat :=
  if n = 1 then (x.words.map popcountWord).sum
  else if s then (x.words.map popcountWord).sum
  else (x.sanitized.isNone).toNat

/-- `operator[](size_t)` (simd.h:1176-1190); an index outside the array is UB (`none`). For `_Np == 1` the
single `bool` is returned whatever the index; with one word the code shifts by `i` (UB from the
promoted width on); with several words the word index is computed. -/
def get (x : BitMask n s) (i : Nat) : Option Bool :=
  if n = 1 then (x.words[0]?).map (fun w => w.getLsbD 0)
  else if arraySize n = 1 then
    if i < wordBits n then (x.words[0]?).map (fun (w : BitVec (wordBits n)) => (w >>> i).getLsbD 0) else Option.none
  else (x.words[i / wordBits n]?).map (fun (w : BitVec (wordBits n)) => (w >>> (i % wordBits n)).getLsbD 0)

/-- One word update of `set`: clear bit, or-in the new value (simd.h:1211-1219). -/
def setBitWord {w : Nat} (x : BitVec w) (i : Nat) (b : Bool) : BitVec w :=
  (x &&& ~~~(1#w <<< i)) ||| ((BitVec.ofBool b).setWidth w <<< i)

/-- `set(size_t, bool)` (simd.h:1203-1238); both overloads compute the same. -/
def set (x : BitMask n s) (i : Nat) (b : Bool) : BitMask n s :=
  if n = 1 then ⟨x.words.modify 0 (fun _ => (BitVec.ofBool b).setWidth _), by simp [x.len]⟩
  else if arraySize n = 1 then ⟨x.words.modify 0 (fun w => setBitWord w i b), by simp [x.len]⟩
  else ⟨x.words.modify (i / wordBits n) (fun w => setBitWord w (i % wordBits n) b), by simp [x.len]⟩

/-- `operator~` (simd.h:1241-1258): complement of each word; when sanitised the last word is xor-ed with
`_S_bitmask` instead. -/
def not (x : BitMask n s) : BitMask n s :=
  if n = 1 then ⟨x.words.map (~~~ ·), by simp [x.len]⟩
  else ⟨x.words.mapIdx (fun i w =>
      if i < arraySize n - 1 then ~~~ w else if s then w ^^^ wordMask n else ~~~ w), by simp [x.len]⟩

/-- Word-wise binary operation, the shape of `operator^=`, `|=`, `&=` (simd.h:1260-1306). -/
def zipW (f : BitVec (wordBits n) → BitVec (wordBits n) → BitVec (wordBits n))
    (x y : BitMask n s) : BitMask n s := ⟨List.zipWith f x.words y.words, by simp [x.len, y.len]⟩

/-- `operator^` (simd.h:1260-1266, 1284-1290). -/
def xor (x y : BitMask n s) : BitMask n s := zipW (· ^^^ ·) x y
/-- `operator|` (simd.h:1268-1274, 1292-1298). -/
def or (x y : BitMask n s) : BitMask n s := zipW (· ||| ·) x y
/-- `operator&` (simd.h:1276-1282, 1300-1306). -/
def and (x y : BitMask n s) : BitMask n s := zipW (· &&& ·) x y

end BitMask
end StdSimd
