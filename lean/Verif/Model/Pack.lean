import Verif.Model.MultiAbi
import Verif.Model.Split
import Verif.Spec.Pack
/-!
# Model: programs with `split` and `concat`

The programs of `Model/MultiAbi.lean`, and `split` (experimental/bits/simd.h:3704-3921) and `concat` (3952-3983) of their objects, with the functions of
`Model/Split.lean` and `Model/MaskSplit.lean` on the registers of the objects.
-/
namespace StdSimd.SimdClass
open Spec Spec.Program Spec.Control Spec.Multi Native MaskSplit

variable {ι : Type} {K : ι → Kind} {β : ι → Type}

/-- An argument or a result: an object of a type with the elements of type `b`. -/
structure Arg (I : ∀ a, Impl (K a) (β a)) (b : ι) where
  ty : ι
  elem : K ty = K b
  val : (I ty).V

/-- `concat`, `split<Sizes...>`, `split<simd>`, `split<simd_mask>` (simd.h:3704-3983). -/
structure Packs (I : ∀ a, Impl (K a) (β a)) where
  concat : ∀ b, List (Arg I b) → Option (I b).V
  split : ∀ a, List {b : ι // K b = K a} → (I a).V → Option (List (Arg I a))
  splitTo : ∀ a b, K b = K a → (I a).V → Option (List (I b).V)
  msplit : ∀ a b, (I a).M → Option (List (I b).M)

section run
variable {I : ∀ a, Impl (K a) (β a)} (R : ∀ a, RedImpl (I a)) (X : Casts I) (P : Packs I) (width : ι → Nat) (base : ι → Nat → Nat)

/-- The members of the tuple or array `split` returns are assigned to objects one after the other (simd.h:3704-3921). -/
def storeAll [DecidableEq ι] {a : ι} (S : ∀ a, State (I a)) (qs : List (Nat × Arg I a)) : ∀ a, State (I a) :=
  qs.foldl (fun S q => setAt S q.2.ty (setV (I q.2.ty) (S q.2.ty) q.1 q.2.val)) S

/-- The same for masks (simd.h:3779-3813). -/
def mstoreAll [DecidableEq ι] (S : ∀ a, State (I a)) (b : ι) (qs : List (Nat × (I b).M)) : ∀ a, State (I a) :=
  qs.foldl (fun S q => setAt S b (setM (I b) (S b) q.1 q.2)) S

/-- Programs (the calls of the functions of simd.h:3704-3983). -/
def runPack [DecidableEq ι] (fuel : Nat) : Pack.Prog K → (∀ a, State (I a)) → Outcome (∀ a, State (I a))
  | .run p, S => runMulti R X width base fuel p S
  | .concat b d xs, S => .ofOption do
    let y ← P.concat b (xs.map fun p => ⟨p.ty, p.elem, (S p.ty).v p.obj⟩)
    pure (setAt S b (setV (I b) (S b) d y))
  | .split a v ds, S => .ofOption do
    let rs ← P.split a (ds.map fun p => ⟨p.ty, p.elem⟩) ((S a).v v)
    pure (storeAll S ((ds.map Pack.Part.obj).zip rs))
  | .splitTo a v b h ds, S => .ofOption do
    let rs ← P.splitTo a b h ((S a).v v)
    pure (storeAll S (ds.zip (rs.map fun y => (⟨b, h, y⟩ : Arg I a))))
  | .msplit a m b ds, S => .ofOption do
    let rs ← P.msplit a b ((S a).m m)
    pure (mstoreAll S b (ds.zip rs))
  | .seq p q, S => (runPack fuel p S).bind (runPack fuel q)
  | .ite c p q, S =>
    match evalCond R width S c with
    | none => .undef
    | some b => if b then runPack fuel p S else runPack fuel q S
  | .while c p, S => loop (fun S => evalCond R width S c) (runPack fuel p) fuel S

end run

/-- The bytes of an object with registers `gs` of elements of `s` bytes (`simd_builtin.h:812-813`, `simd_fixed_size.h:288-307`). -/
def toObj {w : Nat} (s : Nat) (gs : List Geo) (x : Tuple.Tup (BitVec w)) : Split.Obj :=
  List.zipWith (fun (g : Geo) (r : List (BitVec w)) =>
    (⟨g.size, g.full, MaskVec.ofElems s fun i => (r.getD i 0#w).setWidth (8 * s)⟩ : Split.Member)) gs x

/-- Registers `gs` with the elements `l`; unused elements have unknown values `pad` (simd_builtin.h:812-813, simd_fixed_size.h:288-307). -/
def ofLanes {α : Type} (pad : Nat → α) : List Geo → List α → Tuple.Tup α
  | [], _ => []
  | g :: gs, l => (l.take g.size ++ (List.range (g.full - g.size)).map pad) :: ofLanes pad gs (l.drop g.size)

/-- What the functions find in a program: does the compiler know the value of an object, at which address is it, what is in undefined register
halves and in unused elements (simd.h:3704-3983). -/
structure PackEnv (K : ι → Kind) where
  /-- for `split<Sizes...>` of an object of the type, at each level of the recursion -/
  cp : ι → List Nat → Bool
  addr : ι → List Nat → Nat
  /-- for `split<simd>` -/
  cpTo : ι → Bool
  addrTo : ι → Nat
  /-- for `concat` -/
  cpAll : Bool
  junk : MaskVec.Reg
  pad : ∀ a, Nat → (K a).Bits

/-- What kind of `simd` a tag gives (simd.h:3704-3771: `__is_scalar_abi`, `__is_fixed_size_abi`). -/
def partKind : Abi.Tag → Split.Kind
  | .scalar => .scalar
  | .fixed _ => .fixed
  | _ => .native

section abi
variable (t : Abi.Target) (T : ι → Abi.Elem) (tag : ι → Abi.Tag) (C : ∀ a, Cfg (K a) (β a)) (env : PackEnv K)

/-- The bytes of an object (`__data(x)`, simd.h:3586-3700). -/
def objOf (a : ι) (x : (abiImpl (C a) t (T a) (shape t (T a) (tag a))).V) : Split.Obj :=
  toObj (T a).size (abiRegs t (T a) (shape t (T a) (tag a))) (toRegs (C a) t (T a) _ x)

/-- An object with the given elements (simd.h:3704-3972: the parts and results are made by constructors). -/
def fill {w : Nat} (b : ι) (l : List (BitVec w)) : Option (abiImpl (C b) t (T b) (shape t (T b) (tag b))).V :=
  ofRegs (C b) t (T b) _ (ofLanes (env.pad b) (abiRegs t (T b) (shape t (T b) (tag b))) (l.map fun x => x.setWidth (K b).width))

/-- `concat` and `split` for types with the ABI tags `tag`: the result of `concat` and the parts of `split<Sizes...>` have the type
`simd<_Tp, simd_abi::deduce_t<_Tp, n>>` (simd.h:3815-3820, 3952-3956); `split<_V>` returns objects of the given type (3704-3813). -/
def abiPacks : Packs (fun a => abiImpl (C a) t (T a) (shape t (T a) (tag a))) where
  concat b xs :=
    if Abi.deduce t (T b) (xs.map fun r => (shape t (T r.ty) (tag r.ty)).size).sum = some (tag b) then
      match Split.concat (T b).size env.cpAll (Split.shapeFor t (T b) (tag b)) (xs.map fun r => objOf t T tag C r.ty r.val) with
      | .ok l => fill t T tag C env b l
      | _ => none
    else none
  split a tys x :=
    if tys.all (fun b => Abi.deduce t (T a) (shape t (T b.1) (tag b.1)).size == some (tag b.1)) then
      match Split.splitSizes t (T a) (env.cp a) (env.addr a) env.junk (tag a).isFixed (tys.map fun b => (shape t (T b.1) (tag b.1)).size)
          (objOf t T tag C a x) with
      | .ok ls => (tys.zip ls).mapM fun q => (fill t T tag C env q.1.1 q.2).map fun y => ⟨q.1.1, q.1.2, y⟩
      | _ => none
    else none
  splitTo a b _ x :=
    match Split.splitV t (T a) (env.cpTo a) (env.addrTo a) env.junk (tag a).isFixed (partKind (tag b)) (shape t (T b) (tag b)).size
        (objOf t T tag C a x) with
    | .ok ls => ls.mapM (fill t T tag C env b)
    | _ => none
  msplit a b k := (MaskSplit.split _ _ (toData (C a) t (T a) (shape t (T a) (tag a)) k)).map fun r => r.map (ofData (C b) t (T b) (shape t (T b) (tag b)))

end abi

end StdSimd.SimdClass
