import Verif.Model.Storage
import Verif.Model.Convert
import Verif.Model.Serde
import Verif.Model.Assign
import Verif.Model.DynRank

/-!
Model of the remaining methods of `src/slice.rs` (indexing with ranges, formatting, copying), of the
arguments that stand for a shape (`IntoShape`), and of the choice of the owned array type (`Shape::Owned`).
-/

namespace Model

variable {σ A T : Type}

/-! Indexing with ranges. -/

/-- First position of a range with a start bound (std); `+ 1` is checked. -/
def rangeStart : Bnd → Option Nat
  | .included n => some n
  | .excluded n => if n = usizeMax then none else some (n + 1)
  | .unbounded => some 0

/-- Position past the end of a range with an end bound (std). -/
def rangeStop (len : Nat) : Bnd → Option Nat
  | .included n => if n = usizeMax then none else some (n + 1)
  | .excluded n => some n
  | .unbounded => some len

/-- Indexing of a slice `[T]` of the given length with a range (std): the first position and the length of
the subslice. The types `Range`, `RangeFrom`, `RangeFull`, `RangeInclusive`, `RangeTo`, `RangeToInclusive`
and pairs of bounds are all given by their bounds. -/
def sliceRange (len : Nat) (start stop : Bnd) : Option (Nat × Nat) := do
  let a ← rangeStart start
  let b ← rangeStop len stop
  check (a ≤ b)
  check (b ≤ len)
  pure (a, b - a)

/-- `From<View<(D,)>>` for `&[T]`, src/view.rs:407-411 (and `AsRef<[T]>`, src/slice.rs:772-788): position
and length. -/
def View.asSlice (v : View) : Int × Nat := (v.ptr, v.map.len)

/-- `a[range]` for a dense array, src/index/slice.rs:113-143. -/
def View.rangeIndex (v : View) (start stop : Bnd) : Option (Int × Nat) := do
  let f ← v.flatten
  let r ← sliceRange f.asSlice.2 start stop
  pure (f.asSlice.1 + r.1, r.2)

/-! Diagonals. -/

/-- `Slice::diag` and `diag_mut`, src/slice.rs:188-192, 201-205: unlike `into_diag` of a view, the shape is
first converted to two dimensions. -/
def View.sliceDiag (v : View) (k : Int) : Option View := do
  let shape ← Shape.fromDims (.static [v.ty.head, v.ty.tail.head]) v.dims
  let v' ← v.reshape shape
  v'.diag k

/-! Formatting. -/

/-- `Debug` for `Slice`, src/slice.rs:813-821 (views, tensors and arrays delegate to it): the element, or a
list of the formatted rows; `DebugList::entries` formats the items of the iterator one after the other.
`fmt` formats the element at a position. The text itself and errors of the formatter are not modelled. The
fuel is one more than the rank. -/
def debugLoop (fmt : Int → M σ A) : (fuel : Nat) → View → M σ (Arr A)
  | 0, _ => M.ub
  | fuel + 1, v =>
    if v.map.rank = 0 then
      M.bind (M.lift (v.index [])) fun p => M.bind (fmt p) fun a => M.pure (.elem a)
    else
      M.bind (M.lift (Expr.axisNew true v (.const 0))) fun e =>
        let it := Iter.new e
        M.bind (forCollect (debugLoop fmt fuel) (it.outerCount * it.innerLimit + 1) it) fun xs => M.pure (.arr xs)

/-- `Debug::fmt`, src/slice.rs:813-821. -/
def debug (fmt : Int → M σ A) (v : View) : M σ (Arr A) := debugLoop fmt (v.map.rank + 1) v

/-! The type of owned arrays. -/

/-- The two owned array types, with their shape type. -/
inductive OwnedTy
  | array (s : ShapeTy)
  | tensor (s : ShapeTy)
  deriving DecidableEq, Repr

/-- `Owned::WithConst`, src/array.rs:358 with `ConstShape::WithConst`, src/shape.rs:462-478, and
src/tensor.rs:893. -/
def OwnedTy.withConst (n : Nat) : OwnedTy → OwnedTy
  | .array s => if s.rank? = some 6 then .tensor (s.prepend (.const n)) else .array (s.prepend (.const n))
  | .tensor s => .tensor (s.prepend (.const n))

/-- `Shape::Owned` for tuples, src/shape.rs:344, 374, 428, with `Dim::Owned`, src/dim.rs:61, 78. -/
def ownedStatic : List DimTy → OwnedTy
  | [] => .array (.static [])
  | .const n :: ds => (ownedStatic ds).withConst n
  | .dyn :: ds => .tensor (ShapeTy.prepend .dyn (.static ds))

/-- `Shape::Owned`, src/shape.rs:304, 344, 374, 428. -/
def ShapeTy.owned : ShapeTy → OwnedTy
  | .static ds => ownedStatic ds
  | .dynRank => .tensor .dynRank

/-- `FromExpression::from_expr` of the owned type, src/array.rs:273-277, src/tensor.rs:782-792. -/
def ownedFromExpr (e : Expr σ T) : OwnedTy → M (σ × Own T) Unit
  | .array s => arrayFromExpr s e
  | .tensor _ => tensorFromExpr e

/-- `Expression::eval`, src/expr/expression.rs:80-85. -/
def eval (e : Expr σ T) : M (σ × Own T) Unit := ownedFromExpr e e.shape.ty.owned

/-! Copying. -/

/-- Clone the element at a position of the memory `m` of a borrowed array. -/
def cloneAt (m : Int → Option T) (c : T → M σ T) (p : Int) : M σ T :=
  match m p with
  | some x => c x
  | none => M.ub

/-- `self.expr().cloned()` for a view into the memory `m`. -/
def clonedView (v : View) (m : Int → Option T) (c : T → M σ T) : Expr σ T := .map (.view true v) (cloneAt m c)

/-- `Slice::to_tensor`, src/slice.rs:608-613, through src/tensor.rs:728-734. -/
def toTensor (v : View) (m : Int → Option T) (c : T → M σ T) : M (σ × Own T) Unit :=
  tensorFromExpr (clonedView v m c)

/-- `Slice::to_array`, src/slice.rs:599-605, through src/array.rs:235-242. The shape type is the one of
the slice. -/
def toArray (v : View) (m : Int → Option T) (c : T → M σ T) : M (σ × Own T) Unit :=
  arrayFromExpr v.ty (clonedView v m c)

/-- `Slice::to_vec`, src/slice.rs:625-630. -/
def toVec (v : View) (m : Int → Option T) (c : T → M σ T) : M (σ × Own T) Unit :=
  M.bind (toTensor v m c) fun _ => tensorIntoVec

/-- `ToOwned::to_owned`, src/slice.rs:889-891. -/
def toOwned (v : View) (m : Int → Option T) (c : T → M σ T) : M (σ × Own T) Unit :=
  ownedFromExpr (clonedView v m c) v.ty.owned

/-- `Slice::tensor`, src/slice.rs:680-688. -/
def viewTensor (v : View) (xs : List DimIdx) (m : Int → Option T) (c : T → M σ T) : M (σ × Own T) Unit :=
  M.bind (M.lift (v.view xs)) fun w => toTensor w m c

/-- `Slice::array`, src/slice.rs:664-673. -/
def viewArray (v : View) (xs : List DimIdx) (m : Int → Option T) (c : T → M σ T) : M (σ × Own T) Unit :=
  M.bind (M.lift (v.view xs)) fun w => toArray w m c

/-- `ToOwned::clone_into` into an `Array`, src/slice.rs:893-895, src/array.rs:360-365: the target is a dense
view of the memory in the world. (Into a `Tensor` it is `cloneFrom`.) -/
def cloneIntoArray (v : View) (m : Int → Option T) (c : T → M σ T) (target : View) : M (σ × List T) Unit :=
  assign target (Expr.view true v) (cloneAt m c)

/-! Shape arguments. -/

/-- Values that can be given as a shape: the types with an `IntoShape` implementation, src/shape.rs:480-586.
`array` is `[usize; N]` (implemented for `N ≤ 6`), `arrayRef` is `&[usize; N]`. -/
inductive ShapeArg
  | shape (s : Shape)
  | array (ds : List Nat)
  | arrayRef (ds : List Nat)
  | slice (ds : List Nat)
  | boxed (ds : List Nat)
  | vec (ds : List Nat)
  | const (n : Nat)
  | dyn (n : Nat)

/-- `IntoShape::into_shape`, src/shape.rs:480-586. -/
def ShapeArg.intoShape : ShapeArg → Option Shape
  | .shape s => some s
  | .array ds => Shape.fromDims (.static (ds.map fun _ => .dyn)) ds
  | .arrayRef ds => Shape.fromDims .dynRank ds
  | .slice ds => Shape.fromDims .dynRank ds
  | .boxed ds => some ⟨.dynRank, ds⟩
  | .vec ds => some ⟨.dynRank, ds⟩
  | .const n => some ⟨.static [.const n], [n]⟩
  | .dyn n => some ⟨.static [.dyn], [n]⟩

/-- `IntoShape::into_dims`, src/shape.rs:480-586: the slice that the closure gets. -/
def ShapeArg.intoDims : ShapeArg → List Nat
  | .shape s => s.dims
  | .array ds => ds
  | .arrayRef ds => ds
  | .slice ds => ds
  | .boxed ds => ds
  | .vec ds => ds
  | .const n => [n]
  | .dyn n => [n]

/-- The representation of the shapes of dynamic rank made by `into_shape`, src/shape.rs:480-562, with
`Shape::from_dims`, src/shape.rs:61-66. -/
def ShapeArg.dynRank : ShapeArg → Option DynRank
  | .arrayRef ds => some ((DynRank.new ds.length).withMutDims fun i _ => ds.getD i 0)
  | .slice ds => some ((DynRank.new ds.length).withMutDims fun i _ => ds.getD i 0)
  | .boxed ds => some (.dyn ds)
  | .vec ds => some (.dyn ds)
  | _ => none

/-! Macros. -/

/-- The repeat form of `tensor!`, src/macros.rs:109-126: `tensor![[x; i]; j]` is `from_elem([j, i], x)`.
`sizes` is in the order of writing, from the inside out; `x` is cloned with `c`. -/
def tensorRepeat (sizes : List Nat) (f : M σ T) : M (σ × Own T) Unit :=
  M.bind (M.lift (ShapeArg.intoShape (.array sizes.reverse))) fun s =>
    M.bind (M.lift (Expr.fromElemNew s f)) fun e => tensorFromExpr e

/-! References to slices. -/

/-- An address that a `&Slice` can hold: of a `RawSlice` (by its number), or of an element. -/
inductive Addr
  | desc (i : Nat)
  | data (p : Int)
  deriving DecidableEq, Repr

/-- `size_of::<L::Mapping<S>>() == 0`, src/mapping.rs:112-121, src/dim.rs: `Const` has no size, and the strides
of rank 0 have none. -/
def mappingZst : ShapeTy → Layout → Bool
  | .dynRank, _ => false
  | .static ds, l => ds.all (fun d => d != .dyn) && (l == .dense || ds.isEmpty)

/-- The value of a mapping type without size, as read through any pointer. -/
def mappingUnit (ty : ShapeTy) : Layout → Mapping
  | .dense => .dense (Shape.default ty)
  | .strided => .strided (Shape.default ty) []

/-- `RawSlice::as_slice`, `as_mut_slice`, src/raw_slice.rs:18-36, of the descriptor with number `i`; the
list has all descriptors in memory. This is `deref` of views and tensors. -/
def asSliceRef (mem : List View) (ty : ShapeTy) (l : Layout) (i : Nat) : Option Addr := do
  let v ← mem[i]?
  if mappingZst ty l then pure (.data v.ptr) else pure (.desc i)

/-- `Deref for Array`, src/array.rs:211-227, of the array at the position `p`. -/
def arrayDeref (ty : ShapeTy) (p : Int) : Option Addr := do
  let _ ← (Shape.default ty).checkedLen
  pure (.data p)

/-- `RawSlice::from_slice`, `from_mut_slice`, src/raw_slice.rs:38-48: `none` is a panic or a pointer that is
no address of a descriptor. -/
def fromSliceRef (mem : List View) (ty : ShapeTy) (l : Layout) (a : Addr) : Option View := do
  check (mappingZst ty l = false)
  match a with
  | .desc i => mem[i]?
  | .data _ => none

/-- `Slice::as_ptr`, `as_mut_ptr`, src/slice.rs:33-48; `none` also if the result is no address of an element. -/
def slicePtr (mem : List View) (ty : ShapeTy) (l : Layout) (a : Addr) : Option Int :=
  if mappingZst ty l then
    match a with
    | .data p => some p
    | .desc _ => none
  else (fromSliceRef mem ty l a).map View.ptr

/-- `Slice::mapping`, src/slice.rs:329-335. -/
def sliceMapping (mem : List View) (ty : ShapeTy) (l : Layout) (a : Addr) : Option Mapping :=
  if mappingZst ty l then some (mappingUnit ty l) else (fromSliceRef mem ty l a).map View.map

/-- `AsRef<[[T; B]; A]>` and `AsMut` of a dense slice with constant dimensions, src/slice.rs:790-811: a pointer
cast, so that the address must be that of the elements in the memory `m`. -/
def sliceAsArray (dims : List Nat) (a : Addr) (m : List T) : Option (Arr T) :=
  match a with
  | .data p => Arr.unflat dims ((m.drop p.toNat).take (dims.foldl (· * ·) 1))
  | .desc _ => none

/-! Copies of owning expressions. -/

/-- Run a computation on a tensor of `ManuallyDrop` elements: dropping them has no effect. -/
def manually (x : M (σ × Own T) Unit) : M (σ × Own T) Unit := fun s =>
  match x s with
  | .ok _ t => .ok () (t.1, { t.2 with log := s.2.log })
  | .panic t => .panic (t.1, { t.2 with log := s.2.log })
  | .ub => .ub
  | .abort => .abort

/-- `Clone::clone` of an `IntoExpr` with the tensor `b` as buffer, src/expr/into_expr.rs:45-49. -/
def intoExprClone (b : Own T) (idx : Nat) (c : T → M σ T) : M (σ × Own T) Unit :=
  M.bind (M.lift (check (idx = 0))) fun _ => manually (tensorClone b c)

/-- `Clone::clone_from` of an `IntoExpr` with the tensor `b` as buffer of the source,
src/expr/into_expr.rs:51-55. -/
def intoExprCloneFrom (idx : Nat) (b : Own T) (idx' : Nat) (c : T → M σ T) : M (σ × Own T) Unit :=
  M.bind (M.lift (check (idx = 0 ∧ idx' = 0))) fun _ => manually (tensorCloneFrom b c)

/-- `Debug for Iter`, src/expr/iter.rs:66-72: the assertion. -/
def iterDebug {α : Type} (it : Iter σ α) : Option Unit := check (it.innerIndex = 0)

end Model
