import Verif.Model.Mapping

/-!
Model of `src/view.rs`, `src/index/*.rs`: array views, checked indexing, axes, view indices and
permutations. A view is a base position inside the original allocation (in units of elements) and a
mapping. `View` and `ViewMut` (and the `Slice` methods that delegate to them) share this model.
-/

namespace Model

/-- Axis arguments: `Const<N>` (N ≤ 5), `Cols`, `Rows` and `Dyn` with its run-time value,
src/index/axis.rs:103-184. -/
inductive Axis
  | const (n : Nat)
  | cols
  | rows
  | dyn (i : Nat)
  deriving DecidableEq, Repr

/-- Axis types for which the trait is implemented, src/index/axis.rs:103, 144. -/
def Axis.WF : Axis → Prop
  | .const n => n ≤ 5
  | _ => True

instance Axis.decidableWF : (a : Axis) → Decidable a.WF
  | .const n => inferInstanceAs (Decidable (n ≤ 5))
  | .cols => inferInstanceAs (Decidable True)
  | .rows => inferInstanceAs (Decidable True)
  | .dyn _ => inferInstanceAs (Decidable True)

namespace Axis

/-- `Const<N>::Dim<S>`, src/index/axis.rs:104, 123. -/
def constDim : Nat → ShapeTy → DimTy
  | 0, s => s.head
  | n + 1, s => constDim n s.tail

/-- `Const<N>::Init<S>`, src/index/axis.rs:106, 125-126. -/
def constInit : Nat → ShapeTy → ShapeTy
  | 0, _ => .static []
  | n + 1, s => (constInit n s.tail).prepend s.head

/-- `Const<N>::Rest<S>`, src/index/axis.rs:107, 127. -/
def constRest : Nat → ShapeTy → ShapeTy
  | 0, s => s.tail
  | n + 1, s => constRest n s.tail

/-- `Const<N>::Remove<S>`, src/index/axis.rs:109, 129-130. -/
def constRemove : Nat → ShapeTy → ShapeTy
  | 0, s => s.tail
  | n + 1, s => (constRemove n s.tail).prepend s.head

/-- `Const<N>::Insert<D, S>`, src/index/axis.rs:110, 131-132. -/
def constInsert (d : DimTy) : Nat → ShapeTy → ShapeTy
  | 0, s => s.prepend d
  | n + 1, s => (constInsert d n s.tail).prepend s.head

/-- `Axis::Dim<S>`, src/index/axis.rs:104, 123, 149, 171. -/
def dimTy : Axis → ShapeTy → DimTy
  | .const n, s => constDim n s
  | .cols, s => constDim 1 s.reverse
  | .rows, s => constDim 0 s.reverse
  | .dyn _, _ => .dyn

/-- `Axis::Init<S>`, src/index/axis.rs:106, 125, 151, 173. -/
def init : Axis → ShapeTy → ShapeTy
  | .const n, s => constInit n s
  | .cols, s => (constRest 1 s.reverse).reverse
  | .rows, s => (constRest 0 s.reverse).reverse
  | .dyn _, _ => .dynRank

/-- `Axis::Rest<S>`, src/index/axis.rs:107, 127, 152, 174. -/
def rest : Axis → ShapeTy → ShapeTy
  | .const n, s => constRest n s
  | .cols, s => (constInit 1 s.reverse).reverse
  | .rows, s => (constInit 0 s.reverse).reverse
  | .dyn _, _ => .dynRank

/-- `Axis::Remove<S>`, src/index/axis.rs:109, 129, 154, 176. -/
def remove : Axis → ShapeTy → ShapeTy
  | .const n, s => constRemove n s
  | .cols, s => (constRemove 1 s.reverse).reverse
  | .rows, s => (constRemove 0 s.reverse).reverse
  | .dyn _, s => s.tail.toDyn

/-- `Axis::Insert<D, S>`, src/index/axis.rs:110, 131, 155, 177. -/
def insert (d : DimTy) : Axis → ShapeTy → ShapeTy
  | .const n, s => constInsert d n s
  | .cols, s => (constInsert d 1 s.reverse).reverse
  | .rows, s => (constInsert d 0 s.reverse).reverse
  | .dyn _, s => s.toDyn.prepend .dyn

/-- `Resize<A, S>`, src/index/axis.rs:71. -/
def resizeTy (a : Axis) (s : ShapeTy) : ShapeTy := a.insert .dyn (a.remove s)

/-- `Keep<A, S, L>`, src/index/axis.rs:74. -/
def keep (a : Axis) (s : ShapeTy) (l : Layout) : Layout := (a.rest s).layout l

/-- `Split<A, S, L>`, src/index/axis.rs:77. -/
def split (a : Axis) (s : ShapeTy) (l : Layout) : Layout := (a.init s).layout l

/-- `Axis::index`, src/index/axis.rs:112-116, 134-138, 158-162, 179-183. -/
def index : Axis → Nat → Option Nat
  | .const n, rank => if rank > n then some n else none
  | .cols, rank => if rank > 1 then some (rank - 1 - 1) else none
  | .rows, rank => if rank > 0 then some (rank - 0 - 1) else none
  | .dyn i, rank => if i < rank then some i else none

/-- `Axis::get`, src/index/axis.rs:30-37: the one-dimensional mapping along the axis. -/
def get (a : Axis) (m : Mapping) : Option Mapping := do
  let index ← a.index m.rank
  let size ← m.dim index
  let stride ← m.stride index
  (Mapping.dense ⟨.static [], []⟩).prependDim size stride (.static [a.dimTy m.shape.ty])
    (a.keep m.shape.ty m.layout)

/-- `Axis::remove`, src/index/axis.rs:40-45. -/
def removeMap (a : Axis) (m : Mapping) : Option Mapping := do
  let index ← a.index m.rank
  m.removeDim index (a.remove m.shape.ty) (a.split m.shape.ty m.layout)

/-- `Axis::resize`, src/index/axis.rs:48-54. -/
def resizeMap (a : Axis) (m : Mapping) (newSize : Nat) : Option Mapping := do
  let index ← a.index m.rank
  m.resizeDim index newSize (a.resizeTy m.shape.ty) (a.split m.shape.ty m.layout)

end Axis

/-- `std::ops::Bound<usize>`. -/
inductive Bnd
  | included (n : Nat)
  | excluded (n : Nat)
  | unbounded
  deriving DecidableEq, Repr

/-- `index::range`, src/index/mod.rs:17-45 (with `nightly`: `slice::range`, same behaviour). -/
def rangeNorm (start stop : Bnd) (len : Nat) : Option (Nat × Nat) := do
  let s ← match start with
    | .included n => some n
    | .excluded n => if n + 1 ≤ usizeMax then some (n + 1) else none
    | .unbounded => some 0
  let e ← match stop with
    | .included n => if n + 1 ≤ usizeMax then some (n + 1) else none
    | .excluded n => some n
    | .unbounded => some len
  check (s ≤ e)
  check (e ≤ len)
  pure (s, e)

/-- Arguments of `view`: `usize`, `..`, any other range type (through its bounds) and `StepRange`,
src/index/view.rs:55-161. -/
inductive DimIdx
  | int (i : Nat)
  | full
  | range (s e : Bnd)
  | step (s e : Bnd) (step : Int)
  deriving DecidableEq, Repr

namespace ViewIdx

/-- `ViewIndex::Outer<L>`, src/index/view.rs:58, 81, 102, 139, 166, 183. -/
def outer (l : Layout) : List DimIdx → Layout
  | [] => l
  | .int _ :: _ => .strided
  | .full :: rest => outer l rest
  | .range _ _ :: _ => .strided
  | .step _ _ _ :: _ => .strided

/-- `ViewIndex::Layout<L>`, src/index/view.rs:57, 80, 101, 138, 165, 182. -/
def layout (l : Layout) : List DimIdx → Layout
  | [] => l
  | .int _ :: rest => layout l rest
  | .full :: rest => outer l rest
  | .range _ _ :: rest => outer l rest
  | .step _ _ _ :: _ => .strided

/-- `ViewIndex::Shape<S>`, src/index/view.rs:56, 79, 100, 137, 164, 181. -/
def shapeTy : List DimIdx → ShapeTy → ShapeTy
  | [], _ => .static []
  | .int _ :: rest, s => shapeTy rest s.tail
  | .full :: rest, s => (shapeTy rest s.tail).prepend s.head
  | .range _ _ :: rest, s => (shapeTy rest s.tail).prepend .dyn
  | .step _ _ _ :: rest, s => (shapeTy rest s.tail).prepend .dyn

/-- `Default` for the mapping of shape `()`. -/
def unitMapping : Layout → Mapping
  | .dense => .dense ⟨.static [], []⟩
  | .strided => .strided ⟨.static [], []⟩ []

/-- `view_index`, src/index/view.rs:60-75 (usize), 83-94 (`..`), 104-124 (ranges), 141-160
(`StepRange`), 170-175 (`()`), 187-192 (tuples). `rest.length` is `I::RANK`. A zero step panics in
`div_ceil`. -/
def viewIndex (m : Mapping) : List DimIdx → ShapeTy → Option (Int × Mapping)
  | [], _ => some (0, unitMapping m.layout)
  | x :: rest, s => do
    let (offset, inner) ← viewIndex m rest s.tail
    let size ← m.dim (m.rank - 1 - rest.length)
    let stride ← m.stride (m.rank - 1 - rest.length)
    let ty := shapeTy (x :: rest) s
    let l := layout m.layout (x :: rest)
    match x with
    | .int i => do
      check (i < size)
      let r ← inner.remap ty l
      pure (offset + stride * (i : Int), r)
    | .full => do
      let r ← inner.prependDim size stride ty l
      pure (offset, r)
    | .range a b => do
      let (start, stop) ← rangeNorm a b size
      let count := stride * (start : Int)
      let r ← inner.prependDim (stop - start) stride ty l
      pure (offset + count, r)
    | .step a b step => do
      let (start, stop) ← rangeNorm a b size
      check (step.natAbs ≠ 0)
      let len := (stop - start + step.natAbs - 1) / step.natAbs
      let delta : Nat := if step < 0 ∧ start < stop then stop - 1 else start
      let r ← inner.prependDim len (stride * step) ty l
      pure (offset + stride * (delta : Int), r)

end ViewIdx

namespace Perm

/-- The axis type of a dimension type used in a permutation tuple (`Const<N>` or `Dyn`). -/
def toAxis : DimTy → Axis
  | .const n => .const n
  | .dyn => .dyn 0

/-- `Permutation::Init` for tuples, src/index/permutation.rs:21, 34-35. The empty tuple has no
instance; it is never used. -/
def init : List DimTy → ShapeTy
  | [] => .static []
  | [x] => (toAxis x).init (.static [])
  | x :: y :: rest => (init (y :: rest)).tail.merge ((toAxis x).init (.static []))

/-- `Permutation::Shape<S>` for tuples, src/index/permutation.rs:18, 30-31. -/
def shapeStatic : List DimTy → ShapeTy → ShapeTy
  | [], _ => .static []
  | [x], s => .static [(toAxis x).dimTy s]
  | x :: y :: rest, s => (shapeStatic (y :: rest) s).prepend ((toAxis x).dimTy s)

/-- `Permutation::Shape<S>`, src/index/permutation.rs:18, 30-31, 47. -/
def shapeTy : ShapeTy → ShapeTy → ShapeTy
  | .static xs, s => shapeStatic xs s
  | .dynRank, s => s.toDyn

/-- `Permutation::Layout<L>`, src/index/permutation.rs:19, 32, 48. -/
def layout : ShapeTy → Layout → Layout
  | .static [_], l => l
  | .static xs, l => (init xs).layout l
  | .dynRank, _ => .strided

/-- Permutation types for which the trait is implemented, src/index/permutation.rs:17, 40-46;
constant entries must themselves be axes. -/
def WF : ShapeTy → Prop
  | .static xs => xs ≠ [] ∧ xs.length ≤ 6 ∧ ∀ x ∈ xs, (toAxis x).WF
  | .dynRank => True

end Perm

/-- An array view: pointer position and mapping, src/raw_slice.rs:8-11, src/view.rs:18-27. -/
structure View where
  ptr : Int
  map : Mapping
  deriving DecidableEq, Repr

namespace View

abbrev ty (v : View) : ShapeTy := v.map.shape.ty
abbrev dims (v : View) : List Nat := v.map.dims
abbrev layout (v : View) : Layout := v.map.layout

/-- Bounds check loop of `SliceIndex for &[usize]`, src/index/slice.rs:43-47. -/
def boundsLoop (m : Mapping) (idx : List Nat) : Option Unit :=
  idx.zipIdx.foldlM (fun _ x => do
    let d ← m.dim x.2
    check (x.1 < d)) ()

/-- `v[idx]` for `&[usize]` and `[usize; N]`, src/index/slice.rs:32-34, 40-50, 65-83: the position of
the addressed element. -/
def index (v : View) (idx : List Nat) : Option Int := do
  check (idx.length = v.map.rank)
  boundsLoop v.map idx
  let off ← v.map.offset idx
  pure (v.ptr + off)

/-- `v[k]` for `usize`, src/index/slice.rs:88-102. -/
def linIndex (v : View) (k : Nat) : Option Int := do
  check (k < v.map.len)
  let off ← v.map.linearOffset k
  pure (v.ptr + off)

/-- `axis_at`, src/view.rs:248-267 (`into_axis_at` 59-65, `Slice::axis_at` src/slice.rs:86-88). -/
def axisAt (v : View) (a : Axis) (i : Nat) : Option View := do
  let p ← a.index v.map.rank
  let size ← v.map.dim p
  check (i < size)
  let m ← a.removeMap v.map
  let stride ← v.map.stride p
  let offset := stride * (i : Int)
  let count := if m.isEmpty then 0 else offset
  pure ⟨v.ptr + count, m⟩

/-- `into_at`, src/view.rs:43-48. -/
def at' (v : View) (i : Nat) : Option View := v.axisAt (.const 0) i

/-- `split_axis_at`, src/view.rs:269-298 (`into_split_axis_at` 228-237). -/
def splitAxisAt (v : View) (a : Axis) (mid : Nat) : Option (View × View) := do
  let p ← a.index v.map.rank
  let size ← v.map.dim p
  check (mid ≤ size)
  let first ← a.resizeMap v.map mid
  let second ← a.resizeMap v.map (size - mid)
  let stride ← v.map.stride p
  let offset := stride * (mid : Int)
  let count := if second.isEmpty then 0 else offset
  pure (⟨v.ptr, first⟩, ⟨v.ptr + count, second⟩)

/-- `into_split_at`, src/view.rs:209-214. -/
def splitAt (v : View) (mid : Nat) : Option (View × View) := v.splitAxisAt (.const 0) mid

/-- `into_mapping`, src/view.rs:126-130 (`Slice::remap`). -/
def remap (v : View) (ty : ShapeTy) (l : Layout) : Option View := do
  let m ← v.map.remap ty l
  pure ⟨v.ptr, m⟩

/-- `into_dyn`, src/view.rs:105-107. -/
def intoDyn (v : View) : Option View := v.remap .dynRank v.layout

/-- `into_shape`, src/view.rs:194-201 (`Slice::reshape`). -/
def reshape (v : View) (newShape : Shape) : Option View := do
  let m ← v.map.reshape newShape
  pure ⟨v.ptr, m⟩

/-- `into_flat`, src/view.rs:114-118 (`Slice::flatten`). -/
def flatten (v : View) : Option View := v.reshape ⟨.static [.dyn], [v.map.len]⟩

/-- `into_permuted`, src/view.rs:142-154 (`Slice::permute`). `checks` says whether the build has
overflow checks. -/
def permute (v : View) (checks : Bool) (perm : Shape) : Option View := do
  let m ← v.map.permute checks perm.dims (Perm.shapeTy perm.ty v.ty) (Perm.layout perm.ty v.layout)
  pure ⟨v.ptr, m⟩

/-- `into_reordered`, src/view.rs:157-163 (`Slice::reorder`). -/
def reorder (v : View) : Option View := do
  let m ← v.map.reorder (v.ty.tail.layout v.layout)
  pure ⟨v.ptr, m⟩

/-- `into_view`, src/view.rs:467-482, 491-506 (`Slice::view`, src/slice.rs:695-720). Only defined
for shape types with as many dimensions as there are arguments. -/
def view (v : View) (xs : List DimIdx) : Option View := do
  let (offset, m) ← ViewIdx.viewIndex v.map xs v.ty
  let count := if m.isEmpty then 0 else offset
  pure ⟨v.ptr + count, m⟩

/-- `into_row`, src/view.rs:170-174. -/
def row (v : View) (i : Nat) : Option View := do
  let shape ← Shape.fromDims (.static [v.ty.head, v.ty.tail.head]) v.dims
  let v' ← v.reshape shape
  v'.view [.int i, .full]

/-- `into_col`, src/view.rs:72-76. -/
def col (v : View) (i : Nat) : Option View := do
  let shape ← Shape.fromDims (.static [v.ty.head, v.ty.tail.head]) v.dims
  let v' ← v.reshape shape
  v'.view [.full, .int i]

/-- `into_diag`, src/view.rs:85-102. -/
def diag (v : View) (k : Int) : Option View := do
  check (v.map.rank = 2)
  let d0 ← v.map.dim 0
  let d1 ← v.map.dim 1
  let s0 ← v.map.stride 0
  let s1 ← v.map.stride 1
  let (offset, len) ←
    if 0 ≤ k then do
      check (k.toNat ≤ d1)
      pure (k * s1, min d0 (d1 - k.toNat))
    else do
      check ((-k).toNat ≤ d0)
      pure (-k * s0, min d1 (d0 - (-k).toNat))
  let count := if len > 0 then offset else 0
  let m ← Mapping.newStrided ⟨.static [.dyn], [len]⟩ [s0 + s1]
  pure ⟨v.ptr + count, m⟩

end View
end Model
