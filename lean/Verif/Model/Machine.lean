import Verif.Model.View

/-!
The view-producing functions with 64-bit machine integers. `usize` values are numbers below `2^64` and
`isize` values numbers between `-2^63` and `2^63 - 1`. Every `+`, `*` and unary `-` goes through `retU` or
`retI`: in builds with overflow checks (`checks`) an overflow panics, without them it wraps around. Casts
(`as`) always wrap. The definitions follow the same lines of code as those in `Shape.lean`, `Mapping.lean`
and `View.lean`, which use unbounded integers; `Props/Machine.lean` compares the two.
-/

namespace Model
namespace Machine

/-- A number that is an `isize`. -/
def FitsI (x : Int) : Prop := -9223372036854775808 ≤ x ∧ x < 9223372036854775808

instance (x : Int) : Decidable (FitsI x) := by unfold FitsI; infer_instance

/-- Result of an `isize` operation with exact result `x`. -/
def retI (checks : Bool) (x : Int) : Option Int :=
  if FitsI x then some x else if checks then none else some (Int.bmod x (2 ^ 64))

/-- Result of a `usize` operation with exact result `x`. -/
def retU (checks : Bool) (x : Nat) : Option Nat :=
  if x ≤ usizeMax then some x else if checks then none else some (x % 2 ^ 64)

/-- `x as isize` for `x : usize`. -/
def castI (x : Nat) : Int := Int.bmod (x : Int) (2 ^ 64)

/-- `x as usize` for `x : isize`. -/
def castU (x : Int) : Nat := (x % 2 ^ 64).toNat

/-- `Iterator::product` over `usize`: overflow is treated as for `*`. -/
def product (checks : Bool) (l : List Nat) : Option Nat :=
  l.foldlM (fun acc x => retU checks (acc * x)) 1

/-- `Shape::len`, src/shape.rs:74-76. -/
def len (checks : Bool) (s : Shape) : Option Nat := product checks s.dims

/-- `Shape::is_empty`, src/shape.rs:69-71. -/
def isEmpty (checks : Bool) (s : Shape) : Option Bool := (len checks s).map (· == 0)

/-- `Shape::reshape`, src/shape.rs:126-152; see `Shape.reshape`. -/
def shapeReshape (checks : Bool) (s : Shape) (newShape : Shape) : Option Shape := do
  let (dims, inferred) ← Shape.inferLoop newShape.dims
  let newShape ← newShape.withMutDims fun _ => some dims
  let oldLen ← len checks s
  let newLen ← newShape.checkedLen
  match inferred with
  | some i =>
    check (newLen ≠ 0 ∧ oldLen % newLen = 0)
    newShape.withMutDims fun dims => some (dims.set i (oldLen / newLen))
  | none =>
    check (newLen = oldLen)
    pure newShape

/-! Mappings. -/

/-- Loop of `StridedMapping::is_contiguous`, src/mapping.rs:279-285. -/
def contigLoop (checks : Bool) : List (Nat × Int) → Int → Option Bool
  | [], _ => some true
  | (d, s) :: rest, stride =>
    if s ≠ stride then some false
    else (retI checks (stride * castI d)).bind (contigLoop checks rest)

/-- `Mapping::is_contiguous`, src/mapping.rs:146-148, 276-288. -/
def isContiguous (checks : Bool) : Mapping → Option Bool
  | .dense _ => some true
  | .strided s st => contigLoop checks (s.dims.zip st).reverse 1

/-- `Mapping::stride`, src/mapping.rs:154-164 (dense), 294-298 (strided). -/
def stride (checks : Bool) (m : Mapping) (index : Nat) : Option Int := do
  check (index < m.rank)
  match m with
  | .dense s => (product checks (s.dims.drop (index + 1))).map castI
  | .strided _ st => st[index]?

/-- `Mapping::for_each_stride`, src/mapping.rs:166-173 (dense), 300-304 (strided). -/
def calls (checks : Bool) : Mapping → Option (List (Nat × Int))
  | .dense s => (s.dims.zipIdx.foldr (fun x acc => do
      let (calls, stride) ← acc
      let stride' ← retU checks (stride * x.1)
      pure (calls ++ [(x.2, castI stride)], stride')) (some (([] : List (Nat × Int)), 1))).map (·.1)
  | .strided s st => some (Mapping.strided s st).forEachStride

/-- `Mapping::remap`, src/mapping.rs:204-208 (to dense), 367-373 (to strided). -/
def remap (checks : Bool) (m : Mapping) (ty : ShapeTy) : Layout → Option Mapping
  | .dense => do
    let c ← isContiguous checks m
    check (c = true)
    let s ← Shape.fromDims ty m.dims
    pure (.dense s)
  | .strided => do
    let st ← dimsNew ty m.rank
    let cs ← calls checks m
    let st ← Mapping.storeStrides cs some st
    let s ← Shape.fromDims ty m.dims
    pure (.strided s st)

/-- `Mapping::permute`, src/mapping.rs:187-195 (dense), 324-356 (strided). -/
def permute (checks : Bool) (m : Mapping) (perm : List Nat) (ty : ShapeTy) : Layout → Option Mapping
  | .dense => do
    check (perm.length = m.rank)
    check (∀ x ∈ perm.zipIdx, x.1 = x.2)
    remap checks m ty .dense
  | .strided => do
    check (perm.length = m.rank)
    check (∀ p ∈ perm, p < m.rank)
    check (Mapping.permMaskOk checks m.rank perm = true)
    let shape ← Shape.new ty m.rank
    let strides ← dimsNew ty m.rank
    let inv ← perm.zipIdx.foldlM (fun acc x => setM acc x.1 x.2) shape.dims
    let cs ← calls checks m
    let strides ← Mapping.storeStrides cs (fun i => inv[i]?) strides
    let dims ← perm.mapM (fun p => m.dim p)
    let shape ← shape.withMutDims fun _ => some dims
    pure (.strided shape strides)

/-- `Mapping::prepend_dim`, src/mapping.rs:197-202 (dense), 358-365 (strided). -/
def prependDim (checks : Bool) (m : Mapping) (size : Nat) (stride : Int) (ty : ShapeTy) :
    Layout → Option Mapping
  | .dense => do
    check (m.isDense = true)
    let n ← len checks m.shape
    check (stride = castI n)
    let s ← m.shape.prependDim ty size
    pure (.dense s)
  | .strided => do
    let st ← dimsNew ty (m.rank + 1)
    let st ← setM st 0 stride
    let cs ← calls checks m
    let st ← Mapping.storeStrides cs (fun i => some (i + 1)) st
    let s ← m.shape.prependDim ty size
    pure (.strided s st)

/-- `Mapping::remove_dim`, src/mapping.rs:210-215 (dense), 375-389 (strided). -/
def removeDim (checks : Bool) (m : Mapping) (index : Nat) (ty : ShapeTy) : Layout → Option Mapping
  | .dense => do
    check (m.isDense = true)
    check (index = 0)
    let s ← m.shape.removeDim ty index
    pure (.dense s)
  | .strided => do
    check (index < m.rank)
    let st ← dimsNew ty (m.rank - 1)
    let cs ← calls checks m
    let st ← Mapping.storeStrides cs
      (fun i => if i < index then some i else if index < i then some (i - 1) else none) st
    let s ← m.shape.removeDim ty index
    pure (.strided s st)

/-- `Mapping::reorder`, src/mapping.rs:217-221 (dense), 391-397 (strided). -/
def reorder (checks : Bool) (m : Mapping) : Layout → Option Mapping
  | .dense => do
    check (m.rank < 2 ∧ m.isDense = true)
    let s ← m.shape.reverse
    pure (.dense s)
  | .strided => do
    let st ← dimsNew m.shape.ty.reverse m.rank
    let cs ← calls checks m
    let st ← Mapping.storeStrides cs (fun i => some (m.rank - 1 - i)) st
    let s ← m.shape.reverse
    pure (.strided s st)

/-- `Mapping::resize_dim`, src/mapping.rs:227-232 (dense), 455-461 (strided). -/
def resizeDim (checks : Bool) (m : Mapping) (index newSize : Nat) (ty : ShapeTy) :
    Layout → Option Mapping
  | .dense => do
    check (m.isDense = true)
    check (index = 0)
    let s ← m.shape.resizeDim ty index newSize
    pure (.dense s)
  | .strided => do
    let st ← dimsNew ty m.rank
    let cs ← calls checks m
    let st ← Mapping.storeStrides cs some st
    let s ← m.shape.resizeDim ty index newSize
    pure (.strided s st)

/-- Inner loop "add dimensions within the current region", src/mapping.rs:426-437. The product
`new_len * dim(j)` is computed twice with the same outcome. -/
def addRegion (checks : Bool) (oldLen : Nat) :
    List Nat → Nat → Int → List Int → Option (List Nat × Nat × Int × List Int)
  | [], newLen, newStride, acc => some ([], newLen, newStride, acc)
  | d :: rem, newLen, newStride, acc => do
    let p ← retU checks (newLen * d)
    if p > oldLen then some (d :: rem, newLen, newStride, acc)
    else do
      let q ← retI checks (newStride * castI d)
      addRegion checks oldLen rem p q (newStride :: acc)

/-- Strides at the start of an iteration, src/mapping.rs:415-420. -/
def regionStart (st : Mapping.ReshapeState) (s : Int) : Int × Int × Bool :=
  if st.oldLen = st.newLen then (s, s, st.valid)
  else (st.oldStride, st.newStride, st.valid && (st.oldStride == s))

/-- One iteration of the outer loop, src/mapping.rs:413-438. -/
def reshapeStep (checks : Bool) (st : Mapping.ReshapeState) (d : Nat) (s : Int) :
    Option Mapping.ReshapeState := do
  let r := regionStart st s
  let oldLen ← retU checks (st.oldLen * d)
  let oldStride ← retI checks (r.1 * castI d)
  let (rem, newLen, newStride, acc) ← addRegion checks oldLen st.rem st.newLen r.2.1 st.acc
  pure { oldLen, newLen, oldStride, newStride, valid := r.2.2, rem, acc }

/-- "Add remaining dimensions", src/mapping.rs:441-448. -/
def addRemaining (checks : Bool) : List Nat → Nat → Int → List Int → Option (Nat × List Int)
  | [], newLen, _, acc => some (newLen, acc)
  | d :: rem, newLen, newStride, acc => do
    let p ← retU checks (newLen * d)
    let q ← retI checks (newStride * castI d)
    addRemaining checks rem p q (newStride :: acc)

/-- The outer loop over the old dimensions from last to first, src/mapping.rs:413-438. -/
def reshapeLoop (checks : Bool) (oldDims : List Nat) (oldStrides : List Int) (newDims : List Nat) :
    Option Mapping.ReshapeState :=
  (oldDims.zip oldStrides).foldr (fun x st => st.bind fun st => reshapeStep checks st x.1 x.2)
    (some (Mapping.reshapeInit newDims))

/-- Strides computed by `StridedMapping::reshape`, src/mapping.rs:401-452. -/
def reshapeStrides (checks : Bool) (oldDims : List Nat) (oldStrides : List Int) (newDims : List Nat) :
    Option (List Int) := do
  let st ← reshapeLoop checks oldDims oldStrides newDims
  let (newLen, strides) ← addRemaining checks st.rem st.newLen st.newStride st.acc
  check (newLen = 0 ∨ st.valid = true)
  pure strides

/-- `Mapping::reshape`, src/mapping.rs:223-225 (dense), 399-453 (strided). -/
def reshape (checks : Bool) (m : Mapping) (newShape : Shape) : Option Mapping := do
  let newShape ← shapeReshape checks m.shape newShape
  match m with
  | .dense _ => pure (.dense newShape)
  | .strided s st => do
    let strides ← reshapeStrides checks s.dims st newShape.dims
    pure (.strided newShape strides)

/-- `Mapping::offset`, src/mapping.rs:95-107. -/
def offset (checks : Bool) (m : Mapping) (index : List Nat) : Option Int := do
  let cs ← calls checks m
  cs.foldlM (fun off c => do
    let i : Nat ← index[c.1]?
    let p ← retI checks (c.2 * castI i)
    retI checks (off + p)) 0

/-! Axes and view indices. -/

/-- `Axis::remove`, src/index/axis.rs:40-45. -/
def removeMap (checks : Bool) (a : Axis) (m : Mapping) : Option Mapping := do
  let index ← a.index m.rank
  removeDim checks m index (a.remove m.shape.ty) (a.split m.shape.ty m.layout)

/-- `Axis::resize`, src/index/axis.rs:48-54. -/
def resizeMap (checks : Bool) (a : Axis) (m : Mapping) (newSize : Nat) : Option Mapping := do
  let index ← a.index m.rank
  resizeDim checks m index newSize (a.resizeTy m.shape.ty) (a.split m.shape.ty m.layout)

/-- `view_index`, src/index/view.rs:60-75 (usize), 83-94 (`..`), 104-124 (ranges), 141-160
(`StepRange`), 170-175 (`()`), 187-192 (tuples). -/
def viewIndex (checks : Bool) (m : Mapping) : List DimIdx → ShapeTy → Option (Int × Mapping)
  | [], _ => some (0, ViewIdx.unitMapping m.layout)
  | x :: rest, s => do
    let (offset, inner) ← viewIndex checks m rest s.tail
    let size ← m.dim (m.rank - 1 - rest.length)
    let stride ← stride checks m (m.rank - 1 - rest.length)
    let ty := ViewIdx.shapeTy (x :: rest) s
    let l := ViewIdx.layout m.layout (x :: rest)
    match x with
    | .int i => do
      check (i < size)
      let p ← retI checks (stride * castI i)
      let o ← retI checks (offset + p)
      let r ← remap checks inner ty l
      pure (o, r)
    | .full => do
      let r ← prependDim checks inner size stride ty l
      pure (offset, r)
    | .range a b => do
      let (start, stop) ← rangeNorm a b size
      let count ← retI checks (stride * castI start)
      let o ← retI checks (offset + count)
      let r ← prependDim checks inner (stop - start) stride ty l
      pure (o, r)
    | .step a b step => do
      let (start, stop) ← rangeNorm a b size
      check (step.natAbs ≠ 0)
      let len := (stop - start + step.natAbs - 1) / step.natAbs
      let delta : Nat := if step < 0 ∧ start < stop then stop - 1 else start
      let p ← retI checks (stride * castI delta)
      let o ← retI checks (offset + p)
      let t ← retI checks (stride * step)
      let r ← prependDim checks inner len t ty l
      pure (o, r)

/-! Views. The position `ptr` of a view is not a machine integer but a place in the allocation; `offset`
of a pointer is therefore exact. -/

/-- `axis_at`, src/view.rs:248-267. -/
def axisAt (checks : Bool) (v : View) (a : Axis) (i : Nat) : Option View := do
  let p ← a.index v.map.rank
  let size ← v.map.dim p
  check (i < size)
  let m ← removeMap checks a v.map
  let stride ← stride checks v.map p
  let offset ← retI checks (stride * castI i)
  let e ← isEmpty checks m.shape
  let count := if e then 0 else offset
  pure ⟨v.ptr + count, m⟩

/-- `split_axis_at`, src/view.rs:269-298. -/
def splitAxisAt (checks : Bool) (v : View) (a : Axis) (mid : Nat) : Option (View × View) := do
  let p ← a.index v.map.rank
  let size ← v.map.dim p
  check (mid ≤ size)
  let first ← resizeMap checks a v.map mid
  let second ← resizeMap checks a v.map (size - mid)
  let stride ← stride checks v.map p
  let offset ← retI checks (stride * castI mid)
  let e ← isEmpty checks second.shape
  let count := if e then 0 else offset
  pure (⟨v.ptr, first⟩, ⟨v.ptr + count, second⟩)

/-- `into_mapping`, src/view.rs:126-130. -/
def viewRemap (checks : Bool) (v : View) (ty : ShapeTy) (l : Layout) : Option View := do
  let m ← remap checks v.map ty l
  pure ⟨v.ptr, m⟩

/-- `into_shape`, src/view.rs:194-201. -/
def viewReshape (checks : Bool) (v : View) (newShape : Shape) : Option View := do
  let m ← reshape checks v.map newShape
  pure ⟨v.ptr, m⟩

/-- `into_flat`, src/view.rs:114-118. -/
def flatten (checks : Bool) (v : View) : Option View := do
  let n ← len checks v.map.shape
  viewReshape checks v ⟨.static [.dyn], [n]⟩

/-- `into_permuted`, src/view.rs:142-154. -/
def viewPermute (checks : Bool) (v : View) (perm : Shape) : Option View := do
  let m ← permute checks v.map perm.dims (Perm.shapeTy perm.ty v.ty) (Perm.layout perm.ty v.layout)
  pure ⟨v.ptr, m⟩

/-- `into_reordered`, src/view.rs:157-163. -/
def viewReorder (checks : Bool) (v : View) : Option View := do
  let m ← reorder checks v.map (v.ty.tail.layout v.layout)
  pure ⟨v.ptr, m⟩

/-- `into_view`, src/view.rs:467-482, 491-506. -/
def view (checks : Bool) (v : View) (xs : List DimIdx) : Option View := do
  let (offset, m) ← viewIndex checks v.map xs v.ty
  let e ← isEmpty checks m.shape
  let count := if e then 0 else offset
  pure ⟨v.ptr + count, m⟩

/-- Common part of `into_row`, `into_col`: conversion to two dimensions, src/view.rs:72-76, 170-174. -/
def line (checks : Bool) (v : View) (xs : List DimIdx) : Option View := do
  let shape ← Shape.fromDims (.static [v.ty.head, v.ty.tail.head]) v.dims
  let v' ← viewReshape checks v shape
  view checks v' xs

/-- `into_row`, src/view.rs:170-174. -/
def row (checks : Bool) (v : View) (i : Nat) : Option View := line checks v [.int i, .full]

/-- `into_col`, src/view.rs:72-76. -/
def col (checks : Bool) (v : View) (i : Nat) : Option View := line checks v [.full, .int i]

/-- Offset and length in `into_diag`, src/view.rs:88-96. -/
def diagPart (checks : Bool) (k : Int) (d0 d1 : Nat) (s0 s1 : Int) : Option (Int × Nat) :=
  if 0 ≤ k then do
    check (castU k ≤ d1)
    let o ← retI checks (k * s1)
    pure (o, min d0 (d1 - castU k))
  else do
    let n ← retI checks (-k)
    check (castU n ≤ d0)
    let o ← retI checks (n * s0)
    pure (o, min d1 (d0 - castU n))

/-- `into_diag`, src/view.rs:85-102. -/
def diag (checks : Bool) (v : View) (k : Int) : Option View := do
  check (v.map.rank = 2)
  let d0 ← v.map.dim 0
  let d1 ← v.map.dim 1
  let s0 ← stride checks v.map 0
  let s1 ← stride checks v.map 1
  let (offset, len) ← diagPart checks k d0 d1 s0 s1
  let count := if len > 0 then offset else 0
  let s ← retI checks (s0 + s1)
  let m ← Mapping.newStrided ⟨.static [.dyn], [len]⟩ [s]
  pure ⟨v.ptr + count, m⟩

/-- `v[idx]` for `&[usize]` and `[usize; N]`, src/index/slice.rs:32-34, 40-50, 65-83. -/
def index (checks : Bool) (v : View) (idx : List Nat) : Option Int := do
  check (idx.length = v.map.rank)
  View.boundsLoop v.map idx
  let off ← offset checks v.map idx
  pure (v.ptr + off)

end Machine
end Model
