import Verif.Model.Shape

/-!
Model of `src/mapping.rs`: dense and strided mappings. `isize` is `Int`.
-/

namespace Model

/-- `DenseMapping` (src/mapping.rs:112-114) and `StridedMapping` (118-121). -/
inductive Mapping
  | dense (shape : Shape)
  | strided (shape : Shape) (strides : List Int)
  deriving DecidableEq, Repr

/-- Checked store `l[i] = x`. -/
def setM {α} (l : List α) (i : Nat) (x : α) : Option (List α) :=
  if i < l.length then some (l.set i x) else none

/-- `Dims::<isize>::new(len)` for the dims type of a shape type: zero-initialised, and for static
rank the length must match. src/dim.rs:91-111. -/
def dimsNew (ty : ShapeTy) (len : Nat) : Option (List Int) :=
  match ty with
  | .static ds => if len = ds.length then some (List.replicate len 0) else none
  | .dynRank => some (List.replicate len 0)

namespace Mapping

/-- `Mapping::shape`, src/mapping.rs:150-152, 290-292. -/
@[reducible] def shape : Mapping → Shape
  | dense s => s
  | strided s _ => s

/-- `Layout::IS_DENSE` of the mapping's layout, src/layout.rs. -/
def isDense : Mapping → Bool
  | dense _ => true
  | strided _ _ => false

/-- `Mapping::Layout`, src/mapping.rs:144, 274. -/
def layout : Mapping → Layout
  | dense _ => .dense
  | strided _ _ => .strided

/-- Dimension sizes of the mapping's shape. -/
abbrev dims (m : Mapping) : List Nat := m.shape.dims

/-- `Mapping::dim`, src/mapping.rs:34-36. -/
def dim (m : Mapping) (i : Nat) : Option Nat := m.shape.dim i

/-- `Mapping::is_empty`, src/mapping.rs:47-49. -/
def isEmpty (m : Mapping) : Bool := m.shape.isEmpty

/-- `Mapping::len`, src/mapping.rs:52-54. -/
def len (m : Mapping) : Nat := m.shape.len

/-- `Mapping::rank`, src/mapping.rs:57-59. -/
abbrev rank (m : Mapping) : Nat := m.shape.rank

/-- `StridedMapping::new`, src/mapping.rs:241-245. -/
def newStrided (s : Shape) (strides : List Int) : Option Mapping := do
  check (s.rank = strides.length)
  pure (strided s strides)

/-- Loop of `StridedMapping::is_contiguous`, src/mapping.rs:276-288, over the (dim, stride) pairs
from last to first. -/
def contigLoop : List (Nat × Int) → Int → Bool
  | [], _ => true
  | (d, s) :: rest, stride => if s ≠ stride then false else contigLoop rest (stride * (d : Int))

/-- `Mapping::is_contiguous`, src/mapping.rs:146-148, 276-288. -/
def isContiguous : Mapping → Bool
  | dense _ => true
  | strided s st => contigLoop (s.dims.zip st).reverse 1

/-- `Mapping::stride`, src/mapping.rs:154-164 (dense), 294-298 (strided). -/
def stride (m : Mapping) (index : Nat) : Option Int := do
  check (index < m.rank)
  match m with
  | dense s => pure (((s.dims.drop (index + 1)).foldl (· * ·) 1 : Nat) : Int)
  | strided _ st => st[index]?

/-- Loop of `DenseMapping::for_each_stride`, src/mapping.rs:166-173: the calls `f(i, stride)` in
order, together with the running stride. -/
def denseCalls (dims : List Nat) : List (Nat × Int) × Nat :=
  dims.zipIdx.foldr (fun x acc => (acc.1 ++ [(x.2, (acc.2 : Int))], acc.2 * x.1)) ([], 1)

/-- `Mapping::for_each_stride`, src/mapping.rs:166-173 (dense, last to first), 300-304 (strided,
first to last): the list of calls `(i, stride)` in the order they are made. -/
def forEachStride : Mapping → List (Nat × Int)
  | dense s => (denseCalls s.dims).1
  | strided _ st => st.zipIdx.map fun x => (x.2, x.1)

/-- Storing strides with a per-call target position (`none` = the call stores nothing). -/
def storeStrides (calls : List (Nat × Int)) (target : Nat → Option Nat) (init : List Int) :
    Option (List Int) :=
  calls.foldlM (fun acc c => match target c.1 with
    | some j => setM acc j c.2
    | none => some acc) init

/-- `Mapping::inner_stride`, src/mapping.rs:175-179, 306-308. -/
def innerStride : Mapping → Int
  | dense s => if s.ty.rank? = some 0 then 0 else 1
  | strided s st => if 0 < s.rank then st.getD (s.rank - 1) 0 else 0

/-- `Mapping::offset`, src/mapping.rs:95-107. `index[i]` out of range would panic. -/
def offset (m : Mapping) (index : List Nat) : Option Int :=
  m.forEachStride.foldlM (fun off c => do
    let i : Nat ← index[c.1]?
    pure (off + c.2 * (i : Int))) 0

/-- Loop of `StridedMapping::linear_offset`, src/mapping.rs:310-322, over (dim, stride) pairs from
last to first; remainder and division by zero panic. -/
def linearLoop : List (Nat × Int) → (dividend : Nat) → (offset : Int) → Option Int
  | [], _, off => some off
  | (d, s) :: rest, k, off => do
    check (d ≠ 0)
    linearLoop rest (k / d) (off + s * ((k % d : Nat) : Int))

/-- `Mapping::linear_offset`, src/mapping.rs:181-185, 310-322. -/
def linearOffset : Mapping → Nat → Option Int
  | dense _, k => some (k : Int)
  | strided s st, k => linearLoop (s.dims.zip st).reverse k 0

/-- `Mapping::remap`, src/mapping.rs:204-208 (to dense), 367-373 (to strided). -/
def remap (m : Mapping) (ty : ShapeTy) : Layout → Option Mapping
  | .dense => do
    check (m.isContiguous = true)
    let s ← Shape.fromDims ty m.dims
    pure (dense s)
  | .strided => do
    let st ← dimsNew ty m.rank
    let st ← storeStrides m.forEachStride some st
    let s ← Shape.fromDims ty m.dims
    pure (strided s st)

/-- Bit mask loop and test of `StridedMapping::permute`, src/mapping.rs:327-335, with 64-bit
`usize`. Without overflow checks (release builds) shifts wrap modulo 64. With overflow checks (debug
builds) a shift by 64 or more panics; the shift by `rank` at the end is always reached if no earlier
one panics, and all `perm[i] < rank`, so no shift panics exactly when `rank < 64`. -/
def permMaskOk (checks : Bool) (rank : Nat) (perm : List Nat) : Bool :=
  let mask := perm.foldl (fun acc p => acc ||| (1 <<< (p % 64))) 0
  (!checks || decide (rank < 64)) && mask == usizeMax - (usizeMax <<< (rank % 64)) % 2 ^ 64

/-- `Mapping::permute`, src/mapping.rs:187-195 (dense), 324-356 (strided). -/
def permute (m : Mapping) (checks : Bool) (perm : List Nat) (ty : ShapeTy) : Layout → Option Mapping
  | .dense => do
    check (perm.length = m.rank)
    check (∀ x ∈ perm.zipIdx, x.1 = x.2)
    m.remap ty .dense
  | .strided => do
    check (perm.length = m.rank)
    check (∀ p ∈ perm, p < m.rank)
    check (permMaskOk checks m.rank perm = true)
    let shape ← Shape.new ty m.rank
    let strides ← dimsNew ty m.rank
    -- inverse permutation, stored in the shape's dims
    let inv ← perm.zipIdx.foldlM (fun acc x => setM acc x.1 x.2) shape.dims
    let strides ← storeStrides m.forEachStride (fun i => inv[i]?) strides
    let dims ← perm.mapM (fun p => m.dim p)
    let shape ← shape.withMutDims fun _ => some dims
    pure (strided shape strides)

/-- `Mapping::prepend_dim`, src/mapping.rs:197-202 (dense), 358-365 (strided). -/
def prependDim (m : Mapping) (size : Nat) (stride : Int) (ty : ShapeTy) : Layout → Option Mapping
  | .dense => do
    check (m.isDense = true)
    check (stride = (m.len : Int))
    let s ← m.shape.prependDim ty size
    pure (dense s)
  | .strided => do
    let st ← dimsNew ty (m.rank + 1)
    let st ← setM st 0 stride
    let st ← storeStrides m.forEachStride (fun i => some (i + 1)) st
    let s ← m.shape.prependDim ty size
    pure (strided s st)

/-- `Mapping::remove_dim`, src/mapping.rs:210-215 (dense), 375-389 (strided). -/
def removeDim (m : Mapping) (index : Nat) (ty : ShapeTy) : Layout → Option Mapping
  | .dense => do
    check (m.isDense = true)
    check (index = 0)
    let s ← m.shape.removeDim ty index
    pure (dense s)
  | .strided => do
    check (index < m.rank)
    let st ← dimsNew ty (m.rank - 1)
    let st ← storeStrides m.forEachStride
      (fun i => if i < index then some i else if index < i then some (i - 1) else none) st
    let s ← m.shape.removeDim ty index
    pure (strided s st)

/-- `Mapping::reorder`, src/mapping.rs:217-221 (dense), 391-397 (strided). -/
def reorder (m : Mapping) : Layout → Option Mapping
  | .dense => do
    check (m.rank < 2 ∧ m.isDense = true)
    let s ← m.shape.reverse
    pure (dense s)
  | .strided => do
    let st ← dimsNew m.shape.ty.reverse m.rank
    let st ← storeStrides m.forEachStride (fun i => some (m.rank - 1 - i)) st
    let s ← m.shape.reverse
    pure (strided s st)

/-- `Mapping::resize_dim`, src/mapping.rs:227-232 (dense), 455-461 (strided). -/
def resizeDim (m : Mapping) (index newSize : Nat) (ty : ShapeTy) : Layout → Option Mapping
  | .dense => do
    check (m.isDense = true)
    check (index = 0)
    let s ← m.shape.resizeDim ty index newSize
    pure (dense s)
  | .strided => do
    let st ← dimsNew ty m.rank
    let st ← storeStrides m.forEachStride some st
    let s ← m.shape.resizeDim ty index newSize
    pure (strided s st)

/-- Loop state of `StridedMapping::reshape`, src/mapping.rs:401-411. `rem` are the new dimensions
`0..j` in reverse order, `acc` the strides already stored at positions `j..` (the code stores them
into an array from the back; here they are consed). -/
structure ReshapeState where
  oldLen : Nat
  newLen : Nat
  oldStride : Int
  newStride : Int
  valid : Bool
  rem : List Nat
  acc : List Int
  deriving DecidableEq, Repr

/-- Inner loop "add dimensions within the current region", src/mapping.rs:426-437. -/
def addRegion (oldLen : Nat) : List Nat → Nat → Int → List Int → List Nat × Nat × Int × List Int
  | [], newLen, newStride, acc => ([], newLen, newStride, acc)
  | d :: rem, newLen, newStride, acc =>
    if newLen * d > oldLen then (d :: rem, newLen, newStride, acc)
    else addRegion oldLen rem (newLen * d) (newStride * (d : Int)) (newStride :: acc)

/-- One iteration of the outer loop, src/mapping.rs:413-438. -/
def reshapeStep (st : ReshapeState) (d : Nat) (s : Int) : ReshapeState :=
  let (oldStride, newStride, valid) :=
    if st.oldLen = st.newLen then (s, s, st.valid)
    else (st.oldStride, st.newStride, st.valid && (st.oldStride == s))
  let oldLen := st.oldLen * d
  let oldStride := oldStride * (d : Int)
  let (rem, newLen, newStride, acc) := addRegion oldLen st.rem st.newLen newStride st.acc
  { oldLen, newLen, oldStride, newStride, valid, rem, acc }

/-- "Add remaining dimensions", src/mapping.rs:441-448. -/
def addRemaining : List Nat → Nat → Int → List Int → Nat × List Int
  | [], newLen, _, acc => (newLen, acc)
  | d :: rem, newLen, newStride, acc =>
    addRemaining rem (newLen * d) (newStride * (d : Int)) (newStride :: acc)

/-- Initial loop state, src/mapping.rs:401-411. -/
def reshapeInit (newDims : List Nat) : ReshapeState :=
  { oldLen := 1, newLen := 1, oldStride := 1, newStride := 1, valid := true,
    rem := newDims.reverse, acc := [] }

/-- The outer loop over the old dimensions from last to first, src/mapping.rs:413-438. -/
def reshapeLoop (oldDims : List Nat) (oldStrides : List Int) (newDims : List Nat) : ReshapeState :=
  (oldDims.zip oldStrides).foldr (fun x st => reshapeStep st x.1 x.2) (reshapeInit newDims)

/-- Strides computed by `StridedMapping::reshape`, src/mapping.rs:401-452. -/
def reshapeStrides (oldDims : List Nat) (oldStrides : List Int) (newDims : List Nat) :
    Option (List Int) := do
  let st := reshapeLoop oldDims oldStrides newDims
  let (newLen, strides) := addRemaining st.rem st.newLen st.newStride st.acc
  check (newLen = 0 ∨ st.valid = true)
  pure strides

/-- `Mapping::reshape`, src/mapping.rs:223-225 (dense), 399-453 (strided). -/
def reshape (m : Mapping) (newShape : Shape) : Option Mapping := do
  let newShape ← m.shape.reshape newShape
  match m with
  | dense _ => pure (dense newShape)
  | strided s st => do
    let strides ← reshapeStrides s.dims st newShape.dims
    pure (strided newShape strides)

/-! Addressing with machine arithmetic: the same functions with every operation checked to stay
within `isize`/`usize`; `none` is an overflow. -/

/-- A value that fits in `isize` (64-bit), between `-2^63` and `2^63 - 1`. -/
def isz (x : Int) : Option Int :=
  if -9223372036854775808 ≤ x ∧ x < 9223372036854775808 then some x else none

/-- A value that fits in `usize` (64-bit). -/
def usz (x : Nat) : Option Nat := if x ≤ usizeMax then some x else none

/-- `DenseMapping::for_each_stride`, src/mapping.rs:166-173, with checked multiplication and casts. -/
def denseCallsChk (dims : List Nat) : Option (List (Nat × Int) × Nat) :=
  dims.zipIdx.foldr (fun x acc => do
    let (calls, stride) ← acc
    let s ← isz (stride : Int)
    let stride' ← usz (stride * x.1)
    pure (calls ++ [(x.2, s)], stride')) (some ([], 1))

/-- `Mapping::for_each_stride`, src/mapping.rs:166-173, 300-304, with checked arithmetic. -/
def callsChk : Mapping → Option (List (Nat × Int))
  | dense s => (denseCallsChk s.dims).map (·.1)
  | strided s st => some (strided s st).forEachStride

/-- `Mapping::offset`, src/mapping.rs:95-107, with checked arithmetic. -/
def offsetChk (m : Mapping) (index : List Nat) : Option Int := do
  let calls ← m.callsChk
  calls.foldlM (fun off c => do
    let i : Nat ← index[c.1]?
    let i' ← isz (i : Int)
    let p ← isz (c.2 * i')
    isz (off + p)) 0

/-- Loop of `StridedMapping::linear_offset`, src/mapping.rs:310-322, with checked arithmetic. -/
def linearLoopChk : List (Nat × Int) → (dividend : Nat) → (offset : Int) → Option Int
  | [], _, off => some off
  | (d, s) :: rest, k, off => do
    check (d ≠ 0)
    let i' ← isz ((k % d : Nat) : Int)
    let p ← isz (s * i')
    let off' ← isz (off + p)
    linearLoopChk rest (k / d) off'

/-- `Mapping::linear_offset`, src/mapping.rs:181-185, 310-322, with checked arithmetic. -/
def linearOffsetChk : Mapping → Nat → Option Int
  | dense _, k => isz (k : Int)
  | strided s st, k => linearLoopChk (s.dims.zip st).reverse k 0

end Mapping
end Model
