import Verif.Model.Machine
import Verif.Model.Storage

/-!
The operations on tensors with 64-bit machine integers, see `Model/Machine.lean`. The definitions follow the same
lines of code as those in `Model/Tensor.lean` and `Model/Storage.lean`, which use unbounded integers;
`Props/MachineStorage.lean` compares the two. Every length is computed as a product of dimensions, which panics or
wraps around on overflow. Subtractions are exact as in the other model, and so is the iteration over expressions
(for that see `Model/MachineIter.lean`).
-/

namespace Model
namespace Machine

variable {σ T α β : Type}

/-- The length of a shape, `Shape::len`, src/shape.rs:74-76, and `Mapping::len`, src/mapping.rs:52-54. -/
def lenM (checks : Bool) (s : Shape) : M σ Nat := M.lift (len checks s)

/-- `Drop` of the guard in `with_mut_parts`, src/raw_tensor.rs:167-187. -/
def partsGuard (checks : Bool) : M (σ × Own T) Unit := do
  let o ← own
  let n ← lenM checks o.shape
  if o.len ≠ n then
    let d ← lenM checks (Shape.default o.shape.ty)
    M.lift (check (d = 0))
    upd fun o => { o with shape := Shape.default o.shape.ty }
    dropCells 0 o.len
  else pure ()

/-- `RawTensor::with_mut_parts`, src/raw_tensor.rs:162-208. -/
def withMutParts (checks : Bool) (x : M (σ × Own T) α) : M (σ × Own T) α := do
  let o ← own
  let n ← lenM checks o.shape
  upd fun o => { o with len := n }
  M.onPanic x (partsGuard checks)

/-- `copy_dim`, src/raw_tensor.rs:345-424. -/
def copyDim (checks : Bool) (f : M σ T) : (oldDims newDims : List Nat) → M ((σ × Own T) × Loc T) Unit
  | od :: ods, nd :: nds =>
    M.bind (M.lift (product checks ods)) fun oldStride =>
      M.bind (M.lift (product checks nds)) fun newStride =>
        let m := min od nd
        M.bind (if 0 < ods.length then repeatM m (copyDim checks f ods nds) else moveOld m) fun _ =>
          M.bind (if m < od then M.bind (M.lift (retU checks ((od - m) * oldStride))) dropOld
            else M.pure ()) fun _ =>
            M.bind (M.lift (retU checks ((nd - m) * newStride))) fun additional => repeatM additional (pushNew f)
  | _, _ => M.panic

/-- The last branch of `RawTensor::resize_with`, src/raw_tensor.rs:129-143. -/
def resizeCopy (checks : Bool) (newDims : List Nat) (newLen : Nat) (f : M σ T) : M (σ × Own T) Unit := do
  let o ← own
  M.lift (check (newLen ≤ o.limit))
  upd fun o => { o with len := 0 }
  let r ← M.scope ⟨0, o.len, List.replicate newLen none, 0⟩ (M.bind
    (M.onPanic (copyDim checks f o.shape.dims newDims) (M.bind dropOldGuard fun _ => dropNewVec))
    fun _ => dropOldGuard)
  upd fun o => { o with cells := r.2.newCells, len := r.2.newLen }

/-- The three ways of resizing the vector in `RawTensor::resize_with`, src/raw_tensor.rs:124-144. -/
def resizeVec (checks : Bool) (newDims : List Nat) (newLen : Nat) (f : M σ T) : M (σ × Own T) Unit :=
  M.bind own fun o =>
    if newLen = 0 then vecClear
    else if newDims.tail = o.shape.dims.tail then vecResizeWith newLen f
    else resizeCopy checks newDims newLen f

/-- `RawTensor::resize_with`, src/raw_tensor.rs:111-151. The new length is always computed with checks. -/
def resizeWith (checks : Bool) (newDims : List Nat) (f : M σ T) : M (σ × Own T) Unit :=
  M.bind own fun o =>
    M.bind (M.lift (check (newDims.length = o.shape.rank))) fun _ =>
      if newDims ≠ [] then
        M.bind (M.lift (Shape.checkedLen ⟨.dynRank, newDims⟩)) fun newLen =>
          withMutParts checks (M.bind (resizeVec checks newDims newLen f) fun _ =>
            setShape fun s => s.withMutDims fun dims => Shape.copyFromSlice dims newDims)
      else M.pure ()

/-- `RawTensor::with_vec`, src/raw_tensor.rs:263-283. -/
def readElems (checks : Bool) (b : Own T) : M σ (List T) :=
  M.bind (lenM checks b.shape) fun n =>
    let xs := b.cells.take n
    if xs.length = n ∧ xs.all Option.isSome then M.pure (xs.filterMap id) else M.ub

/-- `Clone::clone` of a tensor, src/raw_tensor.rs:287-289. -/
def tensorClone (checks : Bool) (b : Own T) (c : T → M σ T) : M (σ × Own T) Unit :=
  M.bind (M.up (readElems checks b)) fun src =>
    M.bind (vecClone src c) fun _ => upd fun o => { o with shape := b.shape }

/-- `Clone::clone_from`, src/raw_tensor.rs:291-298. Simplification: the elements of the other tensor are read before
this one is taken apart. -/
def tensorCloneFrom (checks : Bool) (b : Own T) (c : T → M σ T) : M (σ × Own T) Unit :=
  M.bind (M.up (readElems checks b)) fun src =>
    withMutParts checks do
      vecCloneFrom src c
      upd fun o => { o with shape := b.shape }

/-- `Tensor::clear`, src/tensor.rs:81-90. -/
def tensorClear (checks : Bool) : M (σ × Own T) Unit := do
  let o ← own
  let d ← lenM checks (Shape.default o.shape.ty)
  M.lift (check (d = 0))
  withMutParts checks do
    vecClear
    upd fun o => { o with shape := Shape.default o.shape.ty }

/-- `Tensor::truncate`, src/tensor.rs:356-368. -/
def tensorTruncate (checks : Bool) (size : Nat) : M (σ × Own T) Unit := do
  checkHead
  let o ← own
  if size < o.shape.dims.getD 0 0 then
    withMutParts checks do
      setShape fun s => s.withMutDims fun dims => some (dims.set 0 size)
      let o ← own
      let n ← lenM checks o.shape
      vecTruncate n
  else pure ()

/-- `Expression::clone_into_vec`, src/expr/expression.rs:172-182. -/
def cloneIntoVec (checks : Bool) (e : Expr σ α) (c : α → M σ T) : M (σ × Own T) Unit := do
  let o ← own
  let n ← lenM checks e.shape
  M.lift (check (n ≤ o.cells.length - o.len))
  e.up.forEach fun x => M.bind (M.up (c x)) vecAppend

/-- The change of the shape in `expand`, src/tensor.rs:132-147. -/
def expandShape (checks : Bool) (s : Shape) (src : List Nat) : Option Shape := do
  let empty ← isEmpty checks s
  if empty then
    if src.length = s.rank then s.withMutDims fun dims => Shape.copyFromSlice dims src
    else Shape.fromDims s.ty src
  else s.withMutDims fun dims => do
    check (src.length = dims.length)
    check (src.tail = dims.tail)
    let d ← retU checks (dims.getD 0 0 + src.getD 0 0)
    pure (dims.set 0 d)

/-- `Tensor::expand`, src/tensor.rs:120-153. -/
def expand (checks : Bool) (e : Expr σ α) (c : α → M σ T) : M (σ × Own T) Unit := do
  checkHead
  let n ← lenM checks e.shape
  if 0 < n then
    withMutParts checks do
      vecReserve n
      setShape fun s => expandShape checks s e.dims
      cloneIntoVec checks e c
  else pure ()

/-- `Tensor::reserve`, `reserve_exact`, src/tensor.rs:280-291. -/
def tensorReserve (checks : Bool) (add : Nat) : M (σ × Own T) Unit := withMutParts checks (vecReserve add)

/-- `Tensor::try_reserve`, `try_reserve_exact`, src/tensor.rs:375-386. -/
def tensorTryReserve (checks : Bool) (add : Nat) : M (σ × Own T) Bool :=
  withMutParts checks (M.bind own fun o =>
    if o.len + add ≤ o.cells.length ∨ o.len + add ≤ o.limit then
      M.bind (vecReserve add) fun _ => M.pure true
    else M.pure false)

/-- `Tensor::shrink_to`, `shrink_to_fit`, src/tensor.rs:322-333. -/
def tensorShrinkTo (checks : Bool) (cap : Nat) : M (σ × Own T) Unit :=
  withMutParts checks (upd fun o => { o with cells := o.cells.take (max o.len cap) })

/-- `Extend::extend` of one-dimensional tensors, src/tensor.rs:705-714. -/
def tensorExtend (checks : Bool) (n : Nat) (step : Nat → M σ T) : M (σ × Own T) Unit :=
  withMutParts checks do
    vecExtend n step
    upd fun o => { o with shape := ⟨.static [.dyn], [o.len]⟩ }

/-- `Tensor::into_shape`, `into_mapping`, through `RawTensor::into_parts`, src/tensor.rs:205-209, 249-253,
src/raw_tensor.rs:91-109. -/
def tensorInto (checks : Bool) (f : Shape → Option Shape) : M (σ × Own T) Unit := do
  let o ← own
  let n ← lenM checks o.shape
  upd fun o => { o with len := n }
  M.onPanic (setShape f) (do
    let o ← own
    dropCells 0 o.len)

/-- `Tensor::into_shape`, src/tensor.rs:249-253 (`Shape::reshape`, src/shape.rs:126-152). -/
def tensorIntoShape (checks : Bool) (newShape : Shape) : M (σ × Own T) Unit :=
  tensorInto checks fun s => shapeReshape checks s newShape

/-- `Tensor::into_mapping`, `into_dyn`, src/tensor.rs:191-193, 205-209. -/
def tensorIntoMapping (checks : Bool) (ty : ShapeTy) : M (σ × Own T) Unit :=
  tensorInto checks fun s => Shape.fromDims ty s.dims

/-- `Tensor::into_vec`, src/tensor.rs:256-260. -/
def tensorIntoVec (checks : Bool) : M (σ × Own T) Unit := do
  let o ← own
  let n ← lenM checks o.shape
  upd fun o => { o with len := n }

/-- `Tensor::into_flat`, src/tensor.rs:196-198: `into_vec` and `From<Vec>`. -/
def tensorIntoFlat (checks : Bool) : M (σ × Own T) Unit := do
  tensorIntoVec checks
  tensorFromVec

/-- `Tensor::into_scalar`, src/tensor.rs:225-229. If the assertion fails, the tensor is dropped while unwinding
(`Drop for RawTensor`, src/raw_tensor.rs:301-320). -/
def tensorIntoScalar (checks : Bool) : M (σ × Own T) T :=
  M.bind own fun o =>
    M.bind (M.onPanic (M.bind (lenM checks o.shape) fun n => M.lift (check (n = 1)))
      (M.bind (lenM checks o.shape) fun n => dropCells 0 n)) fun _ =>
      M.bind (tensorIntoVec checks) fun _ => M.bind own fun o => takeCell (o.len - 1)

/-- `Tensor::from_expr`, src/tensor.rs:401-408. -/
def tensorFromExpr (checks : Bool) (e : Expr σ T) : M (σ × Own T) Unit := do
  upd fun o => { o with cells := [], len := 0, shape := e.shape }
  let o ← own
  let n ← lenM checks e.shape
  M.lift (check (n ≤ o.limit))
  upd fun o => { o with cells := List.replicate n none }
  M.onPanic (cloneIntoVec checks e M.pure) (do
    let o ← own
    dropCells 0 o.len)

/-- `Drop` of the guard in `Tensor::zip_with`, src/tensor.rs:436-454. -/
def zipGuard (checks : Bool) (sh : Shape) : M ((σ × Own T) × Nat) Unit :=
  M.bind M.get fun s =>
    M.bind (lenM checks sh) fun len =>
      M.bind (if 1 < s.2 then M.up (dropCells 0 (s.2 - 1)) else M.pure ()) fun _ =>
        M.up (dropCells s.2 (len - s.2))

/-- `Tensor::zip_with`, src/tensor.rs:427-469. -/
def zipWith (checks : Bool) (e : Expr σ β) (f : T → β → M σ T) : M (σ × Own T) Unit :=
  M.bind own fun o =>
    M.bind (M.scope 0 (M.onPanic
      (M.bind (M.lift (Expr.zipNew (Expr.view false ⟨0, .dense o.shape⟩) e.up.up)) fun z =>
        z.forEach (zipStep f))
      (zipGuard checks o.shape))) fun _ => M.pure ()

/-- `Tensor::drain` with `Drain::new`, src/tensor.rs:99-109, src/expr/buffer.rs:41-58. -/
def drainNew (checks : Bool) (start stop : Bnd) : M (σ × Own T) DrainSt := do
  checkHead
  let o ← own
  let d0 := o.shape.dims.getD 0 0
  let r ← M.lift (rangeNorm start stop d0)
  M.lift (check (r.1 ≤ r.2 ∧ r.2 ≤ d0))
  let newSize := d0 - (r.2 - r.1)
  let t ← M.lift (resizeMap checks (Axis.const 0) (.dense o.shape) (newSize - r.1))
  let tail ← lenM checks t.shape
  setShape fun s => s.resizeDim s.ty 0 r.1
  let o ← own
  let pos ← lenM checks o.shape
  let s ← M.lift (o.shape.resizeDim o.shape.ty 0 (r.2 - r.1))
  pure ⟨pos, s, newSize, tail⟩

/-- `Drop` of `IntoExpr` with a buffer at `pos` that has the shape `sh`, src/expr/into_expr.rs:70-79. -/
def dropItems (checks : Bool) (pos : Nat) (sh : Shape) (idx : Nat) : M (σ × Own T) Unit :=
  M.bind (lenM checks sh) fun n => Model.dropItems pos n idx

/-- `Drop` of `Drain`, src/expr/buffer.rs:74-83. -/
def drainDrop (checks : Bool) (d : DrainSt) : M (σ × Own T) Unit := do
  let o ← own
  let s ← M.lift (o.shape.resizeDim o.shape.ty 0 d.newSize)
  let n ← lenM checks d.shape
  let xs := (o.cells.drop (d.pos + n)).take d.tail
  if xs.length = d.tail ∧ xs.all Option.isSome then
    upd fun o => { o with
      cells := o.cells.take d.pos ++ xs ++ List.replicate n none ++ o.cells.drop (d.pos + n + d.tail)
      shape := s }
  else M.ub

/-- Drop an expression that holds a drain: `Drop` of `IntoExpr`, and then its field, also if the former panics,
src/expr/into_expr.rs:70-79, src/expr/buffer.rs:74-83. -/
def drainEnd (checks : Bool) (d : DrainSt) (idx : Nat) : M (σ × Own T) Unit :=
  M.bind (M.onPanic (dropItems checks d.pos d.shape idx) (drainDrop checks d)) fun _ => drainDrop checks d

/-- Drain a range, ask for `k` items (there may be less), and drop the drain or leak it. -/
def drainRun (checks : Bool) (start stop : Bnd) (k : Nat) (leak : Bool) : M (σ × Own T) (List T) :=
  M.bind (drainNew checks start stop) fun d =>
    M.bind (takeItems d.pos 0 (min k d.shape.len)) fun xs =>
      if leak then M.pure xs
      else M.bind (drainEnd checks d (min k d.shape.len)) fun _ => M.pure xs

/-- `Tensor::append`, src/tensor.rs:63-65, see `Model.tensorAppend`. -/
def tensorAppend (checks : Bool) : M ((σ × Own T) × Own T) Unit :=
  M.bind (M.up (drainNew checks .unbounded .unbounded)) fun d =>
    M.bind M.get fun t =>
      let buf := ((t.1.2.cells.drop d.pos).take d.shape.len).filterMap id
      M.bind (M.onPanic (expand checks (Expr.intoExpr d.shape buf 0) M.pure) (M.up (drainEnd checks d 0))) fun _ =>
        M.bind (M.up (takeItems d.pos 0 d.shape.len)) fun _ => M.up (drainEnd checks d d.shape.len)

/-- An owned tensor as an expression or iterator: `k` items are asked for (there may be less), then it is dropped,
src/tensor.rs:838-863, src/expr/into_expr.rs:70-79, 90-98. -/
def intoItems (checks : Bool) (k : Nat) : M (σ × Own T) (List T) :=
  M.bind own fun o =>
    M.bind (takeItems 0 0 (min k o.shape.len)) fun xs =>
      M.bind (dropItems checks 0 o.shape (min k o.shape.len)) fun _ => M.pure xs

end Machine
end Model
