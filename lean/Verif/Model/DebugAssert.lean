import Verif.Model.RawParts

/-!
The operations on tensors in builds with debug assertions, which `Model/Tensor.lean` and `Model/Storage.lean` leave
out. The functions are those of the two files otherwise. The assertion at src/expr/into_expr.rs:91 is not repeated here:
where it fails, the model has undefined behaviour, which does not occur.
-/

namespace Model

/-- `Mapping::offset`, src/mapping.rs:95-107, with the assertions at 96 and 101. -/
def Mapping.offsetD (m : Mapping) (index : List Nat) : Option Int := do
  check (index.length = m.rank)
  m.forEachStride.foldlM (fun off c => do
    let i : Nat ← index[c.1]?
    let d ← m.dim c.1
    check (i < d)
    pure (off + c.2 * (i : Int))) 0

/-- `Mapping::linear_offset`, src/mapping.rs:181-185, 310-322, with the assertion. -/
def Mapping.linearOffsetD (m : Mapping) (k : Nat) : Option Int := do
  check (k < m.len)
  m.linearOffset k

/-- `v[idx]` for `&[usize]` and `[usize; N]`, src/index/slice.rs:32-34, 40-50, 65-83. -/
def View.indexD (v : View) (idx : List Nat) : Option Int := do
  check (idx.length = v.map.rank)
  View.boundsLoop v.map idx
  let off ← v.map.offsetD idx
  pure (v.ptr + off)

/-- `v[k]` for `usize`, src/index/slice.rs:88-102. -/
def View.linIndexD (v : View) (k : Nat) : Option Int := do
  check (k < v.map.len)
  let off ← v.map.linearOffsetD k
  pure (v.ptr + off)

variable {σ T α β : Type}

/-- The assertion at the end of `with_mut_parts`, src/raw_tensor.rs:198 and 250. -/
def assertLen : M (σ × Own T) Unit :=
  M.bind own fun o => M.lift (check (some o.len = o.shape.checkedLen))

/-- `RawTensor::with_mut_parts`, src/raw_tensor.rs:162-208: the guard still exists when the assertion is checked. -/
def withMutPartsD (x : M (σ × Own T) α) : M (σ × Own T) α :=
  withMutParts (M.bind x fun a => M.bind assertLen fun _ => M.pure a)

/-- `RawTensor::from_parts`, src/raw_tensor.rs:66-91, when the shape has already been stored. -/
def fromPartsD : M (σ × Own T) Unit := M.bind own fun o => fromParts true o.shape

/-- Move `n` old elements to the new vector, src/raw_tensor.rs:388-400. -/
def moveOldD (n : Nat) : M ((σ × Own T) × Loc T) Unit :=
  M.bind M.get fun s =>
    M.bind (M.lift (check (n ≤ s.2.cnt))) fun _ =>
      M.bind (M.lift (check (s.2.newLen + n ≤ s.2.newCells.length))) fun _ => moveOld n

/-- Drop `n` old elements, src/raw_tensor.rs:404-412. -/
def dropOldD (n : Nat) : M ((σ × Own T) × Loc T) Unit :=
  M.bind M.get fun s => M.bind (M.lift (check (n ≤ s.2.cnt))) fun _ => dropOld n

/-- Append `n` new elements to the new vector, src/raw_tensor.rs:417-422. -/
def pushNewsD (n : Nat) (f : M σ T) : M ((σ × Own T) × Loc T) Unit :=
  M.bind M.get fun s =>
    M.bind (M.lift (check (s.2.newLen + n ≤ s.2.newCells.length))) fun _ => repeatM n (pushNew f)

/-- `copy_dim`, src/raw_tensor.rs:345-424. -/
def copyDimD (f : M σ T) : (oldDims newDims : List Nat) → M ((σ × Own T) × Loc T) Unit
  | od :: ods, nd :: nds =>
    let m := min od nd
    M.bind (if 0 < ods.length then repeatM m (copyDimD f ods nds) else moveOldD m) fun _ =>
      M.bind (if m < od then dropOldD ((od - m) * ods.foldl (· * ·) 1) else M.pure ()) fun _ =>
        pushNewsD ((nd - m) * nds.foldl (· * ·) 1) f
  | _, _ => M.panic

/-- The last branch of `RawTensor::resize_with`, src/raw_tensor.rs:129-143. -/
def resizeCopyD (newDims : List Nat) (newLen : Nat) (f : M σ T) : M (σ × Own T) Unit := do
  let o ← own
  M.lift (check (newLen ≤ o.limit))
  upd fun o => { o with len := 0 }
  let r ← M.scope ⟨0, o.len, List.replicate newLen none, 0⟩ (M.bind
    (M.onPanic (copyDimD f o.shape.dims newDims) (M.bind dropOldGuard fun _ => dropNewVec))
    fun _ => dropOldGuard)
  upd fun o => { o with cells := r.2.newCells, len := r.2.newLen }

/-- The three ways of resizing the vector in `RawTensor::resize_with`, src/raw_tensor.rs:124-144. -/
def resizeVecD (newDims : List Nat) (newLen : Nat) (f : M σ T) : M (σ × Own T) Unit :=
  M.bind own fun o =>
    if newLen = 0 then vecClear
    else if newDims.tail = o.shape.dims.tail then vecResizeWith newLen f
    else resizeCopyD newDims newLen f

/-- `RawTensor::resize_with`, src/raw_tensor.rs:111-151. -/
def resizeWithD (newDims : List Nat) (f : M σ T) : M (σ × Own T) Unit :=
  M.bind own fun o =>
    M.bind (M.lift (check (newDims.length = o.shape.rank))) fun _ =>
      if newDims ≠ [] then
        M.bind (M.lift (Shape.checkedLen ⟨.dynRank, newDims⟩)) fun newLen =>
          withMutPartsD (M.bind (resizeVecD newDims newLen f) fun _ =>
            setShape fun s => s.withMutDims fun dims => Shape.copyFromSlice dims newDims)
      else M.pure ()

/-- `Clone::clone_from`, src/raw_tensor.rs:291-298. -/
def cloneFromD (src : List T) (s : Shape) (c : T → M σ T) : M (σ × Own T) Unit :=
  withMutPartsD do
    vecCloneFrom src c
    upd fun o => { o with shape := s }

/-- `Tensor::clear`, src/tensor.rs:81-90. -/
def tensorClearD : M (σ × Own T) Unit := do
  let o ← own
  M.lift (check ((Shape.default o.shape.ty).len = 0))
  withMutPartsD do
    vecClear
    upd fun o => { o with shape := Shape.default o.shape.ty }

/-- `Tensor::truncate`, src/tensor.rs:356-368. -/
def tensorTruncateD (size : Nat) : M (σ × Own T) Unit := do
  checkHead
  let o ← own
  if size < o.shape.dims.getD 0 0 then
    withMutPartsD do
      setShape fun s => s.withMutDims fun dims => some (dims.set 0 size)
      let o ← own
      vecTruncate o.shape.len
  else pure ()

/-- `Tensor::expand`, src/tensor.rs:120-153. -/
def expandD (e : Expr σ α) (c : α → M σ T) : M (σ × Own T) Unit := do
  checkHead
  if 0 < e.shape.len then
    withMutPartsD do
      vecReserve e.shape.len
      setShape fun s => expandShape s e.dims
      cloneIntoVec e c
  else pure ()

/-- `Tensor::reserve`, `reserve_exact`, src/tensor.rs:280-291. -/
def tensorReserveD (add : Nat) : M (σ × Own T) Unit := withMutPartsD (vecReserve add)

/-- `Tensor::try_reserve`, `try_reserve_exact`, src/tensor.rs:375-386. -/
def tensorTryReserveD (add : Nat) : M (σ × Own T) Bool :=
  withMutPartsD (M.bind own fun o =>
    if o.len + add ≤ o.cells.length ∨ o.len + add ≤ o.limit then
      M.bind (vecReserve add) fun _ => M.pure true
    else M.pure false)

/-- `Tensor::shrink_to`, `shrink_to_fit`, src/tensor.rs:322-333. -/
def tensorShrinkToD (cap : Nat) : M (σ × Own T) Unit :=
  withMutPartsD (upd fun o => { o with cells := o.cells.take (max o.len cap) })

/-- `Extend::extend` of one-dimensional tensors, src/tensor.rs:705-714. -/
def tensorExtendD (n : Nat) (step : Nat → M σ T) : M (σ × Own T) Unit :=
  withMutPartsD do
    vecExtend n step
    upd fun o => { o with shape := ⟨.static [.dyn], [o.len]⟩ }

/-- `Tensor::into_shape`, src/tensor.rs:249-253, and `into_mapping`, `into_dyn`, 191-193, 205-209: the new tensor is
made with `from_parts`. -/
def tensorIntoD (f : Shape → Option Shape) : M (σ × Own T) Unit := M.bind (tensorInto f) fun _ => fromPartsD

/-- `Tensor::into_flat`, src/tensor.rs:196-198. -/
def tensorIntoFlatD : M (σ × Own T) Unit := M.bind tensorIntoFlat fun _ => fromPartsD

/-- `Tensor::into_expr`, src/tensor.rs:842-852, with `from_parts` for the tensor of `ManuallyDrop`; the state after. -/
def tensorIntoExprD : M (σ × Own T) Unit :=
  M.bind (upd fun o => { o with len := o.shape.len }) fun _ => fromPartsD

/-- `Tensor::from_expr`, src/tensor.rs:401-408. -/
def tensorFromExprD (e : Expr σ T) : M (σ × Own T) Unit := M.bind (tensorFromExpr e) fun _ => fromPartsD

/-- `Clone::clone` of a tensor `b`, src/raw_tensor.rs:287-289. -/
def tensorCloneD (b : Own T) (c : T → M σ T) : M (σ × Own T) Unit := M.bind (tensorClone b c) fun _ => fromPartsD

/-- `Clone::clone_from` with the other tensor `b`, src/raw_tensor.rs:291-298. -/
def tensorCloneFromD (b : Own T) (c : T → M σ T) : M (σ × Own T) Unit :=
  M.bind (M.up (readElems b)) fun src => cloneFromD src b.shape c

/-- `From<Vec> for Tensor`, src/tensor.rs:742-748. -/
def tensorFromVecD : M (σ × Own T) Unit := M.bind tensorFromVec fun _ => fromPartsD

/-- `From<&[T]> for Tensor`, src/tensor.rs:716-720. -/
def tensorFromSliceD (src : List T) (c : T → M σ T) : M (σ × Own T) Unit :=
  M.bind (vecClone src c) fun _ => tensorFromVecD

/-- `FromIterator for Tensor`, src/tensor.rs:794-798. -/
def tensorFromIterD (n : Nat) (step : Nat → M σ T) : M (σ × Own T) Unit :=
  M.bind (upd fun o => { o with cells := [], len := 0 }) fun _ =>
    M.bind (M.onPanic (vecExtend n step) (M.bind own fun o => dropCells 0 o.len)) fun _ => tensorFromVecD

/-- `Tensor::new`, `with_capacity`, `Default`, src/tensor.rs:512-527, 569-581, 679-683. -/
def tensorWithCapacityD (ty : ShapeTy) (cap : Nat) : M (σ × Own T) Unit :=
  M.bind (tensorWithCapacity ty cap) fun _ => fromPartsD

/-- `Tensor::drain` with `Drain::new`, src/tensor.rs:99-109, src/expr/buffer.rs:41-58. -/
def drainNewD (start stop : Bnd) : M (σ × Own T) DrainSt := do
  checkHead
  let o ← own
  let d0 := o.shape.dims.getD 0 0
  let r ← M.lift (rangeNorm start stop d0)
  M.lift (check (r.1 ≤ r.2 ∧ r.2 ≤ d0))
  let newSize := d0 - (r.2 - r.1)
  let t ← M.lift ((Axis.const 0).resizeMap (.dense o.shape) (newSize - r.1))
  let s ← M.lift (o.shape.resizeDim o.shape.ty 0 r.1)
  tensorSetMapping true s
  let o ← own
  let s ← M.lift (o.shape.resizeDim o.shape.ty 0 (r.2 - r.1))
  pure ⟨o.shape.len, s, newSize, t.shape.len⟩

/-- `Drop` of `Drain`, src/expr/buffer.rs:74-83: the elements are moved before the mapping is set. -/
def drainDropD (d : DrainSt) : M (σ × Own T) Unit := do
  let o ← own
  let s ← M.lift (o.shape.resizeDim o.shape.ty 0 d.newSize)
  let xs := (o.cells.drop (d.pos + d.shape.len)).take d.tail
  if xs.length = d.tail ∧ xs.all Option.isSome then
    upd fun o => { o with
      cells := o.cells.take d.pos ++ xs ++ List.replicate d.shape.len none ++
        o.cells.drop (d.pos + d.shape.len + d.tail) }
    tensorSetMapping true s
  else M.ub

/-- Drain a range, ask for `k` items (there may be less), and drop the drain or leak it. -/
def drainRunD (start stop : Bnd) (k : Nat) (leak : Bool) : M (σ × Own T) (List T) :=
  M.bind (drainNewD start stop) fun d =>
    M.bind (takeItems d.pos 0 (min k d.shape.len)) fun xs =>
      if leak then M.pure xs
      else M.bind (dropItems d.pos d.shape.len (min k d.shape.len)) fun _ =>
        M.bind (drainDropD d) fun _ => M.pure xs

/-- `Tensor::append`, src/tensor.rs:63-65. -/
def tensorAppendD : M ((σ × Own T) × Own T) Unit :=
  M.bind (M.up (drainNewD .unbounded .unbounded)) fun d =>
    M.bind M.get fun t =>
      let buf := ((t.1.2.cells.drop d.pos).take d.shape.len).filterMap id
      M.bind (M.onPanic (expandD (Expr.intoExpr d.shape buf 0) M.pure)
        (M.up (M.bind (dropItems d.pos d.shape.len 0) fun _ => drainDropD d))) fun _ =>
        M.bind (M.up (takeItems d.pos 0 d.shape.len)) fun _ =>
          M.up (M.bind (dropItems d.pos d.shape.len d.shape.len) fun _ => drainDropD d)

end Model
