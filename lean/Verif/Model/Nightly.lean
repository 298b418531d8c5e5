import Verif.Model.Storage

/-!
The operations that take a tensor apart as they are compiled with the `nightly` feature, where the guard of
`with_mut_parts` does not check the default length (src/raw_tensor.rs:210-258). The functions are those of
`Model/Tensor.lean` and `Model/Storage.lean` otherwise; for allocators see `Model/Alloc.lean`.
-/

namespace Model

variable {σ T α β : Type}

/-- `Drop` of the guard in `with_mut_parts` with the `nightly` feature, src/raw_tensor.rs:220-234. -/
def partsGuardN : M (σ × Own T) Unit := do
  let o ← own
  if o.len ≠ o.shape.len then
    upd fun o => { o with shape := Shape.default o.shape.ty }
    dropCells 0 o.len
  else pure ()

/-- `RawTensor::with_mut_parts` with the `nightly` feature, src/raw_tensor.rs:210-258. -/
def withMutPartsN (x : M (σ × Own T) α) : M (σ × Own T) α := do
  upd fun o => { o with len := o.shape.len }
  M.onPanic x partsGuardN

/-- `RawTensor::resize_with`, src/raw_tensor.rs:111-151. -/
def resizeWithN (newDims : List Nat) (f : M σ T) : M (σ × Own T) Unit :=
  M.bind own fun o =>
    M.bind (M.lift (check (newDims.length = o.shape.rank))) fun _ =>
      if newDims ≠ [] then
        M.bind (M.lift (Shape.checkedLen ⟨.dynRank, newDims⟩)) fun newLen =>
          withMutPartsN (M.bind (resizeVec newDims newLen f) fun _ =>
            setShape fun s => s.withMutDims fun dims => Shape.copyFromSlice dims newDims)
      else M.pure ()

/-- `Clone::clone_from`, src/raw_tensor.rs:291-298. -/
def cloneFromN (src : List T) (s : Shape) (c : T → M σ T) : M (σ × Own T) Unit :=
  withMutPartsN do
    vecCloneFrom src c
    upd fun o => { o with shape := s }

/-- `Tensor::clear`, src/tensor.rs:81-90. -/
def tensorClearN : M (σ × Own T) Unit := do
  let o ← own
  M.lift (check ((Shape.default o.shape.ty).len = 0))
  withMutPartsN do
    vecClear
    upd fun o => { o with shape := Shape.default o.shape.ty }

/-- `Tensor::truncate`, src/tensor.rs:356-368. -/
def tensorTruncateN (size : Nat) : M (σ × Own T) Unit := do
  checkHead
  let o ← own
  if size < o.shape.dims.getD 0 0 then
    withMutPartsN do
      setShape fun s => s.withMutDims fun dims => some (dims.set 0 size)
      let o ← own
      vecTruncate o.shape.len
  else pure ()

/-- `Tensor::expand`, src/tensor.rs:120-153. -/
def expandN (e : Expr σ α) (c : α → M σ T) : M (σ × Own T) Unit := do
  checkHead
  if 0 < e.shape.len then
    withMutPartsN do
      vecReserve e.shape.len
      setShape fun s => expandShape s e.dims
      cloneIntoVec e c
  else pure ()

/-- `Tensor::reserve`, `reserve_exact`, `try_reserve`, src/tensor.rs:280-291, 375-386. -/
def tensorReserveN (add : Nat) : M (σ × Own T) Unit := withMutPartsN (vecReserve add)

/-- `Tensor::shrink_to`, `shrink_to_fit`, src/tensor.rs:322-333. -/
def tensorShrinkToN (cap : Nat) : M (σ × Own T) Unit :=
  withMutPartsN (upd fun o => { o with cells := o.cells.take (max o.len cap) })

/-- `Extend::extend` of one-dimensional tensors, src/tensor.rs:705-714. -/
def tensorExtendN (n : Nat) (step : Nat → M σ T) : M (σ × Own T) Unit :=
  withMutPartsN do
    vecExtend n step
    upd fun o => { o with shape := ⟨.static [.dyn], [o.len]⟩ }

/-- `Tensor::try_reserve`, `try_reserve_exact`, src/tensor.rs:375-386. -/
def tensorTryReserveN (add : Nat) : M (σ × Own T) Bool :=
  withMutPartsN (M.bind own fun o =>
    if o.len + add ≤ o.cells.length ∨ o.len + add ≤ o.limit then
      M.bind (vecReserve add) fun _ => M.pure true
    else M.pure false)

/-- `Tensor::append`, src/tensor.rs:63-65. -/
def tensorAppendN : M ((σ × Own T) × Own T) Unit :=
  M.bind (M.up (drainNew .unbounded .unbounded)) fun d =>
    M.bind M.get fun t =>
      let buf := ((t.1.2.cells.drop d.pos).take d.shape.len).filterMap id
      M.bind (M.onPanic (expandN (Expr.intoExpr d.shape buf 0) M.pure)
        (M.up (M.bind (dropItems d.pos d.shape.len 0) fun _ => drainDrop d))) fun _ =>
        M.bind (M.up (takeItems d.pos 0 d.shape.len)) fun _ =>
          M.up (M.bind (dropItems d.pos d.shape.len d.shape.len) fun _ => drainDrop d)

end Model
