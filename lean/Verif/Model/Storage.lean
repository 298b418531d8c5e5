import Verif.Model.Tensor

/-!
Model of the remaining operations of `src/tensor.rs` and `src/array.rs` that create tensors from
vectors and iterators, take them apart, copy them, or only change the capacity.

A `Vec` is represented by the fields `cells` and `len` of `Own`; its `shape` is meaningless.
-/

namespace Model

variable {σ T : Type}

/-- `RawTensor::with_vec`, src/raw_tensor.rs:263-283: the elements of a tensor that is only read. It
is undefined behaviour if one of the elements within the length is not initialised. -/
def readElems (b : Own T) : M σ (List T) :=
  let xs := b.cells.take b.shape.len
  if xs.length = b.shape.len ∧ xs.all Option.isSome then M.pure (xs.filterMap id) else M.ub

/-- `Vec::clone`, `<[T]>::to_vec` (std): allocate, then append clones; the clones made so far are
dropped if a call panics. -/
def vecClone (src : List T) (c : T → M σ T) : M (σ × Own T) Unit :=
  M.bind (upd fun o => { o with cells := [], len := 0 }) fun _ =>
    M.bind (vecReserve src.length) fun _ =>
      M.onPanic (src.foldlM (fun _ y => M.bind (M.up (c y)) vecAppend) ())
        (M.bind own fun o => dropCells 0 o.len)

/-- `Clone::clone` of a tensor `b`, src/raw_tensor.rs:287-289, src/tensor.rs:664-666. The state before
is ignored except for log and limit. -/
def tensorClone (b : Own T) (c : T → M σ T) : M (σ × Own T) Unit :=
  M.bind (M.up (readElems b)) fun src =>
    M.bind (vecClone src c) fun _ => upd fun o => { o with shape := b.shape }

/-- `Clone::clone_from` with the other tensor `b`, src/raw_tensor.rs:291-298, src/tensor.rs:668-670. -/
def tensorCloneFrom (b : Own T) (c : T → M σ T) : M (σ × Own T) Unit :=
  M.bind (M.up (readElems b)) fun src => cloneFrom src b.shape c

/-- `Tensor::into_vec`, src/tensor.rs:256-260, and `From<Tensor> for Vec`, 736-740. -/
def tensorIntoVec : M (σ × Own T) Unit := upd fun o => { o with len := o.shape.len }

/-- `From<Vec> for Tensor`, src/tensor.rs:742-748. -/
def tensorFromVec : M (σ × Own T) Unit := upd fun o => { o with shape := ⟨.static [.dyn], [o.len]⟩ }

/-- `From<&[T]> for Tensor`, src/tensor.rs:716-720. -/
def tensorFromSlice (src : List T) (c : T → M σ T) : M (σ × Own T) Unit :=
  M.bind (vecClone src c) fun _ => tensorFromVec

/-- `FromIterator for Tensor`, src/tensor.rs:794-798: an iterator with `n` items. `Vec::from_iter`
(std) drops the items collected so far if the iterator panics. -/
def tensorFromIter (n : Nat) (step : Nat → M σ T) : M (σ × Own T) Unit :=
  M.bind (upd fun o => { o with cells := [], len := 0 }) fun _ =>
    M.bind (M.onPanic (vecExtend n step) (M.bind own fun o => dropCells 0 o.len)) fun _ => tensorFromVec

/-- `Tensor::into_scalar`, src/tensor.rs:225-229 (`Vec::pop` reads the last element). If the assertion
fails, the tensor is dropped while unwinding. -/
def tensorIntoScalar : M (σ × Own T) T :=
  M.bind own fun o =>
    M.bind (M.onPanic (M.lift (check (o.shape.len = 1))) (dropCells 0 o.shape.len)) fun _ =>
      M.bind tensorIntoVec fun _ => M.bind own fun o => takeCell (o.len - 1)

/-- `Array::into_shape`, src/array.rs:54-60, to an array with the shape type `ty`. All dimensions are
constant, so that the default shape is the only one. -/
def arrayIntoShape (ty : ShapeTy) : M (σ × Own T) Unit :=
  M.bind own fun o =>
    M.bind (M.onPanic (M.lift (check ((Shape.default ty).len = o.shape.len))) (dropCells 0 o.shape.len))
      fun _ => upd fun o => { o with shape := Shape.default ty }

/-- `Array::into_scalar`, src/array.rs:43-47: an array of rank 0 is its only element. -/
def arrayIntoScalar : M (σ × Own T) T :=
  M.bind own fun o =>
    M.bind (M.onPanic (M.lift (check (o.shape.len = 1))) (dropCells 0 o.shape.len)) fun _ =>
      M.bind (arrayIntoShape (.static [])) fun _ => takeCell 0

/-- `Tensor::new`, `with_capacity`, `Default`, src/tensor.rs:512-527, 569-581, 679-683. -/
def tensorWithCapacity (ty : ShapeTy) (cap : Nat) : M (σ × Own T) Unit :=
  M.bind (M.lift (check ((Shape.default ty).checkedLen = some 0))) fun _ =>
    M.bind own fun o => M.bind (M.lift (check (cap ≤ o.limit))) fun _ =>
      upd fun o => { o with cells := List.replicate cap none, len := 0, shape := Shape.default ty }

/-- `Tensor::try_reserve`, `try_reserve_exact`, src/tensor.rs:375-386 (`Vec::try_reserve`, std):
returns whether the memory could be reserved. -/
def tensorTryReserve (add : Nat) : M (σ × Own T) Bool :=
  withMutParts (M.bind own fun o =>
    if o.len + add ≤ o.cells.length ∨ o.len + add ≤ o.limit then
      M.bind (vecReserve add) fun _ => M.pure true
    else M.pure false)

/-- `Tensor::capacity`, src/tensor.rs:68-70, src/raw_tensor.rs:61-63 (elements that are not
zero-sized). -/
def tensorCapacity (o : Own T) : Nat := o.cells.length

/-- `Tensor::spare_capacity_mut`, src/tensor.rs:339-344: first cell and number of cells; the subtraction
panics below zero. -/
def tensorSpare (o : Own T) : Option (Nat × Nat) := do
  check (o.shape.len ≤ tensorCapacity o)
  pure (o.shape.len, tensorCapacity o - o.shape.len)

end Model
