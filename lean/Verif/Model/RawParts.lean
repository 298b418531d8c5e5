import Verif.Model.Storage

/-!
Model of the unsafe interface to the storage of tensors: raw parts and `set_mapping`. `dbg` says whether
debug assertions are enabled.
-/

namespace Model

variable {σ T : Type}

/-- Raw components of a tensor: the cells of the allocation that the pointer points to, the mapping and
the capacity. -/
structure RawParts (T : Type) where
  cells : List (Option T)
  shape : Shape
  capacity : Nat
  deriving DecidableEq, Repr

/-- `Tensor::into_raw_parts`, src/tensor.rs:500-507 and 558-564, `into_raw_parts_with_alloc`,
src/tensor.rs:213-218, through `RawTensor::into_parts`, src/raw_tensor.rs:93-112. Nothing is dropped. -/
def tensorIntoRawParts (o : Own T) : RawParts T := ⟨o.cells, o.shape, tensorCapacity o⟩

/-- `RawTensor::from_parts`, src/raw_tensor.rs:66-91, for a vector in the state. The vector is an argument
and dropped if the assertion fails. -/
def fromParts (dbg : Bool) (shape : Shape) : M (σ × Own T) Unit := do
  let o ← own
  M.onPanic (M.lift (check (dbg = true → some o.len = shape.checkedLen))) vecClear
  upd fun o => { o with shape := shape }

/-- `Tensor::from_raw_parts`, src/tensor.rs:495-497 and 553-555, and `from_raw_parts_in`,
src/tensor.rs:179-188. `Vec::from_raw_parts` (std) has undefined behaviour if the capacity is not that of
the allocation or if the elements are not there. The product of the dimensions is computed without
overflow. -/
def tensorFromRawParts (dbg : Bool) (r : RawParts T) : M (σ × Own T) Unit := fun s =>
  if r.capacity = r.cells.length ∧ r.shape.len ≤ r.capacity ∧
      (r.cells.take r.shape.len).all Option.isSome then
    fromParts dbg r.shape (s.1, { s.2 with cells := r.cells, len := r.shape.len })
  else .ub

/-- `Tensor::set_mapping`, src/tensor.rs:315-319, through `RawTensor::set_mapping`,
src/raw_tensor.rs:153-160. The mapping is replaced without looking at the elements. -/
def tensorSetMapping (dbg : Bool) (new : Shape) : M (σ × Own T) Unit := do
  let o ← own
  M.lift (check (dbg = true → new.checkedLen.isSome))
  M.lift (check (dbg = true → new.len ≤ o.cells.length))
  upd fun o => { o with shape := new }

/-- Writing values one after the other into the slice of `spare_capacity_mut`, src/tensor.rs:339-344. An
index outside of the slice panics. -/
def writeSpare (ys : List T) : M (σ × Own T) Unit := do
  let o ← own
  let (first, n) ← M.lift (tensorSpare o)
  (List.range ys.length).foldlM (fun _ i => do
    M.lift (check (i < n))
    let y ← M.lift ys[i]?
    writeCell (first + i) y) ()

end Model
