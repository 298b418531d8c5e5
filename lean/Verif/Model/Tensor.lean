import Verif.Model.Lift

/-!
Model of the storage of `Tensor` (`src/raw_tensor.rs`, `src/tensor.rs`, `src/expr/buffer.rs`,
`src/expr/into_expr.rs`), of `Array::from_expr` (`src/array.rs`) and of the parts of `Vec` that they use.

Memory is a list of cells; `none` is a cell that is uninitialised or whose value was moved out.
Dropped values are recorded in a log. Here dropping an element does not panic; `Model/Unwind.lean` is
without this assumption. Memory allocation fails only for requests above a limit. The `debug_assert!`s are not modelled.
-/

namespace Model

/-- A tensor (or the vector it is taken apart into) and the log of dropped values.
- `cells`: the allocation, its length is the capacity
- `len`: `Vec::len` while the tensor is taken apart, or the guard index of `Array::from_expr`
- `shape`: the shape in the mapping
- `log`: all values dropped so far
- `limit`: largest number of elements in an allocation. -/
structure Own (T : Type) where
  cells : List (Option T)
  len : Nat
  shape : Shape
  log : List T
  limit : Nat
  deriving DecidableEq, Repr

variable {σ T α β : Type}

/-- The state of the tensor. -/
def own : M (σ × Own T) (Own T) := fun s => .ok s.2 s

/-- Change the state of the tensor. -/
def upd (f : Own T → Own T) : M (σ × Own T) Unit := fun s => .ok () (s.1, f s.2)

/-- Drop the values in `n` cells from position `pos` (`ptr::drop_in_place` of a slice). Undefined
behaviour if a cell does not hold a value. -/
def dropCells (pos n : Nat) : M (σ × Own T) Unit := fun s =>
  let xs := (s.2.cells.drop pos).take n
  if xs.length = n ∧ xs.all Option.isSome then
    .ok () (s.1, { s.2 with
      cells := s.2.cells.take pos ++ List.replicate n none ++ s.2.cells.drop (pos + n)
      log := s.2.log ++ xs.filterMap id })
  else .ub

/-- `ptr::write`: undefined behaviour outside of the allocation. The old value is not dropped. -/
def writeCell (pos : Nat) (x : T) : M (σ × Own T) Unit := fun s =>
  if pos < s.2.cells.length then .ok () (s.1, { s.2 with cells := s.2.cells.set pos (some x) })
  else .ub

/-- `ptr::read` / `ManuallyDrop::take`: move the value out of a cell. Undefined behaviour if there is
none. -/
def takeCell (pos : Nat) : M (σ × Own T) T := fun s =>
  match s.2.cells[pos]? with
  | some (some x) => .ok x (s.1, { s.2 with cells := s.2.cells.set pos none })
  | _ => .ub

/-- Run a computation `n` times. -/
def repeatM : Nat → M σ Unit → M σ Unit
  | 0, _ => M.pure ()
  | n + 1, x => M.bind x fun _ => repeatM n x

/-! The standard library's `Vec`. -/

/-- `Vec::clear` (std). -/
def vecClear : M (σ × Own T) Unit := do
  let o ← own
  upd fun o => { o with len := 0 }
  dropCells 0 o.len

/-- `Vec::truncate` (std). -/
def vecTruncate (n : Nat) : M (σ × Own T) Unit := do
  let o ← own
  if n ≤ o.len then
    upd fun o => { o with len := n }
    dropCells n (o.len - n)
  else pure ()

/-- `Vec::reserve` (std). Simplification: the capacity grows to the required size; `Vec` may allocate
more. -/
def vecReserve (add : Nat) : M (σ × Own T) Unit := do
  let o ← own
  if o.len + add ≤ o.cells.length then pure ()
  else if o.len + add ≤ o.limit then
    upd fun o => { o with cells := o.cells ++ List.replicate (o.len + add - o.cells.length) none }
  else M.panic

/-- Write a new value behind the last one and increase the length, as in src/expr/expression.rs:178-181
and in `Vec::extend` / `resize_with` (std). -/
def vecAppend (x : T) : M (σ × Own T) Unit := do
  let o ← own
  writeCell o.len x
  upd fun o => { o with len := o.len + 1 }

/-- `Vec::resize_with` (std): the length is kept up to date while calling `f`. -/
def vecResizeWith (n : Nat) (f : M σ T) : M (σ × Own T) Unit := do
  let o ← own
  if o.len < n then
    vecReserve (n - o.len)
    repeatM (n - o.len) (M.bind (M.up f) vecAppend)
  else vecTruncate n

/-- `Vec::extend` (std) from an iterator with `n` items, the `k`-th being produced by `step k`. If
memory cannot be reserved, the item in hand is dropped. Simplification: `Vec` may reserve more, as
the iterator's size hint suggests. -/
def vecExtend (n : Nat) (step : Nat → M σ T) : M (σ × Own T) Unit :=
  (List.range n).foldlM (fun _ k => M.bind (M.up (step k)) fun x =>
    M.bind (M.onPanic (vecReserve 1) (upd fun o => { o with log := o.log ++ [x] })) fun _ =>
      vecAppend x) ()

/-- `clone_from_slice` (std) from position `pos`: each element is replaced by a clone made by `c`. -/
def cloneSlice (c : T → M σ T) : (pos : Nat) → List T → M (σ × Own T) Unit
  | _, [] => M.pure ()
  | pos, y :: ys => M.bind (M.up (c y)) fun x => M.bind (dropCells pos 1) fun _ =>
    M.bind (writeCell pos x) fun _ => cloneSlice c (pos + 1) ys

/-- `Vec::clone_from`, and `<[T]>::clone_into(&mut Vec)` (std): truncate, replace the elements that
exist, append the others. -/
def vecCloneFrom (src : List T) (c : T → M σ T) : M (σ × Own T) Unit := do
  vecTruncate src.length
  let o ← own
  cloneSlice c 0 (src.take o.len)
  vecReserve (src.length - o.len)
  (src.drop o.len).foldlM (fun _ y => M.bind (M.up (c y)) vecAppend) ()

/-! `RawTensor`. -/

/-- `Drop` of the guard in `with_mut_parts`, src/raw_tensor.rs:167-187. -/
def partsGuard : M (σ × Own T) Unit := do
  let o ← own
  if o.len ≠ o.shape.len then
    M.lift (check ((Shape.default o.shape.ty).len = 0))
    upd fun o => { o with shape := Shape.default o.shape.ty }
    dropCells 0 o.len
  else pure ()

/-- `RawTensor::with_mut_parts`, src/raw_tensor.rs:162-208. -/
def withMutParts (x : M (σ × Own T) α) : M (σ × Own T) α := do
  upd fun o => { o with len := o.shape.len }
  M.onPanic x partsGuard

/-- Change the shape in the mapping. -/
def setShape (f : Shape → Option Shape) : M (σ × Own T) Unit := do
  let o ← own
  let s ← M.lift (f o.shape)
  upd fun o => { o with shape := s }

/-- Local state of the last branch of `resize_with`: the guard for the remaining old elements
(`DropGuard`, src/raw_tensor.rs:38-45, 325-343) and the new vector. -/
structure Loc (T : Type) where
  pos : Nat
  cnt : Nat
  newCells : List (Option T)
  newLen : Nat
  deriving DecidableEq, Repr

/-- Move `n` old elements to the new vector, src/raw_tensor.rs:388-400. -/
def moveOld (n : Nat) : M ((σ × Own T) × Loc T) Unit := fun s =>
  let xs := (s.1.2.cells.drop s.2.pos).take n
  if n ≤ s.2.cnt ∧ s.2.newLen + n ≤ s.2.newCells.length ∧ xs.length = n ∧ xs.all Option.isSome then
    .ok () ((s.1.1, { s.1.2 with
        cells := s.1.2.cells.take s.2.pos ++ List.replicate n none ++ s.1.2.cells.drop (s.2.pos + n) }),
      { pos := s.2.pos + n
        cnt := s.2.cnt - n
        newCells := s.2.newCells.take s.2.newLen ++ xs ++ s.2.newCells.drop (s.2.newLen + n)
        newLen := s.2.newLen + n })
  else .ub

/-- Drop `n` old elements, src/raw_tensor.rs:404-412. -/
def dropOld (n : Nat) : M ((σ × Own T) × Loc T) Unit := fun s =>
  if n ≤ s.2.cnt then
    M.up (dropCells s.2.pos n) (s.1, { s.2 with pos := s.2.pos + n, cnt := s.2.cnt - n })
  else .ub

/-- Append a new element to the new vector, src/raw_tensor.rs:420-421. -/
def pushNew (f : M σ T) : M ((σ × Own T) × Loc T) Unit :=
  M.bind (M.up (M.up f)) fun x => fun s =>
    if s.2.newLen < s.2.newCells.length then
      .ok () (s.1, { s.2 with newCells := s.2.newCells.set s.2.newLen (some x), newLen := s.2.newLen + 1 })
    else .ub

/-- `copy_dim`, src/raw_tensor.rs:345-424. -/
def copyDim (f : M σ T) : (oldDims newDims : List Nat) → M ((σ × Own T) × Loc T) Unit
  | od :: ods, nd :: nds =>
    let m := min od nd
    M.bind (if 0 < ods.length then repeatM m (copyDim f ods nds) else moveOld m) fun _ =>
      M.bind (if m < od then dropOld ((od - m) * ods.foldl (· * ·) 1) else M.pure ()) fun _ =>
        repeatM ((nd - m) * nds.foldl (· * ·) 1) (pushNew f)
  | _, _ => M.panic

/-- Destructor of `DropGuard`, src/raw_tensor.rs:337-343. -/
def dropOldGuard : M ((σ × Own T) × Loc T) Unit := fun s => M.up (dropCells s.2.pos s.2.cnt) s

/-- Destructor of the new vector when unwinding. -/
def dropNewVec : M ((σ × Own T) × Loc T) Unit := fun s =>
  let xs := s.2.newCells.take s.2.newLen
  if xs.length = s.2.newLen ∧ xs.all Option.isSome then
    .ok () ((s.1.1, { s.1.2 with log := s.1.2.log ++ xs.filterMap id }), s.2)
  else .ub

/-- The last branch of `RawTensor::resize_with`, src/raw_tensor.rs:129-143: copy to a new vector. -/
def resizeCopy (newDims : List Nat) (newLen : Nat) (f : M σ T) : M (σ × Own T) Unit := do
  let o ← own
  M.lift (check (newLen ≤ o.limit))
  upd fun o => { o with len := 0 }
  let r ← M.scope ⟨0, o.len, List.replicate newLen none, 0⟩ (M.bind
    (M.onPanic (copyDim f o.shape.dims newDims) (M.bind dropOldGuard fun _ => dropNewVec))
    fun _ => dropOldGuard)
  upd fun o => { o with cells := r.2.newCells, len := r.2.newLen }

/-- The three ways of resizing the vector in `RawTensor::resize_with`, src/raw_tensor.rs:124-144. -/
def resizeVec (newDims : List Nat) (newLen : Nat) (f : M σ T) : M (σ × Own T) Unit :=
  M.bind own fun o =>
    if newLen = 0 then vecClear
    else if newDims.tail = o.shape.dims.tail then vecResizeWith newLen f
    else resizeCopy newDims newLen f

/-- `RawTensor::resize_with`, src/raw_tensor.rs:111-151 (`Tensor::resize`, `resize_with`,
src/tensor.rs:294-308). -/
def resizeWith (newDims : List Nat) (f : M σ T) : M (σ × Own T) Unit :=
  M.bind own fun o =>
    M.bind (M.lift (check (newDims.length = o.shape.rank))) fun _ =>
      if newDims ≠ [] then
        M.bind (M.lift (Shape.checkedLen ⟨.dynRank, newDims⟩)) fun newLen =>
          withMutParts (M.bind (resizeVec newDims newLen f) fun _ =>
            setShape fun s => s.withMutDims fun dims => Shape.copyFromSlice dims newDims)
      else M.pure ()

/-- `Clone::clone_from`, src/raw_tensor.rs:291-298; `Owned::clone_from_slice`, src/tensor.rs:895-905.
`src` and `s` are the elements and the shape of the other array. -/
def cloneFrom (src : List T) (s : Shape) (c : T → M σ T) : M (σ × Own T) Unit :=
  withMutParts do
    vecCloneFrom src c
    upd fun o => { o with shape := s }

/-! `Tensor`. -/

/-- `Tensor::clear`, src/tensor.rs:81-90. -/
def tensorClear : M (σ × Own T) Unit := do
  let o ← own
  M.lift (check ((Shape.default o.shape.ty).len = 0))
  withMutParts do
    vecClear
    upd fun o => { o with shape := Shape.default o.shape.ty }

/-- The assertions at the start of `expand`, `drain` and `truncate`, src/tensor.rs:100-101, 121-122,
357-358. -/
def checkHead : M (σ × Own T) Unit := do
  let o ← own
  M.lift (check (0 < o.shape.rank))
  M.lift (check (o.shape.ty.head = .dyn))

/-- `Tensor::truncate`, src/tensor.rs:356-368. -/
def tensorTruncate (size : Nat) : M (σ × Own T) Unit := do
  checkHead
  let o ← own
  if size < o.shape.dims.getD 0 0 then
    withMutParts do
      setShape fun s => s.withMutDims fun dims => some (dims.set 0 size)
      let o ← own
      vecTruncate o.shape.len
  else pure ()

/-- `Expression::clone_into_vec`, src/expr/expression.rs:172-182; `c` is `into_cloned`. -/
def cloneIntoVec (e : Expr σ α) (c : α → M σ T) : M (σ × Own T) Unit := do
  let o ← own
  M.lift (check (e.shape.len ≤ o.cells.length - o.len))
  e.up.forEach fun x => M.bind (M.up (c x)) vecAppend

/-- The change of the shape in `expand`, src/tensor.rs:132-147. -/
def expandShape (s : Shape) (src : List Nat) : Option Shape :=
  if s.isEmpty then
    if src.length = s.rank then s.withMutDims fun dims => Shape.copyFromSlice dims src
    else Shape.fromDims s.ty src
  else s.withMutDims fun dims => do
    check (src.length = dims.length)
    check (src.tail = dims.tail)
    pure (dims.set 0 (dims.getD 0 0 + src.getD 0 0))

/-- `Tensor::expand`, src/tensor.rs:120-153 (`Expression::eval_into`, src/expr/expression.rs:96-105). -/
def expand (e : Expr σ α) (c : α → M σ T) : M (σ × Own T) Unit := do
  checkHead
  if 0 < e.shape.len then
    withMutParts do
      vecReserve e.shape.len
      setShape fun s => expandShape s e.dims
      cloneIntoVec e c
  else pure ()

/-- `Tensor::reserve`, `reserve_exact`, `try_reserve`, src/tensor.rs:280-291, 375-386 (the `try`
variants return an error instead of panicking). -/
def tensorReserve (add : Nat) : M (σ × Own T) Unit := withMutParts (vecReserve add)

/-- `Tensor::shrink_to`, `shrink_to_fit`, src/tensor.rs:322-333: the capacity becomes the larger of
the length and the bound, if it was larger. -/
def tensorShrinkTo (cap : Nat) : M (σ × Own T) Unit :=
  withMutParts (upd fun o => { o with cells := o.cells.take (max o.len cap) })

/-- `Extend::extend` of one-dimensional tensors, src/tensor.rs:705-714. -/
def tensorExtend (n : Nat) (step : Nat → M σ T) : M (σ × Own T) Unit :=
  withMutParts do
    vecExtend n step
    upd fun o => { o with shape := ⟨.static [.dyn], [o.len]⟩ }

/-- `Tensor::into_shape`, `into_mapping` (`into_dyn`), src/tensor.rs:191-209, 249-253: the tensor is taken apart
into a vector, which is dropped if the new shape is rejected. -/
def tensorInto (f : Shape → Option Shape) : M (σ × Own T) Unit := do
  upd fun o => { o with len := o.shape.len }
  M.onPanic (setShape f) (do
    let o ← own
    dropCells 0 o.len)

/-- `Tensor::into_shape`, src/tensor.rs:249-253 (`DenseMapping::reshape`, src/mapping.rs:223-225). -/
def tensorIntoShape (newShape : Shape) : M (σ × Own T) Unit := tensorInto fun s => s.reshape newShape

/-- `Tensor::into_mapping`, src/tensor.rs:205-209, and `into_dyn`, 191-193 (`DenseMapping::remap`,
src/mapping.rs:204-208; a dense mapping is contiguous). -/
def tensorIntoMapping (ty : ShapeTy) : M (σ × Own T) Unit := tensorInto fun s => Shape.fromDims ty s.dims

/-- `Tensor::into_flat`, src/tensor.rs:196-198, through `into_vec` and `From<Vec>`, 256-260, 742-748. -/
def tensorIntoFlat : M (σ × Own T) Unit := tensorInto fun s => some ⟨.static [.dyn], [s.len]⟩

/-- `Tensor::from_expr`, src/tensor.rs:401-408. The state before is ignored except for log and limit. -/
def tensorFromExpr (e : Expr σ T) : M (σ × Own T) Unit := do
  upd fun o => { o with cells := [], len := 0, shape := e.shape }
  let o ← own
  M.lift (check (e.shape.len ≤ o.limit))
  upd fun o => { o with cells := List.replicate e.shape.len none }
  M.onPanic (cloneIntoVec e M.pure) (do
    let o ← own
    dropCells 0 o.len)

/-- `Array::from_expr`, src/array.rs:67-99, for an array with shape type `ty` (all dimensions
constant). `len` is the index of the guard. The final step is `assume_init`. -/
def arrayFromExpr (ty : ShapeTy) (e : Expr σ T) : M (σ × Own T) Unit := do
  let s ← M.lift (Shape.fromDims ty e.dims)
  upd fun o => { o with cells := List.replicate s.len none, len := 0, shape := s }
  M.onPanic (e.up.forEach vecAppend) (do
    let o ← own
    dropCells 0 o.len)
  let o ← own
  if o.cells.all Option.isSome then pure () else M.ub

/-- The closure in `Tensor::zip_with`, src/tensor.rs:459-462. The last part of the world is the index
of the guard. -/
def zipStep (f : T → β → M σ T) (py : Int × β) : M ((σ × Own T) × Nat) Unit :=
  M.bind (fun s => .ok () (s.1, s.2 + 1)) fun _ =>
    M.bind (M.up (takeCell py.1.toNat)) fun x =>
      M.bind (M.up (M.up (f x py.2))) fun x' => M.up (writeCell py.1.toNat x')

/-- `Drop` of the guard in `Tensor::zip_with`, src/tensor.rs:436-454; `len` is the length. -/
def zipGuard (len : Nat) : M ((σ × Own T) × Nat) Unit :=
  M.bind M.get fun s =>
    M.bind (if 1 < s.2 then M.up (dropCells 0 (s.2 - 1)) else M.pure ()) fun _ =>
      M.up (dropCells s.2 (len - s.2))

/-- `Tensor::zip_with`, src/tensor.rs:427-469 (also `Tensor::map`, src/tensor.rs:263-265). -/
def zipWith (e : Expr σ β) (f : T → β → M σ T) : M (σ × Own T) Unit :=
  M.bind own fun o =>
    M.bind (M.scope 0 (M.onPanic
      (M.bind (M.lift (Expr.zipNew (Expr.view false ⟨0, .dense o.shape⟩) e.up.up)) fun z =>
        z.forEach (zipStep f))
      (zipGuard o.shape.len))) fun _ => M.pure ()

/-! Moving elements out. -/

/-- `Drain`, src/expr/buffer.rs:33-38: position and shape of the view, and the other fields. -/
structure DrainSt where
  pos : Nat
  shape : Shape
  newSize : Nat
  tail : Nat
  deriving DecidableEq, Repr

/-- `Tensor::drain` with `Drain::new`, src/tensor.rs:99-109, src/expr/buffer.rs:41-58. -/
def drainNew (start stop : Bnd) : M (σ × Own T) DrainSt := do
  checkHead
  let o ← own
  let d0 := o.shape.dims.getD 0 0
  let r ← M.lift (rangeNorm start stop d0)
  M.lift (check (r.1 ≤ r.2 ∧ r.2 ≤ d0))
  let newSize := d0 - (r.2 - r.1)
  let t ← M.lift ((Axis.const 0).resizeMap (.dense o.shape) (newSize - r.1))
  setShape fun s => s.resizeDim s.ty 0 r.1
  let o ← own
  let s ← M.lift (o.shape.resizeDim o.shape.ty 0 (r.2 - r.1))
  pure ⟨o.shape.len, s, newSize, t.shape.len⟩

/-- `n` items are moved out of an owned buffer, from index `idx`,
`IntoExpr::get_unchecked`, src/expr/into_expr.rs:90-98. -/
def takeItems (pos idx : Nat) : Nat → M (σ × Own T) (List T)
  | 0 => M.pure []
  | n + 1 => M.bind (takeCell (pos + idx)) fun x => M.bind (takeItems pos (idx + 1) n) fun xs =>
    M.pure (x :: xs)

/-- `Drop` of `IntoExpr` with a buffer of `len` elements at `pos`, src/expr/into_expr.rs:70-79. -/
def dropItems (pos len idx : Nat) : M (σ × Own T) Unit := dropCells (pos + idx) (len - idx)

/-- `Drop` of `Drain`, src/expr/buffer.rs:74-83: move the tail down (`ptr::copy`) and set the final
size. The cells that the tail was moved from are regarded as uninitialised. -/
def drainDrop (d : DrainSt) : M (σ × Own T) Unit := do
  let o ← own
  let s ← M.lift (o.shape.resizeDim o.shape.ty 0 d.newSize)
  let xs := (o.cells.drop (d.pos + d.shape.len)).take d.tail
  if xs.length = d.tail ∧ xs.all Option.isSome then
    upd fun o => { o with
      cells := o.cells.take d.pos ++ xs ++ List.replicate d.shape.len none ++
        o.cells.drop (d.pos + d.shape.len + d.tail)
      shape := s }
  else M.ub

/-- Drain a range, ask for `k` items (there may be less), and drop the drain or leak it. -/
def drainRun (start stop : Bnd) (k : Nat) (leak : Bool) : M (σ × Own T) (List T) :=
  M.bind (drainNew start stop) fun d =>
    M.bind (takeItems d.pos 0 (min k d.shape.len)) fun xs =>
      if leak then M.pure xs
      else M.bind (dropItems d.pos d.shape.len (min k d.shape.len)) fun _ =>
        M.bind (drainDrop d) fun _ => M.pure xs

/-- `Tensor::append`, src/tensor.rs:63-65. The other tensor is the second part of the first world.
Moving elements does not panic, so `expand` panics before the first or not at all. -/
def tensorAppend : M ((σ × Own T) × Own T) Unit :=
  M.bind (M.up (drainNew .unbounded .unbounded)) fun d =>
    M.bind M.get fun t =>
      let buf := ((t.1.2.cells.drop d.pos).take d.shape.len).filterMap id
      M.bind (M.onPanic (expand (Expr.intoExpr d.shape buf 0) M.pure)
        (M.up (M.bind (dropItems d.pos d.shape.len 0) fun _ => drainDrop d))) fun _ =>
        M.bind (M.up (takeItems d.pos 0 d.shape.len)) fun _ =>
          M.up (M.bind (dropItems d.pos d.shape.len d.shape.len) fun _ => drainDrop d)

/-- An owned tensor as an expression or iterator: `k` items are asked for (there may be less), then it
is dropped, src/tensor.rs:838-863, src/expr/into_expr.rs:70-79, 90-98. -/
def intoItems (k : Nat) : M (σ × Own T) (List T) :=
  M.bind own fun o =>
    M.bind (takeItems 0 0 (min k o.shape.len)) fun xs =>
      M.bind (dropItems 0 o.shape.len (min k o.shape.len)) fun _ => M.pure xs

end Model
