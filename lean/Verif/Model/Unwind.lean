import Verif.Model.Storage

/-!
Model of the operations that drop elements, for elements whose destructor may panic: `bad x` says that the
destructor of `x` panics. `Model/Tensor.lean` is the case where none does (`Props.C72_none`); each definition
here is the one with the same name there, with destructors that may panic.

A panic leaves the current function, and the destructors of its local variables run (`M.onPanic`); a second panic
meanwhile aborts the process. An element whose destructor panics counts as dropped.
-/

namespace Model
namespace Unwind

variable {σ T α β : Type} (bad : T → Bool)

/-- Drop the elements of a list, where a panic may be under way already: `none` is an abort, `some true` a
panic. `ptr::drop_in_place` of a slice (std) goes on with the other elements when a destructor panics. -/
def dropList : List T → (panicking : Bool) → Option Bool
  | [], p => some p
  | x :: xs, p => if bad x then (if p then none else dropList xs true) else dropList xs p

/-- Finish with the outcome of a `dropList`. -/
def finish : Option Bool → M σ Unit
  | none => fun _ => .abort
  | some true => M.panic
  | some false => M.pure ()

/-- `ptr::drop_in_place` of a slice (std), see `Model.dropCells`. -/
def dropCells (pos n : Nat) : M (σ × Own T) Unit := fun s =>
  let xs := (s.2.cells.drop pos).take n
  M.bind (Model.dropCells pos n) (fun _ => finish (dropList bad (xs.filterMap id) false)) s

/-- `Vec::clear` (std). -/
def vecClear : M (σ × Own T) Unit :=
  M.bind own fun o => M.bind (upd fun o => { o with len := 0 }) fun _ => dropCells bad 0 o.len

/-- `Vec::truncate` (std): the length is set first. -/
def vecTruncate (n : Nat) : M (σ × Own T) Unit :=
  M.bind own fun o =>
    if n ≤ o.len then M.bind (upd fun o => { o with len := n }) fun _ => dropCells bad n (o.len - n)
    else M.pure ()

/-- `Vec::resize_with` (std). -/
def vecResizeWith (n : Nat) (f : M σ T) : M (σ × Own T) Unit :=
  M.bind own fun o =>
    if o.len < n then M.bind (vecReserve (n - o.len)) fun _ => repeatM (n - o.len) (M.bind (M.up f) vecAppend)
    else vecTruncate bad n

/-- `clone_from_slice` (std): an assignment drops the old value and stores the new one even if the destructor
panics. -/
def cloneSlice (c : T → M σ T) : (pos : Nat) → List T → M (σ × Own T) Unit
  | _, [] => M.pure ()
  | pos, y :: ys => M.bind (M.up (c y)) fun x =>
    M.bind (M.onPanic (dropCells bad pos 1) (writeCell pos x)) fun _ =>
      M.bind (writeCell pos x) fun _ => cloneSlice c (pos + 1) ys

/-- `Vec::clone_from` (std). -/
def vecCloneFrom (src : List T) (c : T → M σ T) : M (σ × Own T) Unit :=
  M.bind (vecTruncate bad src.length) fun _ =>
    M.bind own fun o => M.bind (cloneSlice bad c 0 (src.take o.len)) fun _ =>
      M.bind (vecReserve (src.length - o.len)) fun _ =>
        (src.drop o.len).foldlM (fun _ y => M.bind (M.up (c y)) vecAppend) ()

/-- `Drop` of the guard in `with_mut_parts`, src/raw_tensor.rs:167-187. -/
def partsGuard : M (σ × Own T) Unit :=
  M.bind own fun o =>
    if o.len ≠ o.shape.len then
      M.bind (M.lift (check ((Shape.default o.shape.ty).len = 0))) fun _ =>
        M.bind (upd fun o => { o with shape := Shape.default o.shape.ty }) fun _ => dropCells bad 0 o.len
    else M.pure ()

/-- `RawTensor::with_mut_parts`, src/raw_tensor.rs:162-208. -/
def withMutParts (x : M (σ × Own T) α) : M (σ × Own T) α :=
  M.bind (upd fun o => { o with len := o.shape.len }) fun _ => M.onPanic x (partsGuard bad)

/-- Drop `n` old elements in `copy_dim`, src/raw_tensor.rs:404-412: the guard is updated first. -/
def dropOld (n : Nat) : M ((σ × Own T) × Loc T) Unit := fun s =>
  if n ≤ s.2.cnt then
    M.up (dropCells bad s.2.pos n) (s.1, { s.2 with pos := s.2.pos + n, cnt := s.2.cnt - n })
  else .ub

/-- `copy_dim`, src/raw_tensor.rs:345-424. -/
def copyDim (f : M σ T) : (oldDims newDims : List Nat) → M ((σ × Own T) × Loc T) Unit
  | od :: ods, nd :: nds =>
    let m := min od nd
    M.bind (if 0 < ods.length then repeatM m (copyDim f ods nds) else moveOld m) fun _ =>
      M.bind (if m < od then dropOld bad ((od - m) * ods.foldl (· * ·) 1) else M.pure ()) fun _ =>
        repeatM ((nd - m) * nds.foldl (· * ·) 1) (pushNew f)
  | _, _ => M.panic

/-- Destructor of `DropGuard`, src/raw_tensor.rs:337-343. -/
def dropOldGuard : M ((σ × Own T) × Loc T) Unit := fun s => M.up (dropCells bad s.2.pos s.2.cnt) s

/-- Destructor of the new vector when unwinding. -/
def dropNewVec : M ((σ × Own T) × Loc T) Unit := fun s =>
  M.bind Model.dropNewVec
    (fun _ => finish (dropList bad ((s.2.newCells.take s.2.newLen).filterMap id) false)) s

/-- The last branch of `RawTensor::resize_with`, src/raw_tensor.rs:129-143: the new vector is dropped if the
copying or the guard of the old vector (a temporary, dropped after the call) panics. -/
def resizeCopy (newDims : List Nat) (newLen : Nat) (f : M σ T) : M (σ × Own T) Unit :=
  M.bind own fun o => M.bind (M.lift (check (newLen ≤ o.limit))) fun _ =>
    M.bind (upd fun o => { o with len := 0 }) fun _ =>
      M.bind (M.scope ⟨0, o.len, List.replicate newLen none, 0⟩ (M.onPanic
        (M.bind (M.onPanic (copyDim bad f o.shape.dims newDims) (dropOldGuard bad)) fun _ => dropOldGuard bad)
        (dropNewVec bad))) fun r => upd fun o => { o with cells := r.2.newCells, len := r.2.newLen }

/-- The three ways of resizing the vector in `RawTensor::resize_with`, src/raw_tensor.rs:124-144. -/
def resizeVec (newDims : List Nat) (newLen : Nat) (f : M σ T) : M (σ × Own T) Unit :=
  M.bind own fun o =>
    if newLen = 0 then vecClear bad
    else if newDims.tail = o.shape.dims.tail then vecResizeWith bad newLen f
    else resizeCopy bad newDims newLen f

/-- `RawTensor::resize_with`, src/raw_tensor.rs:111-151. -/
def resizeWith (newDims : List Nat) (f : M σ T) : M (σ × Own T) Unit :=
  M.bind own fun o =>
    M.bind (M.lift (check (newDims.length = o.shape.rank))) fun _ =>
      if newDims ≠ [] then
        M.bind (M.lift (Shape.checkedLen ⟨.dynRank, newDims⟩)) fun newLen =>
          withMutParts bad (M.bind (resizeVec bad newDims newLen f) fun _ =>
            setShape fun s => s.withMutDims fun dims => Shape.copyFromSlice dims newDims)
      else M.pure ()

/-- `Clone::clone_from`, src/raw_tensor.rs:291-298; `Owned::clone_from_slice`, src/tensor.rs:895-905. -/
def cloneFrom (src : List T) (s : Shape) (c : T → M σ T) : M (σ × Own T) Unit :=
  withMutParts bad (M.bind (vecCloneFrom bad src c) fun _ => upd fun o => { o with shape := s })

/-- `Tensor::clear`, src/tensor.rs:81-90. -/
def tensorClear : M (σ × Own T) Unit :=
  M.bind own fun o => M.bind (M.lift (check ((Shape.default o.shape.ty).len = 0))) fun _ =>
    withMutParts bad (M.bind (vecClear bad) fun _ => upd fun o => { o with shape := Shape.default o.shape.ty })

/-- `Tensor::truncate`, src/tensor.rs:356-368. -/
def tensorTruncate (size : Nat) : M (σ × Own T) Unit :=
  M.bind checkHead fun _ => M.bind own fun o =>
    if size < o.shape.dims.getD 0 0 then
      withMutParts bad (M.bind (setShape fun s => s.withMutDims fun dims => some (dims.set 0 size)) fun _ =>
        M.bind own fun o => vecTruncate bad o.shape.len)
    else M.pure ()

/-- `Tensor::expand`, src/tensor.rs:120-153. -/
def expand (e : Expr σ α) (c : α → M σ T) : M (σ × Own T) Unit :=
  M.bind checkHead fun _ =>
    if 0 < e.shape.len then
      withMutParts bad (M.bind (vecReserve e.shape.len) fun _ =>
        M.bind (setShape fun s => expandShape s e.dims) fun _ => cloneIntoVec e c)
    else M.pure ()

/-- `Tensor::reserve`, src/tensor.rs:280-291. -/
def tensorReserve (add : Nat) : M (σ × Own T) Unit := withMutParts bad (vecReserve add)

/-- `Vec::extend` (std). -/
def vecExtend (n : Nat) (step : Nat → M σ T) : M (σ × Own T) Unit :=
  (List.range n).foldlM (fun _ k => M.bind (M.up (step k)) fun x =>
    M.bind (M.onPanic (vecReserve 1) (M.bind (upd fun o => { o with log := o.log ++ [x] }) fun _ =>
      finish (dropList bad [x] false))) fun _ => vecAppend x) ()

/-- `Extend::extend`, src/tensor.rs:705-714. -/
def tensorExtend (n : Nat) (step : Nat → M σ T) : M (σ × Own T) Unit :=
  withMutParts bad (M.bind (vecExtend bad n step) fun _ =>
    upd fun o => { o with shape := ⟨.static [.dyn], [o.len]⟩ })

/-- `Tensor::into_shape`, `into_mapping`, `into_dyn`, src/tensor.rs:191-209, 249-253. -/
def tensorInto (f : Shape → Option Shape) : M (σ × Own T) Unit :=
  M.bind (upd fun o => { o with len := o.shape.len }) fun _ =>
    M.onPanic (setShape f) (M.bind own fun o => dropCells bad 0 o.len)

/-- `Tensor::from_expr`, src/tensor.rs:401-408. -/
def tensorFromExpr (e : Expr σ T) : M (σ × Own T) Unit :=
  M.bind (upd fun o => { o with cells := [], len := 0, shape := e.shape }) fun _ => M.bind own fun o =>
    M.bind (M.lift (check (e.shape.len ≤ o.limit))) fun _ =>
      M.bind (upd fun o => { o with cells := List.replicate e.shape.len none }) fun _ =>
        M.onPanic (cloneIntoVec e M.pure) (M.bind own fun o => dropCells bad 0 o.len)

/-- `Array::from_expr`, src/array.rs:67-99. -/
def arrayFromExpr (ty : ShapeTy) (e : Expr σ T) : M (σ × Own T) Unit :=
  M.bind (M.lift (Shape.fromDims ty e.dims)) fun s =>
    M.bind (upd fun o => { o with cells := List.replicate s.len none, len := 0, shape := s }) fun _ =>
      M.bind (M.onPanic (e.up.forEach vecAppend) (M.bind own fun o => dropCells bad 0 o.len)) fun _ =>
        M.bind own fun o => if o.cells.all Option.isSome then M.pure () else M.ub

/-- `Drop` of the guard in `Tensor::zip_with`, src/tensor.rs:436-454. -/
def zipGuard (len : Nat) : M ((σ × Own T) × Nat) Unit :=
  M.bind M.get fun s =>
    M.bind (if 1 < s.2 then M.up (dropCells bad 0 (s.2 - 1)) else M.pure ()) fun _ =>
      M.up (dropCells bad s.2 (len - s.2))

/-- `Tensor::zip_with`, src/tensor.rs:427-469. -/
def zipWith (e : Expr σ β) (f : T → β → M σ T) : M (σ × Own T) Unit :=
  M.bind own fun o =>
    M.bind (M.scope 0 (M.onPanic
      (M.bind (M.lift (Expr.zipNew (Expr.view false ⟨0, .dense o.shape⟩) e.up.up)) fun z =>
        z.forEach (zipStep f))
      (zipGuard bad o.shape.len))) fun _ => M.pure ()

/-- `Drop` of `IntoExpr`, src/expr/into_expr.rs:70-79. -/
def dropItems (pos len idx : Nat) : M (σ × Own T) Unit := dropCells bad (pos + idx) (len - idx)

/-- Drain a range, ask for `k` items, and drop the drain or leak it. The buffer of an `IntoExpr` (here
`Drain`) is dropped even if its own destructor panics. -/
def drainRun (start stop : Bnd) (k : Nat) (leak : Bool) : M (σ × Own T) (List T) :=
  M.bind (drainNew start stop) fun d =>
    M.bind (takeItems d.pos 0 (min k d.shape.len)) fun xs =>
      if leak then M.pure xs
      else M.bind (M.onPanic (dropItems bad d.pos d.shape.len (min k d.shape.len)) (drainDrop d)) fun _ =>
        M.bind (drainDrop d) fun _ => M.pure xs

/-- `Tensor::append`, src/tensor.rs:63-65. -/
def tensorAppend : M ((σ × Own T) × Own T) Unit :=
  M.bind (M.up (drainNew .unbounded .unbounded)) fun d =>
    M.bind M.get fun t =>
      let buf := ((t.1.2.cells.drop d.pos).take d.shape.len).filterMap id
      M.bind (M.onPanic (expand bad (Expr.intoExpr d.shape buf 0) M.pure)
        (M.up (M.bind (dropItems bad d.pos d.shape.len 0) fun _ => drainDrop d))) fun _ =>
        M.bind (M.up (takeItems d.pos 0 d.shape.len)) fun _ =>
          M.up (M.bind (M.onPanic (dropItems bad d.pos d.shape.len d.shape.len) (drainDrop d)) fun _ => drainDrop d)

/-- An owned tensor as an expression or iterator that is dropped after `k` items, src/tensor.rs:838-863,
src/expr/into_expr.rs:70-79, 90-98. With `k = 0` this is also `Drop for RawTensor`, src/raw_tensor.rs:301-320. -/
def intoItems (k : Nat) : M (σ × Own T) (List T) :=
  M.bind own fun o =>
    M.bind (takeItems 0 0 (min k o.shape.len)) fun xs =>
      M.bind (dropItems bad 0 o.shape.len (min k o.shape.len)) fun _ => M.pure xs

end Unwind
end Model
