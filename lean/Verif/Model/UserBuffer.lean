import Verif.Model.UserExpr

/-!
Model of `IntoExpr` for buffers of types that are defined outside of the crate. `Buffer`
(src/expr/buffer.rs:18-30) is a public trait which is not `unsafe` to implement, and `IntoExpr<B>` of such a type
can be created with `Default` (src/expr/into_expr.rs:64-68).

The memory that the buffer refers to is a list of cells, elements that have been moved out or dropped are `none`.
Reading such an element again is regarded as undefined behaviour, since the value then exists twice. Destructors of
elements do not panic. Whether there are debug assertions and overflow checks is given by a flag.
-/

namespace Model

variable {σ T : Type}

/-- A type implementing `Buffer`, src/expr/buffer.rs:18-30. The value is part of the world `σ`. A slice (which is
dense) is given by the position of its first element and its shape. -/
structure UserBuffer (σ : Type) where
  ty : ShapeTy
  asSlice : M σ (Nat × Shape)
  asMutSlice : M σ (Nat × Shape)

/-- The memory of a buffer and the field `index` of `IntoExpr`, src/expr/into_expr.rs:11-14. The values that have been
moved out and those that have been dropped are recorded in `out` and `log`. -/
structure BufMem (T : Type) where
  cells : List (Option T)
  index : Nat
  out : List T
  log : List T
  deriving DecidableEq, Repr

namespace UserBuffer

/-- `ManuallyDrop::take` of the element at position `p` (std). -/
def takeAt (p : Nat) : M (σ × BufMem T) T := fun w =>
  match w.2.cells[p]? with
  | some (some x) => .ok x (w.1, { w.2 with cells := w.2.cells.set p none, out := w.2.out ++ [x] })
  | _ => .ub

/-- `drop_in_place` for a slice of `n` elements at position `p` (std). -/
def dropRange (p : Nat) : Nat → M (σ × BufMem T) Unit
  | 0 => M.pure ()
  | n + 1 => fun w =>
    match w.2.cells[p]? with
    | some (some x) =>
      dropRange (p + 1) n (w.1, { w.2 with cells := w.2.cells.set p none, log := w.2.log ++ [x] })
    | _ => .ub

/-- The debug assertion of `IntoExpr::get_unchecked`, src/expr/into_expr.rs:91. -/
def getCheck (b : UserBuffer σ) (dbg : Bool) : M (σ × BufMem T) Unit :=
  if dbg then M.bind (M.up b.asSlice) fun q => fun w => M.lift (check (w.2.index < q.2.len)) w else M.pure ()

/-- `IntoExpr::get_unchecked`, src/expr/into_expr.rs:90-98. -/
def take (b : UserBuffer σ) (dbg : Bool) : M (σ × BufMem T) T := do
  b.getCheck dbg
  (fun w => .ok () (w.1, { w.2 with index := w.2.index + 1 }) : M (σ × BufMem T) Unit)
  let q ← M.up b.asMutSlice
  fun w => takeAt (q.1 + (w.2.index - 1)) w

/-- `Expression for IntoExpr`, src/expr/into_expr.rs:81-106. `usize::MAX` is that of 64-bit targets. -/
def expr (b : UserBuffer σ) (dbg : Bool) : UserExpr (σ × BufMem T) T where
  ty := b.ty
  shape := M.bind (M.up b.asSlice) fun q => M.pure q.2
  innerRank := M.pure (2 ^ 64 - 1)
  get _ := b.take dbg
  resetDim _ _ := M.pure ()
  stepDim _ := M.pure ()
  forEach := none

/-- `Drop for IntoExpr`, src/expr/into_expr.rs:70-79. `add` has undefined behaviour outside of the memory. If the
subtraction overflows and this is not checked, the length is larger than any memory. -/
def drop (b : UserBuffer σ) (dbg : Bool) : M (σ × BufMem T) Unit := do
  let q ← M.up b.asMutSlice
  (fun w => if q.1 + w.2.index ≤ w.2.cells.length then .ok () w else .ub : M (σ × BufMem T) Unit)
  let r ← M.up b.asSlice
  fun w =>
    if w.2.index ≤ r.2.len then dropRange (q.1 + w.2.index) (r.2.len - w.2.index) w
    else if dbg then .panic w else .ub

/-- `IntoExpr::<B>::default().for_each(f)`, src/expr/expression.rs:116-121, 151-156: the expression is dropped at the
end, also if there is a panic. -/
def forEach (b : UserBuffer σ) (dbg : Bool) (f : T → M σ Unit) : M (σ × BufMem T) Unit :=
  M.bind (M.onPanic ((b.expr dbg).runForEach fun x => M.up (f x)) (b.drop dbg)) fun _ => b.drop dbg

end UserBuffer
end Model
