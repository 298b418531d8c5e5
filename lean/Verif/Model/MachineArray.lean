import Verif.Model.MachineStorage

/-!
Model of the operations of `Array` (src/array.rs) that compute with lengths, with 64-bit integers. Arrays of elements
without size can have any number of elements, so that lengths can overflow.
-/

namespace Model
namespace Machine

variable {σ T : Type}

/-- `self.len()` for an array: `Deref`, src/array.rs:214-218, checks that the length does not overflow; then
`Slice::len`, src/slice.rs:324-326. -/
def arrayLen (checks : Bool) (s : Shape) : Option Nat := do
  let _ ← s.checkedLen
  len checks s

/-- `Array::into_shape`, src/array.rs:54-60. The operands of the comparison are computed from left to right. If it
panics the array is dropped, by the language, so that nothing is computed. -/
def arrayIntoShape (checks : Bool) (ty : ShapeTy) : M (σ × Own T) Unit :=
  M.bind own fun o =>
    M.bind (M.onPanic (M.lift (do
        let new ← len checks (Shape.default ty)
        let old ← arrayLen checks o.shape
        check (new = old))) (dropCells 0 o.shape.len))
      fun _ => upd fun o => { o with shape := Shape.default ty }

/-- `Array::into_scalar`, src/array.rs:43-47. -/
def arrayIntoScalar (checks : Bool) : M (σ × Own T) T :=
  M.bind own fun o =>
    M.bind (M.onPanic (M.lift (do
        let n ← arrayLen checks o.shape
        check (n = 1))) (dropCells 0 o.shape.len)) fun _ =>
      M.bind (arrayIntoShape checks (.static [])) fun _ => takeCell 0

/-- The closure in `Array::from_expr`, src/array.rs:91-94. -/
def arrayPush (checks : Bool) (x : T) : M (σ × Own T) Unit :=
  M.bind own fun o => M.bind (writeCell o.len x) fun _ =>
    M.bind (M.lift (retU checks (o.len + 1))) fun n => upd fun o => { o with len := n }

/-- `Array::from_expr`, src/array.rs:67-99. -/
def arrayFromExpr (checks : Bool) (ty : ShapeTy) (e : Expr σ T) : M (σ × Own T) Unit := do
  let s ← M.lift (Shape.fromDims ty e.dims)
  upd fun o => { o with cells := List.replicate s.len none, len := 0, shape := s }
  M.onPanic (e.up.forEach (arrayPush checks)) (do
    let o ← own
    dropCells 0 o.len)
  let o ← own
  if o.cells.all Option.isSome then pure () else M.ub

/-- `into_expr` and `into_iter` of an array, src/array.rs:317-328, 348-355. -/
def arrayIntoExpr (s : Shape) (buf : List T) : Option (Expr σ T) :=
  s.checkedLen.map fun _ => .intoExpr s buf 0

end Machine
end Model
