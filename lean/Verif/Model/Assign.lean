import Verif.Model.Lift

/-!
Model of the `Slice` methods that write to the elements of an array (`src/slice.rs`, `src/ops.rs`).
The memory of the array is a list of elements, the second part of the world. Elements are plain
values here; ownership is modelled in `Model/Tensor.lean`.
-/

namespace Model

variable {σ T α β : Type}

/-- Read the element at a position. Outside of the array this is undefined behaviour. -/
def readMem (p : Int) : M (σ × List T) T := fun s =>
  if 0 ≤ p then
    match s.2[p.toNat]? with
    | some x => .ok x s
    | none => .ub
  else .ub

/-- Write the element at a position. Outside of the array this is undefined behaviour. -/
def writeMem (p : Int) (x : T) : M (σ × List T) Unit := fun s =>
  if 0 ≤ p ∧ p.toNat < s.2.length then .ok () (s.1, s.2.set p.toNat x) else .ub

/-- `Slice::assign`, src/slice.rs:55-57, with `IntoCloned::clone_to`, src/traits.rs:17-30: `c` gives
the new element from an item (a clone or the item itself). -/
def assign (v : View) (e : Expr σ α) (c : α → M σ T) : M (σ × List T) Unit :=
  M.bind (M.lift (Expr.zipNew (Expr.view false v) e.up)) fun z =>
    z.forEach fun py => M.bind (M.up (c py.2)) fun x => writeMem py.1 x

/-- `Slice::fill`, src/slice.rs:227-232, where `f` clones the value, and `Slice::fill_with`, 235-237. -/
def fillWith (v : View) (f : M σ T) : M (σ × List T) Unit :=
  (Expr.view false v).forEach fun p => M.bind (M.up f) fun x => writeMem p x

/-- Compound assignment operators, src/ops.rs:361-398: `g x y` is the value that `x op= y` leaves in
`x`. Simplification: when `g` panics the old value stays (not so in `updateE`, `Model/Update.lean`). -/
def opAssign (v : View) (e : Expr σ β) (g : T → β → M σ T) : M (σ × List T) Unit :=
  M.bind (M.lift (Expr.zipNew (Expr.view false v) e.up)) fun z =>
    z.forEach fun py => M.bind (readMem py.1) fun x => M.bind (M.up (g x py.2)) fun x' =>
      writeMem py.1 x'

end Model
