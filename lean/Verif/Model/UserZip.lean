import Verif.Model.UserExpr
import Verif.Model.Assign

/-!
Model of `Zip` with the elements of a mutable view and an expression of a type that is defined outside of the
crate, and of `Slice::assign` with such an expression.
-/

namespace Model

variable {σ ρ T α : Type}

namespace UserExpr

/-- The minimum of the inner rank of a mapping and `k`, src/expr/adapters.rs:359-361. -/
def zipRank (m : Mapping) (k : Nat) : Nat :=
  match Expr.mapInnerRank m with
  | none => k
  | some j => min j k

/-- The second assertion of `Zip::new`, src/expr/adapters.rs:318. -/
def zipCheck (v : View) (rep : Bool) (u : UserExpr σ α) : M σ Unit :=
  if rep then M.pure () else M.bind u.rank fun r => M.lift (check (v.map.rank ≤ r))

/-- `Zip::new`, src/expr/adapters.rs:316-333, for a mutable view and an expression `u` with `IS_REPEATABLE` equal to
`rep`: the assertions and the shape. -/
def zipNew (v : View) (rep : Bool) (u : UserExpr σ α) : M σ Shape := do
  let r ← u.rank
  M.lift (check (r ≤ v.map.rank))
  u.zipCheck v rep
  let t ← u.shape
  let dims := if v.dims.length < t.dims.length then t.dims else v.dims
  M.lift (check (v.dims.drop (dims.length - t.dims.length) = t.dims.drop (dims.length - v.dims.length)))
  M.lift (Shape.fromDims (Expr.zipTy v.map.shape.ty u.ty) dims)

/-- `reset_dim` and `step_dim` of the view, src/view.rs:372-387: the pointer moves by `n` strides. -/
def zipMove (v : View) (i : Nat) (n : Int) : M (σ × Int) Unit := fun w =>
  match v.map.stride i with
  | some s => .ok () (w.1, w.2 + s * n)
  | none => .panic w

/-- `Zip::reset_dim` and `Zip::step_dim`, src/expr/adapters.rs:363-389, where `n` is the number of strides that the
view moves, and `f` is the function called for `u`. The second call of `rank` may return a smaller number, then the
subtraction overflows; this is modelled as a panic. -/
def zipDim (v : View) (s : Shape) (u : UserExpr σ α) (i : Nat) (n : Int) (f : Nat → M σ Unit) :
    M ((σ × ρ) × Int) Unit := do
  let delta := s.rank - i
  if delta ≤ v.map.rank then zipMove v (v.map.rank - delta) n
  let r ← M.up (M.up u.rank)
  if delta ≤ r then
    let r ← M.up (M.up u.rank)
    M.lift (check (delta ≤ r))
    M.up (M.up (f (r - delta)))

/-- `Zip`, src/expr/adapters.rs:341-390, with shape `s`. The last part of the world is the pointer of the view.
An item of the view is given by its position. -/
def zipView (v : View) (s : Shape) (u : UserExpr σ α) : UserExpr ((σ × ρ) × Int) (Int × α) where
  ty := s.ty
  shape := M.pure s
  innerRank := M.bind (M.up (M.up u.innerRank)) fun k => M.pure (zipRank v.map k)
  get i := fun w => M.bind (M.up (M.up (u.get i))) (fun x => M.pure (w.2 + v.map.innerStride * (i : Int), x)) w
  resetDim i n := zipDim v s u i (-(n : Int)) fun j => u.resetDim j n
  stepDim i := zipDim v s u i 1 u.stepDim
  forEach := none

/-- `view.expr_mut().zip(u).for_each(f)`, src/slice.rs:222-224, src/expr/expression.rs:116-121, 151-156. -/
def zipForEach (v : View) (rep : Bool) (u : UserExpr σ α) (f : Int × α → M (σ × ρ) Unit) : M (σ × ρ) Unit := do
  let s ← M.up (u.zipNew v rep)
  let _ ← M.scope v.ptr ((u.zipView v s).runForEach fun x => M.up (f x))
  M.pure ()

/-- `Slice::assign`, src/slice.rs:55-57. As in `cloneIntoVec`, `into_cloned` is taken to be part of `get`. -/
def assign (v : View) (rep : Bool) (u : UserExpr σ T) : M (σ × List T) Unit :=
  u.zipForEach v rep fun py => writeMem py.1 py.2

end UserExpr
end Model
