import Verif.Model.Tensor

/-!
Model of evaluating expressions of types that are defined outside of the crate. `Expression`
(src/expr/expression.rs:32-199) is a public trait which is not `unsafe` to implement, so that its functions may
do anything that safe code can do. In particular `shape` and `inner_rank` take `&self`, and may return
different values in different calls (`Cell`).

As in Model/Expr and Model/Tensor, sizes are not bounded. The functions `dim`, `is_empty`, `len`, `rank`
and `clone_into_vec` of the trait are taken as they are provided, `for_each` may be overridden.
-/

namespace Model

variable {σ T α β : Type}

/-- A type implementing `Expression`, src/expr/expression.rs:32-199. The expression is part of the world `σ`.
`ty` is the type `Expression::Shape`, which is taken to be one of the shape types of the crate.
`forEach` is the computation of each value that an overridden `for_each` passes to the closure. -/
structure UserExpr (σ α : Type) where
  ty : ShapeTy
  shape : M σ Shape
  innerRank : M σ Nat
  get : Nat → M σ α
  resetDim : Nat → Nat → M σ Unit
  stepDim : Nat → M σ Unit
  forEach : Option (List (M σ α))

/-- `Iter` without its expression, src/expr/iter.rs:10-16. -/
structure UserIter where
  innerIndex : Nat
  innerLimit : Nat
  outerIndex : List Nat
  outerLimit : List Nat
  deriving DecidableEq, Repr

namespace UserExpr

/-- The expression in a larger world. -/
def up {ρ : Type} (u : UserExpr σ α) : UserExpr (σ × ρ) α where
  ty := u.ty
  shape := M.up u.shape
  innerRank := M.up u.innerRank
  get i := M.up (u.get i)
  resetDim i n := M.up (u.resetDim i n)
  stepDim i := M.up (u.stepDim i)
  forEach := u.forEach.map fun xs => xs.map M.up

/-- `Expression::rank`, src/expr/expression.rs:142-144. -/
def rank (u : UserExpr σ α) : M σ Nat := M.bind u.shape fun s => M.pure s.rank

/-- `Expression::len`, src/expr/expression.rs:129-131. -/
def len (u : UserExpr σ α) : M σ Nat := M.bind u.shape fun s => M.pure s.len

/-- `expr.rank().saturating_sub(expr.inner_rank())`, src/expr/iter.rs:20, 38. -/
def outerRank (u : UserExpr σ α) : M σ Nat := do
  let r ← u.rank
  let k ← u.innerRank
  M.pure (r - k)

/-- The default value of `Shape::Dims`: an array of zeros or an empty box. -/
def defaultDims : ShapeTy → List Nat
  | .static ds => ds.map fun _ => 0
  | .dynRank => []

/-- `Iter::new`, src/expr/iter.rs:19-35. -/
def iter (u : UserExpr σ α) : M σ UserIter := do
  let o ← u.outerRank
  let s ← u.shape
  M.lift (check (o ≤ s.dims.length))
  let limit := (s.dims.drop o).foldl (· * ·) 1
  if o > 0 then
    let r ← u.rank
    let s ← u.shape
    M.pure ⟨0, limit, List.replicate r 0, s.dims⟩
  else M.pure ⟨0, limit, defaultDims u.ty, defaultDims u.ty⟩

/-- Loop of `step_outer`, src/expr/iter.rs:47-57, 60, for `i` from `n-1` down to 0. -/
def stepLoop (u : UserExpr σ α) (limit : List Nat) : Nat → List Nat → M σ (Bool × List Nat)
  | 0, oi => M.pure (false, oi.map fun _ => 0)
  | i + 1, oi =>
    M.bind (M.lift oi[i]?) fun x => M.bind (M.lift limit[i]?) fun l =>
      if x + 1 < l then M.bind (u.stepDim i) fun _ => M.pure (true, oi.set i (x + 1))
      else M.bind (u.resetDim i x) fun _ => stepLoop u limit i (oi.set i 0)

/-- `Iter::step_outer`, src/expr/iter.rs:37-63. The second call of `rank` may return 0, then
`rank - 1` overflows; this is modelled as a panic. -/
def stepOuter (u : UserExpr σ α) (limit : List Nat) (oi : List Nat) : M σ (Bool × List Nat) := do
  let o ← u.outerRank
  let r ← u.rank
  if o < r then
    let r ← u.rank
    M.lift (check (0 < r))
    u.resetDim (r - 1) 0
  u.stepLoop limit o oi

/-- Inner loop of `fold`, src/expr/iter.rs:84-86, for the given values of `i`. -/
def innerLoop {τ : Type} (u : UserExpr σ α) (f : τ → α → M σ τ) : List Nat → τ → M σ τ
  | [], acc => M.pure acc
  | i :: is, acc => M.bind (u.get i) fun x => M.bind (f acc x) fun acc' => innerLoop u f is acc'

/-- Outer loop of `fold`, src/expr/iter.rs:83-93. The number of iterations is bounded by `fuel`;
running out of fuel is reported as undefined behaviour so that it cannot be confused with a result. -/
def foldLoop {τ : Type} (u : UserExpr σ α) (f : τ → α → M σ τ) : (fuel : Nat) → UserIter → τ → M σ τ
  | 0, _, _ => M.ub
  | fuel + 1, it, acc =>
    M.bind (innerLoop u f (List.range' it.innerIndex (it.innerLimit - it.innerIndex)) acc) fun acc =>
      M.bind (u.stepOuter it.outerLimit it.outerIndex) fun q =>
        if q.1 then foldLoop u f fuel { it with innerIndex := 0, outerIndex := q.2 } acc else M.pure acc

/-- A bound for the number of outer iterations, where a zero limit behaves like one. -/
def outerCount (it : UserIter) : Nat :=
  ((it.outerLimit.take it.outerIndex.length).map fun d => max d 1).foldl (· * ·) 1

/-- `Iter::fold`, src/expr/iter.rs:80-94, for an iterator just created (`Expression::fold`,
src/expr/expression.rs:108-113). -/
def fold {τ : Type} (u : UserExpr σ α) (init : τ) (f : τ → α → M σ τ) : M σ τ :=
  M.bind u.iter fun it => u.foldLoop f (outerCount it) it init

/-- `Expression::for_each`, src/expr/expression.rs:116-121, or what it is overridden by. -/
def runForEach (u : UserExpr σ α) (f : α → M σ Unit) : M σ Unit :=
  match u.forEach with
  | none => u.fold () fun _ x => f x
  | some xs => xs.foldlM (fun _ x => M.bind x f) ()

/-- `Expression::clone_into_vec`, src/expr/expression.rs:172-182. The call of `into_cloned` for an item
follows directly after `get_unchecked`, it is taken to be part of `get`. -/
def cloneIntoVec (u : UserExpr σ T) : M (σ × Own T) Unit := do
  let n ← M.up u.len
  let o ← own
  M.lift (check (n ≤ o.cells.length - o.len))
  u.up.runForEach vecAppend

/-- `Tensor::from_expr`, src/tensor.rs:401-408. The state before is ignored except for log and limit. -/
def tensorFrom (u : UserExpr σ T) : M (σ × Own T) Unit := do
  let s ← M.up u.shape
  upd fun o => { o with cells := [], len := 0, shape := s }
  let o ← own
  M.lift (check (s.len ≤ o.limit))
  upd fun o => { o with cells := List.replicate s.len none }
  M.onPanic u.cloneIntoVec (do
    let o ← own
    dropCells 0 o.len)

/-- `Array::from_expr`, src/array.rs:67-99, for an array with shape type `ty` (all dimensions
constant). `len` is the index of the guard. The final step is `assume_init`, which is undefined behaviour
if an element was not written. -/
def arrayFrom (ty : ShapeTy) (u : UserExpr σ T) : M (σ × Own T) Unit := do
  let s ← M.up u.shape
  let s ← M.lift (Shape.fromDims ty s.dims)
  upd fun o => { o with cells := List.replicate s.len none, len := 0, shape := s }
  M.onPanic (u.up.runForEach vecAppend) (do
    let o ← own
    dropCells 0 o.len)
  let o ← own
  if o.cells.all Option.isSome then M.pure () else M.ub

/-- `Tensor::expand`, src/tensor.rs:120-153 (`Expression::eval_into`, src/expr/expression.rs:96-105). -/
def expand (u : UserExpr σ T) : M (σ × Own T) Unit := do
  checkHead
  let n ← M.up u.len
  if 0 < n then
    withMutParts do
      vecReserve n
      let s ← M.up u.shape
      setShape fun t => expandShape t s.dims
      u.cloneIntoVec
  else pure ()

end UserExpr
end Model
