import Verif.Model.ExprPanic
import Verif.Model.Tensor
import Verif.Model.Assign

/-!
Operations that take an expression by value and use it up, keeping the state in which the expression is
dropped: at the end, or while unwinding. These are the functions of `Model/Tensor.lean` and
`Model/Assign.lean` once more; that the results agree is proved in `Props/Owned.lean`.
-/

namespace Model

/-- An expression that is dropped, of any type. -/
structure Left : Type 1 where
  {world : Type}
  {item : Type}
  expr : Expr world item

namespace Out
variable {σ ρ α β : Type} {S S' : Type 1}

/-- Change the kind of state. -/
def mapState (g : S → S') : Out σ α S → Out σ α S'
  | .ok x e s => .ok x (g e) s
  | .panic e s => .panic (g e) s
  | .ub => .ub
  | .abort => .abort

/-- A computation before the expression is used; if it panics, then the expression is dropped as it is. -/
def before (x : M σ β) (e : S) (k : β → σ → Out σ α S) (s : σ) : Out σ α S :=
  (call (x s) e).andThen id fun b _ s => k b s

/-- A computation after the expression has been used up. -/
def after (r : Out σ α S) (x : M σ β) : Out σ β S := r.andThen id fun _ e s => call (x s) e

/-- Run `g` (a destructor) if there was a panic, see `M.onPanic`. -/
def onPanic (r : Out σ α S) (g : M σ Unit) : Out σ α S :=
  match r with
  | .panic e s =>
    match g s with
    | .ok _ s' => .panic e s'
    | .panic _ => .abort
    | .ub => .ub
    | .abort => .abort
  | r => r

/-- End of a scope with a further variable, see `M.scope`. -/
def scope (r : Out (σ × ρ) α S) : Out σ α S :=
  match r with
  | .ok x e s => .ok x e s.1
  | .panic e s => .panic e s.1
  | .ub => .ub
  | .abort => .abort

end Out

variable {σ T α β : Type}

/-- `Expression::for_each`, src/expr/expression.rs:115-121, see `Expr.forEach`. -/
def Expr.forEachE (e : Expr σ α) (f : α → M σ Unit) (s : σ) : Out σ Unit Left :=
  ((Iter.new e).foldE () (fun _ x => f x) s).mapState fun e => ⟨e⟩

/-- `Expression::clone_into_vec`, src/expr/expression.rs:172-182, see `cloneIntoVec`. -/
def cloneIntoVecE (e : Expr σ α) (c : α → M σ T) (s : σ × Own T) : Out (σ × Own T) Unit Left :=
  Out.before (do
    let o ← own
    M.lift (check (e.shape.len ≤ o.cells.length - o.len))) ⟨e⟩
    (fun _ => e.up.forEachE fun x => M.bind (M.up (c x)) vecAppend) s

/-- `Tensor::from_expr`, src/tensor.rs:401-408, see `tensorFromExpr`. -/
def tensorFromExprE (e : Expr σ T) (s : σ × Own T) : Out (σ × Own T) Unit Left :=
  Out.before (do
    upd fun o => { o with cells := [], len := 0, shape := e.shape }
    let o ← own
    M.lift (check (e.shape.len ≤ o.limit))
    upd fun o => { o with cells := List.replicate e.shape.len none }) ⟨e⟩
    (fun _ s => (cloneIntoVecE e M.pure s).onPanic (do
      let o ← own
      dropCells 0 o.len)) s

/-- `Array::from_expr`, src/array.rs:67-99, see `arrayFromExpr`; also `Array::map`, `apply` and `zip_with`
(src/array.rs:62-65, 136-150), which call it for an expression that owns the elements. -/
def arrayFromExprE (ty : ShapeTy) (e : Expr σ T) (s : σ × Own T) : Out (σ × Own T) Unit Left :=
  Out.before (do
    let s ← M.lift (Shape.fromDims ty e.dims)
    upd fun o => { o with cells := List.replicate s.len none, len := 0, shape := s }) ⟨e⟩
    (fun _ s => ((e.up.forEachE vecAppend s).onPanic (do
      let o ← own
      dropCells 0 o.len)).after (do
        let o ← own
        if o.cells.all Option.isSome then pure () else M.ub)) s

/-- `Tensor::expand`, src/tensor.rs:120-153, see `expand`. -/
def expandE (e : Expr σ α) (c : α → M σ T) (s : σ × Own T) : Out (σ × Own T) Unit Left :=
  Out.before checkHead ⟨e⟩ (fun _ s =>
    if 0 < e.shape.len then
      Out.before (upd fun o => { o with len := o.shape.len }) ⟨e⟩ (fun _ s =>
        (Out.before (do
          vecReserve e.shape.len
          setShape fun s => expandShape s e.dims) ⟨e⟩ (fun _ => cloneIntoVecE e c) s).onPanic partsGuard) s
    else .ok () ⟨e⟩ s) s

/-- `Tensor::zip_with`, src/tensor.rs:427-469, see `zipWith`. -/
def zipWithE (e : Expr σ β) (f : T → β → M σ T) (s : σ × Own T) : Out (σ × Own T) Unit Left :=
  Out.before own ⟨e⟩ (fun o s =>
    (Out.onPanic
      (match Expr.zipNew (Expr.view false ⟨0, .dense o.shape⟩) (e.up.up : Expr ((σ × Own T) × Nat) β) with
      | some z => z.forEachE (zipStep f) (s, 0)
      | none => .panic ⟨e⟩ (s, 0))
      (zipGuard o.shape.len)).scope) s

/-- `Slice::assign`, src/slice.rs:55-57, see `assign`. -/
def assignE (v : View) (e : Expr σ α) (c : α → M σ T) (s : σ × List T) : Out (σ × List T) Unit Left :=
  match Expr.zipNew (Expr.view false v) (e.up : Expr (σ × List T) α) with
  | some z => z.forEachE (fun py => M.bind (M.up (c py.2)) fun x => writeMem py.1 x) s
  | none => .panic ⟨e⟩ s

/-- Compound assignment operators, src/ops.rs:361-398, see `opAssign`. -/
def opAssignE (v : View) (e : Expr σ β) (g : T → β → M σ T) (s : σ × List T) : Out (σ × List T) Unit Left :=
  match Expr.zipNew (Expr.view false v) (e.up : Expr (σ × List T) β) with
  | some z => z.forEachE (fun py => M.bind (readMem py.1) fun x => M.bind (M.up (g x py.2)) fun x' =>
      writeMem py.1 x') s
  | none => .panic ⟨e⟩ s

end Model
