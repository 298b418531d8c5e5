import Verif.Model.Machine
import Verif.Model.Expr

/-!
Iteration with 64-bit integers: the functions of `Model/Expr.lean` with every operation on `usize` and `isize`
panicking on overflow (builds with overflow checks) or wrapping around (builds without). Positions of pointers are
places in the allocation, as in `Model/Machine.lean`.
-/

namespace Model
namespace Machine
variable {σ : Type}

/-- `Axis::get`, src/index/axis.rs:30-37. -/
def axisGet (checks : Bool) (a : Axis) (m : Mapping) : Option Mapping := do
  let index ← a.index m.rank
  let size ← m.dim index
  let stride ← stride checks m index
  prependDim checks (Mapping.dense ⟨.static [], []⟩) size stride (.static [a.dimTy m.shape.ty])
    (a.keep m.shape.ty m.layout)

/-- `get_unchecked` of `AxisExpr`, src/expr/sources.rs:164-174: the item. -/
def axisItem (checks : Bool) (v : View) (a : Axis) (m : Mapping) (off : Int) (i : Nat) : Option View := do
  let p ← retI checks (m.innerStride * castI i)
  let offset ← retI checks (off + p)
  let item ← removeMap checks a v.map
  let len ← item.shape.checkedLen
  pure ⟨v.ptr + (if len = 0 then 0 else offset), item⟩

/-- `get_unchecked` of `Lanes`, src/expr/sources.rs:441-449: the item. -/
def lanesItem (checks : Bool) (v : View) (a : Axis) (m : Mapping) (i : Nat) : Option View := do
  let offset ← retI checks (m.innerStride * castI i)
  let item ← axisGet checks a v.map
  let e ← isEmpty checks item.shape
  pure ⟨v.ptr + (if e then 0 else offset), item⟩

/-- The counter at the last dimension of a `FromFn` is increased, src/expr/sources.rs:376-378. -/
def fromFnCount {α : Type} (checks : Bool) (s : Shape) (idx : List Nat) (f : List Nat → M σ α) :
    Option (Expr σ α) :=
  if s.dims.length > 0 then
    idx[s.dims.length - 1]?.bind fun k => (retU checks (k + 1)).map fun k' =>
      .fromFn s (idx.set (s.dims.length - 1) k') f
  else some (.fromFn s idx f)

/-- `Expression::get_unchecked`, see `Expr.get`. -/
def get (checks : Bool) : {α : Type} → Expr σ α → Nat → M σ (α × Expr σ α)
  | _, .view r v, i =>
    M.bind (M.lift (retI checks (v.map.innerStride * castI i))) fun c => M.pure (v.ptr + c, .view r v)
  | _, .axis r v a m off, i =>
    M.bind (M.lift (axisItem checks v a m off i)) fun w => M.pure (w, .axis r v a m off)
  | _, .lanes r v a m off, i =>
    M.bind (M.lift (lanesItem checks v a m i)) fun w => M.pure (w, .lanes r v a m off)
  | _, .fill f, _ => M.bind f fun x => M.pure (x, .fill f)
  | _, .fromElem s f, _ => M.bind f fun x => M.pure (x, .fromElem s f)
  | _, .fromFn s idx f, _ =>
    M.bind (f idx) fun x => M.bind (M.lift (fromFnCount checks s idx f)) fun e => M.pure (x, e)
  | _, .intoExpr s buf idx, _ =>
    M.bind (M.lift (retU checks (idx + 1))) fun idx' =>
      match buf[idx]? with
      | some x => M.pure (x, .intoExpr s buf idx')
      | none => M.ub
  | _, .map e f, i => M.bind (get checks e i) fun p => M.bind (f p.1) fun y => M.pure (y, .map p.2 f)
  | _, .enumerate e count, i =>
    M.bind (M.lift (retU checks (count + 1))) fun count' =>
      M.bind (get checks e i) fun p => M.pure ((count, p.1), .enumerate p.2 count')
  | _, .zip a b s, i =>
    M.bind (get checks a i) fun p => M.bind (get checks b i) fun q => M.pure ((p.1, q.1), .zip p.2 q.2 s)

/-- `reset_dim` of a view, src/view.rs:372-379: the negated stride is multiplied. -/
def viewReset (checks : Bool) (v : View) (i n : Nat) : Option View := do
  let s ← stride checks v.map i
  let t ← retI checks (-s)
  let c ← retI checks (t * castI n)
  pure ⟨v.ptr + c, v.map⟩

/-- `reset_dim` of `Lanes`, src/expr/sources.rs:461-463: the new offset. -/
def lanesReset (checks : Bool) (m : Mapping) (off : Int) (i n : Nat) : Option Int := do
  let s ← stride checks m i
  let c ← retI checks (s * castI n)
  retI checks (off - c)

/-- `Expression::reset_dim`, see `Expr.resetDim`. -/
def resetDim (checks : Bool) : {α : Type} → Expr σ α → (index count : Nat) → Option (Expr σ α)
  | _, .view r v, i, n => (viewReset checks v i n).map fun w => .view r w
  | _, .axis r v a m _, _, _ => some (.axis r v a m 0)
  | _, .lanes r v a m off, i, n => (lanesReset checks m off i n).map fun o => .lanes r v a m o
  | _, .fill f, _, _ => some (.fill f)
  | _, .fromElem s f, _, _ => some (.fromElem s f)
  | _, .fromFn s idx f, i, _ => if i < idx.length then some (.fromFn s (idx.set i 0) f) else none
  | _, .intoExpr s buf idx, _, _ => some (.intoExpr s buf idx)
  | _, .map e f, i, n => (resetDim checks e i n).map fun e' => .map e' f
  | _, .enumerate e k, i, n => (resetDim checks e i n).map fun e' => .enumerate e' k
  | _, .zip a b s, i, n =>
    let delta := s.dims.length - i
    (if delta ≤ a.rank then resetDim checks a (a.rank - delta) n else some a).bind fun a' =>
      (if delta ≤ b.rank then resetDim checks b (b.rank - delta) n else some b).map fun b' => .zip a' b' s

/-- `step_dim` of `FromFn`, src/expr/sources.rs:391-396. -/
def fromFnStep {α : Type} (checks : Bool) (s : Shape) (idx : List Nat) (f : List Nat → M σ α) (i : Nat) :
    Option (Expr σ α) :=
  if i + 1 < s.dims.length then
    idx[i]?.bind fun k => (retU checks (k + 1)).map fun k' => .fromFn s (idx.set i k') f
  else some (.fromFn s idx f)

/-- `Expression::step_dim`, see `Expr.stepDim`. -/
def stepDim (checks : Bool) : {α : Type} → Expr σ α → (index : Nat) → Option (Expr σ α)
  | _, .view r v, i => (stride checks v.map i).map fun s => .view r ⟨v.ptr + s, v.map⟩
  | _, .axis r v a m off, _ => (retI checks (off + m.innerStride)).map fun o => .axis r v a m o
  | _, .lanes r v a m off, i =>
    (stride checks m i).bind fun s => (retI checks (off + s)).map fun o => .lanes r v a m o
  | _, .fill f, _ => some (.fill f)
  | _, .fromElem s f, _ => some (.fromElem s f)
  | _, .fromFn s idx f, i => fromFnStep checks s idx f i
  | _, .intoExpr s buf idx, _ => some (.intoExpr s buf idx)
  | _, .map e f, i => (stepDim checks e i).map fun e' => .map e' f
  | _, .enumerate e k, i => (stepDim checks e i).map fun e' => .enumerate e' k
  | _, .zip a b s, i =>
    let delta := s.dims.length - i
    (if delta ≤ a.rank then stepDim checks a (a.rank - delta) else some a).bind fun a' =>
      (if delta ≤ b.rank then stepDim checks b (b.rank - delta) else some b).map fun b' => .zip a' b' s

variable {α : Type}

/-- `Iter::new`, src/expr/iter.rs:19-35, see `Iter.new`. -/
def iterNew (checks : Bool) (e : Expr σ α) : Option (Iter σ α) :=
  (product checks (e.dims.drop e.outerRank)).map fun n =>
    { expr := e
      innerIndex := 0
      innerLimit := n
      outerIndex := if e.outerRank > 0 then e.dims.map fun _ => 0 else []
      outerLimit := if e.outerRank > 0 then e.dims else [] }

/-- Loop of `step_outer`, src/expr/iter.rs:47-57, 60, for `i` from `n-1` down to 0. -/
def stepLoop (checks : Bool) (limit : List Nat) :
    Nat → Expr σ α → List Nat → Option (Bool × Expr σ α × List Nat)
  | 0, e, oi => some (false, e, oi.map fun _ => 0)
  | i + 1, e, oi =>
    oi[i]?.bind fun x => (retU checks (x + 1)).bind fun x' => limit[i]?.bind fun l =>
      if x' < l then (stepDim checks e i).map fun e' => (true, e', oi.set i x')
      else (resetDim checks e i x).bind fun e' => stepLoop checks limit i e' (oi.set i 0)

/-- `Iter::step_outer`, src/expr/iter.rs:37-63. -/
def stepOuter (checks : Bool) (it : Iter σ α) : Option (Bool × Iter σ α) :=
  let o := it.expr.outerRank
  (if o < it.expr.rank then resetDim checks it.expr (it.expr.rank - 1) 0 else some it.expr).bind fun e =>
    (stepLoop checks it.outerLimit o e it.outerIndex).map fun r =>
      (r.1, { it with expr := r.2.1, outerIndex := r.2.2 })

/-- Inner loop of `fold`, src/expr/iter.rs:84-86, for the given values of `i`. -/
def innerLoop (checks : Bool) {τ : Type} (f : τ → α → M σ τ) : List Nat → Expr σ α → τ → M σ (τ × Expr σ α)
  | [], e, acc => M.pure (acc, e)
  | i :: is, e, acc =>
    M.bind (get checks e i) fun p => M.bind (f acc p.1) fun acc' => innerLoop checks f is p.2 acc'

/-- Outer loop of `fold`, src/expr/iter.rs:83-93, see `Iter.foldLoop`. -/
def foldLoop (checks : Bool) {τ : Type} (f : τ → α → M σ τ) : (fuel : Nat) → Iter σ α → τ → M σ τ
  | 0, _, _ => M.ub
  | fuel + 1, it, acc =>
    M.bind (innerLoop checks f (List.range' it.innerIndex (it.innerLimit - it.innerIndex)) it.expr acc)
      fun p => M.bind (M.lift (stepOuter checks { it with expr := p.2 })) fun q =>
        if q.1 then foldLoop checks f fuel { q.2 with innerIndex := 0 } p.1 else M.pure p.1

/-- `Iter::fold`, src/expr/iter.rs:80-94. -/
def fold (checks : Bool) {τ : Type} (it : Iter σ α) (init : τ) (f : τ → α → M σ τ) : M σ τ :=
  foldLoop checks f it.outerCount it init

/-- The part of `next` that takes an item, src/expr/iter.rs:105-107. -/
def take (checks : Bool) (it : Iter σ α) : M σ (Option α × Iter σ α) :=
  M.bind (M.lift (retU checks (it.innerIndex + 1))) fun k =>
    M.bind (get checks it.expr it.innerIndex) fun p =>
      M.pure (some p.1, { it with expr := p.2, innerIndex := k })

/-- `Iter::next`, src/expr/iter.rs:96-108. -/
def next (checks : Bool) (it : Iter σ α) : M σ (Option α × Iter σ α) :=
  if it.innerIndex = it.innerLimit then
    M.bind (M.lift (stepOuter checks it)) fun q =>
      if q.1 then take checks { q.2 with innerIndex := 0 } else M.pure (none, q.2)
  else take checks it

/-- `Expression::fold`, src/expr/expression.rs:108-113. -/
def exprFold (checks : Bool) {τ : Type} (e : Expr σ α) (init : τ) (f : τ → α → M σ τ) : M σ τ :=
  M.bind (M.lift (iterNew checks e)) fun it => fold checks it init f

end Machine
end Model
