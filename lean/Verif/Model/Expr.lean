import Verif.Model.View
import Verif.Model.Monad

/-!
Model of `src/expr/*.rs` and of the `Expression` implementation of views (`src/view.rs`): expressions
with their run-time state, the hidden methods driven by the iterator, and the iterator.
-/

namespace Model

/-- Expressions, with the fields of the corresponding structs. `rep` is `IS_REPEATABLE`: true for
`View`, `AxisExpr`, `Lanes`, false for the `Mut` variants. The items of view expressions are element
positions (`&T` / `&mut T`); a closure that reads the referenced element does so in the world `σ`.
- `view`: `View`, `ViewMut`, src/view.rs:18-27
- `axis`: `AxisExpr`, `AxisExprMut`, src/expr/sources.rs:12-26
- `lanes`: `Lanes`, `LanesMut`, src/expr/sources.rs:55-69
- `fill`: `Fill` (cloning the value is the closure), `FillWith`, src/expr/sources.rs:28-38
- `fromElem`, `fromFn`: src/expr/sources.rs:40-53
- `intoExpr`: `IntoExpr` for owned buffers, src/expr/into_expr.rs:11-14
- `map`: `Map`, and `Cloned`/`Copied` whose closure clones, src/expr/adapters.rs:9-31
- `enumerate`, `zip`: src/expr/adapters.rs:21-24, 35-39. -/
inductive Expr (σ : Type) : Type → Type 1
  | view (rep : Bool) (v : View) : Expr σ Int
  | axis (rep : Bool) (v : View) (a : Axis) (m : Mapping) (off : Int) : Expr σ View
  | lanes (rep : Bool) (v : View) (a : Axis) (m : Mapping) (off : Int) : Expr σ View
  | fill {α} (f : M σ α) : Expr σ α
  | fromElem {α} (s : Shape) (f : M σ α) : Expr σ α
  | fromFn {α} (s : Shape) (idx : List Nat) (f : List Nat → M σ α) : Expr σ α
  | intoExpr {α} (s : Shape) (buf : List α) (idx : Nat) : Expr σ α
  | map {α β} (e : Expr σ α) (f : α → M σ β) : Expr σ β
  | enumerate {α} (e : Expr σ α) (count : Nat) : Expr σ (Nat × α)
  | zip {α β} (a : Expr σ α) (b : Expr σ β) (s : Shape) : Expr σ (α × β)

/-- `Dims::default()`, src/dim.rs: `[0; N]` for static rank, an empty list for `DynRank`. -/
def dimsDefault : ShapeTy → List Nat
  | .static ds => ds.map fun _ => 0
  | .dynRank => []

namespace Expr
variable {σ : Type} {α β : Type}

/-- `Expression::shape`, src/view.rs:352-354, src/expr/sources.rs:160, 238, 280, 324, 368, 437,
src/expr/adapters.rs:132, 177, 228, 281, 351, src/expr/into_expr.rs:86. -/
def shape : {α : Type} → Expr σ α → Shape
  | _, view _ v => v.map.shape
  | _, axis _ _ _ m _ => m.shape
  | _, lanes _ _ _ m _ => m.shape
  | _, fill _ => ⟨.static [], []⟩
  | _, fromElem s _ => s
  | _, fromFn s _ _ => s
  | _, intoExpr s _ _ => s
  | _, map e _ => e.shape
  | _, enumerate e _ => e.shape
  | _, zip _ _ s => s

abbrev dims (e : Expr σ α) : List Nat := e.shape.dims
abbrev rank (e : Expr σ α) : Nat := e.shape.dims.length

/-- `Expression::IS_REPEATABLE`, src/view.rs:350, src/expr/sources.rs:158, 236, 278, 322, 366, 435,
src/expr/adapters.rs:130, 175, 226, 279, 349, src/expr/into_expr.rs:84. -/
def repeatable : {α : Type} → Expr σ α → Bool
  | _, view r _ => r
  | _, axis r _ _ _ _ => r
  | _, lanes r _ _ _ _ => r
  | _, fill _ => true
  | _, fromElem _ _ => true
  | _, fromFn _ _ _ => true
  | _, intoExpr _ _ _ => false
  | _, map e _ => e.repeatable
  | _, enumerate e _ => e.repeatable
  | _, zip a b _ => a.repeatable && b.repeatable

/-- The minimum of two inner ranks, where `none` is `usize::MAX`. -/
def minRank : Option Nat → Option Nat → Option Nat
  | none, y => y
  | x, none => x
  | some x, some y => some (min x y)

/-- Inner rank of a mapping, src/view.rs:362-370, src/expr/sources.rs:451-459. -/
def mapInnerRank (m : Mapping) : Option Nat :=
  if m.isDense then (if m.shape.ty.rank? = some 0 then none else some m.rank)
  else (if m.rank > 0 then some 1 else none)

/-- `Expression::inner_rank`; `none` stands for `usize::MAX`, which is at least every rank.
src/view.rs:362-370, src/expr/sources.rs:176, 246, 288, 332, 383, 451-459,
src/expr/adapters.rs:140, 185, 238, 289, 359, src/expr/into_expr.rs:100. -/
def innerRank : {α : Type} → Expr σ α → Option Nat
  | _, view _ v => mapInnerRank v.map
  | _, axis _ _ _ _ _ => some 1
  | _, lanes _ _ _ m _ => mapInnerRank m
  | _, fill _ => none
  | _, fromElem _ _ => none
  | _, fromFn s _ _ => if s.dims.length > 0 then some 1 else none
  | _, intoExpr _ _ _ => none
  | _, map e _ => e.innerRank
  | _, enumerate e _ => e.innerRank
  | _, zip a b _ => minRank a.innerRank b.innerRank

/-- `Expression::get_unchecked`: the item and the new state.
src/view.rs:356-360, src/expr/sources.rs:164-174, 242, 284, 328, 372-381, 441-449,
src/expr/adapters.rs:136, 181, 232-236, 285, 355, src/expr/into_expr.rs:90-98.
Reading an owned buffer beyond its end is undefined behaviour. -/
def get : {α : Type} → Expr σ α → Nat → M σ (α × Expr σ α)
  | _, view r v, i => M.pure (v.ptr + v.map.innerStride * (i : Int), view r v)
  | _, axis r v a m off, i =>
    let offset := off + m.innerStride * (i : Int)
    M.bind (M.lift (do
      let item ← a.removeMap v.map
      let len ← item.shape.checkedLen
      pure (⟨v.ptr + (if len = 0 then 0 else offset), item⟩ : View)))
      fun w => M.pure (w, axis r v a m off)
  | _, lanes r v a m off, i =>
    let offset := m.innerStride * (i : Int)
    M.bind (M.lift (do
      let item ← a.get v.map
      pure (⟨v.ptr + (if item.isEmpty then 0 else offset), item⟩ : View)))
      fun w => M.pure (w, lanes r v a m off)
  | _, fill f, _ => M.bind f fun x => M.pure (x, fill f)
  | _, fromElem s f, _ => M.bind f fun x => M.pure (x, fromElem s f)
  | _, fromFn s idx f, _ =>
    M.bind (f idx) fun x =>
      if s.dims.length > 0 then
        match idx[s.dims.length - 1]? with
        | some k => M.pure (x, fromFn s (idx.set (s.dims.length - 1) (k + 1)) f)
        | none => M.panic
      else M.pure (x, fromFn s idx f)
  | _, intoExpr s buf idx, _ =>
    match buf[idx]? with
    | some x => M.pure (x, intoExpr s buf (idx + 1))
    | none => M.ub
  | _, map e f, i => M.bind (e.get i) fun p => M.bind (f p.1) fun y => M.pure (y, map p.2 f)
  | _, enumerate e count, i => M.bind (e.get i) fun p => M.pure ((count, p.1), enumerate p.2 (count + 1))
  | _, zip a b s, i =>
    M.bind (a.get i) fun p => M.bind (b.get i) fun q => M.pure ((p.1, q.1), zip p.2 q.2 s)

/-- `Expression::reset_dim`, src/view.rs:372-379, src/expr/sources.rs:180, 250, 292, 336, 387-389,
461-463, src/expr/adapters.rs:144, 189, 242, 293, 363-375, src/expr/into_expr.rs:104. -/
def resetDim : {α : Type} → Expr σ α → (index count : Nat) → Option (Expr σ α)
  | _, view r v, i, n => (v.map.stride i).map fun s => view r ⟨v.ptr + -s * (n : Int), v.map⟩
  | _, axis r v a m _, _, _ => some (axis r v a m 0)
  | _, lanes r v a m off, i, n => (m.stride i).map fun s => lanes r v a m (off - s * (n : Int))
  | _, fill f, _, _ => some (fill f)
  | _, fromElem s f, _, _ => some (fromElem s f)
  | _, fromFn s idx f, i, _ => if i < idx.length then some (fromFn s (idx.set i 0) f) else none
  | _, intoExpr s buf idx, _, _ => some (intoExpr s buf idx)
  | _, map e f, i, n => (e.resetDim i n).map fun e' => map e' f
  | _, enumerate e k, i, n => (e.resetDim i n).map fun e' => enumerate e' k
  | _, zip a b s, i, n =>
    let delta := s.dims.length - i
    (if delta ≤ a.rank then a.resetDim (a.rank - delta) n else some a).bind fun a' =>
      (if delta ≤ b.rank then b.resetDim (b.rank - delta) n else some b).map fun b' => zip a' b' s

/-- `Expression::step_dim`, src/view.rs:381-387, src/expr/sources.rs:184, 251, 293, 337, 391-396,
465-467, src/expr/adapters.rs:150, 195, 248, 299, 377-389, src/expr/into_expr.rs:105. -/
def stepDim : {α : Type} → Expr σ α → (index : Nat) → Option (Expr σ α)
  | _, view r v, i => (v.map.stride i).map fun s => view r ⟨v.ptr + s, v.map⟩
  | _, axis r v a m off, _ => some (axis r v a m (off + m.innerStride))
  | _, lanes r v a m off, i => (m.stride i).map fun s => lanes r v a m (off + s)
  | _, fill f, _ => some (fill f)
  | _, fromElem s f, _ => some (fromElem s f)
  | _, fromFn s idx f, i =>
    if i + 1 < s.dims.length then
      match idx[i]? with
      | some k => some (fromFn s (idx.set i (k + 1)) f)
      | none => none
    else some (fromFn s idx f)
  | _, intoExpr s buf idx, _ => some (intoExpr s buf idx)
  | _, map e f, i => (e.stepDim i).map fun e' => map e' f
  | _, enumerate e k, i => (e.stepDim i).map fun e' => enumerate e' k
  | _, zip a b s, i =>
    let delta := s.dims.length - i
    (if delta ≤ a.rank then a.stepDim (a.rank - delta) else some a).bind fun a' =>
      (if delta ≤ b.rank then b.stepDim (b.rank - delta) else some b).map fun b' => zip a' b' s

/-! Constructors. -/

/-- `AxisExpr::new`, src/expr/sources.rs:137-144. -/
def axisNew (rep : Bool) (v : View) (a : Axis) : Option (Expr σ View) :=
  (a.get v.map).map fun m => axis rep v a m 0

/-- `Lanes::new`, src/expr/sources.rs:411-421. -/
def lanesNew (rep : Bool) (v : View) (a : Axis) : Option (Expr σ View) :=
  (a.removeMap v.map).bind fun m => m.shape.checkedLen.map fun _ => lanes rep v a m 0

/-- `FromElem::new`, src/expr/sources.rs:306-310. -/
def fromElemNew (s : Shape) (f : M σ α) : Option (Expr σ α) :=
  s.checkedLen.map fun _ => fromElem s f

/-- `FromFn::new`, src/expr/sources.rs:350-354. -/
def fromFnNew (s : Shape) (f : List Nat → M σ α) : Option (Expr σ α) :=
  s.checkedLen.map fun _ => fromFn s (dimsDefault s.ty) f

/-- `Enumerate::new`, src/expr/adapters.rs:212-214. -/
def enumerateNew (e : Expr σ α) : Expr σ (Nat × α) := enumerate e 0

/-- Shape type of `Zip`, src/expr/adapters.rs:347. -/
def zipTy (s r : ShapeTy) : ShapeTy := (s.reverse.merge r.reverse).reverse

/-- The assertions and the shape computed in `Zip::new`, src/expr/adapters.rs:317-330. -/
def zipShape (a : Expr σ α) (b : Expr σ β) : Option Shape := do
  check (a.repeatable = true ∨ a.rank ≥ b.rank)
  check (b.repeatable = true ∨ b.rank ≥ a.rank)
  let dims := if a.dims.length < b.dims.length then b.dims else a.dims
  check (a.dims.drop (dims.length - b.dims.length) = b.dims.drop (dims.length - a.dims.length))
  Shape.fromDims (zipTy a.shape.ty b.shape.ty) dims

/-- `Zip::new`, src/expr/adapters.rs:316-333. -/
def zipNew (a : Expr σ α) (b : Expr σ β) : Option (Expr σ (α × β)) :=
  (zipShape a b).map fun s => zip a b s

/-- `rank.saturating_sub(inner_rank)`, src/expr/iter.rs:20, 38, 111. -/
def outerRank (e : Expr σ α) : Nat :=
  match e.innerRank with
  | none => 0
  | some k => e.rank - k

end Expr

/-- `Iter`, src/expr/iter.rs:10-16. -/
structure Iter (σ : Type) (α : Type) where
  expr : Expr σ α
  innerIndex : Nat
  innerLimit : Nat
  outerIndex : List Nat
  outerLimit : List Nat

namespace Iter
variable {σ : Type} {α : Type}

/-- `Iter::new`, src/expr/iter.rs:19-35. With outer rank 0 the outer index and limit keep their
default values, which are never read; they are modelled as empty lists. -/
def new (e : Expr σ α) : Iter σ α :=
  let o := e.outerRank
  { expr := e
    innerIndex := 0
    innerLimit := (e.dims.drop o).foldl (· * ·) 1
    outerIndex := if o > 0 then e.dims.map fun _ => 0 else []
    outerLimit := if o > 0 then e.dims else [] }

/-- Loop of `step_outer`, src/expr/iter.rs:47-57, 60, for `i` from `n-1` down to 0. -/
def stepLoop (limit : List Nat) : Nat → Expr σ α → List Nat → Option (Bool × Expr σ α × List Nat)
  | 0, e, oi => some (false, e, oi.map fun _ => 0)
  | i + 1, e, oi =>
    oi[i]?.bind fun x => limit[i]?.bind fun l =>
      if x + 1 < l then (e.stepDim i).map fun e' => (true, e', oi.set i (x + 1))
      else (e.resetDim i x).bind fun e' => stepLoop limit i e' (oi.set i 0)

/-- `Iter::step_outer`, src/expr/iter.rs:37-63. -/
def stepOuter (it : Iter σ α) : Option (Bool × Iter σ α) :=
  let o := it.expr.outerRank
  (if o < it.expr.rank then it.expr.resetDim (it.expr.rank - 1) 0 else some it.expr).bind fun e =>
    (stepLoop it.outerLimit o e it.outerIndex).map fun r =>
      (r.1, { it with expr := r.2.1, outerIndex := r.2.2 })

/-- Inner loop of `fold`, src/expr/iter.rs:84-86, for the given values of `i`. -/
def innerLoop {τ : Type} (f : τ → α → M σ τ) : List Nat → Expr σ α → τ → M σ (τ × Expr σ α)
  | [], e, acc => M.pure (acc, e)
  | i :: is, e, acc =>
    M.bind (e.get i) fun p => M.bind (f acc p.1) fun acc' => innerLoop f is p.2 acc'

/-- Outer loop of `fold`, src/expr/iter.rs:83-93. The number of iterations is bounded by `fuel`;
running out of fuel is reported as undefined behaviour so that it cannot be confused with a result. -/
def foldLoop {τ : Type} (f : τ → α → M σ τ) : (fuel : Nat) → Iter σ α → τ → M σ τ
  | 0, _, _ => M.ub
  | fuel + 1, it, acc =>
    M.bind (innerLoop f (List.range' it.innerIndex (it.innerLimit - it.innerIndex)) it.expr acc)
      fun p => M.bind (M.lift (stepOuter { it with expr := p.2 })) fun q =>
        if q.1 then foldLoop f fuel { q.2 with innerIndex := 0 } p.1 else M.pure p.1

/-- A bound for the number of outer iterations: the number of outer positions (a zero limit behaves
like one). -/
def outerCount (it : Iter σ α) : Nat :=
  ((it.outerLimit.take it.expr.outerRank).map fun d => max d 1).foldl (· * ·) 1

/-- `Iter::fold`, src/expr/iter.rs:80-94. -/
def fold {τ : Type} (it : Iter σ α) (init : τ) (f : τ → α → M σ τ) : M σ τ :=
  foldLoop f it.outerCount it init

/-- `Iter::next`, src/expr/iter.rs:96-108. -/
def next (it : Iter σ α) : M σ (Option α × Iter σ α) :=
  let take (it : Iter σ α) : M σ (Option α × Iter σ α) :=
    M.bind (it.expr.get it.innerIndex) fun p =>
      M.pure (some p.1, { it with expr := p.2, innerIndex := it.innerIndex + 1 })
  if it.innerIndex = it.innerLimit then
    M.bind (M.lift (stepOuter it)) fun q =>
      if q.1 then take { q.2 with innerIndex := 0 } else M.pure (none, q.2)
  else take it

/-- Loop of `size_hint`, src/expr/iter.rs:114-116. Subtraction below zero panics with overflow
checks; it is modelled as a panic. -/
def hintLoop (len : Nat) : List Nat → List Nat → Option Nat
  | l :: ls, i :: is => if i ≤ len * l then hintLoop (len * l - i) ls is else none
  | _, _ => some len

/-- `Iter::size_hint`, src/expr/iter.rs:110-121. -/
def sizeHint (it : Iter σ α) : Option Nat := do
  let o := it.expr.outerRank
  let len ← hintLoop 1 (it.outerLimit.take o) (it.outerIndex.take o)
  check (it.innerIndex ≤ len * it.innerLimit)
  pure (len * it.innerLimit - it.innerIndex)

end Iter

namespace Expr
variable {σ : Type} {α : Type}

/-- `Expression::fold`, src/expr/expression.rs:108-113. -/
def fold {τ : Type} (e : Expr σ α) (init : τ) (f : τ → α → M σ τ) : M σ τ := (Iter.new e).fold init f

/-- `Expression::for_each`, src/expr/expression.rs:116-121. -/
def forEach (e : Expr σ α) (f : α → M σ Unit) : M σ Unit := e.fold () fun _ x => f x

end Expr
end Model
