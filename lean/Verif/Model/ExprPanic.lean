import Verif.Model.Expr

/-!
Iteration with panics that are caught by the caller: the code of `Model/Expr.lean` once more, keeping the
state of expressions and iterators when a closure (or a bounds check) panics. This is what destructors that
run while unwinding see, and what further calls of `next` see if the caller has caught the panic. That the
results agree with `Model/Expr.lean` is proved in `Props/Resume.lean`.
-/

namespace Model

/-- Outcome of a method with `&mut self`: the result, the new state of `self` and of the world; a panic with
the state at that point; undefined behaviour; or an abort. -/
inductive Out (σ : Type) (α : Type) (S : Type 1) : Type 1
  | ok (x : α) (e : S) (s : σ)
  | panic (e : S) (s : σ)
  | ub
  | abort

namespace Out
variable {σ α β : Type} {S S' : Type 1}

/-- A call of a closure while `self` is in the state `e`. -/
def call (r : Res σ α) (e : S) : Out σ α S :=
  match r with
  | .ok x s => .ok x e s
  | .panic s => .panic e s
  | .ub => .ub
  | .abort => .abort

/-- What follows after a part of `self` is updated: `g` puts the part back in place, also if there was a
panic. -/
def andThen (r : Out σ α S) (g : S → S') (k : α → S → σ → Out σ β S') : Out σ β S' :=
  match r with
  | .ok x e s => k x e s
  | .panic e s => .panic (g e) s
  | .ub => .ub
  | .abort => .abort

/-- The outcome without the state after a panic. -/
def erase (r : Out σ α S) : Res σ (α × S) :=
  match r with
  | .ok x e s => .ok (x, e) s
  | .panic _ s => .panic s
  | .ub => .ub
  | .abort => .abort

/-- The outcome without the state of `self`. -/
def result (r : Out σ α S) : Res σ α :=
  match r with
  | .ok x _ s => .ok x s
  | .panic _ s => .panic s
  | .ub => .ub
  | .abort => .abort

end Out

namespace Expr
variable {σ : Type} {α : Type}

/-- `Expression::get_unchecked` with the state after a panic.
- Views, src/view.rs:356-360, do not change.
- `AxisExpr`, `Lanes`, src/expr/sources.rs:164-174, 441-449, do not change; the subarray is made first.
- `Fill`, `FillWith`, `FromElem`, src/expr/sources.rs:242, 284, 328, do not change.
- `FromFn`, src/expr/sources.rs:372-381, increments its index after the call of the closure.
- `IntoExpr`, src/expr/into_expr.rs:90-98, increments its index before the element is taken out.
- `Map`, src/expr/adapters.rs:285, and `Cloned`, `Copied`, src/expr/adapters.rs:136, 181, call the closure
  after the inner expression has gone on.
- `Enumerate`, src/expr/adapters.rs:232-236, increments its count first.
- `Zip`, src/expr/adapters.rs:355, goes on with the second expression after the first. An item of the first
  one is dropped if the second one panics; this is not modelled. -/
def getE : {α : Type} → Expr σ α → Nat → σ → Out σ α (Expr σ α)
  | _, view r v, i, t => .ok (v.ptr + v.map.innerStride * (i : Int)) (view r v) t
  | _, axis r v a m off, i, t =>
    let offset := off + m.innerStride * (i : Int)
    Out.call (M.lift (do
      let item ← a.removeMap v.map
      let len ← item.shape.checkedLen
      pure (⟨v.ptr + (if len = 0 then 0 else offset), item⟩ : View)) t) (axis r v a m off)
  | _, lanes r v a m off, i, t =>
    let offset := m.innerStride * (i : Int)
    Out.call (M.lift (do
      let item ← a.get v.map
      pure (⟨v.ptr + (if item.isEmpty then 0 else offset), item⟩ : View)) t) (lanes r v a m off)
  | _, fill f, _, t => Out.call (f t) (fill f)
  | _, fromElem s f, _, t => Out.call (f t) (fromElem s f)
  | _, fromFn s idx f, _, t =>
    (Out.call (f idx t) (fromFn s idx f)).andThen id fun x e t =>
      if s.dims.length > 0 then
        match idx[s.dims.length - 1]? with
        | some k => .ok x (fromFn s (idx.set (s.dims.length - 1) (k + 1)) f) t
        | none => .panic e t
      else .ok x e t
  | _, intoExpr s buf idx, _, t =>
    match buf[idx]? with
    | some x => .ok x (intoExpr s buf (idx + 1)) t
    | none => .ub
  | _, map e f, i, t => (e.getE i t).andThen (fun e' => map e' f) fun x e' t => Out.call (f x t) (map e' f)
  | _, enumerate e count, i, t =>
    (e.getE i t).andThen (fun e' => enumerate e' (count + 1)) fun x e' t =>
      .ok (count, x) (enumerate e' (count + 1)) t
  | _, zip a b s, i, t =>
    (a.getE i t).andThen (fun a' => zip a' b s) fun x a' t =>
      (b.getE i t).andThen (fun b' => zip a' b' s) fun y b' t => .ok (x, y) (zip a' b' s) t

/-- `Expression::reset_dim` with the state after a panic (`false`), see `Expr.resetDim`. In `Zip` the first
expression has been changed when the second one panics, src/expr/adapters.rs:363-375. -/
def resetDimE : {α : Type} → Expr σ α → (index count : Nat) → Bool × Expr σ α
  | _, view r v, i, n =>
    match v.map.stride i with
    | some s => (true, view r ⟨v.ptr + -s * (n : Int), v.map⟩)
    | none => (false, view r v)
  | _, axis r v a m _, _, _ => (true, axis r v a m 0)
  | _, lanes r v a m off, i, n =>
    match m.stride i with
    | some s => (true, lanes r v a m (off - s * (n : Int)))
    | none => (false, lanes r v a m off)
  | _, fill f, _, _ => (true, fill f)
  | _, fromElem s f, _, _ => (true, fromElem s f)
  | _, fromFn s idx f, i, _ => if i < idx.length then (true, fromFn s (idx.set i 0) f) else (false, fromFn s idx f)
  | _, intoExpr s buf idx, _, _ => (true, intoExpr s buf idx)
  | _, map e f, i, n => ((e.resetDimE i n).1, map (e.resetDimE i n).2 f)
  | _, enumerate e k, i, n => ((e.resetDimE i n).1, enumerate (e.resetDimE i n).2 k)
  | _, zip a b s, i, n =>
    let delta := s.dims.length - i
    let p := if delta ≤ a.rank then a.resetDimE (a.rank - delta) n else (true, a)
    if p.1 then
      let q := if delta ≤ b.rank then b.resetDimE (b.rank - delta) n else (true, b)
      (q.1, zip p.2 q.2 s)
    else (false, zip p.2 b s)

/-- `Expression::step_dim` with the state after a panic (`false`), see `Expr.stepDim`. -/
def stepDimE : {α : Type} → Expr σ α → (index : Nat) → Bool × Expr σ α
  | _, view r v, i =>
    match v.map.stride i with
    | some s => (true, view r ⟨v.ptr + s, v.map⟩)
    | none => (false, view r v)
  | _, axis r v a m off, _ => (true, axis r v a m (off + m.innerStride))
  | _, lanes r v a m off, i =>
    match m.stride i with
    | some s => (true, lanes r v a m (off + s))
    | none => (false, lanes r v a m off)
  | _, fill f, _ => (true, fill f)
  | _, fromElem s f, _ => (true, fromElem s f)
  | _, fromFn s idx f, i =>
    if i + 1 < s.dims.length then
      match idx[i]? with
      | some k => (true, fromFn s (idx.set i (k + 1)) f)
      | none => (false, fromFn s idx f)
    else (true, fromFn s idx f)
  | _, intoExpr s buf idx, _ => (true, intoExpr s buf idx)
  | _, map e f, i => ((e.stepDimE i).1, map (e.stepDimE i).2 f)
  | _, enumerate e k, i => ((e.stepDimE i).1, enumerate (e.stepDimE i).2 k)
  | _, zip a b s, i =>
    let delta := s.dims.length - i
    let p := if delta ≤ a.rank then a.stepDimE (a.rank - delta) else (true, a)
    if p.1 then
      let q := if delta ≤ b.rank then b.stepDimE (b.rank - delta) else (true, b)
      (q.1, zip p.2 q.2 s)
    else (false, zip p.2 b s)

/-- The arrays whose elements the expression moves out, from left to right: the field `index` of each
`IntoExpr`, src/expr/into_expr.rs:11-14, and the length of its buffer. The elements before `index` have been
moved out. -/
def owned : {α : Type} → Expr σ α → List (Nat × Nat)
  | _, intoExpr _ buf idx => [(idx, buf.length)]
  | _, map e _ => owned e
  | _, enumerate e _ => owned e
  | _, zip a b _ => owned a ++ owned b
  | _, _ => []

/-- The positions of the elements that are dropped by `IntoExpr::drop`, src/expr/into_expr.rs:70-79, for
each of the arrays. `none` is undefined behaviour: the subtraction wraps around (or panics with overflow
checks) if the index is beyond the end. -/
def dropE {α : Type} (e : Expr σ α) : Option (List (List Nat)) :=
  e.owned.mapM fun p => if p.1 ≤ p.2 then some (List.range' p.1 (p.2 - p.1)) else none

end Expr

namespace Iter
variable {σ : Type} {α : Type}

/-- Loop of `step_outer`, src/expr/iter.rs:47-60, see `Iter.stepLoop`; `none` is a panic. -/
def stepLoopE (limit : List Nat) : Nat → Expr σ α → List Nat → Option Bool × Expr σ α × List Nat
  | 0, e, oi => (some false, e, oi.map fun _ => 0)
  | i + 1, e, oi =>
    match oi[i]?, limit[i]? with
    | some x, some l =>
      if x + 1 < l then
        if (e.stepDimE i).1 then (some true, (e.stepDimE i).2, oi.set i (x + 1))
        else (none, (e.stepDimE i).2, oi)
      else
        if (e.resetDimE i x).1 then stepLoopE limit i (e.resetDimE i x).2 (oi.set i 0)
        else (none, (e.resetDimE i x).2, oi)
    | _, _ => (none, e, oi)

/-- `Iter::step_outer`, src/expr/iter.rs:37-63, see `Iter.stepOuter`; `none` is a panic. -/
def stepOuterE (it : Iter σ α) : Option Bool × Iter σ α :=
  let o := it.expr.outerRank
  let p := if o < it.expr.rank then it.expr.resetDimE (it.expr.rank - 1) 0 else (true, it.expr)
  if p.1 then
    let r := stepLoopE it.outerLimit o p.2 it.outerIndex
    (r.1, { it with expr := r.2.1, outerIndex := r.2.2 })
  else (none, { it with expr := p.2 })

/-- The end of `next`, src/expr/iter.rs:105-107: the index is incremented first. -/
def takeE (it : Iter σ α) (s : σ) : Out σ (Option α) (Iter σ α) :=
  (it.expr.getE it.innerIndex s).andThen
    (fun e => { it with expr := e, innerIndex := it.innerIndex + 1 }) fun x e s =>
      .ok (some x) { it with expr := e, innerIndex := it.innerIndex + 1 } s

/-- `Iter::next`, src/expr/iter.rs:96-108, with the state after a panic. -/
def nextE (it : Iter σ α) (s : σ) : Out σ (Option α) (Iter σ α) :=
  if it.innerIndex = it.innerLimit then
    match it.stepOuterE with
    | (some true, it') => takeE { it' with innerIndex := 0 } s
    | (some false, it') => .ok none it' s
    | (none, it') => .panic it' s
  else takeE it s

/-- Inner loop of `fold`, src/expr/iter.rs:84-86, with the expression after a panic. -/
def innerLoopE {τ : Type} (f : τ → α → M σ τ) : List Nat → Expr σ α → τ → σ → Out σ τ (Expr σ α)
  | [], e, acc, s => .ok acc e s
  | i :: is, e, acc, s =>
    (e.getE i s).andThen id fun x e s =>
      (Out.call (f acc x s) e).andThen id fun acc e s => innerLoopE f is e acc s

/-- Outer loop of `fold`, src/expr/iter.rs:83-93, see `Iter.foldLoop`. -/
def foldLoopE {τ : Type} (f : τ → α → M σ τ) : (fuel : Nat) → Iter σ α → τ → σ → Out σ τ (Expr σ α)
  | 0, _, _, _ => .ub
  | fuel + 1, it, acc, s =>
    (innerLoopE f (List.range' it.innerIndex (it.innerLimit - it.innerIndex)) it.expr acc s).andThen id
      fun acc e s =>
        match stepOuterE { it with expr := e } with
        | (some true, it') => foldLoopE f fuel { it' with innerIndex := 0 } acc s
        | (some false, it') => .ok acc it'.expr s
        | (none, it') => .panic it'.expr s

/-- `Iter::fold`, src/expr/iter.rs:80-94, with the expression in the state in which it is dropped, at the end
or while unwinding. -/
def foldE {τ : Type} (it : Iter σ α) (init : τ) (f : τ → α → M σ τ) (s : σ) : Out σ τ (Expr σ α) :=
  foldLoopE f it.outerCount it init s

end Iter
end Model
