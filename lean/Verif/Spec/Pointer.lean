import Verif.Model.Expr
import Verif.Spec.Reach

/-!
The pointers that iteration forms. `ptr::offset` may only be used if the result stays within the array (or
one past its end), also if it is not dereferenced. Iterators move the pointers of the views in an expression
when they go on to the next row, src/expr/iter.rs:37-63.
-/

namespace Spec
open Model

/-- The views in an expression whose pointers are moved by iteration, from left to right. -/
def leaves {σ : Type} : {α : Type} → Expr σ α → List View
  | _, .view _ v => [v]
  | _, .map e _ => leaves e
  | _, .enumerate e _ => leaves e
  | _, .zip a b _ => leaves a ++ leaves b
  | _, _ => []

/-- `w` has the mapping of `v`, and its pointer is the one of `v` or points to an element of `v`. -/
def Near (v w : View) : Prop :=
  w.map = v.map ∧ (w.ptr = v.ptr ∨ ∃ j, v.index j = some w.ptr)

/-- The pointer of every view in `e'` stays within the corresponding view in `e`. -/
def StaysIn {σ α : Type} (e e' : Expr σ α) : Prop := List.Forall₂ Near (leaves e) (leaves e')

/-- A move done by `step_outer`: `step_dim(i)` or `reset_dim(i, n)` on an expression. -/
inductive Move (σ : Type) (α : Type) : Type 1
  | step (e : Expr σ α) (i : Nat)
  | reset (e : Expr σ α) (i n : Nat)

/-- The expression after a move. -/
def Move.after {σ α : Type} : Move σ α → Option (Expr σ α)
  | .step e i => e.stepDim i
  | .reset e i n => e.resetDim i n

/-- The expression before a move. -/
def Move.before {σ α : Type} : Move σ α → Expr σ α
  | .step e _ => e
  | .reset e _ _ => e

/-- The moves lead from `e` to `e'`, each one starting where the one before ended. -/
def Path {σ α : Type} : (e : Expr σ α) → List (Move σ α) → (e' : Expr σ α) → Prop
  | e, [], e' => e' = e
  | e, m :: ms, e' => m.before = e ∧ ∃ e₁, m.after = some e₁ ∧ Path e₁ ms e'

/-- The moves in the loop of `step_outer`, src/expr/iter.rs:47-57, for `i` from `n-1` down to 0. -/
def loopMoves {σ α : Type} (limit : List Nat) : (n : Nat) → Expr σ α → List Nat → List (Move σ α)
  | 0, _, _ => []
  | i + 1, e, oi =>
    match oi[i]?, limit[i]? with
    | some x, some l =>
      if x + 1 < l then [.step e i]
      else .reset e i x ::
        match e.resetDim i x with
        | some e' => loopMoves limit i e' (oi.set i 0)
        | none => []
    | _, _ => []

/-- The moves of `step_outer` without the first reset of the last dimension, from its result. -/
def restMoves {σ α : Type} (it : Iter σ α) : Option (Expr σ α) → List (Move σ α)
  | some e => loopMoves it.outerLimit it.expr.outerRank e it.outerIndex
  | none => []

/-- The moves of `step_outer`, src/expr/iter.rs:37-63, in order. -/
def moves {σ α : Type} (it : Iter σ α) : List (Move σ α) :=
  if it.expr.outerRank < it.expr.rank then
    .reset it.expr (it.expr.rank - 1) 0 :: restMoves it (it.expr.resetDim (it.expr.rank - 1) 0)
  else restMoves it (some it.expr)

/-- States of the iterator of `e` that occur in `next`, `fold` and any mix of them, until the end: items are
taken while the row lasts (in any state of the world, as long as this does not panic), and then the iterator
goes on to the next row. `next` takes an item right after going on, without looking at the length of the
row. -/
inductive Occurs {σ α : Type} (e : Expr σ α) : Iter σ α → Prop
  | new : Occurs e (Iter.new e)
  | get {it x e' s t} : Occurs e it → it.innerIndex ≠ it.innerLimit →
      it.expr.get it.innerIndex s = .ok (x, e') t →
      Occurs e { it with expr := e', innerIndex := it.innerIndex + 1 }
  | step {it it'} : Occurs e it → it.innerIndex = it.innerLimit → it.stepOuter = some (true, it') →
      Occurs e { it' with innerIndex := 0 }
  | stepGet {it it' x e' s t} : Occurs e it → it.innerIndex = it.innerLimit →
      it.stepOuter = some (true, it') → it'.expr.get 0 s = .ok (x, e') t →
      Occurs e { it' with expr := e', innerIndex := 1 }

end Spec
