import Verif.Model.ExprPanic
import Verif.Spec.Raw

/-!
Iteration that panics: what is left of arrays whose elements are moved out, and how an iterator goes on after
a panic that the caller has caught.
-/

namespace Spec
open Model

variable {σ α : Type}

/-- `it` is the iterator of `e` after `n` calls of `next`, each of which returned an item or panicked. The
calls are made in any states of the world. -/
inductive After (e : Expr σ α) : Nat → Iter σ α → Prop
  | new : After e 0 (Iter.new e)
  | item {n it x it' s t} : After e n it → it.nextE s = .ok (some x) it' t → After e (n + 1) it'
  | panic {n it it' s t} : After e n it → it.nextE s = .panic it' t → After e (n + 1) it'

/-- `it` is the iterator of `e` after any calls of `next`, also after the end. -/
inductive Called (e : Expr σ α) : Iter σ α → Prop
  | new : Called e (Iter.new e)
  | ok {it x it' s t} : Called e it → it.nextE s = .ok x it' t → Called e it'
  | panic {it it' s t} : Called e it → it.nextE s = .panic it' t → Called e it'

/-- One element more has been moved out of each array. -/
def AllTaken (ps qs : List (Nat × Nat)) : Prop := qs = ps.map fun p => (p.1 + 1, p.2)

/-- At most one element more has been moved out of each array. -/
def SomeTaken (ps qs : List (Nat × Nat)) : Prop :=
  List.Forall₂ (fun p q => q.2 = p.2 ∧ (q.1 = p.1 ∨ q.1 = p.1 + 1)) ps qs

/-- Dropping the expression is defined, and for each array whose elements are moved out it drops exactly the
elements that have not been moved out: the moved ones and the dropped ones are together all elements, in
order. -/
def Disposed (e : Expr σ α) : Prop :=
  ∃ parts, e.dropE = some parts ∧
    List.Forall₂ (fun p part => List.range p.1 ++ part = List.range p.2) e.owned parts

/-- No undefined behaviour and no abort. -/
def Safe {S : Type 1} : Out σ α S → Prop
  | .ok _ _ _ => True
  | .panic _ _ => True
  | .ub => False
  | .abort => False

/-- A function that never panics. -/
def NoPanic (f : M σ α) : Prop := ∀ s t, f s ≠ .panic t

/-- No function of the expression panics, the items of `axis_expr` have a length that does not overflow and
`from_fn` does not have a dynamic rank (these are other reasons for panics). -/
def Silent : {α : Type} → Expr σ α → Prop
  | _, .axis _ v a _ _ => ∀ p, axisPos a v.dims.length = some p → NoOverflow usizeMax (v.dims.eraseIdx p)
  | _, .fill f => NoPanic f
  | _, .fromElem _ f => NoPanic f
  | _, .fromFn s _ f => (s.ty = .dynRank → s.dims = []) ∧ ∀ j, NoPanic (f j)
  | _, .map e f => Silent e ∧ ∀ x, NoPanic (f x)
  | _, .enumerate e _ => Silent e
  | _, .zip a b _ => Silent a ∧ Silent b
  | _, _ => True

/-- The items do not depend on the number of the items before, only on the position that the iterator has
reached: there is no `enumerate`, `from_fn` or array whose elements are moved out. -/
def Positional : {α : Type} → Expr σ α → Prop
  | _, .fromFn s _ _ => s.dims = []
  | _, .intoExpr _ _ _ => False
  | _, .map e _ => Positional e
  | _, .enumerate _ _ => False
  | _, .zip a b _ => Positional a ∧ Positional b
  | _, _ => True

/-- Expressions that go on with the next item after a panic: the function of a `from_fn` does not panic, and
in a `zip` the first part does not panic unless the second one is positional. -/
def Resumes : {α : Type} → Expr σ α → Prop
  | _, .fromFn s _ f => s.dims = [] ∨ (s.ty ≠ .dynRank ∧ ∀ j, NoPanic (f j))
  | _, .map e _ => Resumes e
  | _, .enumerate e _ => Resumes e
  | _, .zip a b _ => Resumes a ∧ Resumes b ∧ (Silent a ∨ Positional b)
  | _, _ => True

end Spec
