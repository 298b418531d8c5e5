import Verif.Spec.Phantom
import Verif.Spec.Outcome
import Verif.Spec.Tensor

/-! Vocabulary for operations with arbitrary expressions. -/

namespace Spec
open Model

variable {σ T α β : Type}

/-- All items that iteration produces are well-behaved: no closure of the expression has undefined
behaviour or aborts for the arguments that it gets. -/
def TameRaw (e : Expr σ α) : Prop := ∀ n, n < size e.dims → M.Tame (rawNth e n)

/-- The functions that the expression was made with are well-behaved: no call has undefined behaviour or
aborts. -/
def TameClosures : {α : Type} → Expr σ α → Prop
  | _, .fill f => f.Tame
  | _, .fromElem _ f => f.Tame
  | _, .fromFn _ _ f => ∀ j, (f j).Tame
  | _, .map e f => TameClosures e ∧ ∀ x, (f x).Tame
  | _, .enumerate e _ => TameClosures e
  | _, .zip a b _ => TameClosures a ∧ TameClosures b
  | _, _ => True

/-- There are no phantom rows: an empty expression has no items in a row. -/
def NoPhantomRows (e : Expr σ α) : Prop := size e.dims = 0 → size (e.dims.drop e.outerRank) = 0

/-- The second part of the `n`-th item. -/
def operand (z : Expr σ (Int × β)) (n : Nat) : M σ β := M.bind (rawNth z n) fun p => M.pure p.2

/-- The result for element `n`: the operand is evaluated first, then the function is called. -/
def zipResult (xs : List T) (op : Nat → M σ β) (f : T → β → M σ T) (n : Nat) : M σ T :=
  M.bind (op n) fun y => M.bind (orUb xs[n]?) fun x => f x y

/-- Combining `n` elements panics in element `k`, in the operand or in the function. -/
def ZipStops (n : Nat) (xs : List T) (op : Nat → M σ β) (f : T → β → M σ T) (s : σ) (k : Nat)
    (ys : List T) (s' : σ) (inOperand : Bool) : Prop :=
  k < n ∧ ∃ t, Ran (zipResult xs op f) k s ys t ∧
    ((inOperand = true ∧ op k t = .panic s') ∨
      (inOperand = false ∧ ∃ y t', op k t = .ok y t' ∧ ∃ x, xs[k]? = some x ∧ f x y t' = .panic s'))

end Spec
