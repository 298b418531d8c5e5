import Verif.Spec.Resume
import Verif.Model.Owned

/-! What becomes of the arrays in an expression that an operation takes by value. -/

namespace Spec
open Model

variable {σ α : Type}

/-- The operation has moved all elements out of each array. -/
def AllMoved (e : Expr σ α) (l : Left) : Prop := l.expr.owned = e.owned.map fun p => (p.2, p.2)

/-- The operation has moved the first `n` or `n + 1` elements out of each array. -/
def SomeMoved (e : Expr σ α) (n : Nat) (l : Left) : Prop :=
  List.Forall₂ (fun p q => q.2 = p.2 ∧ (q.1 = n ∨ q.1 = n + 1)) e.owned l.expr.owned

/-- The operation has moved the first `n` elements out of each array. -/
def Moved (e : Expr σ α) (n : Nat) (l : Left) : Prop := l.expr.owned = e.owned.map fun p => (n, p.2)

/-- The operation has not moved any elements. -/
def NoneMoved (e : Expr σ α) (l : Left) : Prop := l.expr.owned = e.owned

end Spec
