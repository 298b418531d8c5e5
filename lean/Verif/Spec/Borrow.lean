import Verif.Model.Borrow
import Verif.Spec.Reach

/-! Specification of values that share elements. -/

namespace Spec
open Model Model.Borrow

/-- The element at a position is one of those that a value gives access to. -/
def Covers (x : Handle) (alloc : Nat) (p : Int) : Prop := x.alloc = alloc ∧ ∃ idx, x.area.pos idx = some p

/-- Value `x` has been borrowed, directly or indirectly, from value number `h`. -/
def BorrowedFrom (x : Handle) (h : Nat) : Prop := h ∈ x.loans.map Prod.fst

/-- The arguments of a step are values of the types in its signature: shapes and permutations conform to their types
and consist of `usize` values, and arrays have at most `usize::MAX` elements. -/
def TypedFn : Fn → Prop
  | .permute perm => perm.WF
  | .reshape s => s.WF ∧ Usize s.dims
  | _ => True

/-- See `TypedFn`. -/
def Typed {α : Type} : Op α → Prop
  | .make s _ => s.WF ∧ Usize s.dims ∧ size s.dims ≤ usizeMax
  | .change _ s _ => s.WF ∧ Usize s.dims ∧ size s.dims ≤ usizeMax
  | .call _ _ f => TypedFn f
  | _ => True

/-- A state that a program can be in. -/
def State {α : Type} (checks : Bool) (st : St α) : Prop :=
  ∃ mem ops ts, (∀ op ∈ ops, Typed op) ∧ run checks (start mem) ops = some (st, ts)

end Spec
