import Verif.Model.Expr

/-!
An expression within a computation that owns further state: its closures cannot touch that state,
which the borrow checker guarantees (for example the target of an assignment is borrowed mutably).
-/

namespace Model
namespace Expr

/-- The same expression in a larger world. No counterpart in the code. -/
def up {σ ρ : Type} : {α : Type} → Expr σ α → Expr (σ × ρ) α
  | _, view r v => view r v
  | _, axis r v a m off => axis r v a m off
  | _, lanes r v a m off => lanes r v a m off
  | _, fill f => fill f.up
  | _, fromElem s f => fromElem s f.up
  | _, fromFn s idx f => fromFn s idx fun j => (f j).up
  | _, intoExpr s buf idx => intoExpr s buf idx
  | _, map e f => map e.up fun x => (f x).up
  | _, enumerate e k => enumerate e.up k
  | _, zip a b s => zip a.up b.up s

end Expr
end Model
