import Verif.Model.UserAxis
import Verif.Spec.Outcome

/-!
Vocabulary for axes defined outside of the crate.
-/

namespace Spec
open Model

variable {σ : Type}

/-- `index` is safe code: each call returns or panics. -/
def SafeAxis (a : UserAxis σ) : Prop := ∀ r, (a.index r).Tame

/-- Every call of `index` that returns for an array of rank `r` gives `p`. -/
def SteadyAxis (a : UserAxis σ) (r p : Nat) : Prop := ∀ w q w', a.index r w = .ok q w' → q = p

/-- The view `v'` has those elements of `v` that have index `i` in dimension `p`, in the same order. -/
def SubView (v : View) (p i : Nat) (v' : View) : Prop :=
  v'.map.WF ∧ v'.dims = v.dims.eraseIdx p ∧ ∀ j, v'.index j = v.index (j.insertIdx p i)

/-- The views have the elements of `v` before and from index `mid` in dimension `p`, in the same order. -/
def Halves (v : View) (p mid : Nat) (v1 v2 : View) : Prop :=
  v1.map.WF ∧ v2.map.WF ∧ v1.dims = v.dims.set p mid ∧ v2.dims = v.dims.set p (v.dims.getD p 0 - mid) ∧
  (∀ j, v1.index j = if j.getD p 0 < mid then v.index j else none) ∧
  ∀ j, v2.index j = v.index (j.modify p (· + mid))

/-- A closure that notes the view it is called with, and then calls `g`. -/
def handedOut (g : View → M σ Unit) (x : View) : M (σ × List View) Unit := fun w => M.up (g x) (w.1, w.2 ++ [x])

end Spec
