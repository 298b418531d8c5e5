import Verif.Model.Update
import Verif.Spec.Owned
import Verif.Spec.Assign
import Verif.Spec.Raw

/-! Specification of changing the elements of a view in place. -/

namespace Spec
open Model

variable {σ T β : Type}

/-- The value that `u` leaves in an element that was `x`. -/
def newValue (u : M (σ × T) Unit) (x : T) : M σ T := fun s =>
  match u (s, x) with
  | .ok _ t => .ok t.2 t.1
  | .panic t => .panic t.1
  | .ub => .ub
  | .abort => .abort

/-- The new value of element `n` of the view: the operand is computed, then the element is changed. -/
def updated (v : View) (m : List T) (op : Nat → M σ β) (u : β → M (σ × T) Unit) (n : Nat) : M σ T :=
  M.bind (op n) fun y => M.bind (orUb (elemAt v m n)) fun x => newValue (u y) x

/-- The operand of element `k` panics. The elements before have been changed, to `ys`. -/
def OperandStops (v : View) (m : List T) (op : Nat → M σ β) (u : β → M (σ × T) Unit) (s : σ) (k : Nat)
    (t : σ × List T) : Prop :=
  k < size v.dims ∧ ∃ ys t', Ran (updated v m op u) k s ys t' ∧ op k t' = .panic t.1 ∧ Written v m ys t.2

/-- The change of element `k` panics and leaves `x'` in the element. The elements before have been changed, to
`ys`. -/
def ChangeStops (v : View) (m : List T) (op : Nat → M σ β) (u : β → M (σ × T) Unit) (s : σ) (k : Nat)
    (t : σ × List T) : Prop :=
  k < size v.dims ∧ ∃ ys t' y t'' x x', Ran (updated v m op u) k s ys t' ∧ op k t' = .ok y t'' ∧
    elemAt v m k = some x ∧ u y (t'', x) = .panic (t.1, x') ∧ Written v m (ys ++ [x']) t.2

/-- The `n` elements of the view that have been overwritten by `ys`: their old values are dropped, in order, after
those in `log`, and none is lost: what was in the memory or has been made is in the memory or dropped. -/
def Replaced (v : View) (m log ys m' log' : List T) : Prop :=
  Written v m ys m' ∧ (∃ olds, (List.range ys.length).mapM (elemAt v m) = some olds ∧ log' = log ++ olds) ∧
    (m' ++ log').Perm (m ++ log ++ ys)

/-- None of the first `n` elements of the view has a destructor that panics. -/
def Quiet (bad : T → Bool) (v : View) (m : List T) (n : Nat) : Prop :=
  ∀ i, i < n → ∀ x, elemAt v m i = some x → bad x = false

/-- Overwriting stops at element `k`: its new value (from `step`) panics and only the elements before are replaced, or
the destructor of its old value panics when it has been replaced as well. -/
def OverwriteStops (bad : T → Bool) (v : View) (m : List T) (step : Nat → M σ T) (s : σ) (log : List T) (k : Nat)
    (t : (σ × List T) × List T) : Prop :=
  Quiet bad v m k ∧ ∃ ys, Replaced v m log ys t.2 t.1.2 ∧ (Stopped step (size v.dims) s k ys t.1.1 ∨
    (k < size v.dims ∧ Ran step (k + 1) s ys t.1.1 ∧ ∃ x, elemAt v m k = some x ∧ bad x = true))

end Spec
