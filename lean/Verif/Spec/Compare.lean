import Verif.Spec.Expr

/-! Specification vocabulary for comparison, search and hashing. -/

namespace Spec
open Model

/-- Short-circuiting conjunction over a list. -/
def allM {σ ι : Type} (f : ι → M σ Bool) : List ι → M σ Bool
  | [] => M.pure true
  | x :: xs => M.bind (f x) fun c => if c then allM f xs else M.pure false

/-- Short-circuiting disjunction over a list. -/
def anyM {σ ι : Type} (f : ι → M σ Bool) : List ι → M σ Bool
  | [] => M.pure false
  | x :: xs => M.bind (f x) fun c => if c then M.pure true else anyM f xs

/-- The lengths of all rows, rows of rows, ... that exist fit into `usize`. This holds for all
non-empty arrays. -/
def RowsFit (ds : List Nat) : Prop :=
  ∀ k, 0 < k → (∀ d ∈ ds.take k, 0 < d) → NoOverflow usizeMax (ds.drop k)

/-- Every element of the view is stored in the memory `m`. -/
def Within {T : Type} (v : View) (m : Int → Option T) : Prop :=
  ∀ j p, v.index j = some p → (m p).isSome

/-- Read two elements and compare them. -/
def compareAt {σ T U : Type} (m : Int → Option T) (m' : Int → Option U) (eqv : T → U → Bool)
    (p q : Int) : M σ Bool :=
  M.bind (orUb (m p)) fun x => M.bind (orUb (m' q)) fun y => M.pure (eqv x y)

/-- A view that the iterator visits without phantom rows. -/
def Visitable (v : View) : Prop := v.layout = .dense ∨ 0 < size v.dims ∨ v.dims.getLast? = some 0

end Spec
