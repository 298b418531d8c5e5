import Verif.Model.Variance
import Verif.Spec.Markers
import Mathlib.Order.Defs.PartialOrder

/-!
Specification for the use of values as values of supertypes.

The types that the parameters stand for are elements of a preorder, where `p ≤ q` says that `p` is a subtype of `q`: a value
of type `p` can be read as one of type `q`. With references as elements, `p` are those with a longer lifetime.
-/

namespace Spec
open Model

/-- The parameter occurs in the type. -/
def Mentions (n : Nat) : Ty → Prop
  | .param m => m = n
  | .ref t | .refMut t | .manuallyDrop t | .slice t | .view t | .viewMut t | .array t => Mentions n t
  | .tensor t a | .drain t a => Mentions n t ∨ Mentions n a
  | .intoExpr t | .axisExpr t | .axisExprMut t | .lanes t | .lanesMut t => Mentions n t
  | .fill t | .fillWith t | .fromElem t | .fromFn t => Mentions n t
  | .cloned t | .copied t | .enumerate t | .iter t => Mentions n t
  | .map e f => Mentions n e ∨ Mentions n f
  | .zip a b => Mentions n a ∨ Mentions n b

/-- What the interface gives from a value, apart from borrowing what is owned: a place that owns a value has the type that
the value has been moved to it with, so that other values of this type can be put there. -/
def Leads (x y : Hold × Ty) : Prop := Gives x y ∧ ¬ (x.1 = .own ∧ y = (.excl, x.2))

variable {P : Type} [Preorder P]

/-- What the compiler allows: to use a value with parameters `τ` as one with parameters `τ'`. Types behind mutable references
are invariant, those behind shared references covariant. -/
def Coerces (x : Hold × Ty) (τ τ' : Nat → P) : Prop := ∀ n,
  let v := match x.1 with
    | .own => variance n x.2
    | .excl => Var.inv (variance n x.2)
    | .shared => Var.co (variance n x.2)
  (v.up = true → τ n ≤ τ' n) ∧ (v.down = true → τ' n ≤ τ n)

/-- What a program can get to from a value `x` with parameters `τ₀`, and the parameters that it takes them to have, by any
sequence of steps of the interface and of uses as supertypes. -/
inductive Uses (x : Hold × Ty) (τ₀ : Nat → P) : Hold × Ty → (Nat → P) → Prop
  | start : Uses x τ₀ x τ₀
  | coerce {y τ τ'} : Uses x τ₀ y τ → Coerces y τ τ' → Uses x τ₀ y τ'
  | step {y z τ} : Uses x τ₀ y τ → Leads y z → Uses x τ₀ z τ

/-- What is read is of the type that it is taken to have. -/
def ReadsFine (τ₀ : Nat → P) (y : Hold × Ty) (τ : Nat → P) : Prop :=
  ∀ n, y.2 = .param n → τ₀ n ≤ τ n

/-- What can be put in a place is of the type that others take the place to have. -/
def WritesFine (τ₀ : Nat → P) (y : Hold × Ty) (τ : Nat → P) : Prop :=
  y.1 = .excl → ∀ n, Mentions n y.2 → τ n ≤ τ₀ n

/-- Types that the compiler does not allow to use as their supertypes though it would do no harm: arrays, whose field is an
associated type, zip expressions and iterators, which have a field with an associated type of the expressions; and shared
references to what gives mutable access to something else. Values of type `Slice` exist only behind references. -/
inductive Stiff : Hold × Ty → Prop
  | slice {t} : Stiff (.own, .slice t)
  | array {h t} : h ≠ .excl → Stiff (h, .array t)
  | zip {h a b} : h ≠ .excl → Stiff (h, .zip a b)
  | iter {h e} : h ≠ .excl → Stiff (h, .iter e)
  | refMut {t} : Stiff (.shared, .refMut t)
  | viewMut {t} : Stiff (.shared, .viewMut t)
  | axisExprMut {t} : Stiff (.shared, .axisExprMut t)
  | lanesMut {t} : Stiff (.shared, .lanesMut t)
  | drain {t a} : Stiff (.shared, .drain t a)

end Spec
