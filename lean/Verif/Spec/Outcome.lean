import Verif.Spec.Expr

/-! Specification vocabulary for outcomes of computations with effects and panics. -/

namespace Model

/-- The computation neither has undefined behaviour nor aborts; a result satisfies `Q`, and `R`
holds when it panics. -/
def M.Post {σ : Type} {α : Type} (x : M σ α) (s : σ) (Q : α → σ → Prop) (R : σ → Prop) : Prop :=
  match x s with
  | .ok a s' => Q a s'
  | .panic s' => R s'
  | .ub => False
  | .abort => False

/-- As `Post`, but the process may abort if `A` holds. -/
def M.PostA {σ : Type} {α : Type} (x : M σ α) (s : σ) (Q : α → σ → Prop) (R : σ → Prop) (A : Prop) :
    Prop :=
  match x s with
  | .ok a s' => Q a s'
  | .panic s' => R s'
  | .ub => False
  | .abort => A

/-- A well-behaved computation: the outcome is always a result or a panic. -/
def M.Tame {σ : Type} {α : Type} (x : M σ α) : Prop :=
  ∀ s, M.Post x s (fun _ _ => True) fun _ => True

end Model

namespace Spec
open Model

/-- The items of the expression are well-behaved: its closures are. -/
def TameItems {σ α : Type} (e : Expr σ α) : Prop :=
  ∀ n j, Valid e.dims j → M.Tame (item e n j)

/-- Running the steps `0, 1, …, n-1` from world `s` succeeds with the results `ys` and ends in world
`s'`. -/
def Ran {σ α : Type} (step : Nat → M σ α) (n : Nat) (s : σ) (ys : List α) (s' : σ) : Prop :=
  (List.range n).mapM step s = .ok ys s'

/-- Running the steps `0, 1, …, n-1` from world `s` panics in step `k` in world `s'`, after the
results `ys`. -/
def Stopped {σ α : Type} (step : Nat → M σ α) (n : Nat) (s : σ) (k : Nat) (ys : List α) (s' : σ) :
    Prop :=
  k < n ∧ ∃ t, Ran step k s ys t ∧ step k t = .panic s'

end Spec
