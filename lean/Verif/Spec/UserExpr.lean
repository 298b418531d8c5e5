import Verif.Model.UserExpr
import Verif.Spec.Tensor

/-!
Vocabulary for expressions defined outside of the crate.
-/

namespace Spec
open Model

variable {σ α T : Type}

/-- The functions are safe code: each call returns or panics, with any effect on the world. -/
structure SafeCode (u : UserExpr σ α) : Prop where
  shape : u.shape.Tame
  innerRank : u.innerRank.Tame
  get : ∀ i, (u.get i).Tame
  resetDim : ∀ i n, (u.resetDim i n).Tame
  stepDim : ∀ i, (u.stepDim i).Tame
  forEach : ∀ xs, u.forEach = some xs → ∀ x ∈ xs, M.Tame x

/-- Every call of `shape` that returns gives `s`, every call of `inner_rank` that returns gives `k`, and
`for_each` is not overridden. -/
structure Steady (u : UserExpr σ α) (s : Shape) (k : Nat) : Prop where
  wf : s.WF
  ty : s.ty = u.ty
  shape : ∀ w a w', u.shape w = .ok a w' → a = s
  innerRank : ∀ w a w', u.innerRank w = .ok a w' → a = k
  forEach : u.forEach = none

/-- The functions never panic. -/
structure NeverPanics (u : UserExpr σ α) : Prop where
  shape : ∀ w, ∃ a w', u.shape w = .ok a w'
  innerRank : ∀ w, ∃ a w', u.innerRank w = .ok a w'
  get : ∀ i w, ∃ a w', u.get i w = .ok a w'
  resetDim : ∀ i n w, ∃ a w', u.resetDim i n w = .ok a w'
  stepDim : ∀ i w, ∃ a w', u.stepDim i w = .ok a w'

/-- `g` is a record, kept in the world, of the values that the expression has returned from `get_unchecked`. -/
structure Notes (u : UserExpr σ α) (g : σ → List α) : Prop where
  shape : ∀ w, M.Post u.shape w (fun _ w' => g w' = g w) fun w' => g w' = g w
  innerRank : ∀ w, M.Post u.innerRank w (fun _ w' => g w' = g w) fun w' => g w' = g w
  get : ∀ i w, M.Post (u.get i) w (fun x w' => g w' = g w ++ [x]) fun w' => g w' = g w
  resetDim : ∀ i n w, M.Post (u.resetDim i n) w (fun _ w' => g w' = g w) fun w' => g w' = g w
  stepDim : ∀ i w, M.Post (u.stepDim i) w (fun _ w' => g w' = g w) fun w' => g w' = g w

/-- The values that the expression has returned between the worlds `w` and `w'` are `ys`, according to every
record. -/
def HandedOut (u : UserExpr σ α) (w : σ) (ys : List α) (w' : σ) : Prop := ∀ g, Notes u g → g w' = g w ++ ys

/-- The expression together with a record. -/
def noting (u : UserExpr σ α) : UserExpr (σ × List α) α :=
  { u.up with
    get := fun i => M.bind (M.up (u.get i)) fun x w => .ok x (w.1, w.2 ++ [x])
    forEach := none }

end Spec
