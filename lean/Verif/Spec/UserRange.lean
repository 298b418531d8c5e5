import Verif.Model.UserRange
import Verif.Spec.Outcome
import Verif.Spec.Tensor
import Verif.Spec.View

/-!
Vocabulary for ranges defined outside of the crate.
-/

namespace Spec
open Model

variable {σ : Type}

/-- The functions are safe code: each call returns or panics. -/
def SafeRange (r : UserRange σ) : Prop := r.start.Tame ∧ r.stop.Tame

/-- No call panics. -/
def CalmRange (r : UserRange σ) : Prop := ∀ w w', r.start w ≠ .panic w' ∧ r.stop w ≠ .panic w'

/-- The same for all ranges among the arguments of `view`. -/
def SafeArgs (us : List (UserIdx σ)) : Prop := ∀ r k, .step r k ∈ us → SafeRange r

def CalmArgs (us : List (UserIdx σ)) : Prop := ∀ r k, .step r k ∈ us → CalmRange r

/-- A function that notes what it returns. -/
def noteIt (x : M σ Bnd) : M (σ × List Bnd) Bnd := fun w =>
  match x w.1 with
  | .ok b s => .ok b (s, w.2 ++ [b])
  | .panic s => .panic (s, w.2)
  | .ub => .ub
  | .abort => .abort

/-- A range that notes every bound it returns. -/
def notedRange (r : UserRange σ) : UserRange (σ × List Bnd) := ⟨noteIt r.start, noteIt r.stop⟩

def notedArg : UserIdx σ → UserIdx (σ × List Bnd)
  | .own x => .own x
  | .step r k => .step (notedRange r) k

/-- Each range is asked once for its start and then once for its end, the last argument first; `bs` are the answers,
and `xs` are the arguments with these bounds. -/
def Asked : List (UserIdx σ) → List DimIdx → List Bnd → Prop
  | [], [], bs => bs = []
  | .own y :: us, x :: xs, bs => x = y ∧ Asked us xs bs
  | .step _ k :: us, x :: xs, bs => ∃ a b bs', x = .step a b k ∧ bs = bs' ++ [a, b] ∧ Asked us xs bs'
  | _, _, _ => False

end Spec
