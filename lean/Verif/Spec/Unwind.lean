import Verif.Spec.Tensor

/-! Specification vocabulary for destructors that panic. -/

namespace Spec
open Model

variable {ρ σ T α : Type}

/-- The number of destructors that have panicked, for an array: values in the log were dropped. -/
def badDrops (bad : T → Bool) (s : σ × Own T) : Nat := s.2.log.countP bad

/-- The same for two arrays. -/
def badDrops2 (bad : T → Bool) (s : (σ × Own T) × Own T) : Nat :=
  s.1.2.log.countP bad + s.2.log.countP bad

/-- The outcome of an operation whose outcome would be `r` if no destructor panicked, where `count` is
the number of destructors that have panicked, `n` before. The first panic becomes the outcome, with the
same final state; a second panic aborts the process. -/
def withDestructors (count : ρ → Nat) (n : Nat) : Res ρ α → Res ρ α
  | .ok a t => if count t = n then .ok a t else if count t = n + 1 then .panic t else .abort
  | .panic t => if count t = n then .panic t else .abort
  | .ub => .ub
  | .abort => .abort

/-- The outcome of dropping `xs`, with the result `a` and the final state `t`: a destructor that panics does
not stop the other elements from being dropped, and a second one aborts the process. -/
def afterDrops (bad : T → Bool) (xs : List T) (a : α) (t : ρ) : Res ρ α :=
  if xs.countP bad = 0 then .ok a t else if xs.countP bad = 1 then .panic t else .abort

end Spec
