import Verif.Spec.Machine

/-! Calls that may in addition panic because of an overflow check. -/

namespace Spec
open Model

/-- Both calls panic, or both return views that cannot be told apart, or the build has overflow checks and the call
with 64-bit integers panics. -/
def SameOrOverflow (checks : Bool) (machine exact : Option View) : Prop :=
  SameResult machine exact ∨ (checks = true ∧ machine = none)

end Spec
