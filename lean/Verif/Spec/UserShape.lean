import Verif.Model.UserShape
import Verif.Spec.Index
import Verif.Spec.Outcome

/-!
Vocabulary for shapes defined outside of the crate.
-/

namespace Spec
open Model

variable {σ : Type}

/-- The shape behaves like the list of sizes `val`, unless a function panics: reading does not change it, and storing
replaces it. -/
structure LawfulShape (u : UserShape σ) (val : σ → List Nat) : Prop where
  dims : ∀ w, M.Post u.dims w (fun ds w' => ds = val w ∧ val w' = val w) fun _ => True
  dimsMut : ∀ w, M.Post u.dimsMut w (fun ds w' => ds = val w ∧ val w' = val w) fun _ => True
  store : ∀ ds w, M.Post (u.store ds) w (fun _ w' => val w' = ds) fun _ => True

/-- Reading the sizes never panics. -/
def QuietShape (u : UserShape σ) : Prop := ∀ w w', u.dims w ≠ .panic w'

/-- No function ever panics. -/
def OpenShape (u : UserShape σ) : Prop :=
  QuietShape u ∧ (∀ w w', u.dimsMut w ≠ .panic w') ∧ ∀ ds w w', u.store ds w ≠ .panic w'

/-- The functions are safe code: each call returns or panics. -/
structure SafeShape (u : UserShape σ) : Prop where
  dims : u.dims.Tame
  dimsMut : u.dimsMut.Tame
  store : ∀ ds, (u.store ds).Tame

/-- The sizes `es` are the sizes `ds`, where at most one placeholder `usize::MAX` has been replaced. -/
def Filled (ds es : List Nat) : Prop :=
  (usizeMax ∉ ds ∧ es = ds) ∨ ∃ a b x, usizeMax ∉ a ∧ usizeMax ∉ b ∧ ds = a ++ usizeMax :: b ∧ es = a ++ x :: b

end Spec
