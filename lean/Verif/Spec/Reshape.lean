import Verif.Spec.Index

/-! Specification vocabulary for size overflow and for dimension inference. -/

namespace Spec

/-- No partial product (from the left) of the dimensions exceeds `bound`. -/
def NoOverflow (bound : Nat) (dims : List Nat) : Prop :=
  ∀ k ≤ dims.length, size (dims.take k) ≤ bound

instance (bound : Nat) (dims : List Nat) : Decidable (NoOverflow bound dims) := by
  unfold NoOverflow; infer_instance

/-- Resolve requested dimensions for an array of length `n`, where the value `hole` stands for a
dimension to be inferred. `Resolves hole n req dims` says that `dims` is the resolution. -/
inductive Resolves (hole n : Nat) : List Nat → List Nat → Prop
  | exact {req} : hole ∉ req → size req = n → Resolves hole n req req
  | infer {a b m} : hole ∉ a → hole ∉ b → 0 < size (a ++ b) → size (a ++ b) * m = n →
      Resolves hole n (a ++ hole :: b) (a ++ m :: b)

end Spec
