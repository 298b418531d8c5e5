import Mathlib.Data.List.Forall2
import Mathlib.Algebra.BigOperators.Group.List.Basic

/-!
Specification vocabulary for multidimensional indices. Nothing in this file refers to the model
of the code.
-/

namespace Spec

/-- `idx` is a valid multi-index for `dims`: same length and every coordinate in range. -/
def Valid (dims idx : List Nat) : Prop := List.Forall₂ (fun i d => i < d) idx dims

instance (dims idx : List Nat) : Decidable (Valid dims idx) := by
  unfold Valid; infer_instance

/-- Number of elements of an array with the given dimensions. -/
def size (dims : List Nat) : Nat := dims.prod

/-- Row-major rank of a multi-index: the last coordinate varies fastest. -/
def rowMajor : List Nat → List Nat → Nat
  | _ :: ds, i :: is => i * size ds + rowMajor ds is
  | _, _ => 0

/-- The `k`-th multi-index in row-major order. -/
def unrank : List Nat → Nat → List Nat
  | [], _ => []
  | _ :: ds, k => (k / size ds) :: unrank ds (k % size ds)

/-- All valid multi-indices in lexicographic (row-major) order. -/
def allIdx : List Nat → List (List Nat)
  | [] => [[]]
  | d :: ds => (List.range d).flatMap fun i => (allIdx ds).map (i :: ·)

/-- Inner product of strides and indices. -/
def dot : List Int → List Nat → Int
  | s :: ss, i :: is => s * (i : Int) + dot ss is
  | _, _ => 0

end Spec
