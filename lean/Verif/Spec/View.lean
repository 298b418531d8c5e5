import Verif.Model.View

/-!
Specification vocabulary for view operations. Only the input types (`Axis`, `Bnd`, `DimIdx`) are
taken from the model.
-/

namespace Spec
open Model

/-- Position of an axis in an array of the given rank (`none`: the axis does not exist).
`Cols` is the second last, `Rows` the last dimension. -/
def axisPos : Axis → (rank : Nat) → Option Nat
  | .const n, r => if n < r then some n else none
  | .dyn n, r => if n < r then some n else none
  | .cols, r => if 2 ≤ r then some (r - 2) else none
  | .rows, r => if 1 ≤ r then some (r - 1) else none

/-- First coordinate admitted by a start bound. -/
def lo : Bnd → Nat
  | .included n => n
  | .excluded n => n + 1
  | .unbounded => 0

/-- First coordinate past an end bound, for a dimension of size `d`. -/
def hi (d : Nat) : Bnd → Nat
  | .included n => n + 1
  | .excluded n => n
  | .unbounded => d

/-- Coordinates selected by a stepped range `start..stop` with step `s`: every `|s|`-th coordinate,
beginning at the start for positive steps and at the end for negative ones. -/
def stepCoords (start stop : Nat) (s : Int) : List Nat :=
  if 0 < s then (List.range' start (stop - start)).filter fun x => (x - start) % s.natAbs = 0
  else ((List.range' start (stop - start)).filter fun x => (stop - 1 - x) % s.natAbs = 0).reverse

/-- What an argument of `view` selects along one axis: one coordinate (the axis disappears) or a
list of coordinates (the axis stays). -/
inductive Sel
  | drop (i : Nat)
  | keep (coords : List Nat)
  deriving DecidableEq, Repr

/-- Selection made by an argument on an axis of size `d`; `none` if it is out of bounds. -/
def select : DimIdx → (d : Nat) → Option Sel
  | .int i, d => if i < d then some (.drop i) else none
  | .full, d => some (.keep (List.range d))
  | .range a b, d =>
    if lo a ≤ hi d b ∧ hi d b ≤ d then some (.keep (List.range' (lo a) (hi d b - lo a))) else none
  | .step a b s, d =>
    if lo a ≤ hi d b ∧ hi d b ≤ d ∧ s ≠ 0 then some (.keep (stepCoords (lo a) (hi d b) s)) else none

/-- Selections for all axes. -/
def selectAll : List DimIdx → List Nat → Option (List Sel)
  | [], [] => some []
  | x :: xs, d :: ds => do
    let s ← select x d
    let ss ← selectAll xs ds
    pure (s :: ss)
  | _, _ => none

/-- Dimensions of the selected subarray. -/
def selDims : List Sel → List Nat
  | [] => []
  | .drop _ :: ss => selDims ss
  | .keep l :: ss => l.length :: selDims ss

/-- Index in the original array of element `j` of the selected subarray. -/
def pull : List Sel → List Nat → Option (List Nat)
  | [], [] => some []
  | [], _ :: _ => none
  | .drop i :: ss, j => do
    let r ← pull ss j
    pure (i :: r)
  | .keep _ :: _, [] => none
  | .keep l :: ss, j :: js => do
    let x ← l[j]?
    let r ← pull ss js
    pure (x :: r)

end Spec
