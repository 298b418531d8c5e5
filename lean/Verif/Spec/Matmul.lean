import Verif.Model.Matmul
import Verif.Spec.Reach

/-! Specification of matrices in memory. -/

namespace Spec
open Model Model.Matmul

variable {T : Type}

/-- `x` is an `m` by `n` matrix: an array, or a view of any layout obtained from one by safe calls. -/
def IsMat (h : Heap T) (x : Mat) (m n : Nat) : Prop :=
  x.view.dims = [m, n] ∧ ∃ checks s, s.WF ∧ Usize s.dims ∧ size s.dims ≤ usizeMax ∧
    Reach checks (whole s) x.view ∧ (h x.alloc).length = size s.dims

/-- The element of a matrix at a position. -/
def entry (h : Heap T) (x : Mat) (i j : Nat) : Option T :=
  (x.view.index [i, j]).bind fun p => (h x.alloc)[p.toNat]?

/-- The element at a position of the memory belongs to a matrix. -/
def InMat (x : Mat) (alloc : Nat) (p : Int) : Prop := x.alloc = alloc ∧ ∃ idx, x.view.index idx = some p

/-- Two matrices have no element in common. -/
def NoShared (x y : Mat) : Prop := ∀ alloc p, InMat x alloc p → ¬ InMat y alloc p

end Spec
