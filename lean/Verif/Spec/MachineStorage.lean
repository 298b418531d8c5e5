import Verif.Spec.Reshape
import Verif.Spec.Conform
import Verif.Spec.History
import Verif.Model.MachineStorage

/-! Specification vocabulary for owned arrays on a 64-bit machine. -/

namespace Spec
open Model

/-- The number of elements fits in 64 bits. If overflow is checked, the same is required of all products of the
first dimensions, as the product is computed from the left. -/
def LenFits (checks : Bool) (dims : List Nat) : Prop :=
  size dims ≤ usizeMax ∧ (checks = true → NoOverflow usizeMax dims)

instance (checks : Bool) (dims : List Nat) : Decidable (LenFits checks dims) := by
  unfold LenFits; infer_instance

/-- A tensor that can exist on a 64-bit machine: the length can be computed, and memory is allocated only within a
limit that is a 64-bit number. -/
def Fits64 {T : Type} (checks : Bool) (o : Own T) : Prop :=
  o.shape.WF ∧ LenFits checks o.shape.dims ∧ o.cells.length ≤ o.limit ∧ o.limit ≤ usizeMax

instance {T : Type} (checks : Bool) (o : Own T) : Decidable (Fits64 checks o) := by
  unfold Fits64; infer_instance

/-- The tensor satisfies `P` after an operation, both if it returns and if it panics. -/
def Leaves {σ T α : Type} (P : Own T → Prop) : Res (σ × Own T) α → Prop
  | .ok _ t => P t.2
  | .panic t => P t.2
  | _ => True

/-- The dimensions behind the first one that is zero. -/
def afterZero : List Nat → List Nat
  | [] => []
  | d :: ds => if d = 0 then ds else afterZero ds

/-- The case in which `resize` computes a length that overflows, with overflow checks: the tensor is empty, the
dimensions behind the first zero are too large together, and the new shape has elements and can be allocated. -/
def ResizeOverflows {T : Type} (checks : Bool) (o : Own T) (dims : List Nat) : Prop :=
  checks = true ∧ ¬ NoOverflow usizeMax (afterZero o.shape.dims) ∧ dims.length = o.shape.rank ∧ 0 < size dims ∧
    size dims ≤ o.limit

instance {T : Type} (checks : Bool) (o : Own T) (dims : List Nat) : Decidable (ResizeOverflows checks o dims) := by
  unfold ResizeOverflows; infer_instance

variable {σ T : Type}

namespace TensorOp

/-- Perform an operation with 64-bit integers. -/
def run64 (checks : Bool) : TensorOp σ T → M (Sys σ T) Unit
  | swap => fun S => .ok () ⟨S.world, S.b, S.a⟩
  | expand e c => onA (Machine.expand checks e c)
  | append => onBoth (Machine.tensorAppend checks)
  | drain start stop k leak => onA (M.bind (Machine.drainRun checks start stop k leak) fun _ => M.pure ())
  | truncate n => onA (Machine.tensorTruncate checks n)
  | clear => onA (Machine.tensorClear checks)
  | resizeWith dims f => onA (Machine.resizeWith checks dims f)
  | extend n step => onA (Machine.tensorExtend checks n step)
  | reserve n => onA (Machine.tensorReserve checks n)
  | shrinkTo n => onA (Machine.tensorShrinkTo checks n)
  | cloneFrom c => fun S => onA (Machine.tensorCloneFrom checks S.b c) S
  | intoShape s => onA (Machine.tensorIntoShape checks s)
  | intoMapping ty => onA (Machine.tensorIntoMapping checks ty)
  | intoFlat => onA (Machine.tensorIntoFlat checks)
  | zipWith e f => onA (Machine.zipWith checks e f)
  | fromExpr e => onA (Machine.tensorFromExpr checks e)

/-- The length of an expression that is consumed as a whole can be computed with 64-bit integers. -/
def Short (checks : Bool) : TensorOp σ T → Prop
  | expand e _ => LenFits checks e.dims
  | fromExpr e => LenFits checks e.dims
  | _ => True

end TensorOp

/-- Both tensors satisfy `P` after an operation, both if it returns and if it panics. -/
def LeavesBoth {α : Type} (P : Own T → Prop) : Res (Sys σ T) α → Prop
  | .ok _ S => P S.a ∧ P S.b
  | .panic S => P S.a ∧ P S.b
  | _ => True

/-- Finite histories of operations with 64-bit integers. -/
inductive History64 (checks : Bool) : Sys σ T → Sys σ T → Prop
  | refl {S} : History64 checks S S
  | ok {S S' S''} {op : TensorOp σ T} : History64 checks S S' → op.Allowed S' → op.Short checks →
      op.run64 checks S' = .ok () S'' → History64 checks S S''
  | caught {S S' S''} {op : TensorOp σ T} : History64 checks S S' → op.Allowed S' → op.Short checks →
      ¬ op.Consumes → op.run64 checks S' = .panic S'' → History64 checks S S''

end Spec
