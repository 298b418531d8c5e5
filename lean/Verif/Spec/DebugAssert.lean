import Verif.Model.DebugAssert
import Verif.Spec.MachineStorage

/-! Histories in builds with debug assertions. -/

namespace Spec
open Model

variable {σ T : Type}

/-- Perform an operation in a build with debug assertions. -/
def TensorOp.runD : TensorOp σ T → M (Sys σ T) Unit
  | swap => fun S => .ok () ⟨S.world, S.b, S.a⟩
  | expand e c => onA (expandD e c)
  | append => onBoth tensorAppendD
  | drain start stop k leak => onA (M.bind (drainRunD start stop k leak) fun _ => M.pure ())
  | truncate n => onA (tensorTruncateD n)
  | clear => onA tensorClearD
  | resizeWith dims f => onA (resizeWithD dims f)
  | extend n step => onA (tensorExtendD n step)
  | reserve n => onA (tensorReserveD n)
  | shrinkTo n => onA (tensorShrinkToD n)
  | cloneFrom c => fun S => onA (tensorCloneFromD S.b c) S
  | intoShape s => onA (tensorIntoD fun s' => s'.reshape s)
  | intoMapping ty => onA (tensorIntoD fun s => Shape.fromDims ty s.dims)
  | intoFlat => onA tensorIntoFlatD
  | zipWith e f => onA (Model.zipWith e f)
  | fromExpr e => onA (tensorFromExprD e)

/-- Finite histories in builds with debug assertions. -/
inductive HistoryD : Sys σ T → Sys σ T → Prop
  | refl {S} : HistoryD S S
  | ok {S S' S''} {op : TensorOp σ T} : HistoryD S S' → op.Allowed S' → op.Short true → op.runD S' = .ok () S'' →
      HistoryD S S''
  | caught {S S' S''} {op : TensorOp σ T} : HistoryD S S' → op.Allowed S' → op.Short true → ¬ op.Consumes →
      op.runD S' = .panic S'' → HistoryD S S''

end Spec
