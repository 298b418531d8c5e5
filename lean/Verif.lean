import Verif.Spec.Index
import Verif.Spec.Conform
import Verif.Spec.Reshape
import Verif.Spec.View
import Verif.Spec.Reach
import Verif.Spec.Expr
import Verif.Spec.Outcome
import Verif.Spec.Assign
import Verif.Spec.Tensor
import Verif.Spec.History
import Verif.Spec.Compare
import Verif.Spec.Serde
import Verif.Spec.Convert
import Verif.Model.Shape
import Verif.Model.Mapping
import Verif.Model.View
import Verif.Model.Monad
import Verif.Model.Expr
import Verif.Model.Lift
import Verif.Model.Assign
import Verif.Model.Tensor
import Verif.Model.Compare
import Verif.Model.Serde
import Verif.Model.Convert
import Verif.Spec.Ops
import Verif.Model.Ops
import Verif.Lemmas.Index
import Verif.Lemmas.Shape
import Verif.Lemmas.Mapping
import Verif.Lemmas.MappingOps
import Verif.Lemmas.Reshape
import Verif.Lemmas.ShapeReshape
import Verif.Lemmas.Types
import Verif.Lemmas.View
import Verif.Lemmas.ViewIndex
import Verif.Lemmas.ViewOps
import Verif.Lemmas.Reach
import Verif.Lemmas.Overflow
import Verif.Lemmas.AxisMap
import Verif.Lemmas.Odometer
import Verif.Lemmas.Expr
import Verif.Lemmas.Flatten
import Verif.Lemmas.Iter
import Verif.Lemmas.IterSeq
import Verif.Lemmas.Zip
import Verif.Lemmas.Lift
import Verif.Lemmas.Post
import Verif.Lemmas.Assign
import Verif.Props.Views
import Verif.Props.Reshape
import Verif.Props.Types
import Verif.Props.Safety
import Verif.Props.Expr
import Verif.Props.Assign
import Verif.Props.AssignExact
import Verif.Props.Tensor
import Verif.Props.Compare
import Verif.Props.Serde
import Verif.Props.Convert
import Verif.Props.Sizes
import Verif.Props.Ops
import Verif.Props.Storage
import Verif.Spec.DynRank
import Verif.Model.DynRank
import Verif.Spec.Phantom
import Verif.Lemmas.Phantom
import Verif.Props.DynRank
import Verif.Props.Equality
import Verif.Props.Exact
import Verif.Spec.Raw
import Verif.Lemmas.Raw
import Verif.Lemmas.RawOps
import Verif.Lemmas.NextRaw
import Verif.Lemmas.CompareExact
import Verif.Spec.ResultTypes
import Verif.Lemmas.ResultTypes
import Verif.Props.TensorExact
import Verif.Props.Witness
import Verif.Spec.Alias
import Verif.Props.Alias
import Verif.Model.Slice
import Verif.Spec.Slice
import Verif.Props.Slice
import Verif.Props.Flatten
import Verif.Props.ResultTypes
import Verif.Model.Machine
import Verif.Spec.Machine
import Verif.Lemmas.MachineArith
import Verif.Lemmas.MachineReshape
import Verif.Lemmas.MachineView
import Verif.Lemmas.MachineAny
import Verif.Lemmas.MachineReach
import Verif.Props.Machine
import Verif.Props.MachineIter
import Verif.Model.MachineHint
import Verif.Lemmas.MachineHint
import Verif.Props.MachineHint
import Verif.Lemmas.MachineSim
import Verif.Lemmas.MachineSimFold
import Verif.Lemmas.MachineEmpty
import Verif.Spec.MachineSim
import Verif.Lemmas.MachineDrive
import Verif.Props.MachineSim
import Verif.Lemmas.MachineExact
import Verif.Props.MachineExact
import Verif.Spec.MachineZero
import Verif.Lemmas.MachineZero
import Verif.Props.MachineZero
import Verif.Spec.Pointer
import Verif.Lemmas.Pointer
import Verif.Lemmas.PointerView
import Verif.Props.Pointer
import Verif.Lemmas.Adapt
import Verif.Props.ExprExact
import Verif.Model.Unwind
import Verif.Spec.Unwind
import Verif.Lemmas.Keeps
import Verif.Lemmas.Unwind
import Verif.Lemmas.UnwindNone
import Verif.Lemmas.UnwindTracks
import Verif.Lemmas.UnwindResize
import Verif.Lemmas.UnwindClone
import Verif.Props.Unwind
import Verif.Model.ExprPanic
import Verif.Spec.Resume
import Verif.Lemmas.Resume
import Verif.Lemmas.ResumeNext
import Verif.Props.Resume
import Verif.Model.Owned
import Verif.Spec.Owned
import Verif.Lemmas.Owned
import Verif.Props.Owned
import Verif.Lemmas.OwnedAssign
import Verif.Props.OwnedAssign
import Verif.Lemmas.OwnedZip
import Verif.Props.OwnedZip
import Verif.Model.Update
import Verif.Spec.Update
import Verif.Lemmas.Update
import Verif.Props.Update
import Verif.Model.Nightly
import Verif.Lemmas.Nightly
import Verif.Props.Nightly
import Verif.Model.MachineStorage
import Verif.Spec.MachineStorage
import Verif.Lemmas.MachineStorage
import Verif.Props.MachineStorage
import Verif.Model.MachineArray
import Verif.Lemmas.MachineArray
import Verif.Props.MachineArray
import Verif.Lemmas.PermuteExact
import Verif.Props.PermuteExact
import Verif.Model.SerdeCalls
import Verif.Spec.SerdeCalls
import Verif.Lemmas.SerdeCalls
import Verif.Props.SerdeCalls
import Verif.Model.RawParts
import Verif.Lemmas.RawParts
import Verif.Props.RawParts
import Verif.Props.Repeatable
import Verif.Props.AliasExact
import Verif.Props.CopyExact
import Verif.Model.DebugAssert
import Verif.Lemmas.DebugAssert
import Verif.Spec.DebugAssert
import Verif.Props.DebugAssert
import Verif.Props.ResizeExact
import Verif.Lemmas.ResumeEnd
import Verif.Props.ResumeExact
import Verif.Props.OwnedExact
import Verif.Props.UpdateExact
import Verif.Props.SerdeSound
import Verif.Props.ResumeLag
import Verif.Props.UserExpr
import Verif.Props.UserZip
import Verif.Props.UserAxis
import Verif.Props.UserBuffer
import Verif.Props.UserBufferIter
import Verif.Props.UserShape
import Verif.Props.UserRange
import Verif.Props.UserPerm
import Verif.Props.Markers
import Verif.Props.Variance
import Verif.Props.IntoExact
import Verif.Props.PointerExact
import Verif.Spec.Alloc
import Verif.Model.Alloc
import Verif.Lemmas.Alloc
import Verif.Lemmas.AllocOps
import Verif.Lemmas.AllocRun
import Verif.Lemmas.AllocSame
import Verif.Props.Alloc
import Verif.Model.Borrow
import Verif.Spec.Borrow
import Verif.Lemmas.Borrow
import Verif.Lemmas.BorrowRun
import Verif.Lemmas.BorrowStep
import Verif.Props.Borrow
import Verif.Model.Matmul
import Verif.Spec.Matmul
import Verif.Lemmas.Matmul
import Verif.Props.Matmul
import Verif.Conformance.Base
import Verif.Conformance.Rest
import Verif.Model.Format
import Verif.Spec.Format
import Verif.Lemmas.Format
import Verif.Lemmas.FormatText
import Verif.Lemmas.FormatName
import Verif.Props.Format
import Verif.Conformance.Debug
import Verif.Model.Keys
import Verif.Spec.Keys
import Verif.Lemmas.Keys
import Verif.Props.Keys
