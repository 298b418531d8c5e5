import Verif.Conformance.Rest
import Verif.Model.Format

/-!
The assertions of `tests/test.rs` about the texts of `Debug`, evaluated on the model; see `Conformance/Base.lean`.
-/

namespace Conformance
open Model Spec

/-- The text of the element at a position. -/
def numText (o : Own Nat) (p : Int) : Text := ((memory o p).map natText).getD []

/-- The text of a view with `{:?}`. -/
def viewText (o : Own Nat) (v : Option View) : Option Text := v.bind (sliceText false (numText o))

/-- The text of an expression made of one view. -/
def oneText (o : Own Nat) (v : Option View) (e : Text → Option Shown) : Option String :=
  ((viewText o v).bind e).map fun e => String.ofList (exprText false e)

-- tests/test.rs:120-121
example : (viewText a ((all a).view [.int 2, range' 1 3, to' 2])).map String.ofList =
    some "[[1210, 1211], [1220, 1221]]" := by decide +kernel
example : (viewText b ((all b).view [to' 2, range' 1 3, .int 2])).map String.ofList =
    some "[[1210, 1220], [1211, 1221]]" := by decide +kernel

-- tests/test.rs:357-361
example : oneText t23 (some (all t23)) (fun t => ((Axis.dyn 0).index 2).map fun i => .axis false false i t) =
    some "AxisExpr(0, [[1, 2, 3], [4, 5, 6]])" := by decide +kernel
example : oneText t23 (some (all t23)) (fun t => ((Axis.const 0).index 2).map fun i => .axis false true i t) =
    some "AxisExprMut(0, [[1, 2, 3], [4, 5, 6]])" := by decide +kernel
example : oneText t23 (some (all t23)) (fun t => (Axis.cols.index 2).map fun i => .axis true false i t) =
    some "Lanes(0, [[1, 2, 3], [4, 5, 6]])" := by decide +kernel
example : oneText t23 (some (all t23)) (fun t => (Axis.rows.index 2).map fun i => .axis true true i t) =
    some "LanesMut(1, [[1, 2, 3], [4, 5, 6]])" := by decide +kernel
-- tests/test.rs:363-364
example : oneText t23 ((all t23).view [from' 1, .full]) (some ∘ .intoExpr) = some "IntoExpr([[4, 5, 6]])" := by
  decide +kernel
example : oneText t23 (some (all t23)) (some ∘ .intoExpr) = some "IntoExpr([[1, 2, 3], [4, 5, 6]])" := by
  decide +kernel
-- tests/test.rs:366-369
example : String.ofList (exprText false (.fill (natText 1))) = "Fill(1)" ∧
    String.ofList (exprText false .fillWith) = "FillWith" ∧
    String.ofList (exprText false (.fromElem ⟨dynTy 2, [1, 2]⟩ (natText 3))) = "FromElem((1, 2), 3)" ∧
    String.ofList (exprText false (.fromFn ⟨dynTy 2, [1, 2]⟩)) = "FromFn((1, 2))" := by decide +kernel
-- tests/test.rs:371-377
example : oneText t23 (some (all t23)) (fun t => some (.map (.cloned (.array t)))) =
    some "Map { expr: Cloned { expr: [[1, 2, 3], [4, 5, 6]] } }" := by decide +kernel
example : oneText t23 ((all t23).view [to' 1, .full]) (fun t => (viewText t23 ((all t23).view [from' 1, .full])).map
    fun u => .zip (.array t) (.array u)) = some "Zip { a: [[1, 2, 3]], b: [[4, 5, 6]] }" := by decide +kernel
example : oneText t23 ((all t23).view [from' 1, .full]) (fun t => some (.enumerate (.array t))) =
    some "Enumerate { expr: [[4, 5, 6]] }" := by decide +kernel
-- tests/test.rs:379-383
example : oneText t23 ((all t23).view [.int 0, .full]) (fun t => some (.iter (.array t))) = some "Iter([1, 2, 3])" ∧
    oneText t23 ((all t23).view [.int 1, .full]) (fun t => some (.iter (.array t))) = some "Iter([4, 5, 6])" ∧
    oneText t23 ((all t23).view [.full, .int 1]) (fun t => some (.iter (.array t))) = some "Iter([2, 5])" ∧
    oneText t23 ((all t23).view [.full, .int 2]) (fun t => some (.iter (.array t))) = some "Iter([3, 6])" := by
  decide +kernel

-- tests/test.rs:528-532
example : String.ofList (mappingText false dm) = "DenseMapping { shape: (Const(1), 2, Const(3)) }" ∧
    sm.map (fun m => String.ofList (mappingText false m)) =
      some "StridedMapping { shape: DynRank([1, 2, 3]), strides: [4, 5, 6] }" := by decide +kernel

end Conformance
