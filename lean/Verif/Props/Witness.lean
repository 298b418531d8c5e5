import Verif.Props.Assign
import Verif.Props.Expr
import Verif.Props.Tensor
import Verif.Props.Ops

/-!
Further cases in which the code does not do what is claimed. All of them are due to phantom rows: an array
with a zero outer dimension is iterated as if that dimension was 1 (see DESIGN.md, B2).
-/

namespace Props
open Model Spec
open Model.Expr Model.Iter

/-- C24 fails for empty operands: pairs are produced although there are none. -/
theorem C24_violated : (whole ⟨.static [.dyn, .dyn], [3, 0]⟩).reorder = some (swapped 3 0) ∧
    ((zipNew (view true (swapped 3 0)) (view true (swapped 3 0)) : Option (Expr Unit _)).map fun z =>
      (z.dims, z.fold [] (fun acc x => M.pure (acc ++ [x])) ())) =
    some ([0, 3], .ok [(0, 0), (0, 0), (0, 0)] ()) := ⟨by decide +kernel, by rfl⟩

/-- C25 fails for empty operands: the closure is called. The calls are counted here. -/
theorem C25_violated : (whole ⟨.static [.dyn, .dyn], [3, 0]⟩).reorder = some (swapped 3 0) ∧
    size (swapped 3 0).dims = 0 ∧
    (map (view true (swapped 3 0)) (fun x => fun calls => .ok x (calls + 1)) : Expr Nat Int).fold ()
      (fun _ _ => M.pure ()) 0 = .ok () 3 ∧
    (enumerateNew (view true (swapped 3 0)) : Expr Unit (Nat × Int)).fold []
      (fun acc x => M.pure (acc ++ [x.1])) () = .ok [0, 1, 2] () :=
  ⟨by decide +kernel, by decide, by rfl, by rfl⟩

/-- C30 fails for empty operands: the result is written outside of its allocation, and compound
assignment changes elements that do not belong to the view. -/
theorem C30_violated : (whole ⟨.static [.dyn, .dyn], [3, 0]⟩).reorder = some (swapped 3 0) ∧
    size (swapped 3 0).dims = 0 ∧
    (match unOp 100 (fun x => (M.pure (-x) : M Unit Int)) (.expr (view true (swapped 3 0))) () with
      | .ub => true
      | _ => false) = true ∧
    (match binOp 100 (fun x y => (M.pure (x + y) : M Unit Int)) (.expr (view true (swapped 3 0)))
        (.expr (view true (swapped 3 0))) () with
      | .ub => true
      | _ => false) = true ∧
    ∃ v, Reach true (whole ⟨.static [.dyn, .dyn], [2, 3]⟩) v ∧ size v.dims = 0 ∧
      opAssign v (fill (M.pure 1) : Expr Unit Nat) (fun x y => M.pure (x + y)) ((), [0, 1, 2, 3, 4, 5]) =
        .ok () ((), [1, 1, 2, 4, 4, 5]) := by
  refine ⟨by decide +kernel, by decide, by decide +kernel, by decide +kernel, ?_⟩
  let v1 : View := ⟨0, .strided ⟨.static [.dyn, .dyn], [2, 0]⟩ [3, 1]⟩
  let v2 : View := ⟨0, .strided ⟨.static [.dyn, .dyn], [0, 2]⟩ [1, 3]⟩
  exact ⟨v2, .call (v := v1) (.call .refl (.inr (by decide))
    (.view (xs := [.full, .range .unbounded (.excluded 0)]) rfl (by decide +kernel)))
    (.inr (by decide)) (.reorder (by decide)), by decide, by decide +kernel⟩

end Props
