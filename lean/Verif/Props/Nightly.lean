import Verif.Lemmas.Nightly
import Verif.Props.Tensor

/-! Operations on owned arrays with the `nightly` feature, which have another guard (C76). -/

namespace Props
open Spec Model

variable {σ α T : Type}

/-- With the `nightly` feature, all operations on owned arrays other than `resize` have the same outcome as without
it. The arrays need only be valid; the expression can be any one. -/
theorem C76_operations (s : σ) (o : Own T) (xs : List T) (h : Holds o xs) :
    tensorClearN (s, o) = tensorClear (s, o) ∧
    (∀ n, tensorTruncateN n (s, o) = tensorTruncate n (s, o)) ∧
    (∀ n, tensorReserveN n (s, o) = tensorReserve n (s, o)) ∧
    (∀ n, tensorTryReserveN n (s, o) = tensorTryReserve n (s, o)) ∧
    (∀ n, tensorShrinkToN n (s, o) = tensorShrinkTo n (s, o)) ∧
    (∀ (e : Expr σ α) (c : α → M σ T), expandN e c (s, o) = expand e c (s, o)) ∧
    (∀ o' : Own T, tensorAppendN ((s, o'), o) = tensorAppend ((s, o'), o)) ∧
    (∀ n (step : Nat → M σ T), o.shape.ty = .static [.dyn] → tensorExtendN n step (s, o) = tensorExtend n step (s, o)) ∧
    (∀ (b : Own T) (ys : List T) (c : T → M σ T), Holds b ys → b.shape.ty = o.shape.ty →
      cloneFromN ys b.shape c (s, o) = cloneFrom ys b.shape c (s, o)) :=
  ⟨tensorClearN_eq, tensorTruncateN_eq h.1, tensorReserveN_eq, tensorTryReserveN_eq, tensorShrinkToN_eq,
    expandN_eq h.1, fun _ => tensorAppendN_eq h.1, fun n step ht => tensorExtendN_eq ht n step,
    fun _ _ c hb hty => cloneFromN_eq h.1 hb.1 hty hb.2.1 c⟩

/-- `resize` and `resize_with` have the same outcome as without the feature if the type allows an empty array, that is
if some dimension is dynamic or zero. Missing: types with only non-zero constant dimensions, see C76_resize_bad. -/
theorem C76_resize_partial (s : σ) (o : Own T) (newDims : List Nat) (f : M σ T)
    (h : size (Shape.default o.shape.ty).dims = 0) : resizeWithN newDims f (s, o) = resizeWith newDims f (s, o) :=
  resizeWithN_eq h

/-- The code as it is, exactly: `resize_with` has the same outcome as without the feature, except where the process is
aborted without it. With the feature it panics then, and leaves an array whose destructor has undefined behaviour. -/
theorem C76_resize_bad (s : σ) (o : Own T) (xs : List T) (h : Holds o xs) (newDims : List Nat) (f : M σ T)
    (hf : f.Tame) :
    (resizeWith newDims f (s, o) ≠ .abort → resizeWithN newDims f (s, o) = resizeWith newDims f (s, o)) ∧
    (resizeWith newDims f (s, o) = .abort → ∃ t, resizeWithN newDims f (s, o) = .panic t ∧ t.2.shape = o.shape ∧
      dropCells 0 t.2.shape.len t = .ub) :=
  ⟨fun ha => (resizeWithN_or newDims f (s, o)).resolve_right ha, resizeWithN_abort hf h⟩

/-- The elements of `constTensor` after a failed resize: all of them are dropped, but the array still claims them. -/
def badTensor : Own Nat := ⟨List.replicate 6 none, 6, ⟨.static [.const 2, .const 2], [2, 2]⟩, [1, 2, 3, 4, 0, 0], 100⟩

/-- The claim without restrictions is false. A 2 by 2 tensor with constant dimensions is resized to other dimensions.
Without the feature this aborts. With it, there is a panic, and dropping the tensor afterwards drops elements again. -/
theorem C76_violated : Holds constTensor [1, 2, 3, 4] ∧
    resizeWithN [3, 2] (M.pure 0 : M Unit Nat) ((), constTensor) = .panic ((), badTensor) ∧
    resizeWith [3, 2] (M.pure 0 : M Unit Nat) ((), constTensor) = .abort ∧
    (dropCells 0 badTensor.shape.len ((), badTensor) : Res (Unit × Own Nat) Unit) = .ub := by
  refine ⟨⟨by decide, by decide, by decide⟩, ?_, ?_, ?_⟩ <;> decide +kernel

/-- The hypotheses of `C76_operations` and `C76_resize_partial` hold for `tensor22`, where a closure panics while the
array is resized; all elements are dropped and the array is empty. -/
example : Holds tensor22 [1, 2, 3, 4] ∧ size (Shape.default tensor22.shape.ty).dims = 0 ∧
    resizeWithN [2, 3] failing (10, tensor22) = resizeWith [2, 3] failing (10, tensor22) ∧
    (match resizeWithN [2, 3] failing (10, tensor22) with
      | .panic t => some (t.1, t.2.shape.dims, t.2.log)
      | _ => none) = some (11, [0, 0], [1, 2, 10, 3, 4]) :=
  ⟨⟨by decide, by decide, by decide⟩, by decide, C76_resize_partial _ _ _ _ (by decide), by decide +kernel⟩

/-- An expression with a closure that panics is appended: the same panic in both cases. -/
example : expandN (.fromElem ⟨.static [.dyn, .dyn], [2, 2]⟩ failing) M.pure (10, tensor22) =
    expand (.fromElem ⟨.static [.dyn, .dyn], [2, 2]⟩ failing) M.pure (10, tensor22) ∧
    (match expandN (.fromElem ⟨.static [.dyn, .dyn], [2, 2]⟩ failing) M.pure (10, tensor22) with
      | .panic t => some (t.2.shape.dims, t.2.log)
      | _ => none) = some ([0, 0], [1, 2, 3, 4, 10]) :=
  ⟨(C76_operations 10 tensor22 [1, 2, 3, 4] ⟨by decide, by decide, by decide⟩).2.2.2.2.2.1 _ _, by decide +kernel⟩

/-- The hypotheses of `C76_resize_bad`, with the case of an abort. -/
example : ∃ t, resizeWithN [3, 2] (M.pure 0 : M Unit Nat) ((), constTensor) = .panic t ∧
    t.2.shape = constTensor.shape ∧ dropCells 0 t.2.shape.len t = .ub :=
  (C76_resize_bad () constTensor [1, 2, 3, 4] C76_violated.1 [3, 2] (M.pure 0) (fun _ => trivial)).2
    C76_violated.2.2.1

end Props
