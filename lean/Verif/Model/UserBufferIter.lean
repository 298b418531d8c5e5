import Verif.Model.UserBuffer

/-!
Model of stepping through the iterator of an expression of a type that is defined outside of the crate, and of
iterators over buffers of such types (Model/UserBuffer).
-/

namespace Model

variable {σ T α : Type}

namespace UserExpr

/-- `Iter::next`, src/expr/iter.rs:96-108. The item and the iterator after the call are
returned. -/
def next (u : UserExpr σ α) (it : UserIter) : M σ (Option α × UserIter) :=
  if it.innerIndex = it.innerLimit then
    M.bind (u.stepOuter it.outerLimit it.outerIndex) fun q =>
      if q.1 then M.bind (u.get 0) fun x => M.pure (some x, { it with innerIndex := 1, outerIndex := q.2 })
      else M.pure (none, { it with outerIndex := q.2 })
  else M.bind (u.get it.innerIndex) fun x => M.pure (some x, { it with innerIndex := it.innerIndex + 1 })

/-- `k` calls of `next`, where `f` is what the user does with the result of each call. The results are returned. -/
def nexts (u : UserExpr σ α) (f : Option α → M σ Unit) : Nat → UserIter → M σ (List (Option α))
  | 0, _ => M.pure []
  | k + 1, it =>
    M.bind (u.next it) fun q => M.bind (f q.1) fun _ => M.bind (nexts u f k q.2) fun rs => M.pure (q.1 :: rs)

end UserExpr

/-- `IntoExpr::<B>::default().into_iter()` (src/expr/into_expr.rs:64-68, 108-115) followed by `k` calls of `next`. The
iterator owns the expression and is dropped at the end, also if there is a panic. `f` gets the result of each call. -/
def UserBuffer.iterate (b : UserBuffer σ) (dbg : Bool) (k : Nat) (f : Option T → M σ Unit) :
    M (σ × BufMem T) (List (Option T)) :=
  M.bind (M.onPanic (M.bind (b.expr dbg).iter fun it => (b.expr dbg).nexts (fun x => M.up (f x)) k it) (b.drop dbg))
    fun rs => M.bind (b.drop dbg) fun _ => M.pure rs

end Model
