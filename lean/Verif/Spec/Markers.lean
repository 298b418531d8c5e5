import Verif.Model.Markers
import Mathlib.Logic.Relation

/-!
Specification for sending values to other threads: which values a thread can get to from a value that it has.
-/

namespace Spec
open Model

/-- How a thread holds a value: as its owner, by a mutable reference, or by a shared reference while other threads may have
shared references to the same value. (Borrowing what the thread owns within the same thread is not the latter.) -/
inductive Hold
  | own | excl | shared
  deriving DecidableEq, Repr

/-- The types that owning expressions can have as buffers, with the types of the elements that are moved out
(`Buffer`, src/expr/buffer.rs). -/
inductive Buffers : Ty → Ty → Prop
  | array {t} : Buffers (.array (.manuallyDrop t)) t
  | tensor {t a} : Buffers (.tensor (.manuallyDrop t) a) t
  | drain {t a} : Buffers (.drain t a) t

/-- What the interface gives from a value: one step. -/
inductive Gives : Hold × Ty → Hold × Ty → Prop
  -- references; `mem::replace`
  | borrowMut {t} : Gives (.own, t) (.excl, t)
  | replace {t} : Gives (.excl, t) (.own, t)
  | ref {h t} : Gives (h, .ref t) (.shared, t)
  | refCopy {t} : Gives (.shared, .ref t) (.own, .ref t)
  | refMut {t} : Gives (.own, .refMut t) (.excl, t)
  | reborrow {t} : Gives (.excl, .refMut t) (.excl, t)
  | refShared {t} : Gives (.shared, .refMut t) (.shared, t)
  | manuallyDrop {h t} : Gives (h, .manuallyDrop t) (h, t)
  -- the elements of a slice: `index`, `index_mut`, and views of it
  | index {t} : Gives (.shared, .slice t) (.shared, t)
  | indexMut {t} : Gives (.excl, .slice t) (.excl, t)
  | sliceExpr {t} : Gives (.shared, .slice t) (.own, .view t)
  | sliceExprMut {t} : Gives (.excl, .slice t) (.own, .viewMut t)
  -- views dereference to slices, and shared ones can be copied
  | view {h t} : Gives (h, .view t) (.shared, .slice t)
  | viewCopy {t} : Gives (.shared, .view t) (.own, .view t)
  | viewMut {t} : Gives (.own, .viewMut t) (.excl, .slice t)
  | viewMutDeref {t} : Gives (.excl, .viewMut t) (.excl, .slice t)
  | viewMutShared {t} : Gives (.shared, .viewMut t) (.shared, .slice t)
  -- arrays and tensors: moving elements out, `deref_mut`, `deref`; and the allocator
  | array {h t} : Gives (h, .array t) (h, t)
  | arraySlice {t} : Gives (.excl, .array t) (.excl, .slice t)
  | arrayShared {t} : Gives (.shared, .array t) (.shared, .slice t)
  | arrayInto {t} : Gives (.own, .array t) (.own, .intoExpr (.array (.manuallyDrop t)))
  | tensor {h t a} : Gives (h, .tensor t a) (h, t)
  | tensorSlice {t a} : Gives (.excl, .tensor t a) (.excl, .slice t)
  | tensorShared {t a} : Gives (.shared, .tensor t a) (.shared, .slice t)
  | tensorInto {t a} : Gives (.own, .tensor t a) (.own, .intoExpr (.tensor (.manuallyDrop t) a))
  | tensorDrain {t a} : Gives (.excl, .tensor t a) (.own, .intoExpr (.drain t a))
  | allocator {h t a} : Gives (h, .tensor t a) (h, a)
  -- `Buffer` for `Drain`, and its destructor, which moves elements of the tensor
  | drain {t a} : Gives (.excl, .drain t a) (.excl, .slice (.manuallyDrop t))
  | drainShared {t a} : Gives (.shared, .drain t a) (.shared, .slice (.manuallyDrop t))
  | drainDrop {t a} : Gives (.own, .drain t a) (.excl, .tensor t a)
  -- owning expressions: the buffer, and elements moved out of it
  | intoExpr {h b} : Gives (h, .intoExpr b) (h, b)
  | intoExprNext {h b t} : h ≠ .shared → Buffers b t → Gives (h, .intoExpr b) (.own, t)
  -- expressions over views: the items of axes and lanes are views
  | axisExpr {h t} : Gives (h, .axisExpr t) (.own, .view t)
  | axisExprCopy {t} : Gives (.shared, .axisExpr t) (.own, .axisExpr t)
  | axisExprMut {h t} : h ≠ .shared → Gives (h, .axisExprMut t) (.own, .viewMut t)
  | axisExprShared {t} : Gives (.shared, .axisExprMut t) (.shared, .slice t)
  | lanes {h t} : Gives (h, .lanes t) (.own, .view t)
  | lanesCopy {t} : Gives (.shared, .lanes t) (.own, .lanes t)
  | lanesMut {h t} : h ≠ .shared → Gives (h, .lanesMut t) (.own, .viewMut t)
  | lanesShared {t} : Gives (.shared, .lanesMut t) (.shared, .slice t)
  -- values and closures kept in expressions
  | fill {h t} : Gives (h, .fill t) (h, t)
  | fillWith {h f} : Gives (h, .fillWith f) (h, f)
  | fromElem {h t} : Gives (h, .fromElem t) (h, t)
  | fromFn {h f} : Gives (h, .fromFn f) (h, f)
  -- adapters and iterators use the expressions they are made of
  | cloned {h e} : Gives (h, .cloned e) (h, e)
  | copied {h e} : Gives (h, .copied e) (h, e)
  | enumerate {h e} : Gives (h, .enumerate e) (h, e)
  | mapExpr {h e f} : Gives (h, .map e f) (h, e)
  | mapFn {h e f} : Gives (h, .map e f) (h, f)
  | zipLeft {h a b} : Gives (h, .zip a b) (h, a)
  | zipRight {h a b} : Gives (h, .zip a b) (h, b)
  | iter {h e} : Gives (h, .iter e) (h, e)

/-- What can be obtained by any sequence of steps. -/
def Obtains : Hold × Ty → Hold × Ty → Prop := Relation.ReflTransGen Gives

/-- Having a value of a type parameter in another thread needs `Send` if it can be moved or changed there, and `Sync` if
it can only be read. -/
def Needs (ρ : Nat → Marks) : Hold → Nat → Prop
  | .own, n => (ρ n).send = true
  | .excl, n => (ρ n).send = true
  | .shared, n => (ρ n).sync = true

/-- What the compiler allows: values of types that are `Send` can be sent to other threads, also by mutable reference;
values of types that are `Sync` can be shared with other threads. -/
def MaySend (ρ : Nat → Marks) : Hold × Ty → Prop
  | (.own, t) => (marks ρ t).send = true
  | (.excl, t) => (marks ρ (.refMut t)).send = true
  | (.shared, t) => (marks ρ (.ref t)).send = true

end Spec
