import Verif.Model.Tensor
import Verif.Spec.Assign

/-! Specification of the state of a tensor and of the ownership of its elements. -/

namespace Spec
open Model

variable {σ T α β : Type}

/-- A usable tensor with the elements `xs` in row-major order: the dimensions agree with the shape
type, there are as many elements as the dimensions say, and the allocation starts with them. -/
def Holds {T : Type} (o : Own T) (xs : List T) : Prop :=
  o.shape.WF ∧ xs.length = size o.shape.dims ∧ xs.map some <+: o.cells

/-- World `s'` is reached from `s` by calling `f` some number of times, with the results `zs`. -/
def Calls {σ α : Type} (f : M σ α) (s : σ) (zs : List α) (s' : σ) : Prop :=
  ∃ k, Ran (fun _ => f) k s zs s'

/-- World `s'` is reached from `s` by calling `f` some number of times, with the results `zs`, and
possibly once more with a panic. -/
def CallsEnd {σ α : Type} (f : M σ α) (s : σ) (zs : List α) (s' : σ) : Prop :=
  Calls f s zs s' ∨ ∃ t, Calls f s zs t ∧ f t = .panic s'

/-- The element at position `n` of an array with dimensions `oldDims` and elements `old` after resizing
to `newDims`: the old element with the same index if there is one, and otherwise a new one from `f`. -/
def resizeStep {σ α : Type} (f : M σ α) (oldDims newDims : List Nat) (old : List α) (n : Nat) : M σ α :=
  if Valid oldDims (unrank newDims n) then orUb old[rowMajor oldDims (unrank newDims n)]? else f

/-- Reasons for `resize_with` to fail: wrong number of dimensions, the length overflows, no memory, a
constant dimension is not respected, or the closure can panic. -/
def ResizeFails {σ T : Type} (o : Own T) (newDims : List Nat) (f : M σ T) : Prop :=
  newDims.length ≠ o.shape.dims.length ∨ ¬ NoOverflow usizeMax newDims ∨ o.limit < size newDims ∨
    ¬ o.shape.ty.Conforms newDims ∨ ∃ s s', f s = .panic s'

/-- Nothing changed that can be observed, apart from the capacity. -/
structure Same (o o' : Own T) (xs : List T) : Prop where
  holds : Holds o' xs
  shape : o'.shape = o.shape
  log : o'.log = o.log
  limit : o'.limit = o.limit

/-- An expression with these dimensions can be appended: the inner dimensions must match, and an empty
array takes any dimensions that its type allows. -/
def Fits (s : Shape) (dims : List Nat) : Prop :=
  if size s.dims = 0 then s.ty.Conforms dims
  else dims.length = s.dims.length ∧ dims.tail = s.dims.tail

/-- The value made from the item at the `n`-th index. -/
abbrev itemStep (e : Expr σ α) (c : α → M σ T) (n : Nat) : M σ T :=
  M.bind (item e n (unrank e.dims n)) c

/-- Cloning the elements of a list one by one. -/
abbrev cloneStep (src : List T) (c : T → M σ T) (n : Nat) : M σ T := M.bind (orUb src[n]?) c

/-- The rows `a..b` of an array with `w` elements per row. -/
def rowsOf (w a b : Nat) (xs : List T) : List T := (xs.drop (a * w)).take ((b - a) * w)

/-- The result for element `n`: the operand is evaluated first, then the function is called. -/
abbrev zipItem (dims : List Nat) (xs : List T) (e : Expr σ β) (f : T → β → M σ T) (n : Nat) : M σ T :=
  M.bind (castItem dims e n) fun y => M.bind (orUb xs[n]?) fun x => f x y

/-- How `zip_with` panics in element `k`. -/
def ZipStopped (dims : List Nat) (xs : List T) (e : Expr σ β) (f : T → β → M σ T) (s : σ) (k : Nat)
    (ys : List T) (s' : σ) (operand : Bool) : Prop :=
  k < size dims ∧ ∃ t, Ran (zipItem dims xs e f) k s ys t ∧
    ((operand = true ∧ castItem dims e k t = .panic s') ∨
      (operand = false ∧ ∃ y t', castItem dims e k t = .ok y t' ∧ ∃ x, xs[k]? = some x ∧
        f x y t' = .panic s'))

end Spec
