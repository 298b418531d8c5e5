import Verif.Model.Serde
import Verif.Spec.Conform
import Verif.Spec.Index

/-! Specification of rectangular nested data. -/

namespace Spec
open Model

variable {A T : Type}

/-- The nested value `v` is rectangular of the given shape type: it has the dimensions `ds` and the
elements `ys`. All rows have the same dimensions; without rows the remaining dimensions have their
default (0 for `Dyn`). -/
def Rect (de : Val A → Option T) : List DimTy → Val A → List Nat → List T → Prop
  | [], v, ds, ys => ds = [] ∧ ∃ x, de v = some x ∧ ys = [x]
  | _ :: _, .leaf _, _, _ => False
  | t :: ts, .seq _ xs, ds, ys => ∃ ds' yss, ds = xs.length :: ds' ∧ ys = yss.flatten ∧
      t.Fits xs.length ∧ List.Forall₂ (fun x ys => Rect de ts x ds' ys) xs yss ∧
      (xs = [] → ds' = ts.map DimTy.default)

/-- The number of values at depth `k`. -/
def width : Nat → Val A → Nat
  | 0, _ => 1
  | _ + 1, .leaf _ => 0
  | k + 1, .seq _ xs => (xs.map (width k)).sum

/-- The data down to depth `n` has a realistic amount: the number of values at each depth fits into
`usize`, the elements fit into a vector of at most `limit` elements, and so does the number of elements
announced by the length hints. -/
def Modest (limit : Nat) : Nat → Val A → Prop
  | 0, _ => True
  | _ + 1, .leaf _ => True
  | n + 1, .seq hint xs => xs.length < usizeMax ∧ width (n + 1) (Val.seq hint xs) ≤ limit ∧
      (∀ k ≤ n + 1, width k (Val.seq hint xs) ≤ usizeMax) ∧
      (if n = 0 then hint ≤ limit else ∀ x ∈ xs.head?, width n x * hint ≤ limit) ∧
      ∀ x ∈ xs, Modest limit n x

/-- The nested value with the given dimensions and elements, with exact length hints. -/
def nest : (dims : List Nat) → (List Nat → Val A) → Val A
  | [], f => f []
  | d :: ds, f => .seq d ((List.range d).map fun i => nest ds fun j => f (i :: j))

/-- As `nest`, building the elements in row-major order with a computation. -/
def nestM {σ : Type} : (dims : List Nat) → (List Nat → M σ (Val A)) → M σ (Val A)
  | [], f => f []
  | d :: ds, f => M.bind ((List.range d).mapM fun i => nestM ds fun j => f (i :: j)) fun xs =>
      M.pure (.seq d xs)

/-- The dimensions up to the first zero, followed by default dimensions. -/
def resetAfterZero : List DimTy → List Nat → List Nat
  | t :: ts, d :: ds => d :: (if d = 0 then ts.map DimTy.default else resetAfterZero ts ds)
  | _, _ => []

end Spec
