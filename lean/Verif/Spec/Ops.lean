import Verif.Model.Ops
import Verif.Spec.Tensor

/-! Specification of element-wise operators. -/

namespace Spec
open Model

variable {σ T : Type}

/-- Dimensions of an operand. -/
def operandDims : Operand σ T → List Nat
  | .expr e => e.dims
  | .tensor s _ => s.dims
  | .array s _ => s.dims

/-- The operand can be used where the result has the given dimensions. Owned arrays are not
broadcast. -/
def operandFits : Operand σ T → List Nat → Prop
  | .expr e, dims => CanCast e dims
  | .tensor s _, dims => s.dims = dims
  | .array s _, dims => s.dims = dims

/-- The element of an operand at the `n`-th index of `dims`. -/
def operandItem (dims : List Nat) : Operand σ T → (n : Nat) → M σ T
  | .expr e, n => castItem dims e n
  | .tensor _ buf, n => orUb buf[n]?
  | .array _ buf, n => orUb buf[n]?

/-- A proper operand. -/
def OperandOk : Operand σ T → Prop
  | .expr e => Built e ∧ TameItems e
  | .tensor s buf => s.WF ∧ buf.length = size s.dims
  | .array s buf => s.WF ∧ buf.length = size s.dims

/-- Dimensions of the result of a binary operator. -/
def resultDims (a b : Operand σ T) : List Nat :=
  if (operandDims a).length < (operandDims b).length then operandDims b else operandDims a

/-- Element `n` of `a op b`: the operands are evaluated (the right one first) and combined in the
written order. -/
def binStep (op : T → T → M σ T) (a b : Operand σ T) (n : Nat) : M σ T :=
  M.bind (operandItem (resultDims a b) b n) fun y =>
    M.bind (operandItem (resultDims a b) a n) fun x => op x y

/-- The operands combined do not run into the known defects of iteration. -/
def Clean (a b : Operand σ T) : Prop :=
  ∀ z, Expr.zipNew a.toExpr b.toExpr = some z → Sound z ∧
    (size z.dims = 0 → size (z.dims.drop z.outerRank) = 0)

end Spec
