import Verif.Model.Tensor

/-!
Model of the operators (`src/ops.rs`): how the kinds of the operands select the way of evaluation
(trait `Apply`). Simplifications: all elements have the same type `T` (in the code, types may differ as
far as the operator allows), and owned tensors have no spare capacity.
-/

namespace Model

variable {σ T : Type}

/-- An operand: a borrowed array, a view or a lazy expression; an owned tensor; an owned array. -/
inductive Operand (σ T : Type) : Type 1
  | expr (e : Expr σ T)
  | tensor (s : Shape) (buf : List T)
  | array (s : Shape) (buf : List T)

/-- `IntoExpression::into_expr`, src/tensor.rs:838-863, src/array.rs:317-328 for owned arrays (without
the check that the length of the array does not overflow), src/expr/expression.rs:234-241. -/
def Operand.toExpr : Operand σ T → Expr σ T
  | .expr e => e
  | .tensor s buf => .intoExpr s buf 0
  | .array s buf => .intoExpr s buf 0

/-- An owned tensor with these elements. -/
def ownOf (limit : Nat) (s : Shape) (buf : List T) : Own T := ⟨buf.map some, 0, s, [], limit⟩

/-- Run an operation on a tensor and return the tensor. -/
def runOwn (o : Own T) (x : M (σ × Own T) Unit) : M σ (Own T) :=
  M.bind (M.scope o x) fun r => M.pure r.2

/-- `impl_binary_op!`, src/ops.rs:144-359. A left operand that is not owned swaps the operands
(`rhs.zip_with(self, |(x, y)| y.op(x))`), an owned one does not. `zip_with` is
`self.zip(expr).map(f)` for expressions and borrowed arrays (src/expr/expression.rs:226-231,
src/tensor.rs:592-597, 609-614, src/array.rs:111-116, 128-133, src/slice.rs:741-746, 758-763,
src/view.rs:310-315, 527-532), in-place for tensors (src/tensor.rs:625-630) and `Array::from_expr` for
arrays (src/array.rs:144-149). A lazy result is evaluated to a tensor here (`eval`,
src/expr/expression.rs:80-85). -/
def binOp (limit : Nat) (op : T → T → M σ T) : Operand σ T → Operand σ T → M σ (Own T)
  | .tensor s buf, b => runOwn (ownOf limit s buf) (zipWith b.toExpr op)
  | .array s buf, b => M.bind (M.lift (Expr.zipNew (.intoExpr s buf 0) b.toExpr)) fun z =>
      runOwn (ownOf limit s []) (arrayFromExpr s.ty (.map z fun p => op p.1 p.2))
  | .expr e, .tensor s buf => runOwn (ownOf limit s buf) (zipWith e fun x y => op y x)
  | .expr e, .array s buf => M.bind (M.lift (Expr.zipNew (.intoExpr s buf 0) e)) fun z =>
      runOwn (ownOf limit s []) (arrayFromExpr s.ty (.map z fun p => op p.2 p.1))
  | .expr e, .expr r => M.bind (M.lift (Expr.zipNew r e)) fun z =>
      runOwn (ownOf limit z.shape []) (tensorFromExpr (.map z fun p => op p.2 p.1))

/-- `impl_unary_op!`, src/ops.rs:412-616, with `apply` (src/tensor.rs:588-590, 621-623, 263-265,
src/array.rs:140-142). A lazy result is evaluated to a tensor here. -/
def unOp (limit : Nat) (op : T → M σ T) : Operand σ T → M σ (Own T)
  | .tensor s buf => runOwn (ownOf limit s buf) (zipWith (.fill (M.pure ())) fun x _ => op x)
  | .array s buf => runOwn (ownOf limit s []) (arrayFromExpr s.ty (.map (.intoExpr s buf 0) op))
  | .expr e => runOwn (ownOf limit e.shape []) (tensorFromExpr (.map e op))

end Model
