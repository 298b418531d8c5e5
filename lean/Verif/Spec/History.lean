import Verif.Spec.Tensor
import Verif.Spec.Raw

/-!
Histories of tensor operations. Two tensors are kept, so that operations with another tensor can be
included. A panic of an operation that borrows the tensor is caught and the history continues; an
operation that consumes the tensor ends the history if it panics, since the tensor is gone then.
-/

namespace Spec
open Model

variable {σ T : Type}

/-- Two tensors, and the rest of the world (which closures can observe and change). -/
structure Sys (σ T : Type) where
  world : σ
  a : Own T
  b : Own T

/-- An operation on the first tensor. -/
def onA {α : Type} (x : M (σ × Own T) α) : M (Sys σ T) α := fun S =>
  match x (S.world, S.a) with
  | .ok r t => .ok r ⟨t.1, t.2, S.b⟩
  | .panic t => .panic ⟨t.1, t.2, S.b⟩
  | .ub => .ub
  | .abort => .abort

/-- An operation on both tensors. -/
def onBoth {α : Type} (x : M ((σ × Own T) × Own T) α) : M (Sys σ T) α := fun S =>
  match x ((S.world, S.b), S.a) with
  | .ok r t => .ok r ⟨t.1.1, t.2, t.1.2⟩
  | .panic t => .panic ⟨t.1.1, t.2, t.1.2⟩
  | .ub => .ub
  | .abort => .abort

/-- Operations on the first tensor. -/
inductive TensorOp (σ T : Type) : Type 1
  | swap
  | expand {α : Type} (e : Expr σ α) (c : α → M σ T)
  | append
  | drain (start stop : Bnd) (k : Nat) (leak : Bool)
  | truncate (n : Nat)
  | clear
  | resizeWith (dims : List Nat) (f : M σ T)
  | extend (n : Nat) (step : Nat → M σ T)
  | reserve (n : Nat)
  | shrinkTo (n : Nat)
  | cloneFrom (c : T → M σ T)
  | intoShape (s : Shape)
  | intoMapping (ty : ShapeTy)
  | intoFlat
  | zipWith {β : Type} (e : Expr σ β) (f : T → β → M σ T)
  | fromExpr (e : Expr σ T)

namespace TensorOp

/-- Perform an operation. -/
def run : TensorOp σ T → M (Sys σ T) Unit
  | swap => fun S => .ok () ⟨S.world, S.b, S.a⟩
  | expand e c => onA (Model.expand e c)
  | append => onBoth tensorAppend
  | drain start stop k leak => onA (M.bind (drainRun start stop k leak) fun _ => M.pure ())
  | truncate n => onA (tensorTruncate n)
  | clear => onA tensorClear
  | resizeWith dims f => onA (Model.resizeWith dims f)
  | extend n step => onA (tensorExtend n step)
  | reserve n => onA (tensorReserve n)
  | shrinkTo n => onA (tensorShrinkTo n)
  | cloneFrom c => fun S =>
    let xs := S.b.cells.take S.b.shape.len
    if xs.all Option.isSome then onA (Model.cloneFrom (xs.filterMap id) S.b.shape c) S else .ub
  | intoShape s => onA (tensorIntoShape s)
  | intoMapping ty => onA (tensorIntoMapping ty)
  | intoFlat => onA tensorIntoFlat
  | zipWith e f => onA (Model.zipWith e f)
  | fromExpr e => onA (tensorFromExpr e)

/-- Operations that take the tensor by value. -/
def Consumes : TensorOp σ T → Prop
  | intoShape _ | intoMapping _ | intoFlat | zipWith _ _ | fromExpr _ => True
  | _ => False

/-- Operations that can be written down in a program: shapes agree with their types, the tensors have
the types that the signature asks for, and closures do not cause undefined behaviour or aborts on
their own. Expressions that are consumed as a whole must not have phantom rows. -/
def Allowed (S : Sys σ T) : TensorOp σ T → Prop
  | expand e c => Built e ∧ TameClosures e ∧ ∀ y, (c y).Tame
  | resizeWith _ f => f.Tame
  | extend n step => S.a.shape.ty = .static [.dyn] ∧ ∀ k, k < n → (step k).Tame
  | cloneFrom c => S.b.shape.ty = S.a.shape.ty ∧ ∀ y, (c y).Tame
  | intoShape s => s.WF
  | zipWith e f => Built e ∧ TameClosures e ∧ (∀ x y, (f x y).Tame) ∧
    ∀ z, Expr.zipNew (Expr.view false (whole S.a.shape)) e = some z → NoPhantomRows z
  | fromExpr e => Built e ∧ TameClosures e ∧ NoPhantomRows e
  | _ => True

end TensorOp

/-- Finite histories of operations. -/
inductive History : Sys σ T → Sys σ T → Prop
  | refl {S} : History S S
  | ok {S S' S''} {op : TensorOp σ T} : History S S' → op.Allowed S' → op.run S' = .ok () S'' → History S S''
  | caught {S S' S''} {op : TensorOp σ T} : History S S' → op.Allowed S' → ¬ op.Consumes → op.run S' = .panic S'' →
      History S S''

/-- The tensor owns exactly as many elements as its dimensions say. -/
def Usable (o : Own T) : Prop := ∃ xs, Holds o xs

end Spec
