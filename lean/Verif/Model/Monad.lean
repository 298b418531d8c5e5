import Verif.Model.Shape

/-!
Outcomes of running code that may call user closures. Closures (and clones) are functions on a world
`σ` which holds everything they can observe or change.
-/

namespace Model

universe u v w

/-- Outcome of a computation: a value and the new world, a panic (with the world when it started to
unwind), undefined behaviour, or an abort of the process (a panic in a destructor that runs during
unwinding). -/
inductive Res (σ : Type) (α : Type u)
  | ok (a : α) (s : σ)
  | panic (s : σ)
  | ub
  | abort
  deriving DecidableEq, Repr

/-- Computations on a world. -/
def M (σ : Type) (α : Type u) : Type u := σ → Res σ α

namespace M
variable {σ : Type} {α : Type u} {β : Type v} {γ : Type w}

def pure (a : α) : M σ α := fun s => .ok a s

def bind (x : M σ α) (f : α → M σ β) : M σ β := fun s =>
  match x s with
  | .ok a s' => f a s'
  | .panic s' => .panic s'
  | .ub => .ub
  | .abort => .abort

/-- A panic. -/
def panic : M σ α := fun s => .panic s

/-- Undefined behaviour. -/
def ub : M σ α := fun _ => .ub

/-- Lift a computation without effects, where `none` is a panic. -/
def lift : Option α → M σ α
  | some a => pure a
  | none => panic

instance instMonadM : Monad (M σ) where
  pure := pure
  bind := bind

@[simp] theorem pure_bind (a : α) (f : α → M σ β) : bind (pure a) f = f a := rfl

@[simp] theorem bind_pure (x : M σ α) : bind x pure = x := by
  funext s; unfold bind; cases x s <;> rfl

theorem bind_assoc (x : M σ α) (f : α → M σ β) (g : β → M σ γ) :
    bind (bind x f) g = bind x fun a => bind (f a) g := by
  funext s; unfold bind; cases x s <;> rfl

@[simp] theorem bind_eq (x : M σ α) {β : Type u} (f : α → M σ β) : x >>= f = bind x f := rfl

@[simp] theorem pure_eq (a : α) : (Pure.pure a : M σ α) = pure a := rfl

instance instLawfulMonadM : LawfulMonad (M σ) := LawfulMonad.mk'
  (id_map := fun x => bind_pure x)
  (pure_bind := fun _ _ => rfl)
  (bind_assoc := fun x f g => bind_assoc x f g)

/-- Run `g` (a destructor) if `x` panics, and go on unwinding. A panic of `g` aborts. -/
def onPanic (x : M σ α) (g : M σ Unit) : M σ α := fun s =>
  match x s with
  | .panic s' =>
    match g s' with
    | .ok _ s'' => .panic s''
    | .panic _ => .abort
    | .ub => .ub
    | .abort => .abort
  | r => r

/-- A computation that does not see the second part of the world. -/
def up {ρ : Type} (x : M σ α) : M (σ × ρ) α := fun s =>
  match x s.1 with
  | .ok a s' => .ok a (s', s.2)
  | .panic s' => .panic (s', s.2)
  | .ub => .ub
  | .abort => .abort

/-- Run `x` with a local state that starts as `init`; its final value is returned with the result.
When `x` panics, the local state is lost. -/
def scope {ρ : Type} (init : ρ) (x : M (σ × ρ) α) : M σ (α × ρ) := fun s =>
  match x (s, init) with
  | .ok a s' => .ok (a, s'.2) s'.1
  | .panic s' => .panic s'.1
  | .ub => .ub
  | .abort => .abort

/-- Read the world. -/
def get : M σ σ := fun s => .ok s s

/-- Replace the world. -/
def set (s : σ) : M σ Unit := fun _ => .ok () s

@[simp] theorem lift_some (a : α) : (lift (some a) : M σ α) = pure a := rfl
@[simp] theorem lift_none : (lift none : M σ α) = panic := rfl

end M
end Model
