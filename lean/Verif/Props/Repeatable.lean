import Verif.Props.Expr

/-! Which expressions can be repeated: C23. -/

namespace Props
open Spec Model

variable {σ α : Type}

/-- An expression with a part that gives each item only once: mutable references to elements, rows or
lanes, or the elements of an owned array. -/
inductive OnceOnly : {α : Type} → Expr σ α → Prop
  | view (v : View) : OnceOnly (.view false v)
  | axis (v : View) (a : Axis) (m : Mapping) (off : Int) : OnceOnly (.axis false v a m off)
  | lanes (v : View) (a : Axis) (m : Mapping) (off : Int) : OnceOnly (.lanes false v a m off)
  | owned {α : Type} (s : Shape) (buf : List α) (idx : Nat) : OnceOnly (.intoExpr s buf idx)
  | map {α β : Type} {e : Expr σ α} (f : α → M σ β) : OnceOnly e → OnceOnly (.map e f)
  | enumerate {α : Type} {e : Expr σ α} (n : Nat) : OnceOnly e → OnceOnly (.enumerate e n)
  | left {α β : Type} {a : Expr σ α} (b : Expr σ β) (s : Shape) : OnceOnly a → OnceOnly (.zip a b s)
  | right {α β : Type} (a : Expr σ α) {b : Expr σ β} (s : Shape) : OnceOnly b → OnceOnly (.zip a b s)

/-- An expression cannot be repeated exactly if it has such a part. -/
theorem C23_repeatable (e : Expr σ α) : e.repeatable = false ↔ OnceOnly e := by
  constructor
  · intro h
    induction e with
    | view r v => cases h; exact .view v
    | axis r v a m off => cases h; exact .axis v a m off
    | lanes r v a m off => cases h; exact .lanes v a m off
    | fill f => cases h
    | fromElem s f => cases h
    | fromFn s idx f => cases h
    | intoExpr s buf idx => exact .owned s buf idx
    | map e f ih => exact .map f (ih h)
    | enumerate e n ih => exact .enumerate n (ih h)
    | zip a b s iha ihb =>
      rw [Expr.repeatable, Bool.and_eq_false_iff] at h
      rcases h with h | h
      · exact .left b s (iha h)
      · exact .right a s (ihb h)
  · intro h
    induction h with
    | view v => rfl
    | axis v a m off => rfl
    | lanes v a m off => rfl
    | owned s buf idx => rfl
    | map f _ ih => exact ih
    | enumerate n _ ih => exact ih
    | left b s _ ih => rw [Expr.repeatable, ih, Bool.false_and]
    | right a s _ ih => rw [Expr.repeatable, ih, Bool.and_false]

/-- A mutable row of three elements cannot be combined with a matrix of 2 by 3, a shared one can. -/
example :
    let row : View := whole ⟨.static [.dyn], [3]⟩
    let mat : Expr Unit Int := .view true (whole ⟨.static [.dyn, .dyn], [2, 3]⟩)
    OnceOnly (.view false row : Expr Unit Int) ∧
    (Expr.zipNew (.view false row) mat).isNone ∧ (Expr.zipNew (.view true row) mat).isSome :=
  ⟨.view _, by decide, by decide⟩

end Props
