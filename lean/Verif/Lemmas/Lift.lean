import Verif.Model.Lift
import Verif.Lemmas.IterSeq

/-! Lemmas on expressions in a larger world. -/

namespace Model
open Spec

namespace M
variable {σ ρ : Type} {α β : Type}

@[simp] theorem up_pure (a : α) : (up (pure a) : M (σ × ρ) α) = pure a := rfl
@[simp] theorem up_ub : (up ub : M (σ × ρ) α) = ub := rfl
@[simp] theorem up_panic : (up panic : M (σ × ρ) α) = panic := rfl

theorem up_bind (x : M σ α) (f : α → M σ β) :
    (up (bind x f) : M (σ × ρ) β) = bind (up x) fun a => up (f a) := by
  funext s
  simp only [up, bind]
  cases x s.1 <;> rfl

end M

namespace Expr
variable {σ ρ : Type} {α β : Type}

@[simp] theorem up_shape (e : Expr σ α) : (e.up : Expr (σ × ρ) α).shape = e.shape := by
  induction e <;> simp_all [up, shape]

@[simp] theorem up_repeatable (e : Expr σ α) : (e.up : Expr (σ × ρ) α).repeatable = e.repeatable := by
  induction e <;> simp_all [up, repeatable]

@[simp] theorem up_innerRank (e : Expr σ α) : (e.up : Expr (σ × ρ) α).innerRank = e.innerRank := by
  induction e <;> simp_all [up, innerRank]

@[simp] theorem up_outerRank (e : Expr σ α) : (e.up : Expr (σ × ρ) α).outerRank = e.outerRank := by
  unfold outerRank rank; rw [up_innerRank, up_shape]

theorem up_item (e : Expr σ α) (n : Nat) (j : List Nat) :
    item (e.up : Expr (σ × ρ) α) n j = (item e n j).up := by
  have hub : ∀ {α : Type} (o : Option α), (orUb o : M (σ × ρ) α) = (orUb o : M σ α).up := by
    intro α o; cases o <;> rfl
  induction e generalizing n j with
  | view r v => exact hub _
  | axis r v a m off => exact hub _
  | lanes r v a m off => exact hub _
  | fill f => rfl
  | fromElem s f => rfl
  | fromFn s idx f => rfl
  | intoExpr s buf idx => exact hub _
  | map e f ih => simp only [up, item, ih, M.up_bind]
  | enumerate e k ih => simp only [up, item, ih, M.up_bind, M.up_pure]
  | zip a b s iha ihb =>
    simp only [up, item, iha, ihb, M.up_bind, M.up_pure]
    rw [show (a.up : Expr (σ × ρ) _).dims = a.dims from by rw [dims, up_shape],
      show (b.up : Expr (σ × ρ) _).dims = b.dims from by rw [dims, up_shape]]

theorem up_zipNew (a : Expr σ α) (b : Expr σ β) :
    zipNew (a.up : Expr (σ × ρ) α) b.up = (zipNew a b).map up := by
  have : zipShape (a.up : Expr (σ × ρ) α) b.up = zipShape a b := by
    unfold zipShape rank dims
    simp only [up_shape, up_repeatable]
  unfold zipNew
  rw [this, Option.map_map]
  rfl

theorem up_built {e : Expr σ α} (h : Built e) : Built (e.up : Expr (σ × ρ) α) := by
  induction h with
  | view h => exact .view h
  | @axis r v a e hv h =>
    have := h
    simp only [axisNew, Option.map_eq_some_iff] at this
    obtain ⟨m, h1, rfl⟩ := this
    refine .axis (r := r) (a := a) hv ?_
    simp only [axisNew, h1, Option.map_some, up]
  | @lanes r v a e hv h =>
    have := h
    simp only [lanesNew, Option.bind_eq_some_iff, Option.map_eq_some_iff] at this
    obtain ⟨m, h1, l, h2, rfl⟩ := this
    refine .lanes (r := r) (a := a) hv ?_
    simp only [lanesNew, h1, h2, Option.bind_some, Option.map_some, up]
  | fill => exact .fill
  | @fromElem α s f e hs h =>
    have := h
    simp only [fromElemNew, Option.map_eq_some_iff] at this
    obtain ⟨l, h1, rfl⟩ := this
    refine .fromElem (f := f.up) hs ?_
    simp only [fromElemNew, h1, Option.map_some, up]
  | @fromFn α s f e hs h =>
    have := h
    simp only [fromFnNew, Option.map_eq_some_iff] at this
    obtain ⟨l, h1, rfl⟩ := this
    refine .fromFn (f := fun j => (f j).up) hs ?_
    simp only [fromFnNew, h1, Option.map_some, up]
  | intoExpr hs hl => exact .intoExpr hs hl
  | map _ ih => exact .map ih
  | enumerate _ ih => exact .enumerate ih
  | zip _ _ h iha ihb =>
    refine .zip iha ihb ?_
    rw [up_zipNew, h]; rfl

theorem up_regular {e : Expr σ α} {R O : Nat} (h : Regular e R O) :
    Regular (e.up : Expr (σ × ρ) α) R O := by
  induction e with
  | zip a b s iha ihb => exact ⟨iha h.1, ihb h.2⟩
  | map e f ih => exact ih h
  | enumerate e k ih => exact ih h
  | _ => exact h

theorem up_sound {e : Expr σ α} (h : Sound e) : Sound (e.up : Expr (σ × ρ) α) := by
  unfold Sound dims
  rw [up_shape, up_outerRank]
  exact up_regular h

end Expr
end Model
