import Verif.Model.ExprPanic
import Verif.Lemmas.Phantom
import Verif.Spec.Resume
import Verif.Lemmas.Raw
import Verif.Lemmas.IterSeq

/-! Iteration with the state after panics: agreement with the other model, and invariants. -/

namespace Model
open Spec

namespace Out
variable {σ α β : Type} {S S' : Type 1}

theorem erase_call (r : Res σ α) (e : S) :
    (call r e).erase = match r with
      | .ok x s => .ok (x, e) s
      | .panic s => .panic s
      | .ub => .ub
      | .abort => .abort := by
  cases r <;> rfl

theorem erase_andThen (r : Out σ α S) (g : S → S') (k : α → S → σ → Out σ β S') :
    (r.andThen g k).erase = match r.erase with
      | .ok x s => (k x.1 x.2 s).erase
      | .panic s => .panic s
      | .ub => .ub
      | .abort => .abort := by
  cases r <;> rfl

end Out

namespace Expr
variable {σ : Type} {α β : Type}

theorem getE_erase (e : Expr σ α) (i : Nat) (t : σ) : (e.getE i t).erase = e.get i t := by
  induction e generalizing t with
  | view r v => rfl
  | axis r v a m off =>
    simp only [getE, get, M.bind, Out.erase_call]
    cases M.lift _ t <;> rfl
  | lanes r v a m off =>
    simp only [getE, get, M.bind, Out.erase_call]
    cases M.lift _ t <;> rfl
  | fill f =>
    simp only [getE, get, M.bind, Out.erase_call]
    cases f t <;> rfl
  | fromElem s f =>
    simp only [getE, get, M.bind, Out.erase_call]
    cases f t <;> rfl
  | fromFn s idx f =>
    simp only [getE, get, M.bind, Out.erase_andThen, Out.erase_call]
    cases f idx t with
    | ok x t =>
      simp only
      by_cases hr : s.dims.length > 0
      · rw [if_pos hr, if_pos hr]
        cases idx[s.dims.length - 1]? <;> rfl
      · rw [if_neg hr, if_neg hr]
        rfl
    | _ => rfl
  | intoExpr s buf idx =>
    simp only [getE, get]
    cases buf[idx]? <;> rfl
  | map e f ih =>
    simp only [getE, get, M.bind, Out.erase_andThen, Out.erase_call, ih]
    cases e.get i t with
    | ok p t =>
      simp only
      cases f p.1 t <;> rfl
    | _ => rfl
  | enumerate e c ih =>
    simp only [getE, get, M.bind, Out.erase_andThen, ih]
    cases e.get i t <;> rfl
  | zip a b s iha ihb =>
    simp only [getE, get, M.bind, Out.erase_andThen, iha]
    cases a.get i t with
    | ok p t =>
      simp only [ihb]
      cases b.get i t <;> rfl
    | _ => rfl

theorem resetDimE_eq (e : Expr σ α) (i n : Nat) :
    e.resetDim i n = if (e.resetDimE i n).1 then some (e.resetDimE i n).2 else none := by
  induction e generalizing i with
  | view r v =>
    simp only [resetDim, resetDimE]
    rcases Option.eq_none_or_eq_some (v.map.stride i) with h | ⟨x, h⟩ <;> simp [h]
  | lanes r v a m off =>
    simp only [resetDim, resetDimE]
    rcases Option.eq_none_or_eq_some (m.stride i) with h | ⟨x, h⟩ <;> simp [h]
  | fromFn s idx f =>
    simp only [resetDim, resetDimE]
    split <;> rfl
  | map e f ih =>
    simp only [resetDim, resetDimE, ih]
    rcases Bool.eq_false_or_eq_true (e.resetDimE i n).1 with h | h <;> simp [h]
  | enumerate e k ih =>
    simp only [resetDim, resetDimE, ih]
    rcases Bool.eq_false_or_eq_true (e.resetDimE i n).1 with h | h <;> simp [h]
  | zip a b s iha ihb =>
    simp only [resetDim, resetDimE, iha, ihb]
    split
    · rcases Bool.eq_false_or_eq_true (a.resetDimE (a.rank - (s.dims.length - i)) n).1 with h | h
      · simp only [h, if_true, Option.bind_some]
        split
        · rcases Bool.eq_false_or_eq_true (b.resetDimE (b.rank - (s.dims.length - i)) n).1 with h | h <;> simp [h]
        · rfl
      · simp [h]
    · simp only [if_true, Option.bind_some]
      split
      · rcases Bool.eq_false_or_eq_true (b.resetDimE (b.rank - (s.dims.length - i)) n).1 with h | h <;> simp [h]
      · rfl
  | _ => rfl

theorem stepDimE_eq (e : Expr σ α) (i : Nat) :
    e.stepDim i = if (e.stepDimE i).1 then some (e.stepDimE i).2 else none := by
  induction e generalizing i with
  | view r v =>
    simp only [stepDim, stepDimE]
    rcases Option.eq_none_or_eq_some (v.map.stride i) with h | ⟨x, h⟩ <;> simp [h]
  | lanes r v a m off =>
    simp only [stepDim, stepDimE]
    rcases Option.eq_none_or_eq_some (m.stride i) with h | ⟨x, h⟩ <;> simp [h]
  | fromFn s idx f =>
    simp only [stepDim, stepDimE]
    split
    · rcases Option.eq_none_or_eq_some idx[i]? with h | ⟨x, h⟩ <;> simp [h]
    · rfl
  | map e f ih =>
    simp only [stepDim, stepDimE, ih]
    rcases Bool.eq_false_or_eq_true (e.stepDimE i).1 with h | h <;> simp [h]
  | enumerate e k ih =>
    simp only [stepDim, stepDimE, ih]
    rcases Bool.eq_false_or_eq_true (e.stepDimE i).1 with h | h <;> simp [h]
  | zip a b s iha ihb =>
    simp only [stepDim, stepDimE, iha, ihb]
    split
    · rcases Bool.eq_false_or_eq_true (a.stepDimE (a.rank - (s.dims.length - i))).1 with h | h
      · simp only [h, if_true, Option.bind_some]
        split
        · rcases Bool.eq_false_or_eq_true (b.stepDimE (b.rank - (s.dims.length - i))).1 with h | h <;> simp [h]
        · rfl
      · simp [h]
    · simp only [if_true, Option.bind_some]
      split
      · rcases Bool.eq_false_or_eq_true (b.stepDimE (b.rank - (s.dims.length - i))).1 with h | h <;> simp [h]
      · rfl
  | _ => rfl

/-- What holds for an expression in any state of its iteration. -/
def Wfs : {α : Type} → Expr σ α → Prop
  | _, view _ v => v.map.WF
  | _, axis _ v a m _ => v.map.WF ∧ a.get v.map = some m
  | _, lanes _ v a m _ => v.map.WF ∧ a.removeMap v.map = some m
  | _, fill _ => True
  | _, fromElem s _ => s.WF
  | _, fromFn s idx _ => s.WF ∧ idx.length = (dimsDefault s.ty).length
  | _, intoExpr s buf _ => s.WF ∧ buf.length = size s.dims
  | _, map e _ => e.Wfs
  | _, enumerate e _ => e.Wfs
  | _, zip a b s => a.Wfs ∧ b.Wfs ∧ zipShape a b = some s

theorem Wf.wfs {e : Expr σ α} (h : e.Wf) : e.Wfs := by
  induction e with
  | view r v => exact h
  | axis r v a m off => exact ⟨h.1, h.2.1⟩
  | lanes r v a m off => exact ⟨h.1, h.2.1⟩
  | fill f => trivial
  | fromElem s f => exact h
  | fromFn s idx f => exact ⟨h.1, by rw [h.2]⟩
  | intoExpr s buf idx => exact ⟨h.1, h.2.1⟩
  | map e f ih => exact ih h
  | enumerate e k ih => exact ih h.1
  | zip a b s iha ihb => exact ⟨iha h.1, ihb h.2.1, h.2.2⟩

/-- `e'` is a later state of `e`. -/
structure Later (e e' : Expr σ α) : Prop where
  shape : e'.shape = e.shape
  inner : e'.innerRank = e.innerRank
  rep : e'.repeatable = e.repeatable
  wfs : e.Wfs → e'.Wfs
  bad : BadFn e' ↔ BadFn e
  tame : TameClosures e → TameClosures e'

theorem Later.refl (e : Expr σ α) : Later e e := ⟨rfl, rfl, rfl, id, Iff.rfl, id⟩

theorem Later.trans {e e' e'' : Expr σ α} (h : Later e e') (h' : Later e' e'') : Later e e'' :=
  ⟨h'.shape.trans h.shape, h'.inner.trans h.inner, h'.rep.trans h.rep, fun w => h'.wfs (h.wfs w),
    h'.bad.trans h.bad, fun w => h'.tame (h.tame w)⟩

theorem Later.outerRank {e e' : Expr σ α} (h : Later e e') : e'.outerRank = e.outerRank := by
  unfold Expr.outerRank rank
  rw [h.shape, h.inner]

theorem Later.map {e e' : Expr σ α} {f : α → M σ β} (h : Later e e') : Later (map e f) (map e' f) :=
  ⟨h.shape, h.inner, h.rep, h.wfs, h.bad, fun w => ⟨h.tame w.1, w.2⟩⟩

theorem Later.enumerate {e e' : Expr σ α} {k k' : Nat} (h : Later e e') :
    Later (enumerate e k) (enumerate e' k') :=
  ⟨h.shape, h.inner, h.rep, h.wfs, h.bad, h.tame⟩

theorem Later.zip {a a' : Expr σ α} {b b' : Expr σ β} {s : Shape} (h : Later a a') (h' : Later b b') :
    Later (zip a b s) (zip a' b' s) := by
  refine ⟨rfl, ?_, ?_, ?_, ?_, ?_⟩
  · simp only [innerRank, h.inner, h'.inner]
  · simp only [repeatable, h.rep, h'.rep]
  · intro w
    refine ⟨h.wfs w.1, h'.wfs w.2.1, ?_⟩
    rw [← w.2.2]
    unfold zipShape rank dims
    rw [h.shape, h'.shape, h.rep, h'.rep]
  · unfold BadFn
    rw [h.bad, h'.bad]
  · exact fun w => ⟨h.tame w.1, h'.tame w.2⟩

theorem Later.fromFn {s : Shape} {idx idx' : List Nat} {f : List Nat → M σ α} (h : idx'.length = idx.length) :
    Later (fromFn s idx f) (fromFn s idx' f) :=
  ⟨rfl, rfl, rfl, fun w => ⟨w.1, by rw [h]; exact w.2⟩, Iff.rfl, id⟩

theorem later_resetDimE (e : Expr σ α) (i n : Nat) :
    Later e (e.resetDimE i n).2 ∧ (e.resetDimE i n).2.owned = e.owned := by
  induction e generalizing i with
  | view r v =>
    simp only [resetDimE]
    cases v.map.stride i with
    | none => exact ⟨.refl _, rfl⟩
    | some s => exact ⟨⟨rfl, rfl, rfl, id, Iff.rfl, id⟩, rfl⟩
  | axis r v a m off => exact ⟨⟨rfl, rfl, rfl, id, Iff.rfl, id⟩, rfl⟩
  | lanes r v a m off =>
    simp only [resetDimE]
    cases m.stride i with
    | none => exact ⟨.refl _, rfl⟩
    | some s => exact ⟨⟨rfl, rfl, rfl, id, Iff.rfl, id⟩, rfl⟩
  | fill f => exact ⟨.refl _, rfl⟩
  | fromElem s f => exact ⟨.refl _, rfl⟩
  | fromFn s idx f =>
    simp only [resetDimE]
    split
    · exact ⟨.fromFn (List.length_set ..), rfl⟩
    · exact ⟨.refl _, rfl⟩
  | intoExpr s buf idx => exact ⟨.refl _, rfl⟩
  | map e f ih => exact ⟨(ih i).1.map, (ih i).2⟩
  | enumerate e k ih => exact ⟨(ih i).1.enumerate, (ih i).2⟩
  | zip a b s iha ihb =>
    have ha : Later a (if s.dims.length - i ≤ a.rank then a.resetDimE (a.rank - (s.dims.length - i)) n
        else (true, a)).2 ∧ (if s.dims.length - i ≤ a.rank then a.resetDimE (a.rank - (s.dims.length - i)) n
        else (true, a)).2.owned = a.owned := by
      split
      · exact iha _
      · exact ⟨.refl _, rfl⟩
    have hb : Later b (if s.dims.length - i ≤ b.rank then b.resetDimE (b.rank - (s.dims.length - i)) n
        else (true, b)).2 ∧ (if s.dims.length - i ≤ b.rank then b.resetDimE (b.rank - (s.dims.length - i)) n
        else (true, b)).2.owned = b.owned := by
      split
      · exact ihb _
      · exact ⟨.refl _, rfl⟩
    simp only [resetDimE]
    generalize (if s.dims.length - i ≤ a.rank then a.resetDimE (a.rank - (s.dims.length - i)) n
        else (true, a)) = p at ha ⊢
    generalize (if s.dims.length - i ≤ b.rank then b.resetDimE (b.rank - (s.dims.length - i)) n
        else (true, b)) = q at hb ⊢
    split
    · exact ⟨ha.1.zip hb.1, by simp only [owned, ha.2, hb.2]⟩
    · exact ⟨ha.1.zip (.refl _), by simp only [owned, ha.2]⟩

theorem later_stepDimE (e : Expr σ α) (i : Nat) :
    Later e (e.stepDimE i).2 ∧ (e.stepDimE i).2.owned = e.owned := by
  induction e generalizing i with
  | view r v =>
    simp only [stepDimE]
    cases v.map.stride i with
    | none => exact ⟨.refl _, rfl⟩
    | some s => exact ⟨⟨rfl, rfl, rfl, id, Iff.rfl, id⟩, rfl⟩
  | axis r v a m off => exact ⟨⟨rfl, rfl, rfl, id, Iff.rfl, id⟩, rfl⟩
  | lanes r v a m off =>
    simp only [stepDimE]
    cases m.stride i with
    | none => exact ⟨.refl _, rfl⟩
    | some s => exact ⟨⟨rfl, rfl, rfl, id, Iff.rfl, id⟩, rfl⟩
  | fill f => exact ⟨.refl _, rfl⟩
  | fromElem s f => exact ⟨.refl _, rfl⟩
  | fromFn s idx f =>
    simp only [stepDimE]
    split
    · cases idx[i]? with
      | none => exact ⟨.refl _, rfl⟩
      | some k => exact ⟨.fromFn (List.length_set ..), rfl⟩
    · exact ⟨.refl _, rfl⟩
  | intoExpr s buf idx => exact ⟨.refl _, rfl⟩
  | map e f ih => exact ⟨(ih i).1.map, (ih i).2⟩
  | enumerate e k ih => exact ⟨(ih i).1.enumerate, (ih i).2⟩
  | zip a b s iha ihb =>
    have ha : Later a (if s.dims.length - i ≤ a.rank then a.stepDimE (a.rank - (s.dims.length - i))
        else (true, a)).2 ∧ (if s.dims.length - i ≤ a.rank then a.stepDimE (a.rank - (s.dims.length - i))
        else (true, a)).2.owned = a.owned := by
      split
      · exact iha _
      · exact ⟨.refl _, rfl⟩
    have hb : Later b (if s.dims.length - i ≤ b.rank then b.stepDimE (b.rank - (s.dims.length - i))
        else (true, b)).2 ∧ (if s.dims.length - i ≤ b.rank then b.stepDimE (b.rank - (s.dims.length - i))
        else (true, b)).2.owned = b.owned := by
      split
      · exact ihb _
      · exact ⟨.refl _, rfl⟩
    simp only [stepDimE]
    generalize (if s.dims.length - i ≤ a.rank then a.stepDimE (a.rank - (s.dims.length - i))
        else (true, a)) = p at ha ⊢
    generalize (if s.dims.length - i ≤ b.rank then b.stepDimE (b.rank - (s.dims.length - i))
        else (true, b)) = q at hb ⊢
    split
    · exact ⟨ha.1.zip hb.1, by simp only [owned, ha.2, hb.2]⟩
    · exact ⟨ha.1.zip (.refl _), by simp only [owned, ha.2]⟩

/-! `get` -/

theorem _root_.Spec.SomeTaken.append {ps qs ps' qs' : List (Nat × Nat)} (h : SomeTaken ps qs) (h' : SomeTaken ps' qs') :
    SomeTaken (ps ++ ps') (qs ++ qs') := by
  unfold SomeTaken at *
  exact List.rel_append h h'

theorem _root_.Spec.AllTaken.append {ps qs ps' qs' : List (Nat × Nat)} (h : AllTaken ps qs) (h' : AllTaken ps' qs') :
    AllTaken (ps ++ ps') (qs ++ qs') := by
  unfold AllTaken at *
  rw [h, h', List.map_append]

theorem _root_.Spec.SomeTaken.refl (ps : List (Nat × Nat)) : SomeTaken ps ps := by
  unfold SomeTaken
  induction ps with
  | nil => exact .nil
  | cons p ps ih => exact .cons ⟨rfl, Or.inl rfl⟩ ih

theorem _root_.Spec.AllTaken.some {ps qs : List (Nat × Nat)} (h : AllTaken ps qs) : SomeTaken ps qs := by
  unfold AllTaken at h
  subst h
  unfold SomeTaken
  induction ps with
  | nil => exact .nil
  | cons p ps ih => exact .cons ⟨rfl, Or.inr rfl⟩ ih

/-- What `get` does to the state. -/
def Got (e : Expr σ α) : Out σ α (Expr σ α) → Prop
  | .ok _ e' _ => Later e e' ∧ AllTaken e.owned e'.owned
  | .panic e' _ => Later e e' ∧ SomeTaken e.owned e'.owned
  | _ => True

theorem got_call {e : Expr σ α} (h : e.owned = []) (r : Res σ α) : Got e (Out.call r e) := by
  cases r with
  | ok x s => exact ⟨.refl _, by unfold AllTaken; rw [h]; rfl⟩
  | panic s => exact ⟨.refl _, .refl _⟩
  | _ => trivial

theorem got_getE (e : Expr σ α) (i : Nat) (t : σ) : Got e (e.getE i t) := by
  induction e generalizing t with
  | view r v => exact ⟨.refl _, rfl⟩
  | axis r v a m off => exact got_call rfl _
  | lanes r v a m off => exact got_call rfl _
  | fill f => exact got_call rfl _
  | fromElem s f => exact got_call rfl _
  | fromFn s idx f =>
    simp only [getE]
    cases f idx t with
    | ok x t =>
      simp only [Out.call, Out.andThen]
      split
      · cases idx[s.dims.length - 1]? with
        | some k => exact ⟨.fromFn (List.length_set ..), rfl⟩
        | none => exact ⟨.refl _, .refl _⟩
      · exact ⟨.refl _, rfl⟩
    | panic t => exact ⟨.refl _, .refl _⟩
    | _ => trivial
  | intoExpr s buf idx =>
    simp only [getE]
    cases buf[idx]? with
    | some x => exact ⟨⟨rfl, rfl, rfl, id, Iff.rfl, id⟩, rfl⟩
    | none => trivial
  | map e f ih =>
    have := ih t
    simp only [getE]
    generalize e.getE i t = r at this ⊢
    cases r with
    | ok x e' t =>
      simp only [Out.andThen]
      cases f x t with
      | ok y u => exact ⟨this.1.map, this.2⟩
      | panic u => exact ⟨this.1.map, this.2.some⟩
      | _ => trivial
    | panic e' t => exact ⟨this.1.map, this.2⟩
    | _ => trivial
  | enumerate e c ih =>
    have := ih t
    simp only [getE]
    generalize e.getE i t = r at this ⊢
    cases r with
    | ok x e' t => exact ⟨this.1.enumerate, this.2⟩
    | panic e' t => exact ⟨this.1.enumerate, this.2⟩
    | _ => trivial
  | zip a b s iha ihb =>
    have ha := iha t
    simp only [getE]
    generalize a.getE i t = r at ha ⊢
    cases r with
    | ok x a' t =>
      have hb := ihb t
      simp only [Out.andThen]
      generalize b.getE i t = r at hb ⊢
      cases r with
      | ok y b' t => exact ⟨ha.1.zip hb.1, ha.2.append hb.2⟩
      | panic b' t => exact ⟨ha.1.zip hb.1, ha.2.some.append hb.2⟩
      | _ => trivial
    | panic a' t => exact ⟨ha.1.zip (.refl _), ha.2.append (.refl _)⟩
    | _ => trivial

theorem clean_call {S : Type 1} {f : M σ α} (h : f.Tame) (t : σ) (e : S) : Safe (Out.call (f t) e) := by
  have ht := h t
  unfold M.Post at ht
  cases hf : f t with
  | ok x s => trivial
  | panic s => trivial
  | ub => rw [hf] at ht; exact ht.elim
  | abort => rw [hf] at ht; exact ht.elim

theorem clean_andThen {β : Type} {S S' : Type 1} {r : Out σ α S} {g : S → S'} {k : α → S → σ → Out σ β S'}
    (h : Safe r) (hk : ∀ x e t, r = .ok x e t → Safe (k x e t)) : Safe (r.andThen g k) := by
  cases r with
  | ok x e t => exact hk x e t rfl
  | panic e t => trivial
  | ub => exact h.elim
  | abort => exact h.elim

theorem clean_getE {e : Expr σ α} (hc : TameClosures e) (ho : ∀ p ∈ e.owned, p.1 < p.2) (i : Nat) (t : σ) :
    Safe (e.getE i t) := by
  induction e generalizing t with
  | view r v => trivial
  | axis r v a m off => exact clean_call (tame_lift _) _ _
  | lanes r v a m off => exact clean_call (tame_lift _) _ _
  | fill f => exact clean_call hc _ _
  | fromElem s f => exact clean_call hc _ _
  | fromFn s idx f =>
    refine clean_andThen (clean_call (hc idx) _ _) fun x e t _ => ?_
    split
    · cases idx[s.dims.length - 1]? <;> trivial
    · trivial
  | intoExpr s buf idx =>
    have : idx < buf.length := ho (idx, buf.length) (by simp [owned])
    simp only [getE]
    rw [List.getElem?_eq_getElem this]
    trivial
  | map e f ih =>
    exact clean_andThen (ih hc.1 ho t) fun x e t _ => clean_call (hc.2 x) _ _
  | enumerate e c ih => exact clean_andThen (ih hc ho t) fun x e t _ => trivial
  | zip a b s iha ihb =>
    refine clean_andThen (iha hc.1 (fun p hp => ho p (List.mem_append_left _ hp)) t) fun x a' t _ => ?_
    exact clean_andThen (ihb hc.2 (fun p hp => ho p (List.mem_append_right _ hp)) t) fun y b' t _ => trivial

/-- All arrays that elements are moved out of have the dimensions of the expression. -/
theorem owned_size {e : Expr σ α} (hw : e.Wfs) :
    (∀ p ∈ e.owned, p.2 = size e.dims) ∧ (e.owned ≠ [] → e.repeatable = false) := by
  induction e with
  | intoExpr s buf idx =>
    refine ⟨?_, fun _ => rfl⟩
    intro p hp
    rw [owned, List.mem_singleton] at hp
    rw [hp]
    exact hw.2
  | map e f ih => exact ih hw
  | enumerate e c ih => exact ih hw
  | zip a b s iha ihb =>
    obtain ⟨wa, wb, hz⟩ := hw
    obtain ⟨-, -, -, ra, rb⟩ := zipShape_spec hz
    obtain ⟨a1, a2⟩ := iha wa
    obtain ⟨b1, b2⟩ := ihb wb
    constructor
    · intro p hp
      rcases List.mem_append.1 hp with hp | hp
      · rw [a1 p hp, ra (a2 (List.ne_nil_of_mem hp))]
        rfl
      · rw [b1 p hp, rb (b2 (List.ne_nil_of_mem hp))]
        rfl
    · intro h
      simp only [repeatable, Bool.and_eq_false_iff]
      by_cases ha : a.owned = []
      · right
        refine b2 ?_
        intro hb
        exact h (by simp [owned, ha, hb])
      · exact Or.inl (a2 ha)
  | _ => exact ⟨fun p hp => by simp [owned] at hp, fun h => by simp [owned] at h⟩

/-! `reset_dim` and `step_dim` succeed. -/

theorem stride_some {m : Mapping} (h : m.WF) {i : Nat} (hi : i < m.dims.length) : ∃ s, m.stride i = some s := by
  rw [Mapping.stride_eq _ h, List.getElem?_eq_getElem (by rw [h.len]; exact hi)]
  exact ⟨_, rfl⟩

theorem fromFn_length {s : Shape} {idx : List Nat} {f : List Nat → M σ α} (hw : (fromFn s idx f).Wfs)
    (hb : ¬ BadFn (fromFn s idx f)) (h : s.dims ≠ []) : idx.length = s.dims.length := by
  obtain ⟨hs, hl⟩ := hw
  rw [hl]
  cases hty : s.ty with
  | static ds =>
    have hs' : s.ty.Conforms s.dims := hs
    rw [hty] at hs'
    simp [dimsDefault, ShapeTy.conforms_static_length hs']
  | dynRank => exact (hb ⟨hty, h⟩).elim

theorem resetDimE_true {e : Expr σ α} (hw : e.Wfs) (hb : ¬ BadFn e) {i : Nat} (hi : i < e.dims.length)
    (n : Nat) : (e.resetDimE i n).1 = true := by
  induction e generalizing i with
  | view r v =>
    obtain ⟨s, hs⟩ := stride_some hw hi
    simp only [resetDimE, hs]
  | lanes r v a m off =>
    obtain ⟨p, -, -, -, -, hm⟩ := lanes_dims hw.1 hw.2
    obtain ⟨s, hs⟩ := stride_some hm hi
    simp only [resetDimE, hs]
  | fromFn s idx f =>
    have hi' : i < s.dims.length := hi
    have : i < idx.length := by
      rw [fromFn_length hw hb (fun h => by rw [h] at hi'; simp at hi')]
      exact hi'
    simp only [resetDimE, if_pos this]
  | map e f ih => exact ih hw hb hi
  | enumerate e c ih => exact ih hw hb hi
  | zip a b s iha ihb =>
    obtain ⟨wa, wb, hz⟩ := hw
    replace hi : i < s.dims.length := hi
    have ha : (if s.dims.length - i ≤ a.rank then a.resetDimE (a.rank - (s.dims.length - i)) n
        else (true, a)).1 = true := by
      split
      · exact iha wa (fun h => hb (Or.inl h)) (show a.rank - (s.dims.length - i) < a.rank by omega)
      · rfl
    have hb : (if s.dims.length - i ≤ b.rank then b.resetDimE (b.rank - (s.dims.length - i)) n
        else (true, b)).1 = true := by
      split
      · exact ihb wb (fun h => hb (Or.inr h)) (show b.rank - (s.dims.length - i) < b.rank by omega)
      · rfl
    simp only [resetDimE, if_pos ha]
    exact hb
  | _ => rfl

theorem stepDimE_true {e : Expr σ α} (hw : e.Wfs) (hb : ¬ BadFn e) {i : Nat} (hi : i < e.dims.length) :
    (e.stepDimE i).1 = true := by
  induction e generalizing i with
  | view r v =>
    obtain ⟨s, hs⟩ := stride_some hw hi
    simp only [stepDimE, hs]
  | lanes r v a m off =>
    obtain ⟨p, -, -, -, -, hm⟩ := lanes_dims hw.1 hw.2
    obtain ⟨s, hs⟩ := stride_some hm hi
    simp only [stepDimE, hs]
  | fromFn s idx f =>
    have hi' : i < s.dims.length := hi
    have : i < idx.length := by
      rw [fromFn_length hw hb (fun h => by rw [h] at hi'; simp at hi')]
      exact hi'
    simp only [stepDimE, List.getElem?_eq_getElem this]
    split <;> rfl
  | map e f ih => exact ih hw hb hi
  | enumerate e c ih => exact ih hw hb hi
  | zip a b s iha ihb =>
    obtain ⟨wa, wb, hz⟩ := hw
    replace hi : i < s.dims.length := hi
    have ha : (if s.dims.length - i ≤ a.rank then a.stepDimE (a.rank - (s.dims.length - i))
        else (true, a)).1 = true := by
      split
      · exact iha wa (fun h => hb (Or.inl h)) (show a.rank - (s.dims.length - i) < a.rank by omega)
      · rfl
    have hb : (if s.dims.length - i ≤ b.rank then b.stepDimE (b.rank - (s.dims.length - i))
        else (true, b)).1 = true := by
      split
      · exact ihb wb (fun h => hb (Or.inr h)) (show b.rank - (s.dims.length - i) < b.rank by omega)
      · rfl
    simp only [stepDimE, if_pos ha]
    exact hb
  | _ => rfl

/-- With a `from_fn` of dynamic rank, resetting the last dimension panics. -/
theorem resetDimE_bad {e : Expr σ α} (hw : e.Wfs) (hb : BadFn e) (n : Nat) :
    0 < e.dims.length ∧ (e.resetDimE (e.dims.length - 1) n).1 = false := by
  induction e with
  | fromFn s idx f =>
    obtain ⟨-, hl⟩ := hw
    obtain ⟨h1, h2⟩ := hb
    refine ⟨List.length_pos_of_ne_nil h2, ?_⟩
    rw [h1] at hl
    replace hl : idx.length = 0 := hl
    simp only [resetDimE]
    rw [if_neg (by omega)]
  | map e f ih => exact ih hw hb
  | enumerate e c ih => exact ih hw hb
  | zip a b s iha ihb =>
    obtain ⟨wa, wb, hz⟩ := hw
    obtain ⟨-, sa, sb, -, -⟩ := zipShape_spec hz
    have la : a.dims.length ≤ s.dims.length := by
      have := congrArg List.length sa; rw [List.length_drop] at this; omega
    have lb : b.dims.length ≤ s.dims.length := by
      have := congrArg List.length sb; rw [List.length_drop] at this; omega
    have hd : (zip a b s : Expr σ _).dims = s.dims := rfl
    rw [hd]
    simp only [resetDimE]
    rcases hb with hb | hb
    · obtain ⟨h1, h2⟩ := iha wa hb
      refine ⟨by omega, ?_⟩
      rw [show s.dims.length - (s.dims.length - 1) = 1 by omega, if_pos (show 1 ≤ a.rank from h1),
        show a.rank - 1 = a.dims.length - 1 from rfl, h2]
      rfl
    · obtain ⟨h1, h2⟩ := ihb wb hb
      refine ⟨by omega, ?_⟩
      rw [show s.dims.length - (s.dims.length - 1) = 1 by omega]
      generalize (if 1 ≤ a.rank then a.resetDimE (a.rank - 1) n else (true, a)) = p
      split
      · rw [if_pos (show 1 ≤ b.rank from h1), show b.rank - 1 = b.dims.length - 1 from rfl]
        exact h2
      · rfl
  | _ => exact hb.elim

end Expr

namespace Iter
variable {σ α τ : Type}
open Expr

/-! Agreement with the other model. -/

theorem stepLoopE_eq (limit : List Nat) (n : Nat) (e : Expr σ α) (oi : List Nat) :
    stepLoop limit n e oi =
      (stepLoopE limit n e oi).1.map fun b => (b, (stepLoopE limit n e oi).2) := by
  induction n generalizing e oi with
  | zero => rfl
  | succ i ih =>
    unfold stepLoop stepLoopE
    rcases Option.eq_none_or_eq_some oi[i]? with h | ⟨x, h⟩
    · simp [h]
    rcases Option.eq_none_or_eq_some limit[i]? with h' | ⟨l, h'⟩
    · simp [h']
    simp only [h, h', Option.bind_some]
    split
    · rw [stepDimE_eq]
      split <;> rfl
    · rw [resetDimE_eq]
      split
      · exact ih _ _
      · rfl

theorem stepOuterE_eq (it : Iter σ α) :
    it.stepOuter = it.stepOuterE.1.map fun b => (b, it.stepOuterE.2) := by
  unfold stepOuter stepOuterE
  simp only [resetDimE_eq]
  split
  · split
    · simp only [Option.bind_some, stepLoopE_eq, Option.map_map]
      rfl
    · rfl
  · simp only [Option.bind_some, stepLoopE_eq, Option.map_map, if_true]
    rfl

theorem takeE_erase (it : Iter σ α) (s : σ) :
    (it.takeE s).erase = M.bind (it.expr.get it.innerIndex) (fun p =>
      M.pure (some p.1, { it with expr := p.2, innerIndex := it.innerIndex + 1 })) s := by
  unfold takeE
  rw [Out.erase_andThen, getE_erase]
  unfold M.bind
  cases it.expr.get it.innerIndex s <;> rfl

theorem nextE_erase (it : Iter σ α) (s : σ) : (it.nextE s).erase = it.next s := by
  unfold nextE next
  split
  · rw [stepOuterE_eq]
    rcases h : it.stepOuterE with ⟨b, it'⟩
    cases b with
    | none => rfl
    | some b =>
      cases b with
      | false => rfl
      | true => exact takeE_erase _ s
  · exact takeE_erase _ s

theorem innerLoopE_erase (f : τ → α → M σ τ) (is : List Nat) (e : Expr σ α) (acc : τ) (s : σ) :
    (innerLoopE f is e acc s).erase = innerLoop f is e acc s := by
  induction is generalizing e acc s with
  | nil => rfl
  | cons i is ih =>
    unfold innerLoopE innerLoop
    simp only [Out.erase_andThen, Out.erase_call, getE_erase, M.bind]
    cases e.get i s with
    | ok p t =>
      simp only
      cases f acc p.1 t with
      | ok acc' u => exact ih _ _ _
      | _ => rfl
    | _ => rfl

theorem foldLoopE_result (f : τ → α → M σ τ) (fuel : Nat) (it : Iter σ α) (acc : τ) (s : σ) :
    (foldLoopE f fuel it acc s).result = foldLoop f fuel it acc s := by
  induction fuel generalizing it acc s with
  | zero => rfl
  | succ fuel ih =>
    have h := innerLoopE_erase f (List.range' it.innerIndex (it.innerLimit - it.innerIndex)) it.expr acc s
    unfold foldLoopE foldLoop
    conv_rhs => unfold M.bind
    simp only
    rw [← h]
    generalize innerLoopE f (List.range' it.innerIndex (it.innerLimit - it.innerIndex)) it.expr acc s = r
    cases r with
    | ok acc e s =>
      simp only [Out.erase, Out.andThen]
      rw [stepOuterE_eq]
      rcases h : ({ it with expr := e } : Iter σ α).stepOuterE with ⟨b, it'⟩
      cases b with
      | none => rfl
      | some b =>
        cases b with
        | false => rfl
        | true => exact ih _ _ _
    | _ => rfl

theorem foldE_result (f : τ → α → M σ τ) (it : Iter σ α) (acc : τ) (s : σ) :
    (it.foldE acc f s).result = it.fold acc f s := foldLoopE_result f _ it acc s

/-! The position of the iterator. -/

/-- The loop of `step_outer` without the expression. -/
def stepIdx (limit : List Nat) : Nat → List Nat → Option Bool × List Nat
  | 0, oi => (some false, oi.map fun _ => 0)
  | i + 1, oi =>
    match oi[i]?, limit[i]? with
    | some x, some l => if x + 1 < l then (some true, oi.set i (x + 1)) else stepIdx limit i (oi.set i 0)
    | _, _ => (none, oi)

theorem stepLoop_idx (limit : List Nat) (n : Nat) (e : Expr σ α) (oi : List Nat) {r}
    (h : stepLoop limit n e oi = some r) : stepIdx limit n oi = (some r.1, r.2.2) := by
  induction n generalizing e oi with
  | zero =>
    simp only [stepLoop, Option.some.injEq] at h
    subst h
    rfl
  | succ i ih =>
    unfold stepLoop at h
    unfold stepIdx
    simp only [Option.bind_eq_some_iff] at h
    obtain ⟨x, hx, l, hl, h⟩ := h
    simp only [hx, hl]
    split at h
    · simp only [Option.map_eq_some_iff] at h
      obtain ⟨e', -, rfl⟩ := h
      rw [if_pos (by assumption)]
    · simp only [Option.bind_eq_some_iff] at h
      obtain ⟨e', -, h⟩ := h
      rw [if_neg (by assumption)]
      exact ih _ _ h

theorem stepLoopE_idx (limit : List Nat) (n : Nat) {e : Expr σ α} (hw : e.Wfs) (hb : ¬ BadFn e)
    (hn : n ≤ e.dims.length) (oi : List Nat) :
    ((stepLoopE limit n e oi).1, (stepLoopE limit n e oi).2.2) = stepIdx limit n oi := by
  induction n generalizing e oi with
  | zero => rfl
  | succ i ih =>
    unfold stepLoopE stepIdx
    rcases Option.eq_none_or_eq_some oi[i]? with h | ⟨x, h⟩
    · simp [h]
    rcases Option.eq_none_or_eq_some limit[i]? with h' | ⟨l, h'⟩
    · simp [h']
    simp only [h, h']
    split
    · rw [if_pos (stepDimE_true hw hb (by omega))]
    · rw [if_pos (resetDimE_true hw hb (by omega) _)]
      have hl := (later_resetDimE e i x).1
      exact ih (hl.wfs hw) (fun h => hb (hl.bad.1 h)) (by unfold dims; rw [hl.shape]; exact Nat.le_of_succ_le hn) _

theorem stepLoopE_later (limit : List Nat) (n : Nat) (e : Expr σ α) (oi : List Nat) :
    Later e (stepLoopE limit n e oi).2.1 ∧ (stepLoopE limit n e oi).2.1.owned = e.owned := by
  induction n generalizing e oi with
  | zero => exact ⟨.refl _, rfl⟩
  | succ i ih =>
    unfold stepLoopE
    split
    · split
      · split
        · exact later_stepDimE e i
        · exact later_stepDimE e i
      · rename_i x l _ _ _
        have hl := later_resetDimE e i x
        split
        · exact ⟨hl.1.trans (ih _ _).1, (ih _ _).2.trans hl.2⟩
        · exact hl
    · exact ⟨.refl _, rfl⟩

theorem stepOuterE_later (it : Iter σ α) :
    Later it.expr it.stepOuterE.2.expr ∧ it.stepOuterE.2.expr.owned = it.expr.owned ∧
      it.stepOuterE.2.innerIndex = it.innerIndex ∧ it.stepOuterE.2.innerLimit = it.innerLimit ∧
      it.stepOuterE.2.outerLimit = it.outerLimit := by
  unfold stepOuterE
  have hp : Later it.expr (if it.expr.outerRank < it.expr.rank then it.expr.resetDimE (it.expr.rank - 1) 0
        else (true, it.expr)).2 ∧
      (if it.expr.outerRank < it.expr.rank then it.expr.resetDimE (it.expr.rank - 1) 0
        else (true, it.expr)).2.owned = it.expr.owned := by
    split
    · exact later_resetDimE _ _ _
    · exact ⟨.refl _, rfl⟩
  simp only
  generalize (if it.expr.outerRank < it.expr.rank then it.expr.resetDimE (it.expr.rank - 1) 0
        else (true, it.expr)) = p at hp ⊢
  split
  · have hl := stepLoopE_later it.outerLimit it.expr.outerRank p.2 it.outerIndex
    exact ⟨hp.1.trans hl.1, hl.2.trans hp.2, rfl, rfl, rfl⟩
  · exact ⟨hp.1, hp.2, rfl, rfl, rfl⟩

/-- The outer index in row `q`. -/
def rowIndex (e : Expr σ α) (q : Nat) : List Nat :=
  if e.outerRank > 0 then unrank (lims e.dims e.outerRank) q ++
    List.replicate (e.dims.length - e.outerRank) 0 else []

theorem iterAt_index (e : Expr σ α) (q c n : Nat) : (iterAt e q c n).outerIndex = rowIndex e q := rfl

/-- `it` is an iterator of `e` in row `q`, at position `c` of the row. -/
structure At (e : Expr σ α) (q c : Nat) (it : Iter σ α) : Prop where
  later : Later e it.expr
  inner : it.innerIndex = c
  limit : it.innerLimit = row e
  olimit : it.outerLimit = if e.outerRank > 0 then e.dims else []
  index : it.outerIndex = rowIndex e q
  hq : q < rows e
  hc : c ≤ row e

theorem at_new (e : Expr σ α) : At e 0 0 (Iter.new e) := by
  refine ⟨.refl _, rfl, innerLimit_new e, rfl, ?_, lims_pos _ _, Nat.zero_le _⟩
  unfold rowIndex
  rw [unrank_zero, length_lims (outerRank_le e), ← List.replicate_add,
    show e.outerRank + (e.dims.length - e.outerRank) = e.dims.length by have := outerRank_le e; omega]
  unfold Iter.new
  simp

/-- What the loop of `step_outer` does to the outer index. -/
theorem stepIdx_at {e : Expr σ α} (hw : e.Wf) {q c : Nat} {it : Iter σ α} (h : At e q c it) :
    stepIdx it.outerLimit e.outerRank it.outerIndex =
      (some (decide (q + 1 < rows e)), rowIndex e (if q + 1 < rows e then q + 1 else 0)) := by
  have hspec := stepOuter_spec (n := 0) (k := 0) (c := 1) hw h.hq (by intro _ _; exact Or.inl rfl)
  rw [h.olimit, h.index]
  obtain ⟨x, hx⟩ : ∃ x, (if q + 1 < size (lims e.dims e.outerRank) then
      some (true, ({ iterAt e (q + 1) 0 0 with innerIndex := 0 } : Iter σ α))
    else some (false, { iterAt e 0 (if e.dims = [] then 1 else 0) 0 with innerIndex := 0 })) = some x := by
    split <;> exact ⟨_, rfl⟩
  replace hspec := hspec.trans hx
  unfold stepOuter at hspec
  simp only [iterAt, adv_outerRank] at hspec
  simp only [Option.bind_eq_some_iff, Option.map_eq_some_iff] at hspec
  obtain ⟨e', -, r, hr, hxr⟩ := hspec
  have := stepLoop_idx _ _ _ _ hr
  refine Eq.trans this ?_
  have h1 : r.1 = x.1 := by rw [← hxr]
  have h2 : r.2.2 = x.2.outerIndex := by rw [← hxr]
  rw [h1, h2]
  by_cases hq : q + 1 < rows e
  · have hq' : q + 1 < size (lims e.dims e.outerRank) := hq
    rw [if_pos hq'] at hx
    injection hx with hx
    rw [← hx, if_pos hq]
    simp [hq, iterAt_index]
  · have hq' : ¬ q + 1 < size (lims e.dims e.outerRank) := hq
    rw [if_neg hq'] at hx
    injection hx with hx
    rw [← hx, if_neg hq]
    simp [hq, iterAt_index]

/-- What `step_outer` does to the outer index. -/
theorem stepOuterE_index {e : Expr σ α} (hw : e.Wf) (hb : ¬ BadFn e) {q c : Nat} {it : Iter σ α}
    (h : At e q c it) :
    it.stepOuterE.1 = some (decide (q + 1 < rows e)) ∧
      it.stepOuterE.2.outerIndex = rowIndex e (if q + 1 < rows e then q + 1 else 0) := by
  have hwit : it.expr.Wfs := h.later.wfs hw.wfs
  have hbit : ¬ BadFn it.expr := fun hb' => hb (h.later.bad.1 hb')
  have hor := h.later.outerRank
  have hrk : it.expr.rank = e.dims.length := by unfold rank; rw [h.later.shape]
  have hidx := stepIdx_at hw h
  unfold stepOuterE
  rw [hor, hrk]
  have hp : (if e.outerRank < e.dims.length then it.expr.resetDimE (e.dims.length - 1) 0
        else (true, it.expr)).1 = true ∧ Later it.expr (if e.outerRank < e.dims.length then
          it.expr.resetDimE (e.dims.length - 1) 0 else (true, it.expr)).2 := by
    split
    · exact ⟨resetDimE_true hwit hbit (show _ < it.expr.rank by rw [hrk]; omega) 0, (later_resetDimE _ _ _).1⟩
    · exact ⟨rfl, .refl _⟩
  simp only
  generalize (if e.outerRank < e.dims.length then it.expr.resetDimE (e.dims.length - 1) 0
        else (true, it.expr)) = p at hp ⊢
  rw [if_pos hp.1]
  have hl := stepLoopE_idx it.outerLimit e.outerRank (hp.2.wfs hwit) (fun h => hbit (hp.2.bad.1 h))
    (by unfold dims; rw [hp.2.shape, h.later.shape]; exact outerRank_le e) it.outerIndex
  rw [hidx] at hl
  simp only [Prod.mk.injEq] at hl
  exact hl

/-- With a `from_fn` of dynamic rank, `step_outer` panics before it changes the outer index, or it goes on to
the next row. -/
theorem stepOuterE_bad {e : Expr σ α} (hw : e.Wf) (hb : BadFn e) {q c : Nat} {it : Iter σ α}
    (h : At e q c it) :
    (it.stepOuterE.1 = none ∧ it.stepOuterE.2.outerIndex = it.outerIndex) ∨
    (it.stepOuterE.1 = some true ∧ q + 1 < rows e ∧ it.stepOuterE.2.outerIndex = rowIndex e (q + 1)) := by
  have hrk : it.expr.rank = e.dims.length := by unfold rank; rw [h.later.shape]
  obtain ⟨hpos, hbad⟩ := resetDimE_bad (h.later.wfs hw.wfs) (h.later.bad.2 hb) 0
  have hbad' := fun n => (resetDimE_bad (h.later.wfs hw.wfs) (h.later.bad.2 hb) n).2
  rw [show it.expr.dims.length = e.dims.length from hrk] at hpos hbad
  have hle := outerRank_le e
  have hidx := stepIdx_at hw h
  unfold stepOuterE
  rw [h.later.outerRank, hrk]
  by_cases ho : e.outerRank < e.dims.length
  · left
    simp only [if_pos ho, hbad]
    exact ⟨rfl, rfl⟩
  · have heq : e.outerRank = e.dims.length := by omega
    obtain ⟨i, hi⟩ : ∃ i, e.outerRank = i + 1 := ⟨e.outerRank - 1, by omega⟩
    simp only [if_neg ho, if_true]
    rw [hi] at hidx ⊢
    unfold stepIdx at hidx
    unfold stepLoopE
    rcases Option.eq_none_or_eq_some it.outerIndex[i]? with h1 | ⟨x, h1⟩
    · simp [h1]
    rcases Option.eq_none_or_eq_some it.outerLimit[i]? with h2 | ⟨l, h2⟩
    · simp [h1, h2]
    simp only [h1, h2] at hidx ⊢
    by_cases hx : x + 1 < l
    · rw [if_pos hx] at hidx ⊢
      simp only [Prod.mk.injEq, Option.some.injEq, eq_comm (a := true), decide_eq_true_eq] at hidx
      rw [if_pos hidx.1] at hidx
      split
      · exact Or.inr ⟨rfl, hidx.1, hidx.2⟩
      · exact Or.inl ⟨rfl, rfl⟩
    · rw [if_neg hx]
      have hd : it.expr.dims.length - 1 = i := by
        rw [show it.expr.dims.length = e.dims.length from hrk]; omega
      have := hbad' x
      rw [hd] at this
      rw [this]
      exact Or.inl ⟨rfl, rfl⟩

/-- What `step_outer` does to the position. -/
theorem stepOuterE_at {e : Expr σ α} (hw : e.Wf) {q c : Nat} {it : Iter σ α} (h : At e q c it) :
    it.stepOuterE.2.expr.owned = it.expr.owned ∧
    ((it.stepOuterE.1 = none ∧ BadFn e ∧ At e q c it.stepOuterE.2) ∨
      (it.stepOuterE.1 = some true ∧ q + 1 < rows e ∧ At e (q + 1) c it.stepOuterE.2) ∨
      (it.stepOuterE.1 = some false ∧ q + 1 = rows e ∧ At e 0 c it.stepOuterE.2)) := by
  obtain ⟨hl, ho, h1, h2, h3⟩ := stepOuterE_later it
  refine ⟨ho, ?_⟩
  have hat : ∀ q', q' < rows e → it.stepOuterE.2.outerIndex = rowIndex e q' → At e q' c it.stepOuterE.2 :=
    fun q' hq' hi => ⟨h.later.trans hl, h1.trans h.inner, h2.trans h.limit, h3.trans h.olimit, hi, hq', h.hc⟩
  by_cases hb : BadFn e
  · rcases stepOuterE_bad hw hb h with ⟨h4, h5⟩ | ⟨h4, h5, h6⟩
    · exact Or.inl ⟨h4, hb, hat q h.hq (h5.trans h.index)⟩
    · exact Or.inr (Or.inl ⟨h4, h5, hat _ h5 h6⟩)
  · obtain ⟨h4, h5⟩ := stepOuterE_index hw hb h
    by_cases hq : q + 1 < rows e
    · rw [if_pos hq] at h5
      exact Or.inr (Or.inl ⟨by rw [h4]; simp [hq], hq, hat _ hq h5⟩)
    · rw [if_neg hq] at h5
      have := h.hq
      exact Or.inr (Or.inr ⟨by rw [h4]; simp [hq], by omega, hat _ (by omega) h5⟩)

/-! `next` -/

/-- The number of items before the position. -/
def pos (e : Expr σ α) (q c : Nat) : Nat := q * row e + c

theorem takeE_at {e : Expr σ α} {q c : Nat} {it : Iter σ α} (h : At e q c it) (hc : c < row e) (s : σ) :
    match it.takeE s with
    | .ok x it' _ => x ≠ none ∧ AllTaken it.expr.owned it'.expr.owned ∧ At e q (c + 1) it'
    | .panic it' _ => SomeTaken it.expr.owned it'.expr.owned ∧ At e q (c + 1) it'
    | _ => True := by
  have hg := got_getE it.expr it.innerIndex s
  unfold takeE
  generalize it.expr.getE it.innerIndex s = r at hg ⊢
  have hat : ∀ e', Later it.expr e' → At e q (c + 1) { it with expr := e', innerIndex := it.innerIndex + 1 } :=
    fun e' hl => ⟨h.later.trans hl, by simp [h.inner], h.limit, h.olimit, h.index, h.hq, hc⟩
  cases r with
  | ok x e' t => exact ⟨by simp, hg.2, hat e' hg.1⟩
  | panic e' t => exact ⟨hg.2, hat e' hg.1⟩
  | _ => trivial

theorem takeE_clean {e : Expr σ α} (hw : e.Wf) (hs : 0 < size e.dims) (ht : TameClosures e) {q c : Nat}
    {it : Iter σ α} (h : At e q c it) (hc : c < row e) (ho : ∀ p ∈ it.expr.owned, p.1 ≤ pos e q c) (s : σ) :
    Safe (it.takeE s) := by
  refine clean_andThen (clean_getE (h.later.tame ht) (fun p hp => ?_) _ _) fun _ _ _ _ => trivial
  have h2 := (owned_size (h.later.wfs hw.wfs)).1 p hp
  have h1 := ho p hp
  have hd : it.expr.dims = e.dims := by unfold dims; rw [h.later.shape]
  rw [h2, hd, size_split hs]
  have hq := h.hq
  calc p.1 ≤ q * row e + c := h1
    _ < q * row e + row e := by omega
    _ = (q + 1) * row e := by ring
    _ ≤ rows e * row e := Nat.mul_le_mul_right _ hq

/-- What a call of `next` does to an iterator at position `q`, `c`. -/
def Next (e : Expr σ α) (q c : Nat) (it : Iter σ α) : Out σ (Option α) (Iter σ α) → Prop
  | .ok (some _) it' _ => AllTaken it.expr.owned it'.expr.owned ∧
      ∃ q' c', At e q' c' it' ∧ pos e q' c' = pos e q c + 1
  | .ok none it' _ => it'.expr.owned = it.expr.owned ∧ c = row e ∧ q + 1 = rows e ∧ At e 0 (row e) it'
  | .panic it' _ => SomeTaken it.expr.owned it'.expr.owned ∧
      ((∃ q' c', At e q' c' it' ∧ pos e q' c' = pos e q c + 1) ∨
        (BadFn e ∧ it'.expr.owned = it.expr.owned ∧ At e q c it'))
  | _ => True

theorem nextE_at {e : Expr σ α} (hw : e.Wf) (hp : Plain e) {q c : Nat} {it : Iter σ α} (h : At e q c it)
    (s : σ) : Next e q c it (it.nextE s) := by
  unfold nextE
  by_cases hc : it.innerIndex = it.innerLimit
  · rw [if_pos hc]
    have hcr : c = row e := by rw [← h.inner, ← h.limit]; exact hc
    obtain ⟨ho, h1 | h1 | h1⟩ := stepOuterE_at hw h
    · rcases hst : it.stepOuterE with ⟨b, it'⟩
      rw [hst] at h1 ho
      obtain ⟨rfl, hb, hat⟩ := h1
      exact ⟨ho ▸ .refl _, Or.inr ⟨hb, ho, hat⟩⟩
    · rcases hst : it.stepOuterE with ⟨b, it'⟩
      rw [hst] at h1 ho
      obtain ⟨rfl, hq, hat⟩ := h1
      have hs : 0 < size e.dims := by
        rcases hp with hp | hp
        · exact hp
        · have := rows_eq_one hp.2
          omega
      have hat' : At e (q + 1) 0 { it' with innerIndex := 0 } :=
        ⟨hat.later, rfl, hat.limit, hat.olimit, hat.index, hat.hq, Nat.zero_le _⟩
      have ht := takeE_at hat' (row_pos hs) s
      have hpos : pos e (q + 1) (0 + 1) = pos e q c + 1 := by
        unfold pos; rw [hcr, Nat.add_mul, Nat.one_mul]
      simp only
      generalize ({ it' with innerIndex := 0 } : Iter σ α).takeE s = r at ht ⊢
      cases r with
      | ok x it'' t =>
        cases x with
        | none => exact (ht.1 rfl).elim
        | some x => exact ⟨ho ▸ ht.2.1, _, _, ht.2.2, hpos⟩
      | panic it'' t => exact ⟨ho ▸ ht.1, Or.inl ⟨_, _, ht.2, hpos⟩⟩
      | _ => trivial
    · rcases hst : it.stepOuterE with ⟨b, it'⟩
      rw [hst] at h1 ho
      obtain ⟨rfl, hq, hat⟩ := h1
      exact ⟨ho, hcr, hq, hcr ▸ hat⟩
  · rw [if_neg hc]
    have hcr : c < row e := by
      have := h.hc
      rw [h.inner, h.limit] at hc
      omega
    have ht := takeE_at h hcr s
    generalize it.takeE s = r at ht ⊢
    cases r with
    | ok x it'' t =>
      cases x with
      | none => exact (ht.1 rfl).elim
      | some x => exact ⟨ht.2.1, _, _, ht.2.2, rfl⟩
    | panic it'' t => exact ⟨ht.1, Or.inl ⟨_, _, ht.2, rfl⟩⟩
    | _ => trivial

theorem nextE_clean {e : Expr σ α} (hw : e.Wf) (hp : Plain e) (ht : TameClosures e) {q c : Nat}
    {it : Iter σ α} (h : At e q c it) (ho : ∀ p ∈ it.expr.owned, p.1 ≤ pos e q c) (s : σ) :
    Safe (it.nextE s) := by
  unfold nextE
  by_cases hc : it.innerIndex = it.innerLimit
  · rw [if_pos hc]
    have hcr : c = row e := by rw [← h.inner, ← h.limit]; exact hc
    obtain ⟨ho', h1 | h1 | h1⟩ := stepOuterE_at hw h
    · rcases hst : it.stepOuterE with ⟨b, it'⟩
      rw [hst] at h1
      obtain ⟨rfl, -⟩ := h1
      trivial
    · rcases hst : it.stepOuterE with ⟨b, it'⟩
      rw [hst] at h1 ho'
      obtain ⟨rfl, hq, hat⟩ := h1
      have hs : 0 < size e.dims := by
        rcases hp with hp | hp
        · exact hp
        · have := rows_eq_one hp.2
          omega
      have hat' : At e (q + 1) 0 { it' with innerIndex := 0 } :=
        ⟨hat.later, rfl, hat.limit, hat.olimit, hat.index, hat.hq, Nat.zero_le _⟩
      refine takeE_clean hw hs ht hat' (row_pos hs) (fun p hp' => ?_) s
      have := ho p (ho' ▸ hp')
      unfold pos at this ⊢
      rw [hcr] at this
      rw [Nat.add_mul, Nat.one_mul]
      exact this
    · rcases hst : it.stepOuterE with ⟨b, it'⟩
      rw [hst] at h1
      obtain ⟨rfl, -⟩ := h1
      trivial
  · rw [if_neg hc]
    have hcr : c < row e := by
      have := h.hc
      rw [h.inner, h.limit] at hc
      omega
    have hs : 0 < size e.dims := by
      rcases hp with hp | hp
      · exact hp
      · have : row e = 0 := hp.1
        omega
    exact takeE_clean hw hs ht h hcr ho s

theorem _root_.Spec.SomeTaken.bound {ps qs : List (Nat × Nat)} (h : SomeTaken ps qs) {n : Nat}
    (hn : ∀ p ∈ ps, p.1 ≤ n) : ∀ q ∈ qs, q.1 ≤ n + 1 := by
  unfold SomeTaken at h
  induction h with
  | nil => simp
  | cons h _ ih =>
    intro q hq
    rcases List.mem_cons.1 hq with rfl | hq
    · have := hn _ List.mem_cons_self
      omega
    · exact ih (fun p hp => hn p (List.mem_cons_of_mem _ hp)) q hq

/-- Iterators before the end. -/
theorem after_at {e : Expr σ α} (hw : e.Wf) (hp : Plain e) {n : Nat} {it : Iter σ α} (h : After e n it)
    (h0 : ∀ p ∈ e.owned, p.1 = 0) :
    ∃ q c, At e q c it ∧ (∀ p ∈ it.expr.owned, p.1 ≤ pos e q c) ∧ pos e q c ≤ n ∧
      (¬ BadFn e → pos e q c = n) := by
  induction h with
  | new => exact ⟨0, 0, at_new e, fun p hp => by rw [h0 p hp]; exact Nat.zero_le _, by simp [pos], by simp [pos]⟩
  | @item n it x it' s t _ hn ih =>
    obtain ⟨q, c, hat, ho, hpos, hbad⟩ := ih
    have := nextE_at hw hp hat s
    rw [hn] at this
    obtain ⟨hT, q', c', hat', hpos'⟩ := this
    exact ⟨q', c', hat', by rw [hpos']; exact hT.some.bound ho, by omega, fun hb => by have := hbad hb; omega⟩
  | @panic n it it' s t _ hn ih =>
    obtain ⟨q, c, hat, ho, hpos, hbad⟩ := ih
    have := nextE_at hw hp hat s
    rw [hn] at this
    obtain ⟨hT, ⟨q', c', hat', hpos'⟩ | ⟨hb, hO, hat'⟩⟩ := this
    · exact ⟨q', c', hat', by rw [hpos']; exact hT.bound ho, by omega, fun hb => by have := hbad hb; omega⟩
    · exact ⟨q, c, hat', by rw [hO]; exact ho, by omega, fun h => (h hb).elim⟩

theorem pos_le {e : Expr σ α} (hp : Plain e) {q c : Nat} {it : Iter σ α} (h : At e q c it) :
    pos e q c ≤ size e.dims := by
  rcases Nat.eq_zero_or_pos (size e.dims) with h0 | h0
  · have hr : row e = 0 := noPhantom hp h0
    have := h.hc
    rw [h0]
    unfold pos
    rw [hr] at this ⊢
    omega
  · rw [size_split h0]
    have hq := h.hq
    have hc := h.hc
    calc q * row e + c ≤ q * row e + row e := by omega
      _ = (q + 1) * row e := by ring
      _ ≤ rows e * row e := Nat.mul_le_mul_right _ hq

theorem owned_new {e : Expr σ α} (hw : e.Wf) : ∀ p ∈ e.owned, p.1 = 0 := by
  induction e with
  | intoExpr s buf idx =>
    intro p hp
    rw [owned, List.mem_singleton] at hp
    rw [hp]
    exact hw.2.2
  | map e f ih => exact ih hw
  | enumerate e k ih => exact ih hw.1
  | zip a b s iha ihb =>
    intro p hp
    rcases List.mem_append.1 hp with hp | hp
    · exact iha hw.1 p hp
    · exact ihb hw.2.1 p hp
  | _ => intro p hp; simp [owned] at hp

/-- Iterators with one row, also after the end. -/
theorem called_at {e : Expr σ α} (hw : e.Wf) (hp : Plain e) (h1 : rows e = 1) {it : Iter σ α}
    (h : Called e it) : ∃ c, At e 0 c it ∧ (∀ p ∈ it.expr.owned, p.1 ≤ c) := by
  have hz : ∀ {q c : Nat} {it : Iter σ α}, At e q c it → q = 0 := fun h => by have := h.hq; omega
  induction h with
  | new => exact ⟨0, at_new e, fun p hp => by rw [owned_new hw p hp]⟩
  | @ok it x it' s t _ hn ih =>
    obtain ⟨c, hat, ho⟩ := ih
    have := nextE_at hw hp hat s
    rw [hn] at this
    cases x with
    | some x =>
      obtain ⟨hT, q', c', hat', hpos'⟩ := this
      have hq' := hz hat'
      subst hq'
      unfold pos at hpos'
      refine ⟨c', hat', ?_⟩
      rw [show c' = c + 1 by omega]
      exact hT.some.bound ho
    | none =>
      obtain ⟨hO, hc, -, hat'⟩ := this
      exact ⟨row e, hat', by rw [hO, ← hc]; exact ho⟩
  | @panic it it' s t _ hn ih =>
    obtain ⟨c, hat, ho⟩ := ih
    have := nextE_at hw hp hat s
    rw [hn] at this
    obtain ⟨hT, ⟨q', c', hat', hpos'⟩ | ⟨hb, hO, hat'⟩⟩ := this
    · have hq' := hz hat'
      subst hq'
      unfold pos at hpos'
      refine ⟨c', hat', ?_⟩
      rw [show c' = c + 1 by omega]
      exact hT.bound ho
    · exact ⟨c, hat', by rw [hO]; exact ho⟩

/-! `fold` -/

/-- `k` elements more have been moved out of each array. -/
def plus (k : Nat) (ps : List (Nat × Nat)) : List (Nat × Nat) := ps.map fun p => (p.1 + k, p.2)

theorem plus_zero (ps : List (Nat × Nat)) : plus 0 ps = ps := by simp [plus]

theorem plus_plus (a b : Nat) (ps : List (Nat × Nat)) : plus a (plus b ps) = plus (b + a) ps := by
  simp [plus, Nat.add_assoc]

/-- Outcome of a part of `fold` with `k` items, for the arrays `ps` of an expression that is a state of `e`.
There is no undefined behaviour if `T` (the functions are well-behaved). -/
def Folded (T : Prop) (e : Expr σ α) (ps : List (Nat × Nat)) (k : Nat) : Out σ τ (Expr σ α) → Prop
  | .ok _ e' _ => Later e e' ∧ e'.owned = plus k ps
  | .panic e' _ => Later e e' ∧ ((∃ j, j < k ∧ SomeTaken (plus j ps) e'.owned) ∨
      (BadFn e ∧ ∃ j, j ≤ k ∧ e'.owned = plus j ps))
  | .ub => ¬ T
  | .abort => ¬ T

theorem Folded.shift {T : Prop} {e : Expr σ α} {ps : List (Nat × Nat)} {a k : Nat} {r : Out σ τ (Expr σ α)}
    (h : Folded T e (plus a ps) k r) : Folded T e ps (a + k) r := by
  cases r with
  | ok x e' t => exact ⟨h.1, by rw [h.2, plus_plus]⟩
  | panic e' t =>
    refine ⟨h.1, ?_⟩
    rcases h.2 with ⟨j, hj, h⟩ | ⟨hb, j, hj, h⟩
    · exact Or.inl ⟨a + j, by omega, by rwa [plus_plus] at h⟩
    · exact Or.inr ⟨hb, a + j, by omega, by rwa [plus_plus] at h⟩
  | ub => exact h
  | abort => exact h

theorem innerLoopE_folded {T : Prop} {e : Expr σ α} (ht : T → TameClosures e) (f : τ → α → M σ τ)
    (hf : T → ∀ acc x, (f acc x).Tame) (is : List Nat) {e' : Expr σ α} (hl : Later e e')
    (ho : ∀ p ∈ e'.owned, p.1 + is.length ≤ p.2) (acc : τ) (s : σ) :
    Folded T e e'.owned is.length (innerLoopE f is e' acc s) := by
  induction is generalizing e' acc s with
  | nil => exact ⟨hl, (plus_zero _).symm⟩
  | cons i is ih =>
    have hg := got_getE e' i s
    have hc := fun hT : T => clean_getE (hl.tame (ht hT)) (fun p hp => by have := ho p hp; simp at this; omega) i s
    unfold innerLoopE
    generalize e'.getE i s = r at hg hc ⊢
    cases r with
    | ok x e₁ t =>
      have h1 : e₁.owned = plus 1 e'.owned := hg.2
      have hcl := fun hT : T => clean_call (hf hT acc x) t e₁
      simp only [Out.andThen]
      cases hfx : f acc x t with
      | ok acc' u =>
        have := ih (e' := e₁) (hl.trans hg.1) (by
          intro p hp
          rw [h1] at hp
          simp only [plus, List.mem_map] at hp
          obtain ⟨p', hp', rfl⟩ := hp
          have := ho p' hp'
          simp at this ⊢
          omega) acc' u
        rw [h1] at this
        have := this.shift
        rw [Nat.add_comm 1] at this
        exact this
      | panic u => exact ⟨hl.trans hg.1, Or.inl ⟨0, by simp, by rw [plus_zero]; exact hg.2.some⟩⟩
      | ub => intro hT; have := hcl hT; rw [hfx] at this; exact this
      | abort => intro hT; have := hcl hT; rw [hfx] at this; exact this
    | panic e₁ t => exact ⟨hl.trans hg.1, Or.inl ⟨0, by simp, by rw [plus_zero]; exact hg.2⟩⟩
    | ub => exact hc
    | abort => exact hc

theorem foldLoopE_folded {T : Prop} {e : Expr σ α} (hw : e.Wf) (ht : T → TameClosures e) (hp : NoPhantom e)
    (f : τ → α → M σ τ) (hf : T → ∀ acc x, (f acc x).Tame) (fuel : Nat) {q c : Nat} {it : Iter σ α}
    (h : At e q c it) (hfuel : rows e - q ≤ fuel) (ho : ∀ p ∈ it.expr.owned, p.1 ≤ pos e q c) (acc : τ) (s : σ) :
    Folded T e it.expr.owned (rows e * row e - pos e q c) (foldLoopE f fuel it acc s) := by
  induction fuel generalizing q c it acc s with
  | zero => have := h.hq; omega
  | succ fuel ih =>
    have hq := h.hq
    have hc := h.hc
    have hrow : (q + 1) * row e ≤ rows e * row e := Nat.mul_le_mul_right _ hq
    have hqr : (q + 1) * row e = q * row e + row e := by ring
    have hlen : (List.range' it.innerIndex (it.innerLimit - it.innerIndex)).length = row e - c := by
      rw [List.length_range', h.limit, h.inner]
    have hinner := innerLoopE_folded ht f hf (List.range' it.innerIndex (it.innerLimit - it.innerIndex))
      (e' := it.expr) h.later (by
        intro p hpm
        rw [hlen]
        have h1 := ho p hpm
        have h2 := (owned_size (h.later.wfs hw.wfs)).1 p hpm
        have hd : it.expr.dims = e.dims := by unfold dims; rw [h.later.shape]
        rw [hd] at h2
        unfold pos at h1
        rcases Nat.eq_zero_or_pos (size e.dims) with h0 | h0
        · have hr : row e = 0 := hp h0
          rw [hr] at hc h1 ⊢
          omega
        · rw [size_split h0] at h2
          omega) acc s
    rw [hlen] at hinner
    unfold foldLoopE
    generalize innerLoopE f (List.range' it.innerIndex (it.innerLimit - it.innerIndex)) it.expr acc s = r
      at hinner ⊢
    have hk : rows e * row e - pos e q c = (row e - c) + (rows e * row e - pos e (q + 1) 0) := by
      unfold pos; omega
    cases r with
    | ok acc' e₁ t =>
      obtain ⟨hl, h1⟩ := hinner
      have hat : At e q c { it with expr := e₁ } := ⟨hl, h.inner, h.limit, h.olimit, h.index, h.hq, h.hc⟩
      simp only [Out.andThen]
      obtain ⟨ho', hst⟩ := stepOuterE_at hw hat
      rcases hso : ({ it with expr := e₁ } : Iter σ α).stepOuterE with ⟨b, it'⟩
      rw [hso] at ho' hst
      simp only at ho' hst
      rcases hst with ⟨rfl, hb, hat'⟩ | ⟨rfl, hq', hat'⟩ | ⟨rfl, hq', hat'⟩
      · exact ⟨hat'.later, Or.inr ⟨hb, row e - c, by omega, by rw [ho', h1]⟩⟩
      · have := ih (it := { it' with innerIndex := 0 }) (q := q + 1) (c := 0)
          ⟨hat'.later, rfl, hat'.limit, hat'.olimit, hat'.index, hat'.hq, Nat.zero_le _⟩ (by omega) (by
            intro p hp
            simp only [ho', h1, plus, List.mem_map] at hp
            obtain ⟨p', hp', rfl⟩ := hp
            have := ho p' hp'
            unfold pos at this ⊢
            simp only
            omega) acc' t
        simp only [ho', h1] at this
        rw [hk]
        exact this.shift
      · refine ⟨hat'.later, ?_⟩
        rw [ho', h1, hk]
        have : rows e * row e - pos e (q + 1) 0 = 0 := by unfold pos; rw [hq']; omega
        rw [this]; rfl
    | panic e₁ t =>
      obtain ⟨hl, ⟨j, hj, h1⟩ | ⟨hb, j, hj, h1⟩⟩ := hinner
      · exact ⟨hl, Or.inl ⟨j, by omega, h1⟩⟩
      · exact ⟨hl, Or.inr ⟨hb, j, by omega, h1⟩⟩
    | ub => exact hinner
    | abort => exact hinner

theorem outerCount_at {e : Expr σ α} {q c : Nat} {it : Iter σ α} (h : At e q c it) : it.outerCount = rows e := by
  rw [← outerCount_iterAt e 0 0 0]
  unfold outerCount
  rw [h.later.outerRank, h.olimit]
  simp [iterAt]

theorem foldE_folded {T : Prop} {e : Expr σ α} (hw : e.Wf) (ht : T → TameClosures e) (hp : NoPhantom e)
    (f : τ → α → M σ τ) (hf : T → ∀ acc x, (f acc x).Tame) {q c : Nat} {it : Iter σ α}
    (h : At e q c it) (ho : ∀ p ∈ it.expr.owned, p.1 ≤ pos e q c) (acc : τ) (s : σ) :
    Folded T e it.expr.owned (rows e * row e - pos e q c) (it.foldE acc f s) := by
  unfold foldE
  rw [outerCount_at h]
  exact foldLoopE_folded hw ht hp f hf _ h (Nat.sub_le _ _) ho acc s

end Iter
end Model
