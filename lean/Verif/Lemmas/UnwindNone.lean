import Verif.Lemmas.Unwind

/-! Destructors that do not panic; forms of the lemmas that the properties use. -/

namespace Model

section
variable {ρ α β : Type}

theorem M.onPanic_bind_handler (c : M ρ α) (g h : M ρ Unit) :
    M.onPanic c (M.bind g fun _ => h) = M.onPanic (M.onPanic c g) h := by
  funext s
  unfold M.onPanic M.bind
  cases hc : c s with
  | ok a t => rfl
  | ub => rfl
  | abort => rfl
  | panic t =>
    simp only
    cases hg : g t with
    | ok a u => rfl
    | ub => rfl
    | abort => rfl
    | panic u => rfl

theorem M.onPanic_bind {x : M ρ α} {k : α → M ρ β} (hk : ∀ a s t, k a s ≠ .panic t) (h : M ρ Unit) :
    M.onPanic (M.bind x k) h = M.bind (M.onPanic x h) k := by
  funext s
  cases hx : x s with
  | ok a t =>
    cases hy : k a t with
    | panic u => exact absurd hy (hk _ _ _)
    | _ => simp only [M.onPanic, M.bind, hx, hy]
  | ub => simp only [M.onPanic, M.bind, hx]
  | abort => simp only [M.onPanic, M.bind, hx]
  | panic t => cases hg : h t <;> simp only [M.onPanic, M.bind, hx, hg]

theorem M.onPanic_never {x : M ρ α} (hx : ∀ s t, x s ≠ .panic t) (h : M ρ Unit) : M.onPanic x h = x := by
  funext s
  unfold M.onPanic
  cases hr : x s with
  | panic t => exact absurd hr (hx _ _)
  | _ => rfl

end

namespace Unwind
variable {σ T α β : Type}

theorem dropList_none (xs : List T) (p : Bool) : dropList (fun _ => false) xs p = some p := by
  induction xs with
  | nil => rfl
  | cons x xs ih => exact ih

theorem bind_finish {x : M σ Unit} (xs : List T) :
    M.bind x (fun _ => finish (dropList (fun _ => false) xs false)) = x := by
  funext s
  rw [dropList_none]
  unfold M.bind
  cases x s <;> rfl

theorem dropCells_none : dropCells (σ := σ) (T := T) (fun _ => false) = Model.dropCells := by
  funext pos n s
  exact congrFun (bind_finish _) s

theorem vecClear_none : vecClear (σ := σ) (T := T) (fun _ => false) = Model.vecClear := by
  unfold vecClear Model.vecClear
  rw [dropCells_none]; rfl

theorem vecTruncate_none : vecTruncate (σ := σ) (T := T) (fun _ => false) = Model.vecTruncate := by
  funext n
  unfold vecTruncate Model.vecTruncate
  rw [dropCells_none]; rfl

theorem vecResizeWith_none : vecResizeWith (σ := σ) (T := T) (fun _ => false) = Model.vecResizeWith := by
  funext n f
  unfold vecResizeWith Model.vecResizeWith
  rw [vecTruncate_none]; rfl

theorem cloneSlice_none (c : T → M σ T) (pos : Nat) (l : List T) :
    cloneSlice (fun _ => false) c pos l = Model.cloneSlice c pos l := by
  induction l generalizing pos with
  | nil => rfl
  | cons y l ih =>
    unfold cloneSlice Model.cloneSlice
    simp only [dropCells_none, M.onPanic_never (dropCells_not_panic _ _), ih]

theorem vecCloneFrom_none (src : List T) (c : T → M σ T) :
    vecCloneFrom (fun _ => false) src c = Model.vecCloneFrom src c := by
  unfold vecCloneFrom Model.vecCloneFrom
  simp only [M.bind_eq, vecTruncate_none, cloneSlice_none]

theorem partsGuard_none : partsGuard (σ := σ) (T := T) (fun _ => false) = Model.partsGuard := by
  unfold partsGuard Model.partsGuard
  rw [dropCells_none]; rfl

theorem withMutParts_none (x : M (σ × Own T) α) :
    withMutParts (fun _ => false) x = Model.withMutParts x := by
  unfold withMutParts Model.withMutParts
  rw [partsGuard_none]; rfl

theorem dropOld_none : dropOld (σ := σ) (T := T) (fun _ => false) = Model.dropOld := by
  funext n
  unfold dropOld Model.dropOld
  rw [dropCells_none]

theorem copyDim_none (f : M σ T) (ods nds : List Nat) :
    copyDim (fun _ => false) f ods nds = Model.copyDim f ods nds := by
  induction ods generalizing nds with
  | nil => rfl
  | cons od ods ih =>
    cases nds with
    | nil => rfl
    | cons nd nds =>
      unfold copyDim Model.copyDim
      rw [dropOld_none, ih]

theorem dropOldGuard_none : dropOldGuard (σ := σ) (T := T) (fun _ => false) = Model.dropOldGuard := by
  unfold dropOldGuard Model.dropOldGuard
  rw [dropCells_none]

theorem dropNewVec_none : dropNewVec (σ := σ) (T := T) (fun _ => false) = Model.dropNewVec := by
  funext s
  exact congrFun (bind_finish _) s

theorem up_not_panic {ρ : Type} {x : M σ α} (h : ∀ s t, x s ≠ .panic t) (s t : σ × ρ) : M.up x s ≠ .panic t := by
  unfold M.up
  have := h s.1
  cases hx : x s.1 with
  | panic u => exact absurd hx (this u)
  | _ => simp

theorem dropOldGuard_not_panic (s t : (σ × Own T) × Loc T) : Model.dropOldGuard s ≠ .panic t :=
  up_not_panic (dropCells_not_panic _ _) s t

/-- The handlers in the order used here. -/
theorem resizeCopy_nested (newDims : List Nat) (newLen : Nat) (f : M σ T) :
    Model.resizeCopy newDims newLen f =
      M.bind own fun o => M.bind (M.lift (check (newLen ≤ o.limit))) fun _ =>
        M.bind (upd fun o => { o with len := 0 }) fun _ =>
          M.bind (M.scope ⟨0, o.len, List.replicate newLen none, 0⟩ (M.onPanic
            (M.bind (M.onPanic (Model.copyDim f o.shape.dims newDims) Model.dropOldGuard)
              fun _ => Model.dropOldGuard) Model.dropNewVec)) fun r =>
              upd fun o => { o with cells := r.2.newCells, len := r.2.newLen } := by
  unfold Model.resizeCopy
  simp only [M.bind_eq, M.onPanic_bind (k := fun _ => Model.dropOldGuard) (fun _ => dropOldGuard_not_panic),
    ← M.onPanic_bind_handler]

theorem resizeCopy_none (newDims : List Nat) (newLen : Nat) (f : M σ T) :
    resizeCopy (fun _ => false) newDims newLen f = Model.resizeCopy newDims newLen f := by
  rw [resizeCopy_nested]
  unfold resizeCopy
  simp only [copyDim_none, dropOldGuard_none, dropNewVec_none]

theorem resizeVec_none (newDims : List Nat) (newLen : Nat) (f : M σ T) :
    resizeVec (fun _ => false) newDims newLen f = Model.resizeVec newDims newLen f := by
  unfold resizeVec Model.resizeVec
  simp only [vecClear_none, vecResizeWith_none, resizeCopy_none]

theorem resizeWith_none (newDims : List Nat) (f : M σ T) :
    resizeWith (fun _ => false) newDims f = Model.resizeWith newDims f := by
  unfold resizeWith Model.resizeWith
  simp only [resizeVec_none, withMutParts_none]

theorem cloneFrom_none (src : List T) (s : Shape) (c : T → M σ T) :
    cloneFrom (fun _ => false) src s c = Model.cloneFrom src s c := by
  unfold cloneFrom Model.cloneFrom
  simp only [M.bind_eq, vecCloneFrom_none, withMutParts_none]

theorem tensorClear_none : (tensorClear (fun _ => false) : M (σ × Own T) Unit) = Model.tensorClear := by
  unfold tensorClear Model.tensorClear
  simp only [M.bind_eq, vecClear_none, withMutParts_none]

theorem tensorTruncate_none (n : Nat) :
    (tensorTruncate (fun _ => false) n : M (σ × Own T) Unit) = Model.tensorTruncate n := by
  unfold tensorTruncate Model.tensorTruncate
  simp only [M.bind_eq, M.pure_eq, vecTruncate_none, withMutParts_none]

theorem expand_none (e : Expr σ α) (c : α → M σ T) :
    expand (fun _ => false) e c = Model.expand e c := by
  unfold expand Model.expand
  simp only [M.bind_eq, M.pure_eq, withMutParts_none]

theorem tensorExtend_none (n : Nat) (step : Nat → M σ T) :
    tensorExtend (fun _ => false) n step = Model.tensorExtend n step := by
  unfold tensorExtend Model.tensorExtend vecExtend Model.vecExtend
  simp only [M.bind_eq, bind_finish, withMutParts_none]

theorem tensorInto_none (f : Shape → Option Shape) :
    (tensorInto (fun _ => false) f : M (σ × Own T) Unit) = Model.tensorInto f := by
  unfold tensorInto Model.tensorInto
  simp only [M.bind_eq, dropCells_none]

theorem tensorFromExpr_none (e : Expr σ T) :
    tensorFromExpr (fun _ => false) e = Model.tensorFromExpr e := by
  unfold tensorFromExpr Model.tensorFromExpr
  simp only [M.bind_eq, dropCells_none]

theorem arrayFromExpr_none (ty : ShapeTy) (e : Expr σ T) :
    arrayFromExpr (fun _ => false) ty e = Model.arrayFromExpr ty e := by
  unfold arrayFromExpr Model.arrayFromExpr
  simp only [M.bind_eq, M.pure_eq, dropCells_none]

theorem zipWith_none (e : Expr σ β) (f : T → β → M σ T) :
    zipWith (fun _ => false) e f = Model.zipWith e f := by
  unfold zipWith Model.zipWith zipGuard Model.zipGuard
  simp only [dropCells_none]

theorem dropItems_not_panic (pos len idx : Nat) (s t : σ × Own T) :
    Model.dropItems pos len idx s ≠ .panic t := dropCells_not_panic _ _ _ _

theorem dropItems_none : dropItems (σ := σ) (T := T) (fun _ => false) = Model.dropItems := by
  funext pos len idx
  unfold dropItems Model.dropItems
  rw [dropCells_none]

theorem drainRun_none (a b : Bnd) (k : Nat) (leak : Bool) :
    (drainRun (fun _ => false) a b k leak : M (σ × Own T) (List T)) = Model.drainRun a b k leak := by
  unfold drainRun Model.drainRun
  simp only [dropItems_none, M.onPanic_never (dropItems_not_panic _ _ _)]

theorem tensorAppend_none :
    (tensorAppend (fun _ => false) : M ((σ × Own T) × Own T) Unit) = Model.tensorAppend := by
  unfold tensorAppend Model.tensorAppend
  simp only [dropItems_none, M.onPanic_never (dropItems_not_panic _ _ _), expand_none]

theorem intoItems_none (k : Nat) :
    (intoItems (fun _ => false) k : M (σ × Own T) (List T)) = Model.intoItems k := by
  unfold intoItems Model.intoItems
  simp only [dropItems_none]

/-! No panics in the rest of the world. -/

theorem keeps_zero {ρ : Type} (x : M ρ α) : Keeps (fun _ => 0) x := by
  intro s
  cases x s <;> trivial

theorem keep_zero (e : Expr σ α) : e.Keep (fun _ => 0) := by
  induction e with
  | fill f => exact keeps_zero f
  | fromElem _ f => exact keeps_zero f
  | fromFn _ _ f => exact fun j => keeps_zero (f j)
  | map e f ih => exact ⟨ih, fun x => keeps_zero (f x)⟩
  | enumerate e _ ih => exact ih
  | zip a b _ iha ihb => exact ⟨iha, ihb⟩
  | _ => trivial

theorem cnt_eq {bad : T → Bool} : cnt bad (fun _ : σ => 0) = Spec.badDrops bad :=
  funext fun _ => Nat.zero_add _

theorem same {bad : T → Bool} {y x : M (σ × Own T) α} (h : After (cnt bad fun _ => 0) y x) (s : σ) (o : Own T)
    (hub : x (s, o) ≠ .ub) :
    y (s, o) = Spec.withDestructors (Spec.badDrops bad) (Spec.badDrops bad (s, o)) (x (s, o)) := by
  rw [cnt_eq] at h
  exact h (s, o) hub

theorem _root_.Model.M.Post.ne_ub {x : M σ α} {s : σ} {Q : α → σ → Prop} {R : σ → Prop} (h : M.Post x s Q R) :
    x s ≠ .ub := by
  intro hx
  unfold M.Post at h
  rw [hx] at h
  exact h

/-- When the operation gives a result, in terms of the dropped elements. -/
theorem drops {bad : T → Bool} {y x : M (σ × Own T) α} (h : After (cnt bad fun _ => 0) y x) {s : σ} {o : Own T}
    {a : α} {t : σ} {o' : Own T} {dr : List T} (hx : x (s, o) = .ok a (t, o')) (hl : o'.log = o.log ++ dr) :
    y (s, o) = Spec.afterDrops bad dr a (t, o') := by
  rw [same h s o (by rw [hx]; simp), hx]
  simp only [Spec.withDestructors, Spec.afterDrops, Spec.badDrops, hl, List.countP_append, Nat.add_eq_left,
    Nat.add_left_cancel_iff]

end Unwind
end Model
