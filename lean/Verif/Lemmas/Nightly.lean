import Verif.Lemmas.TensorOps
import Verif.Lemmas.Keeps
import Verif.Lemmas.Resize
import Verif.Model.Nightly

/-! Invariants of the storage of tensors, and the guard of the `nightly` feature. -/

namespace Model
open Spec

variable {σ ρ T α β : Type}

/-- The world satisfies `I` after returning or panicking. -/
def Res.All (I : σ → Prop) {α : Type u} : Res σ α → Prop
  | .ok _ t => I t
  | .panic t => I t
  | _ => True

/-- `x` keeps the invariant `I`, both when it returns and when it panics. -/
def M.Inv (I : σ → Prop) {α : Type u} (x : M σ α) : Prop := ∀ s, I s → (x s).All I

namespace M
variable {I : σ → Prop}

theorem inv_pure {α : Type u} (a : α) : (M.pure a : M σ α).Inv I := fun _ h => h
theorem inv_panic {α : Type u} : (M.panic : M σ α).Inv I := fun _ h => h
theorem inv_ub {α : Type u} : (M.ub : M σ α).Inv I := fun _ _ => trivial

theorem inv_lift {α : Type u} (x : Option α) : (M.lift x : M σ α).Inv I := by
  cases x
  · exact inv_panic
  · exact inv_pure _

theorem Inv.bind {α : Type u} {β : Type v} {x : M σ α} {f : α → M σ β} (hx : x.Inv I) (hf : ∀ a, (f a).Inv I) :
    (M.bind x f).Inv I := by
  intro s hs
  have := hx s hs
  unfold M.bind
  cases h : x s with
  | ok a t => rw [h] at this; exact hf a t this
  | panic t => rw [h] at this; exact this
  | ub => trivial
  | abort => trivial

theorem Inv.onPanic {α : Type u} {x : M σ α} {g : M σ Unit} (hx : x.Inv I) (hg : g.Inv I) :
    (M.onPanic x g).Inv I := by
  intro s hs
  have := hx s hs
  unfold M.onPanic
  cases h : x s with
  | ok a t => rw [h] at this; exact this
  | panic t =>
    rw [h] at this
    have hg := hg t this
    simp only
    cases h' : g t with
    | ok a t' => rw [h'] at hg; exact hg
    | panic t' => trivial
    | ub => trivial
    | abort => trivial
  | ub => trivial
  | abort => trivial

theorem inv_up {J : ρ → Prop} {α : Type u} (x : M σ α) : (M.up x : M (σ × ρ) α).Inv fun s => J s.2 := by
  intro s hs
  unfold M.up
  cases x s.1 <;> first | exact hs | trivial

theorem Inv.up {α : Type u} {x : M σ α} (hx : x.Inv I) : (M.up x : M (σ × ρ) α).Inv fun s => I s.1 := by
  intro s hs
  have := hx s.1 hs
  unfold M.up
  cases h : x s.1 <;> rw [h] at this <;> exact this

theorem Inv.scope {α : Type u} {x : M (σ × ρ) α} {i : ρ} (hx : x.Inv fun s => I s.1) :
    (M.scope i x).Inv I := by
  intro s hs
  have := hx (s, i) hs
  unfold M.scope
  cases h : x (s, i) <;> rw [h] at this <;> exact this

theorem inv_repeat {n : Nat} {x : M σ Unit} (hx : x.Inv I) : (repeatM n x).Inv I := by
  induction n with
  | zero => exact inv_pure _
  | succ n ih => exact hx.bind fun _ => ih

theorem inv_foldlM {α : Type} {f : Unit → α → M σ Unit} (hf : ∀ a, (f () a).Inv I) (xs : List α) :
    (xs.foldlM f ()).Inv I := by
  induction xs with
  | nil => exact inv_pure _
  | cons x xs ih => exact (hf x).bind fun _ => ih

theorem inv_ite {c : Prop} [Decidable c] {α : Type u} {x y : M σ α} (hx : x.Inv I) (hy : y.Inv I) :
    (if c then x else y).Inv I := by
  split <;> assumption

end M

theorem Keeps.inv {ν : Type} {v : σ → ν} {x : M σ α} (h : Keeps v x) (c : ν) : x.Inv fun s => v s = c := by
  intro s hs
  have := h s
  cases hx : x s with
  | ok a t => rw [hx] at this; exact this.trans hs
  | panic t => rw [hx] at this; exact this.trans hs
  | ub => trivial
  | abort => trivial

/-! The operations of `Vec`. -/

section
variable {I : σ × Own T → Prop}

theorem inv_own : (own : M (σ × Own T) (Own T)).Inv I := fun _ h => h

theorem inv_own_bind {f : Own T → M (σ × Own T) α} {P : Own T → Prop} (hp : ∀ s, I s → P s.2)
    (h : ∀ o, P o → (f o).Inv I) : (M.bind own f).Inv I := fun s hs => h s.2 (hp s hs) s hs

theorem inv_upd {f : Own T → Own T} (h : ∀ s o, I (s, o) → I (s, f o)) : (upd f : M (σ × Own T) Unit).Inv I :=
  fun s hs => h s.1 s.2 hs

theorem inv_dropCells {p n : Nat} (h : ∀ s (o : Own T) c l, I (s, o) → I (s, { o with cells := c, log := l })) :
    (dropCells p n : M (σ × Own T) Unit).Inv I := by
  intro s hs
  unfold dropCells
  dsimp only
  split
  · exact h s.1 s.2 _ _ hs
  · trivial

theorem inv_writeCell {p : Nat} {x : T} (h : ∀ s (o : Own T) c, I (s, o) → I (s, { o with cells := c })) :
    (writeCell p x : M (σ × Own T) Unit).Inv I := by
  intro s hs
  unfold writeCell
  split
  · exact h s.1 s.2 _ hs
  · trivial

theorem inv_vecReserve {n : Nat} (h : ∀ s (o : Own T) c, I (s, o) → I (s, { o with cells := c })) :
    (vecReserve n : M (σ × Own T) Unit).Inv I := by
  unfold vecReserve; simp only [M.bind_eq, M.pure_eq]
  exact M.Inv.bind inv_own fun _ =>
    M.inv_ite (M.inv_pure _) (M.inv_ite (inv_upd fun s o => h s o _) M.inv_panic)

theorem inv_vecAppend {x : T} (h : ∀ s (o : Own T) c, I (s, o) → I (s, { o with cells := c }))
    (hl : ∀ s (o : Own T), I (s, o) → I (s, { o with len := o.len + 1 })) : (vecAppend x : M (σ × Own T) Unit).Inv I := by
  unfold vecAppend; simp only [M.bind_eq]
  exact M.Inv.bind inv_own fun _ => M.Inv.bind (inv_writeCell h) fun _ => inv_upd hl

theorem inv_setShape {f : Shape → Option Shape} (h : ∀ s (o : Own T) s', f o.shape = some s' → I (s, o) →
    I (s, { o with shape := s' })) : (setShape f : M (σ × Own T) Unit).Inv I := by
  intro s hs
  show ((M.bind (M.lift (f s.2.shape)) fun s => upd fun o => { o with shape := s }) s).All I
  rcases hf : f s.2.shape with _ | s'
  · exact hs
  · exact h s.1 s.2 s' hf hs

end

/-! The shape type never changes. -/

/-- The shape type is `ty`. -/
abbrev HasTy (ty : ShapeTy) (s : σ × Own T) : Prop := s.2.shape.ty = ty

theorem withMutDims_ty {s s' : Shape} {f} (h : s.withMutDims f = some s') : s'.ty = s.ty := by
  simp only [Shape.withMutDims, Option.bind_eq_bind, Option.bind_eq_some_iff] at h
  obtain ⟨_, _, _, _, h⟩ := h
  cases h; rfl

theorem new_ty {ty : ShapeTy} {n : Nat} {s : Shape} (h : Shape.new ty n = some s) : s.ty = ty := by
  cases ty with
  | dynRank => cases h; rfl
  | static ds =>
    simp only [Shape.new] at h
    split at h
    · cases h; rfl
    · cases h

theorem expandShape_ty {s s' : Shape} {d : List Nat} (h : expandShape s d = some s') : s'.ty = s.ty := by
  unfold expandShape at h
  split at h
  · split at h
    · exact withMutDims_ty h
    · obtain ⟨t, ht, h⟩ := Option.bind_eq_some_iff.1 h
      exact (withMutDims_ty h).trans (new_ty ht)
  · exact withMutDims_ty h

theorem ty_vecClear {ty} : (vecClear : M (σ × Own T) Unit).Inv (HasTy ty) := by
  unfold vecClear; simp only [M.bind_eq]
  exact M.Inv.bind inv_own fun _ => M.Inv.bind (inv_upd (by intro _ _ h; exact h)) fun _ => inv_dropCells fun _ _ _ _ h => h

theorem ty_vecTruncate {ty} {n : Nat} : (vecTruncate n : M (σ × Own T) Unit).Inv (HasTy ty) := by
  unfold vecTruncate; simp only [M.bind_eq, M.pure_eq]
  exact M.Inv.bind inv_own fun _ => M.inv_ite (M.Inv.bind (inv_upd (by intro _ _ h; exact h)) fun _ =>
    inv_dropCells fun _ _ _ _ h => h) (M.inv_pure _)

theorem ty_vecReserve {ty} {n : Nat} : (vecReserve n : M (σ × Own T) Unit).Inv (HasTy ty) :=
  inv_vecReserve fun _ _ _ h => h

theorem ty_vecAppend {ty} (x : T) : (vecAppend x : M (σ × Own T) Unit).Inv (HasTy ty) :=
  inv_vecAppend (fun _ _ _ h => h) fun _ _ h => h

theorem ty_up {ty} {x : M σ α} : (M.up x : M (σ × Own T) α).Inv (HasTy ty) :=
  M.inv_up (J := fun o : Own T => o.shape.ty = ty) x

theorem ty_vecResizeWith {ty} {n : Nat} {f : M σ T} : (vecResizeWith n f).Inv (HasTy ty) := by
  unfold vecResizeWith; simp only [M.bind_eq]
  exact M.Inv.bind inv_own fun _ => M.inv_ite (M.Inv.bind ty_vecReserve fun _ =>
    M.inv_repeat (M.Inv.bind ty_up ty_vecAppend)) ty_vecTruncate

theorem ty_vecExtend {ty} {n : Nat} {step : Nat → M σ T} : (vecExtend n step).Inv (HasTy ty) :=
  M.inv_foldlM (fun _ => M.Inv.bind ty_up fun _ => M.Inv.bind
    (M.Inv.onPanic ty_vecReserve (inv_upd (by intro _ _ h; exact h))) fun _ => ty_vecAppend _) _

theorem ty_cloneSlice {ty} {c : T → M σ T} (pos : Nat) (ys : List T) : (cloneSlice c pos ys).Inv (HasTy ty) := by
  induction ys generalizing pos with
  | nil => exact M.inv_pure _
  | cons y ys ih =>
    exact M.Inv.bind ty_up fun _ => M.Inv.bind (inv_dropCells fun _ _ _ _ h => h) fun _ =>
      M.Inv.bind (inv_writeCell fun _ _ _ h => h) fun _ => ih _

theorem ty_vecCloneFrom {ty} {src : List T} {c : T → M σ T} : (vecCloneFrom src c).Inv (HasTy ty) := by
  unfold vecCloneFrom; simp only [M.bind_eq]
  exact M.Inv.bind ty_vecTruncate fun _ => M.Inv.bind inv_own fun _ => M.Inv.bind (ty_cloneSlice _ _) fun _ =>
    M.Inv.bind ty_vecReserve fun _ => M.inv_foldlM (fun _ => M.Inv.bind ty_up ty_vecAppend) _

theorem ty_setShape {ty} {f : Shape → Option Shape} (h : ∀ s s', f s = some s' → s'.ty = s.ty) :
    (setShape f : M (σ × Own T) Unit).Inv (HasTy ty) := inv_setShape fun _ _ _ hf hs => (h _ _ hf).trans hs

theorem inv_moveOld {I : (σ × Own T) × Loc T → Prop} {n : Nat}
    (h : ∀ t, I t → n ≤ t.2.cnt → ((t.1.2.cells.drop t.2.pos).take n).length = n → ∀ c l, I ((t.1.1, { t.1.2 with
        cells := t.1.2.cells.take t.2.pos ++ List.replicate n none ++ t.1.2.cells.drop (t.2.pos + n) }),
      { pos := t.2.pos + n, cnt := t.2.cnt - n, newCells := c, newLen := l })) : (moveOld n).Inv I := by
  intro s hs
  unfold moveOld
  dsimp only
  split
  next hc => exact h s hs hc.1 hc.2.2.1 _ _
  next => trivial

theorem inv_dropOld {I : (σ × Own T) × Loc T → Prop} {n : Nat}
    (h : ∀ t, I t → n ≤ t.2.cnt → ((t.1.2.cells.drop t.2.pos).take n).length = n → ∀ g, I ((t.1.1, { t.1.2 with
        cells := t.1.2.cells.take t.2.pos ++ List.replicate n none ++ t.1.2.cells.drop (t.2.pos + n), log := g }),
      { t.2 with pos := t.2.pos + n, cnt := t.2.cnt - n })) : (dropOld n).Inv I := by
  intro s hs
  unfold dropOld
  split
  next hc =>
    unfold M.up dropCells
    dsimp only
    split
    next r a t heq =>
      split at heq
      next hc' =>
        cases heq
        exact h s hs hc hc'.1 _
      next => cases heq
    all_goals first | trivial | (next heq => split at heq <;> cases heq)
  next => trivial

theorem inv_pushNew {I : (σ × Own T) × Loc T → Prop} {f : M σ T}
    (h : ∀ s o l, I ((s, o), l) → ∀ s' c k, I ((s', o), { l with newCells := c, newLen := k })) :
    (pushNew f).Inv I := by
  refine M.Inv.bind (fun t ht => ?_) fun x s hs => ?_
  · have h : ∀ s', I ((s', t.1.2), t.2) := fun s' => h t.1.1 t.1.2 t.2 ht s' t.2.newCells t.2.newLen
    unfold M.up
    cases f t.1.1 with
    | ok a s => exact h s
    | panic s => exact h s
    | ub => trivial
    | abort => trivial
  · dsimp only
    split
    · exact h _ _ _ hs _ _ _
    · trivial

theorem inv_copyDim {I : (σ × Own T) × Loc T → Prop} {f : M σ T} (h1 : ∀ n, (moveOld n).Inv I)
    (h2 : ∀ n, (dropOld n).Inv I) (h3 : (pushNew f).Inv I) (ods nds : List Nat) : (copyDim f ods nds).Inv I := by
  induction ods generalizing nds with
  | nil => intro s hs; unfold copyDim; exact hs
  | cons od ods ih =>
    cases nds with
    | nil => intro s hs; unfold copyDim; exact hs
    | cons nd nds =>
      unfold copyDim
      exact M.Inv.bind (M.inv_ite (M.inv_repeat (ih nds)) (h1 _)) fun _ =>
        M.Inv.bind (M.inv_ite (h2 _) (M.inv_pure _)) fun _ => M.inv_repeat h3

theorem inv_dropOldGuard {I : (σ × Own T) × Loc T → Prop}
    (h : ∀ t, I t → ((t.1.2.cells.drop t.2.pos).take t.2.cnt).length = t.2.cnt → ∀ g, I ((t.1.1, { t.1.2 with
        cells := t.1.2.cells.take t.2.pos ++ List.replicate t.2.cnt none ++ t.1.2.cells.drop (t.2.pos + t.2.cnt),
        log := g }), t.2)) : (dropOldGuard : M ((σ × Own T) × Loc T) Unit).Inv I := by
  intro s hs
  unfold dropOldGuard M.up dropCells
  dsimp only
  split
  next r a t heq =>
    split at heq
    next hc' =>
      cases heq
      exact h s hs hc'.1 _
    next => cases heq
  all_goals first | trivial | (next heq => split at heq <;> cases heq)

theorem inv_dropNewVec {I : (σ × Own T) × Loc T → Prop}
    (h : ∀ t, I t → ∀ g, I ((t.1.1, { t.1.2 with log := g }), t.2)) :
    (dropNewVec : M ((σ × Own T) × Loc T) Unit).Inv I := by
  intro s hs
  unfold dropNewVec
  dsimp only
  split
  · exact h s hs _
  · trivial

theorem ty_resizeCopy {ty} {d : List Nat} {n : Nat} {f : M σ T} : (resizeCopy d n f).Inv (HasTy ty) := by
  unfold resizeCopy; simp only [M.bind_eq]
  refine M.Inv.bind inv_own fun o => M.Inv.bind (M.inv_lift _) fun _ => M.Inv.bind (inv_upd (by intro _ _ h; exact h)) fun _ =>
    M.Inv.bind (M.Inv.scope ?_) fun _ => inv_upd (by intro _ _ h; exact h)
  have hg : (dropOldGuard : M ((σ × Own T) × Loc T) Unit).Inv fun s => HasTy ty s.1 :=
    inv_dropOldGuard fun t h _ _ => h
  refine M.Inv.bind (M.Inv.onPanic ?_ (M.Inv.bind hg fun _ => inv_dropNewVec fun t h _ => h)) fun _ => hg
  exact inv_copyDim (fun n => inv_moveOld fun t h _ _ _ _ => h) (fun n => inv_dropOld fun t h _ _ _ => h)
    (inv_pushNew fun _ _ _ h _ _ _ => h) _ _

theorem ty_resizeVec {ty} {d : List Nat} {n : Nat} {f : M σ T} : (resizeVec d n f).Inv (HasTy ty) :=
  M.Inv.bind inv_own fun _ => M.inv_ite ty_vecClear (M.inv_ite ty_vecResizeWith ty_resizeCopy)

theorem keeps_const {ν : Type} (c : ν) (x : M σ α) : Keeps (fun _ => c) x := fun s => by cases x s <;> trivial

theorem keep_const {ν : Type} (c : ν) (e : Expr σ α) : e.Keep fun _ => c := by
  have h : ∀ {γ : Type} (x : M σ γ), Keeps (fun _ => c) x := keeps_const c
  induction e with
  | fill f => exact h f
  | fromElem s f => exact h f
  | fromFn s idx f => exact fun j => h (f j)
  | map e f ih => exact ⟨ih, fun x => h (f x)⟩
  | enumerate e k ih => exact ih
  | zip a b s iha ihb => exact ⟨iha, ihb⟩
  | _ => trivial

theorem ty_cloneIntoVec {ty} {e : Expr σ α} {c : α → M σ T} : (cloneIntoVec e c).Inv (HasTy ty) := by
  unfold cloneIntoVec; simp only [M.bind_eq]
  refine M.Inv.bind inv_own fun _ => M.Inv.bind (M.inv_lift _) fun _ =>
    Keeps.inv (v := fun t : σ × Own T => t.2.shape.ty) (Expr.keep_forEach ?_ fun x => ?_) _
  · exact Expr.keep_up (keep_const .dynRank e) fun _ _ _ _ => rfl
  · intro t
    have := (M.Inv.bind (ty_up (x := c x)) ty_vecAppend : M.Inv (HasTy t.2.shape.ty) _) t rfl
    revert this
    cases (M.bind (M.up (c x)) vecAppend : M (σ × Own T) Unit) t <;> exact id

/-! The guard. -/

theorem withMutParts_eq (x : M (σ × Own T) α) (s : σ) (o : Own T) :
    withMutParts x (s, o) = M.onPanic x partsGuard (s, parts o) := rfl

theorem withMutPartsN_eq (x : M (σ × Own T) α) (s : σ) (o : Own T) :
    withMutPartsN x (s, o) = M.onPanic x partsGuardN (s, parts o) := rfl

theorem partsGuardN_eq {t : σ × Own T} (h : t.2.len = t.2.shape.len ∨ (Shape.default t.2.shape.ty).len = 0) :
    partsGuardN t = partsGuard t := by
  show (if t.2.len ≠ t.2.shape.len then _ else _ : M (σ × Own T) Unit) t =
    (if t.2.len ≠ t.2.shape.len then M.bind (M.lift (check ((Shape.default t.2.shape.ty).len = 0))) _ else _ :
      M (σ × Own T) Unit) t
  by_cases hl : t.2.len = t.2.shape.len
  · rw [if_neg (by simpa using hl), if_neg (by simpa using hl)]
  · rw [if_pos hl, if_pos hl, show check ((Shape.default t.2.shape.ty).len = 0) = some () from
      if_pos (h.resolve_left hl)]
    rfl

theorem withMutPartsN_of_inv {x : M (σ × Own T) α} {s : σ} {o : Own T} {I : σ × Own T → Prop} (hx : x.Inv I)
    (h0 : I (s, parts o)) (h : ∀ t, I t → t.2.len = t.2.shape.len ∨ (Shape.default t.2.shape.ty).len = 0) :
    withMutPartsN x (s, o) = withMutParts x (s, o) := by
  rw [withMutParts_eq, withMutPartsN_eq]
  have := hx _ h0
  unfold M.onPanic
  cases hr : x (s, parts o) with
  | panic t => rw [hr] at this; dsimp only; rw [partsGuardN_eq (h t this)]
  | _ => rfl

theorem withMutPartsN_of_ty {x : M (σ × Own T) α} {s : σ} {o : Own T} (hx : x.Inv (HasTy o.shape.ty))
    (h : size (Shape.default o.shape.ty).dims = 0) : withMutPartsN x (s, o) = withMutParts x (s, o) :=
  withMutPartsN_of_inv hx rfl fun t ht => .inr (by rw [show t.2.shape.ty = _ from ht, Shape.len_eq]; exact h)

/-- Neither the length nor the shape changes. -/
abbrev Fixed (n : Nat) (sh : Shape) (s : σ × Own T) : Prop := s.2.len = n ∧ s.2.shape = sh

theorem withMutPartsN_of_fixed {x : M (σ × Own T) α} {s : σ} {o : Own T} (hx : x.Inv (Fixed o.shape.len o.shape)) :
    withMutPartsN x (s, o) = withMutParts x (s, o) :=
  withMutPartsN_of_inv hx ⟨rfl, rfl⟩ fun t ht => .inl (by rw [ht.1, ht.2])

/-! The operations. -/

variable {s : σ} {o : Own T} {xs : List T}

/-- A case where both branches or none are taken. -/
theorem bind_congr_at {x : M σ α} {f g : α → M σ β} {t : σ} (h : ∀ a t', x t = .ok a t' → f a t' = g a t') :
    M.bind x f t = M.bind x g t := by
  unfold M.bind
  cases hx : x t with
  | ok a t' => exact h a t' hx
  | _ => rfl

theorem checkHead_ok {t : σ × Own T} {u} (h : checkHead (s, o) = .ok u t) :
    t = (s, o) ∧ 0 < o.shape.rank ∧ o.shape.ty.head = .dyn := by
  replace h : M.bind (M.lift (check (0 < o.shape.rank))) (fun _ => M.lift (check (o.shape.ty.head = .dyn))) (s, o) =
    .ok u t := h
  by_cases h1 : 0 < o.shape.rank
  · rw [show check (0 < o.shape.rank) = some () from if_pos h1] at h
    replace h : M.lift (check (o.shape.ty.head = .dyn)) (s, o) = .ok u t := h
    by_cases h2 : o.shape.ty.head = .dyn
    · rw [show check (o.shape.ty.head = .dyn) = some () from if_pos h2] at h
      cases h; exact ⟨rfl, h1, h2⟩
    · rw [show check (o.shape.ty.head = .dyn) = none from if_neg h2] at h; cases h
  · rw [show check (0 < o.shape.rank) = none from if_neg h1] at h; cases h

theorem tensorClearN_eq : tensorClearN (s, o) = tensorClear (s, o) := by
  show M.bind (M.lift (check ((Shape.default o.shape.ty).len = 0))) _ (s, o) =
    M.bind (M.lift (check ((Shape.default o.shape.ty).len = 0))) _ (s, o)
  by_cases h : (Shape.default o.shape.ty).len = 0
  · rw [show check ((Shape.default o.shape.ty).len = 0) = some () from if_pos h]
    refine withMutPartsN_of_ty (M.Inv.bind ty_vecClear fun _ => inv_upd fun _ o h => ?_) (by rw [← Shape.len_eq, h])
    exact (Shape.default_ty _).trans h
  · rw [show check ((Shape.default o.shape.ty).len = 0) = none from if_neg h]
    rfl

theorem tensorTruncateN_eq (h : o.shape.WF) (n : Nat) : tensorTruncateN n (s, o) = tensorTruncate n (s, o) := by
  refine bind_congr_at fun a t ht => ?_
  obtain ⟨rfl, h1, h2⟩ := checkHead_ok ht
  show (if n < o.shape.dims.getD 0 0 then _ else _ : M (σ × Own T) Unit) (s, o) =
    (if n < o.shape.dims.getD 0 0 then _ else _ : M (σ × Own T) Unit) (s, o)
  split
  · exact withMutPartsN_of_ty (M.Inv.bind (ty_setShape fun _ _ h => withMutDims_ty h) fun _ =>
      M.Inv.bind inv_own fun _ => ty_vecTruncate) (Shape.default_size_of_head h h1 h2)
  · rfl

theorem expandN_eq (h : o.shape.WF) (e : Expr σ α) (c : α → M σ T) : expandN e c (s, o) = expand e c (s, o) := by
  refine bind_congr_at fun a t ht => ?_
  obtain ⟨rfl, h1, h2⟩ := checkHead_ok ht
  split
  · exact withMutPartsN_of_ty (M.Inv.bind ty_vecReserve fun _ => M.Inv.bind
      (ty_setShape fun _ _ h => expandShape_ty h) fun _ => ty_cloneIntoVec) (Shape.default_size_of_head h h1 h2)
  · rfl

theorem tensorReserveN_eq (n : Nat) : tensorReserveN n (s, o) = tensorReserve n (s, o) :=
  withMutPartsN_of_fixed (inv_vecReserve fun _ _ _ h => h)

theorem tensorShrinkToN_eq (n : Nat) : tensorShrinkToN n (s, o) = tensorShrinkTo n (s, o) :=
  withMutPartsN_of_fixed (inv_upd fun _ _ h => h)

theorem tensorExtendN_eq (h : o.shape.ty = .static [.dyn]) (n : Nat) (step : Nat → M σ T) :
    tensorExtendN n step (s, o) = tensorExtend n step (s, o) :=
  withMutPartsN_of_ty (M.Inv.bind ty_vecExtend fun _ => inv_upd fun _ _ _ => h.symm) (by rw [h]; rfl)

theorem cloneFromN_eq (h : o.shape.WF) {src : List T} {sh : Shape} (hs : sh.WF) (hty : sh.ty = o.shape.ty)
    (hl : src.length = size sh.dims) (c : T → M σ T) : cloneFromN src sh c (s, o) = cloneFrom src sh c (s, o) := by
  by_cases hd : size (Shape.default o.shape.ty).dims = 0
  · exact withMutPartsN_of_ty (M.Inv.bind ty_vecCloneFrom fun _ => inv_upd fun _ _ _ => hty) hd
  · have e1 : o.shape.dims = (Shape.default o.shape.ty).dims := Shape.default_unique hd h
    have e2 : sh.dims = (Shape.default o.shape.ty).dims := Shape.default_unique hd (by rw [← hty]; exact hs)
    have e : sh = o.shape := by
      show (⟨sh.ty, sh.dims⟩ : Shape) = ⟨o.shape.ty, o.shape.dims⟩
      rw [hty, e2, ← e1]
    refine withMutPartsN_of_fixed (M.Inv.bind ?_ fun _ => inv_upd fun _ _ h => ⟨h.1, e⟩)
    have hn : src.length = o.shape.len := by rw [hl, Shape.len_eq, e]
    unfold vecCloneFrom; simp only [M.bind_eq]
    refine M.Inv.bind ?_ fun _ => inv_own_bind (P := fun u => u.len = o.shape.len) (fun _ h => h.1) fun u hu => ?_
    · unfold vecTruncate; simp only [M.bind_eq, M.pure_eq]
      exact M.Inv.bind inv_own fun _ => M.inv_ite (M.Inv.bind (inv_upd fun _ _ h => ⟨hn, h.2⟩) fun _ =>
        inv_dropCells fun _ _ _ _ h => h) (M.inv_pure _)
    · have hc : ∀ pos ys, (cloneSlice c pos ys).Inv (Fixed (σ := σ) o.shape.len o.shape) := by
        intro pos ys
        induction ys generalizing pos with
        | nil => exact M.inv_pure _
        | cons y ys ih =>
          exact M.Inv.bind (M.inv_up (J := fun u : Own T => u.len = o.shape.len ∧ u.shape = o.shape) (c y)) fun _ =>
            M.Inv.bind (inv_dropCells fun _ _ _ _ h => h) fun _ => M.Inv.bind (inv_writeCell fun _ _ _ h => h) fun _ => ih _
      refine M.Inv.bind (hc _ _) fun _ => M.Inv.bind (inv_vecReserve fun _ _ _ h => h) fun _ => ?_
      rw [show src.drop u.len = [] by rw [hu, ← hn, List.drop_length]]
      exact M.inv_pure _

theorem tensorTryReserveN_eq (n : Nat) : tensorTryReserveN n (s, o) = tensorTryReserve n (s, o) :=
  withMutPartsN_of_fixed (M.Inv.bind inv_own fun _ => M.inv_ite
    (M.Inv.bind (inv_vecReserve fun _ _ _ h => h) fun _ => M.inv_pure _) (M.inv_pure _))

theorem up_ok {x : M σ α} {t t' : σ × ρ} {a : α} (h : M.up x t = .ok a t') : t'.2 = t.2 := by
  unfold M.up at h
  cases hx : x t.1 <;> rw [hx] at h <;> cases h
  rfl

theorem tensorAppendN_eq {o' : Own T} (h : o.shape.WF) : tensorAppendN ((s, o'), o) = tensorAppend ((s, o'), o) := by
  refine bind_congr_at fun d t ht => ?_
  refine bind_congr_at fun u t' hu => ?_
  cases hu
  obtain ⟨w, o2⟩ := t
  obtain rfl : o2 = o := up_ok ht
  have e := fun buf => expandN_eq (s := w) h (.intoExpr d.shape buf 0 : Expr (σ × Own T) T) M.pure
  dsimp only
  unfold M.bind M.onPanic
  rw [e]

theorem withMutPartsN_or (x : M (σ × Own T) α) (t : σ × Own T) :
    withMutPartsN x t = withMutParts x t ∨ withMutParts x t = .abort := by
  obtain ⟨s, o⟩ := t
  rw [withMutParts_eq, withMutPartsN_eq]
  unfold M.onPanic
  cases hr : x (s, parts o) with
  | panic t =>
    by_cases h : t.2.len = t.2.shape.len ∨ (Shape.default t.2.shape.ty).len = 0
    · left; dsimp only; rw [partsGuardN_eq h]
    · right
      have e : partsGuard t = .panic t := by
        show (if t.2.len ≠ t.2.shape.len then M.bind (M.lift (check ((Shape.default t.2.shape.ty).len = 0))) _ else _ :
          M (σ × Own T) Unit) t = _
        rw [if_pos fun e => h (.inl e), show check ((Shape.default t.2.shape.ty).len = 0) = none from
          if_neg fun e => h (.inr e)]
        rfl
      dsimp only; rw [e]
  | _ => exact .inl rfl

/-! `resize_with`. -/

/-- The closure passed to `with_mut_parts` in `resize_with`. -/
abbrev resizeBody (d : List Nat) (n : Nat) (f : M σ T) : M (σ × Own T) Unit :=
  M.bind (resizeVec d n f) fun _ => setShape fun s => s.withMutDims fun dims => Shape.copyFromSlice dims d

theorem ty_resizeBody {ty} {d : List Nat} {n : Nat} {f : M σ T} : (resizeBody d n f).Inv (HasTy ty) :=
  M.Inv.bind ty_resizeVec fun _ => ty_setShape fun _ _ h => withMutDims_ty h

theorem resizeWithN_eq {d : List Nat} {f : M σ T} (h : size (Shape.default o.shape.ty).dims = 0) :
    resizeWithN d f (s, o) = resizeWith d f (s, o) := by
  refine bind_congr_at fun u t ht => ?_
  cases ht
  refine bind_congr_at fun _ t ht => ?_
  obtain rfl : t = (s, o) := by
    revert ht; cases check (d.length = o.shape.rank) <;> intro ht <;> cases ht; rfl
  split
  · refine bind_congr_at fun n t ht => ?_
    obtain rfl : t = (s, o) := by
      revert ht; cases Shape.checkedLen ⟨.dynRank, d⟩ <;> intro ht <;> cases ht; rfl
    exact withMutPartsN_of_ty ty_resizeBody h
  · rfl

theorem resizeWithN_or (d : List Nat) (f : M σ T) (t : σ × Own T) :
    resizeWithN d f t = resizeWith d f t ∨ resizeWith d f t = .abort := by
  obtain ⟨s, o⟩ := t
  show M.bind (M.lift (check (d.length = o.shape.rank))) (fun _ => if d ≠ [] then
    M.bind (M.lift (Shape.checkedLen ⟨.dynRank, d⟩)) fun n => withMutPartsN (resizeBody d n f) else M.pure ()) (s, o) =
    M.bind (M.lift (check (d.length = o.shape.rank))) (fun _ => if d ≠ [] then
    M.bind (M.lift (Shape.checkedLen ⟨.dynRank, d⟩)) fun n => withMutParts (resizeBody d n f) else M.pure ()) (s, o) ∨
    M.bind (M.lift (check (d.length = o.shape.rank))) (fun _ => if d ≠ [] then
    M.bind (M.lift (Shape.checkedLen ⟨.dynRank, d⟩)) fun n => withMutParts (resizeBody d n f) else M.pure ()) (s, o) =
      .abort
  cases check (d.length = o.shape.rank) with
  | none => exact .inl rfl
  | some _ =>
    rw [M.lift_some, M.pure_bind, M.pure_bind]
    split
    · cases Shape.checkedLen ⟨.dynRank, d⟩ with
      | none => exact .inl rfl
      | some n =>
        rw [M.lift_some, M.pure_bind, M.pure_bind]
        exact withMutPartsN_or _ _
    · exact .inl rfl

/-- Partial correctness: `Q` when `x` returns and `R` when it panics. -/
def M.Part (x : M σ α) (s : σ) (Q : α → σ → Prop) (R : σ → Prop) : Prop :=
  match x s with
  | .ok a t => Q a t
  | .panic t => R t
  | _ => True

theorem M.Inv.part {I : σ → Prop} {x : M σ α} (h : x.Inv I) {s : σ} (hs : I s) : M.Part x s (fun _ => I) I := by
  have := h s hs
  unfold M.Part
  revert this
  cases x s <;> exact id

theorem M.Part.bind {x : M σ α} {f : α → M σ β} {s : σ} {P : α → σ → Prop} {Q : β → σ → Prop} {R : σ → Prop}
    (hx : M.Part x s P R) (hf : ∀ a t, P a t → M.Part (f a) t Q R) : M.Part (M.bind x f) s Q R := by
  unfold M.Part M.bind
  unfold M.Part at hx
  cases h : x s with
  | ok a t => rw [h] at hx; exact hf a t hx
  | panic t => rw [h] at hx; exact hx
  | ub => trivial
  | abort => trivial

theorem M.Part.onPanic {x : M σ α} {g : M σ Unit} {s : σ} {Q : α → σ → Prop} {R P : σ → Prop}
    (hx : M.Part x s Q P) (hg : ∀ t, P t → M.Part g t (fun _ => R) fun _ => True) : M.Part (M.onPanic x g) s Q R := by
  unfold M.Part M.onPanic
  unfold M.Part at hx
  cases h : x s with
  | ok a t => rw [h] at hx; exact hx
  | panic t =>
    rw [h] at hx
    have := hg t hx
    unfold M.Part at this
    dsimp only
    revert this
    cases g t <;> simp
  | ub => trivial
  | abort => trivial

theorem M.Part.scope {x : M (σ × ρ) α} {i : ρ} {s : σ} {R : σ → Prop} {Q : α → σ × ρ → Prop}
    (hx : M.Part x (s, i) Q fun t => R t.1) : M.Part (M.scope i x) s (fun _ _ => True) R := by
  unfold M.Part M.scope
  unfold M.Part at hx
  revert hx
  cases x (s, i) <;> simp

/-- If nothing is stored then the first cell is empty. -/
def EmptyFirst (s : σ × Own T) : Prop := s.2.len = 0 → ∀ x, s.2.cells[0]? ≠ some (some x)

/-- The old elements before the position of the guard are gone. -/
def Gone (n : Nat) (s : (σ × Own T) × Loc T) : Prop :=
  (0 < s.2.pos → s.1.2.cells[0]? = some none) ∧ s.2.pos + s.2.cnt = n

theorem gone_cells {cells : List (Option T)} {p n : Nat} (h : 0 < p → cells[0]? = some none)
    (hl : ((cells.drop p).take n).length = n) (hp : 0 < p + n) :
    (cells.take p ++ List.replicate n none ++ cells.drop (p + n))[0]? = some none := by
  by_cases hp0 : 0 < p
  · have := h hp0
    cases cells with
    | nil => cases this
    | cons c cells =>
      obtain ⟨p, rfl⟩ : ∃ q, p = q + 1 := ⟨p - 1, by omega⟩
      simpa using this
  · obtain rfl : p = 0 := by omega
    obtain ⟨n, rfl⟩ : ∃ q, n = q + 1 := ⟨n - 1, by omega⟩
    rw [List.take_zero, List.nil_append, List.replicate_succ]
    rfl

theorem gone_copyDim {n : Nat} {f : M σ T} (ods nds : List Nat) : (copyDim f ods nds).Inv (Gone n) := by
  refine inv_copyDim (fun m => inv_moveOld fun t h h1 h2 c l => ⟨fun hp => gone_cells h.1 h2 hp, ?_⟩)
    (fun m => inv_dropOld fun t h h1 h2 g => ⟨fun hp => gone_cells h.1 h2 hp, ?_⟩)
    (inv_pushNew fun s o l h s' c k => h) ods nds
  · have := h.2
    show t.2.pos + m + (t.2.cnt - m) = n
    omega
  · have := h.2
    show t.2.pos + m + (t.2.cnt - m) = n
    omega

theorem part_dropOldGuard {n : Nat} (hn : 0 < n) {t : (σ × Own T) × Loc T} (h : Gone n t) {R} :
    M.Part dropOldGuard t (fun _ u => u.1.2.cells[0]? = some none) R := by
  unfold M.Part dropOldGuard M.up dropCells
  dsimp only
  by_cases hc : (List.take t.2.cnt (List.drop t.2.pos t.1.2.cells)).length = t.2.cnt ∧
      (List.take t.2.cnt (List.drop t.2.pos t.1.2.cells)).all Option.isSome = true
  · rw [if_pos hc]
    exact gone_cells h.1 hc.1 (by rw [h.2]; exact hn)
  · rw [if_neg hc]
    trivial

theorem part_resizeCopy {d : List Nat} {n : Nat} {f : M σ T} (ho : o.len ≠ 0) :
    M.Part (resizeCopy d n f) (s, o) (fun _ _ => True) EmptyFirst := by
  unfold resizeCopy; simp only [M.bind_eq]
  refine M.Part.bind (P := fun u t => u = o ∧ t = (s, o)) ⟨rfl, rfl⟩ ?_
  rintro u t ⟨rfl, rfl⟩
  refine M.Part.bind (P := fun _ t => t = (s, u)) ?_ ?_
  · unfold M.Part
    cases check (n ≤ u.limit) with
    | none => exact fun h => absurd h ho
    | some _ => rfl
  rintro - t rfl
  refine M.Part.bind (P := fun _ t => t = (s, ({ u with len := 0 } : Own T))) (by exact rfl) ?_
  rintro - t rfl
  refine M.Part.bind (P := fun _ _ => True) (M.Part.scope (Q := fun _ _ => True) ?_) fun _ _ _ => trivial
  have hn : 0 < u.len := by omega
  refine M.Part.bind (P := fun _ t => Gone u.len t) (M.Part.onPanic (P := Gone u.len) ?_ fun t ht => ?_) fun _ t ht => ?_
  · exact M.Inv.part (gone_copyDim _ _) ⟨fun h => absurd h (Nat.lt_irrefl _), Nat.zero_add _⟩
  · refine M.Part.bind (part_dropOldGuard hn ht) fun _ t ht => ?_
    unfold M.Part dropNewVec
    dsimp only
    by_cases hc : (List.take t.2.newLen t.2.newCells).length = t.2.newLen ∧
        (List.take t.2.newLen t.2.newCells).all Option.isSome = true
    · rw [if_pos hc]
      intro _ x hx
      rw [show t.1.2.cells[0]? = _ from ht] at hx
      cases hx
    · rw [if_neg hc]
      trivial
  · have := part_dropOldGuard (R := fun _ => False) hn ht
    unfold M.Part at this ⊢
    cases hx : (dropOldGuard t : Res _ _) with
    | panic t => rw [hx] at this; exact this.elim
    | _ => trivial

theorem part_resizeVec {d : List Nat} {n : Nat} {f : M σ T} (ho : o.len ≠ 0) :
    M.Part (resizeVec d n f) (s, o) (fun _ t => n = 0 → EmptyFirst t) EmptyFirst := by
  show M.Part (if n = 0 then vecClear else if d.tail = o.shape.dims.tail then vecResizeWith n f
    else resizeCopy d n f : M (σ × Own T) Unit) (s, o) _ _
  by_cases h0 : n = 0
  · rw [if_pos h0]
    show M.Part (dropCells 0 o.len : M (σ × Own T) Unit) (s, { o with len := 0 }) _ _
    unfold M.Part dropCells
    dsimp only
    by_cases hc : (List.take o.len (List.drop 0 o.cells)).length = o.len ∧
        (List.take o.len (List.drop 0 o.cells)).all Option.isSome = true
    · rw [if_pos hc]
      intro _ _ x hx
      rw [show _ = _ from gone_cells (p := 0) (fun h => absurd h (Nat.lt_irrefl _)) hc.1 (by omega)] at hx
      cases hx
    · rw [if_neg hc]
      trivial
  · rw [if_neg h0]
    have hmono : ∀ {x : M (σ × Own T) Unit}, M.Part x (s, o) (fun _ _ => True) EmptyFirst →
        M.Part x (s, o) (fun _ t => n = 0 → EmptyFirst t) EmptyFirst := by
      intro x hx
      unfold M.Part at hx ⊢
      cases h : x (s, o) with
      | ok a t => exact fun h => absurd h h0
      | panic t => rw [h] at hx; exact hx
      | ub => trivial
      | abort => trivial
    refine hmono ?_
    split
    · have hi : (vecResizeWith n f).Inv fun t : σ × Own T => t.2.len ≠ 0 := by
        unfold vecResizeWith; simp only [M.bind_eq]
        refine M.Inv.bind inv_own fun _ => M.inv_ite (M.Inv.bind (inv_vecReserve fun _ _ _ h => h) fun _ =>
          M.inv_repeat (M.Inv.bind (M.inv_up (J := fun u : Own T => u.len ≠ 0) f) fun x =>
            inv_vecAppend (fun _ _ _ h => h) fun _ _ _ => Nat.succ_ne_zero _)) ?_
        unfold vecTruncate; simp only [M.bind_eq, M.pure_eq]
        exact M.Inv.bind inv_own fun _ => M.inv_ite (M.Inv.bind (inv_upd fun _ _ _ => h0) fun _ =>
          inv_dropCells fun _ _ _ _ h => h) (M.inv_pure _)
      have := M.Inv.part hi (s := (s, o)) ho
      unfold M.Part at this ⊢
      cases h : vecResizeWith n f (s, o) with
      | panic t => rw [h] at this; exact fun h => absurd h this
      | _ => trivial
    · exact part_resizeCopy ho

theorem dropFirst_ub {n : Nat} {t : σ × Own T} (hn : n ≠ 0) (h : ∀ x, t.2.cells[0]? ≠ some (some x)) :
    dropCells 0 n t = .ub := by
  unfold dropCells
  dsimp only
  refine if_neg fun hc => ?_
  obtain ⟨n, rfl⟩ : ∃ q, n = q + 1 := ⟨n - 1, by omega⟩
  cases hcells : t.2.cells with
  | nil => rw [hcells] at hc; simp at hc
  | cons c cells =>
    rw [hcells] at hc h
    cases c with
    | none => simp at hc
    | some x => exact h x rfl

/-- Where the stable guard aborts, the other one leaves an array without its elements. -/
theorem partsGuardN_bad {t : σ × Own T} {ys : List T} (hv : Vec t.2 ys) (hl : t.2.len ≠ t.2.shape.len)
    (hd : (Shape.default t.2.shape.ty).len ≠ 0) (he : EmptyFirst t) :
    ∃ t', partsGuardN t = .ok () t' ∧ t'.2.shape = Shape.default t.2.shape.ty ∧
      dropCells 0 t'.2.shape.len t' = .ub := by
  obtain ⟨h1, rest, h2⟩ := hv
  obtain ⟨s, o⟩ := t
  have e := dropCells_eq (o := { o with shape := Shape.default o.shape.ty }) (pre := []) (ys := ys)
    (xs := rest) (n := o.len) s (by simpa using h2.symm) h1
  refine ⟨(s, { o with
    shape := Shape.default o.shape.ty
    cells := [] ++ List.replicate ys.length none ++ rest
    log := o.log ++ ys }), ?_, ?_, ?_⟩
  · show (if o.len ≠ o.shape.len then _ else _ : M (σ × Own T) Unit) (s, o) = _
    rw [if_pos hl]
    exact e
  · rfl
  · refine dropFirst_ub hd fun x hx => ?_
    cases ys with
    | nil =>
      refine he (by simpa using h1) x ?_
      rw [show o.cells = _ from h2.symm]
      exact hx
    | cons y ys =>
      have : (some none : Option (Option T)) = some (some x) := hx
      cases this

theorem resizeWithN_abort {f : M σ T} (hf : f.Tame) {d : List Nat} (h : Holds o xs)
    (ha : resizeWith d f (s, o) = .abort) :
    ∃ t, resizeWithN d f (s, o) = .panic t ∧ t.2.shape = o.shape ∧ dropCells 0 t.2.shape.len t = .ub := by
  have hpost := post_resizeWith hf (newDims := d) (s := s) h
  unfold M.PostA at hpost
  rw [ha] at hpost
  have hd : size (Shape.default o.shape.ty).dims ≠ 0 := hpost.1
  have hsh : Shape.default o.shape.ty = o.shape := by
    have := Shape.default_unique hd h.1
    show (⟨(Shape.default o.shape.ty).ty, (Shape.default o.shape.ty).dims⟩ : Shape) = ⟨o.shape.ty, o.shape.dims⟩
    rw [Shape.default_ty, this]
  replace ha : M.bind (M.lift (check (d.length = o.shape.rank))) (fun _ => if d ≠ [] then
    M.bind (M.lift (Shape.checkedLen ⟨.dynRank, d⟩)) fun n => withMutParts (resizeBody d n f) else M.pure ()) (s, o) =
      .abort := ha
  show ∃ t, M.bind (M.lift (check (d.length = o.shape.rank))) (fun _ => if d ≠ [] then
    M.bind (M.lift (Shape.checkedLen ⟨.dynRank, d⟩)) fun n => withMutPartsN (resizeBody d n f) else M.pure ()) (s, o) =
      .panic t ∧ _
  by_cases hr : d.length = o.shape.rank
  rotate_left
  · rw [show check (d.length = o.shape.rank) = none from if_neg hr] at ha
    cases ha
  rw [show check (d.length = o.shape.rank) = some () from if_pos hr] at ha ⊢
  rw [M.lift_some, M.pure_bind] at ha ⊢
  by_cases hne : d ≠ []
  rotate_left
  · rw [if_neg hne] at ha
    cases ha
  rw [if_pos hne] at ha ⊢
  rw [Shape.checkedLen_eq] at ha ⊢
  by_cases hno : NoOverflow usizeMax d
  rotate_left
  · rw [if_neg hno] at ha
    cases ha
  rw [if_pos hno] at ha ⊢
  rw [M.lift_some, M.pure_bind] at ha ⊢
  rw [withMutParts_eq] at ha
  rw [withMutPartsN_eq]
  have h0 : (parts o).len ≠ 0 := by show o.shape.len ≠ 0; rw [← hsh, Shape.len_eq]; exact hd
  have hp : M.Post (resizeBody d (size d) f) (s, parts o) (fun _ _ => True) fun t => ∃ ys, Vec t.2 ys := by
    refine M.Post.bind (M.Post.mono (post_resizeVec hf (o := parts o) (parts_vec h) h.2.1 hr hne)
      (fun _ _ h => h) ?_) ?_
    · rintro t ⟨⟨ys, zs, dr, a1, a2, a3, a4, a5⟩, hc⟩
      exact ⟨ys, a2⟩
    · rintro - ⟨t, o2⟩ ⟨ys, zs, dr, a1, a2, a3, a4, a5⟩
      exact post_setShape (fun _ _ => trivial) fun _ => ⟨ys, a3⟩
  have ht : M.Part (resizeBody d (size d) f) (s, parts o) (fun _ _ => True) EmptyFirst := by
    have hpv := post_resizeVec hf (o := parts o) (s := s) (parts_vec h) h.2.1 hr hne
    have htv := part_resizeVec (d := d) (n := size d) (f := f) (s := s) h0
    refine M.Part.bind (P := fun _ t => EmptyFirst t) ?_ fun _ t ht => ?_
    · unfold M.Part at htv ⊢
      unfold M.Post at hpv
      cases hx : resizeVec d (size d) f (s, parts o) with
      | ok a t =>
        rw [hx] at htv hpv
        by_cases hz : size d = 0
        · exact htv hz
        · obtain ⟨ys, zs, dr, a1, a2, a3, a4, a5⟩ := hpv
          exact fun h => absurd (a3.1.symm.trans h) (by rw [a1.length]; exact hz)
      | panic t => rw [hx] at htv; exact htv
      | ub => trivial
      | abort => trivial
    · have : (setShape fun s => s.withMutDims fun dims => Shape.copyFromSlice dims d : M (σ × Own T) Unit).Inv
        EmptyFirst := inv_setShape fun _ _ _ _ h => h
      have := M.Inv.part this ht
      unfold M.Part at this ⊢
      revert this
      cases (setShape fun s => s.withMutDims fun dims => Shape.copyFromSlice dims d : M (σ × Own T) Unit) t with
      | ok => exact fun _ => trivial
      | panic => exact id
      | ub => exact id
      | abort => exact id
  have hty := (ty_resizeBody (ty := o.shape.ty) (d := d) (n := size d) (f := f)) (s, parts o) rfl
  unfold M.Post at hp
  unfold M.Part at ht
  unfold M.onPanic at ha ⊢
  cases hx : resizeBody d (size d) f (s, parts o) with
  | ok a t => rw [hx] at ha; cases ha
  | ub => rw [hx] at ha; cases ha
  | abort => rw [hx] at hp; exact hp.elim
  | panic t =>
    rw [hx] at ha hp ht hty
    replace hty : t.2.shape.ty = o.shape.ty := hty
    obtain ⟨ys, hv⟩ := hp
    have hdt : (Shape.default t.2.shape.ty).len ≠ 0 := by rw [hty, Shape.len_eq]; exact hd
    have hl : t.2.len ≠ t.2.shape.len := by
      intro hl
      have e : partsGuard t = .ok () t := by
        show (if t.2.len ≠ t.2.shape.len then _ else _ : M (σ × Own T) Unit) t = _
        rw [if_neg (by simpa using hl)]; rfl
      dsimp only at ha
      rw [e] at ha
      cases ha
    obtain ⟨t', e1, e2, e3⟩ := partsGuardN_bad hv hl hdt ht
    refine ⟨t', ?_, by rw [e2, hty, hsh], e3⟩
    dsimp only
    rw [e1]

end Model
