import Verif.Model.DebugAssert
import Verif.Lemmas.MachineStorage
import Verif.Lemmas.RawOps
import Verif.Lemmas.Storage

/-! The debug assertions hold for valid tensors. -/

namespace Model
open Spec Expr Machine

variable {σ T α β : Type}

theorem M.Post.part {x : M σ α} {s : σ} {Q : α → σ → Prop} {R : σ → Prop} (h : M.Post x s Q R) : M.Part x s Q R := by
  unfold M.Post at h
  unfold M.Part
  cases e : x s <;> rw [e] at h <;> first | exact h | trivial

/-! `copy_dim` -/

/-- `x` appends `n` elements to the new vector. -/
def Grows (n : Nat) (x : M ((σ × Own T) × Loc T) α) : Prop :=
  ∀ u, M.Part x u (fun _ u' => u'.2.newLen = u.2.newLen + n ∧ u'.2.newCells.length = u.2.newCells.length) fun _ => True

theorem Grows.bind {n m : Nat} {x : M ((σ × Own T) × Loc T) α} {f : α → M ((σ × Own T) × Loc T) β} (hx : Grows n x)
    (hf : ∀ a, Grows m (f a)) : Grows (n + m) (M.bind x f) := by
  intro u
  refine M.Part.bind (hx u) fun a t ht => ?_
  have := hf a t
  unfold M.Part at this ⊢
  cases h : f a t <;> rw [h] at this
  · exact ⟨by rw [this.1, ht.1]; omega, this.2.trans ht.2⟩
  all_goals trivial

theorem grows_pure (a : α) : Grows 0 (M.pure a : M ((σ × Own T) × Loc T) α) := fun _ => ⟨rfl, rfl⟩

theorem grows_repeat {n : Nat} {x : M ((σ × Own T) × Loc T) Unit} (hx : Grows n x) :
    ∀ m, Grows (m * n) (repeatM m x)
  | 0 => by rw [Nat.zero_mul]; exact grows_pure _
  | m + 1 => by
    rw [Nat.succ_mul, Nat.add_comm]
    exact hx.bind fun _ => grows_repeat hx m

theorem grows_moveOld (n : Nat) : Grows n (moveOld n : M ((σ × Own T) × Loc T) Unit) := by
  intro u
  unfold M.Part moveOld
  split
  · rename_i h
    dsimp only [] at h
    split at h
    · rename_i hc
      cases h
      refine ⟨rfl, ?_⟩
      simp only [List.length_append, List.length_take, List.length_drop] at hc ⊢
      omega
    · cases h
  all_goals trivial

theorem grows_dropOld (n : Nat) : Grows 0 (dropOld n : M ((σ × Own T) × Loc T) Unit) := by
  intro u
  unfold M.Part dropOld
  split
  · rename_i h
    split at h
    · unfold M.up at h
      cases hd : dropCells u.2.pos n u.1 <;> rw [hd] at h <;> cases h
      exact ⟨rfl, rfl⟩
    · cases h
  all_goals trivial

theorem grows_pushNew (f : M σ T) : Grows 1 (pushNew f) := by
  intro u
  unfold pushNew
  refine M.Part.bind (P := fun _ t => t.2 = u.2) ?_ ?_
  · exact part_imp (M.Inv.part (M.inv_up (J := fun l : Loc T => l = u.2) (M.up f)) rfl) (fun _ _ h => h) fun _ _ => trivial
  · intro a t ht
    unfold M.Part
    split
    · rename_i h
      dsimp only [] at h
      split at h
      · cases h
        exact ⟨by rw [← ht], by rw [← ht]; simp⟩
      · cases h
    all_goals trivial

theorem size_cons' (d : Nat) (ds : List Nat) : size (d :: ds) = d * size ds := rfl

theorem foldl_size (ds : List Nat) : ds.foldl (· * ·) 1 = size ds := (Shape.len_eq ⟨.dynRank, ds⟩)

theorem grows_copyDim (f : M σ T) : ∀ ods nds : List Nat, ods.length = nds.length →
    Grows (size nds) (copyDim f ods nds : M ((σ × Own T) × Loc T) Unit)
  | [], _, _ => by intro u; unfold copyDim; trivial
  | _ :: _, [], _ => by intro u; unfold copyDim; trivial
  | od :: ods, nd :: nds, h => by
    simp only [List.length_cons, Nat.add_right_cancel_iff] at h
    unfold copyDim
    have e : size (nd :: nds) = min od nd * size nds + (0 + (nd - min od nd) * size nds * 1) := by
      have : nd = min od nd + (nd - min od nd) := by omega
      rw [size_cons', Nat.zero_add, Nat.mul_one, ← Nat.add_mul, ← this]
    rw [e]
    refine Grows.bind ?_ fun _ => Grows.bind ?_ fun _ => ?_
    · split
      · exact grows_repeat (grows_copyDim f ods nds h) _
      · have : nds = [] := List.eq_nil_of_length_eq_zero (by omega)
        subst this
        rw [show size [] = 1 from rfl, Nat.mul_one]
        exact grows_moveOld _
    · split
      · exact grows_dropOld _
      · exact grows_pure _
    · rw [foldl_size]
      exact grows_repeat (grows_pushNew f) _

/-- With `n` elements of free space, `x` and `y` do the same where `x` has no undefined behaviour. -/
def Agrees (n : Nat) (x y : M ((σ × Own T) × Loc T) Unit) : Prop :=
  ∀ u, x u ≠ .ub → u.2.newLen + n ≤ u.2.newCells.length → y u = x u

theorem Agrees.bind {n m : Nat} {x y x' y' : M ((σ × Own T) × Loc T) Unit} (h : Agrees n x y) (hx : Grows n x)
    (h' : Agrees m x' y') : Agrees (n + m) (M.bind x fun _ => x') (M.bind y fun _ => y') := by
  intro u hu hc
  have hg := hx u
  unfold M.bind at hu ⊢
  rw [h u (fun e => hu (by rw [e])) (by omega)]
  unfold M.Part at hg
  cases e : x u with
  | ok a t =>
    rw [e] at hg hu
    exact h' t hu (by rw [hg.1, hg.2]; omega)
  | panic t => rfl
  | ub => rfl
  | abort => rfl

theorem Agrees.refl (n : Nat) (x : M ((σ × Own T) × Loc T) Unit) : Agrees n x x := fun _ _ _ => rfl

theorem Agrees.repeat {n : Nat} {x y : M ((σ × Own T) × Loc T) Unit} (h : Agrees n x y) (hx : Grows n x) :
    ∀ m, Agrees (m * n) (repeatM m x) (repeatM m y)
  | 0 => by rw [Nat.zero_mul]; exact .refl _ _
  | m + 1 => by
    rw [Nat.succ_mul, Nat.add_comm]
    exact h.bind hx (h.repeat hx m)

theorem agrees_moveOld (n : Nat) : Agrees n (moveOld n : M ((σ × Own T) × Loc T) Unit) (moveOldD n) := by
  intro u hu hc
  have h1 : n ≤ u.2.cnt := by
    by_contra h
    refine hu ?_
    unfold moveOld
    rw [if_neg (fun hh => h hh.1)]
  unfold moveOldD
  show M.bind (M.lift (check (n ≤ u.2.cnt))) _ u = _
  rw [show check (n ≤ u.2.cnt) = some () from if_pos h1, M.lift_some, M.pure_bind,
    show check (u.2.newLen + n ≤ u.2.newCells.length) = some () from if_pos hc, M.lift_some, M.pure_bind]

theorem agrees_dropOld (n : Nat) : Agrees 0 (dropOld n : M ((σ × Own T) × Loc T) Unit) (dropOldD n) := by
  intro u hu hc
  have h1 : n ≤ u.2.cnt := by
    by_contra h
    refine hu ?_
    unfold dropOld
    rw [if_neg h]
  unfold dropOldD
  show M.bind (M.lift (check (n ≤ u.2.cnt))) _ u = _
  rw [show check (n ≤ u.2.cnt) = some () from if_pos h1, M.lift_some, M.pure_bind]

theorem agrees_pushNews (n : Nat) (f : M σ T) : Agrees n (repeatM n (pushNew f)) (pushNewsD n f) := by
  intro u hu hc
  unfold pushNewsD
  show M.bind (M.lift (check (u.2.newLen + n ≤ u.2.newCells.length))) _ u = _
  rw [show check (u.2.newLen + n ≤ u.2.newCells.length) = some () from if_pos hc, M.lift_some, M.pure_bind]

theorem agrees_copyDim (f : M σ T) : ∀ ods nds : List Nat, ods.length = nds.length →
    Agrees (size nds) (copyDim f ods nds : M ((σ × Own T) × Loc T) Unit) (copyDimD f ods nds)
  | [], _, _ => by intro u; unfold copyDim copyDimD; exact fun _ _ => rfl
  | _ :: _, [], _ => by intro u; unfold copyDim copyDimD; exact fun _ _ => rfl
  | od :: ods, nd :: nds, h => by
    simp only [List.length_cons, Nat.add_right_cancel_iff] at h
    unfold copyDim copyDimD
    have e : size (nd :: nds) = min od nd * size nds + (0 + (nd - min od nd) * size nds) := by
      have : nd = min od nd + (nd - min od nd) := by omega
      rw [size_cons', Nat.zero_add, ← Nat.add_mul, ← this]
    rw [e]
    have h1 : Grows (min od nd * size nds) (if 0 < ods.length then repeatM (min od nd) (copyDim f ods nds)
        else moveOld (min od nd) : M ((σ × Own T) × Loc T) Unit) ∧
        Agrees (min od nd * size nds) (if 0 < ods.length then repeatM (min od nd) (copyDim f ods nds)
          else moveOld (min od nd) : M ((σ × Own T) × Loc T) Unit)
          (if 0 < ods.length then repeatM (min od nd) (copyDimD f ods nds) else moveOldD (min od nd)) := by
      split
      · exact ⟨grows_repeat (grows_copyDim f ods nds h) _,
          (agrees_copyDim f ods nds h).repeat (grows_copyDim f ods nds h) _⟩
      · have : nds = [] := List.eq_nil_of_length_eq_zero (by omega)
        subst this
        rw [show size [] = 1 from rfl, Nat.mul_one]
        exact ⟨grows_moveOld _, agrees_moveOld _⟩
    have h2 : Grows 0 (if min od nd < od then dropOld ((od - min od nd) * ods.foldl (· * ·) 1) else M.pure () :
        M ((σ × Own T) × Loc T) Unit) ∧
        Agrees 0 (if min od nd < od then dropOld ((od - min od nd) * ods.foldl (· * ·) 1) else M.pure () :
          M ((σ × Own T) × Loc T) Unit)
          (if min od nd < od then dropOldD ((od - min od nd) * ods.foldl (· * ·) 1) else M.pure ()) := by
      split
      · exact ⟨grows_dropOld _, agrees_dropOld _⟩
      · exact ⟨grows_pure _, .refl _ _⟩
    refine h1.2.bind h1.1 (h2.2.bind h2.1 ?_)
    rw [foldl_size]
    exact agrees_pushNews _ f

theorem resizeCopyD_eq {newDims : List Nat} {f : M σ T} {t : σ × Own T}
    (hl : newDims.length = t.2.shape.dims.length) (h : resizeCopy newDims (size newDims) f t ≠ .ub) :
    resizeCopyD newDims (size newDims) f t = resizeCopy newDims (size newDims) f t := by
  unfold resizeCopy at h ⊢
  unfold resizeCopyD
  simp only [M.bind_eq] at h ⊢
  change M.bind (M.lift (check (size newDims ≤ t.2.limit))) _ t ≠ _ at h
  show M.bind (M.lift (check (size newDims ≤ t.2.limit))) _ t = M.bind (M.lift (check (size newDims ≤ t.2.limit))) _ t
  by_cases hc : size newDims ≤ t.2.limit
  · rw [show check (size newDims ≤ t.2.limit) = some () from if_pos hc, M.lift_some, M.pure_bind] at h ⊢
    rw [M.pure_bind]
    simp only [M.bind, upd, M.scope, M.onPanic] at h ⊢
    rw [agrees_copyDim f t.2.shape.dims newDims hl.symm _ ?_ (by simp)]
    intro e
    rw [e] at h
    exact h rfl
  · rw [show check (size newDims ≤ t.2.limit) = none from if_neg hc]
    rfl

/-! `with_mut_parts` -/

/-- The length of the vector is that of the shape, which fits. -/
def Settled (t : σ × Own T) : Prop := Fits64 true t.2 ∧ t.2.len = size t.2.shape.dims

theorem Settled.checked {t : σ × Own T} (h : Settled t) : some t.2.len = t.2.shape.checkedLen := by
  rw [Shape.checkedLen_eq, if_pos (h.1.2.1.2 rfl), h.2]

theorem assertLen_eq {t : σ × Own T} (h : Settled t) : assertLen t = .ok () t := by
  show M.lift (check (some t.2.len = t.2.shape.checkedLen)) t = _
  rw [show check (some t.2.len = t.2.shape.checkedLen) = some () from if_pos h.checked]
  rfl

theorem fromPartsD_eq {t : σ × Own T} (h : Settled t) : fromPartsD t = .ok () t := by
  show M.bind (M.onPanic (M.lift (check (true = true → some t.2.len = t.2.shape.checkedLen))) vecClear) _ t = _
  rw [show check (true = true → some t.2.len = t.2.shape.checkedLen) = some () from if_pos fun _ => h.checked]
  rfl

theorem part_settled {x : M σ' α} {u : σ'} {Q Q' : α → σ' → Prop} {R R' : σ' → Prop} (h : M.Part x u Q R)
    (h' : M.Part x u Q' R') : M.Part x u (fun a t => Q a t ∧ Q' a t) fun _ => True := by
  unfold M.Part at *
  cases e : x u <;> rw [e] at h h'
  · exact ⟨h, h'⟩
  all_goals trivial

theorem withMutPartsD_eq {x y : M (σ × Own T) α} {s : σ} {o : Own T} (hxy : x (s, parts o) = y (s, parts o))
    (h1 : M.Part y (s, parts o) (fun _ => Ok true) R) (h2 : M.Part y (s, parts o) (fun _ t => t.2.len = size t.2.shape.dims)
      fun _ => True) : withMutPartsD x (s, o) = withMutParts y (s, o) := by
  unfold withMutPartsD
  rw [withMutParts_eq, withMutParts_eq]
  have : M.bind x (fun a => M.bind assertLen fun _ => M.pure a) (s, parts o) = y (s, parts o) := by
    unfold M.bind
    rw [hxy]
    have := part_settled h1 h2
    unfold M.Part at this
    cases e : y (s, parts o) <;> rw [e] at this
    · dsimp only []
      rw [assertLen_eq this]
      rfl
  unfold M.onPanic
  rw [this]

theorem then_fromPartsD {x : M (σ × Own T) Unit} {s : σ} {o : Own T} (h1 : M.Part x (s, o) (fun _ => Ok true) R)
    (h2 : M.Part x (s, o) (fun _ t => t.2.len = size t.2.shape.dims) R') :
    M.bind x (fun _ => fromPartsD) (s, o) = x (s, o) := by
  unfold M.bind
  have := part_settled h1 h2
  unfold M.Part at this
  cases e : x (s, o) <;> rw [e] at this
  · exact fromPartsD_eq this

/-! Lengths of the vector -/

theorem len_of_vec {t : σ × Own T} {ys : List T} (h : Vec t.2 ys) (hl : ys.length = size t.2.shape.dims) :
    t.2.len = size t.2.shape.dims := h.1.trans hl

variable {s : σ} {o : Own T} {xs : List T}

theorem tensorReserveD_eq (h : Holds o xs) (ho : Fits64 true o) (n : Nat) :
    tensorReserveD n (s, o) = tensorReserve n (s, o) := by
  refine withMutPartsD_eq rfl (ok_of_within ho within_vecReserve) ?_
  refine part_imp (post_vecReserve n (parts_vec h)).part (fun _ t ht => len_of_vec ht.2.1 ?_) fun _ _ => trivial
  rw [ht.2.2.1.shape]; exact h.2.1

theorem tensorTryReserveD_eq (h : Holds o xs) (ho : Fits64 true o) (n : Nat) :
    tensorTryReserveD n (s, o) = tensorTryReserve n (s, o) := by
  refine withMutPartsD_eq rfl (ok_of_within ho within_tryReserve) ?_
  refine M.Part.bind (P := fun _ t => t = (s, parts o)) rfl ?_
  rintro a t rfl
  split
  · refine M.Part.bind (P := fun _ t => t.2.len = size t.2.shape.dims) ?_ fun _ _ h => by exact h
    refine part_imp (post_vecReserve n (parts_vec h)).part (fun _ t ht => len_of_vec ht.2.1 ?_) fun _ _ => trivial
    rw [ht.2.2.1.shape]; exact h.2.1
  · exact Shape.len_eq _

theorem tensorShrinkToD_eq (ho : Fits64 true o) (n : Nat) : tensorShrinkToD n (s, o) = tensorShrinkTo n (s, o) :=
  withMutPartsD_eq rfl (ok_of_within ho within_shrink) (Shape.len_eq _)

theorem tensorExtendD_eq (h : Holds o xs) (ho : Fits64 true o) (n : Nat) (step : Nat → M σ T) :
    tensorExtendD n step (s, o) = tensorExtend n step (s, o) := by
  refine withMutPartsD_eq rfl (part_extend ho (holds_cap h)) ?_
  refine M.Part.bind (P := fun _ _ => True) ?_ fun _ t _ => ?_
  · unfold M.Part; cases vecExtend n step (s, parts o) <;> trivial
  · show t.2.len = size [t.2.len]
    rw [size_cons', show size [] = 1 from rfl, Nat.mul_one]

theorem cloneFromD_eq {b : Own T} {src : List T} {c : T → M σ T} (hc : ∀ y, (c y).Tame) (h : Holds o xs)
    (ho : Fits64 true o) (hb : Holds b src) (hb' : Fits64 true b) :
    cloneFromD src b.shape c (s, o) = cloneFrom src b.shape c (s, o) := by
  refine withMutPartsD_eq rfl (part_cloneFrom ho hb') ?_
  refine M.Part.bind (P := fun _ t => t.2.len = src.length) ?_ fun _ t ht => ?_
  · refine part_imp (post_vecCloneFrom hc (parts_vec h)).part ?_ fun _ _ => trivial
    rintro - t ⟨ys, h1, h2, -⟩
    rw [h2.1, h1.length]
  · exact ht.trans hb.2.1

theorem tensorClearD_eq (h : Holds o xs) (ho : Fits64 true o) : tensorClearD (s, o) = tensorClear (s, o) := by
  unfold tensorClearD tensorClear
  simp only [M.bind_eq]
  refine bind_congr_at fun a u e => ?_
  cases e
  refine bind_congr_at fun a u e => ?_
  by_cases hz : (Shape.default o.shape.ty).len = 0
  · rw [show check ((Shape.default o.shape.ty).len = 0) = some () from if_pos hz] at e
    cases e
    refine withMutPartsD_eq rfl (part_clear ho) ?_
    refine M.Part.bind (P := fun _ t => t.2.len = 0 ∧ t.2.shape = o.shape) ?_ fun _ t ht => ?_
    · refine part_imp (post_vecClear (R := fun _ => True) (parts_vec h)).part ?_ fun _ _ => trivial
      rintro - t ⟨-, h2, h3⟩
      exact ⟨h2.1, h3.shape⟩
    · show t.2.len = size (Shape.default t.2.shape.ty).dims
      rw [ht.1, ht.2, ← Shape.len_eq, hz]
  · rw [show check ((Shape.default o.shape.ty).len = 0) = none from if_neg hz] at e
    cases e

theorem tensorTruncateD_eq (h : Holds o xs) (ho : Fits64 true o) (n : Nat) :
    tensorTruncateD n (s, o) = tensorTruncate n (s, o) := by
  unfold tensorTruncateD tensorTruncate
  simp only [M.bind_eq, M.pure_eq]
  refine bind_congr_part (P := fun _ t => t = (s, o) ∧ 0 < o.shape.rank) (R := fun _ => True)
    (post_checkHead (fun h => ⟨rfl, h.1⟩) fun _ => trivial).part ?_
  rintro - t ⟨rfl, hr⟩
  refine bind_congr_at fun a u e => ?_
  cases e
  split
  · rename_i hn
    refine withMutPartsD_eq rfl (part_truncate ho hn) ?_
    obtain ⟨d, ds, hd⟩ : ∃ d ds, o.shape.dims = d :: ds := by
      cases hd : o.shape.dims with
      | nil => simp [Shape.rank, hd] at hr
      | cons d ds => exact ⟨d, ds, rfl⟩
    refine M.Part.bind (P := fun _ t => ∃ s', t = (s, { parts o with shape := s' }) ∧ s'.dims = n :: ds)
      (R := fun _ => True) (M.Post.part (post_setShape ?_ fun _ => trivial)) ?_
    · intro s' hs'
      refine ⟨s', rfl, ?_⟩
      rw [Shape.withMutDims_eq] at hs'
      simp only [Option.bind_some] at hs'
      split at hs'
      · cases hs'
        show (parts o).shape.dims.set 0 n = _
        rw [show (parts o).shape = o.shape from rfl, hd]; rfl
      · cases hs'
    · rintro - t ⟨s', rfl, hs⟩
      have hv : Vec ({ parts o with shape := s' } : Own T) xs := parts_vec h
      refine part_imp (post_vecTruncate (R := fun _ => True) s'.len hv).part ?_ fun _ _ => trivial
      rintro - t ⟨-, h2, h3⟩
      have hl := h.2.1
      rw [hd] at hn hl
      have : n * size ds ≤ d * size ds := Nat.mul_le_mul_right _ (le_of_lt hn)
      refine len_of_vec h2 ?_
      rw [h3.shape]
      show _ = size s'.dims
      rw [List.length_take, Shape.len_eq, hs, hl, size_cons', size_cons']
      omega
  · rfl

/-! Expressions -/

theorem part_cloneIntoVec {e : Expr σ α} (hb : Built e) (ht : TameRaw e)
    (hp : size e.dims = 0 → size (e.dims.drop e.outerRank) = 0) {c : α → M σ T} (hc : ∀ y, (c y).Tame)
    (hv : Vec o xs) (hcap : xs.length + size e.dims ≤ o.cells.length) :
    M.Part (cloneIntoVec e c) (s, o) (fun _ t => t.2.len = xs.length + size e.dims ∧ t.2.shape = o.shape)
      fun _ => True := by
  unfold cloneIntoVec
  refine M.Part.bind (P := fun _ t => t = (s, o)) rfl ?_
  rintro a t rfl
  refine M.Part.bind (P := fun _ t => t = (s, o)) (part_lift (fun _ _ => rfl) fun _ => trivial) ?_
  rintro - t rfl
  by_cases he : BadFn e ∧ Iter.row e = 0
  · rw [forEach_bad hb he.1 he.2]
    trivial
  · have he' : BadFn e → 0 < Iter.row e := fun h => Nat.pos_of_ne_zero fun h0 => he ⟨h, h0⟩
    rw [forEach_mimic hb he' hp]
    refine part_imp (post_itemLoop (mimic_built (wf_of_built hb)) (mimic_sound e) (mimic_tame ht)
      (by rw [mimic_outerRank]; exact id) hc hv hcap).part ?_ fun _ _ => trivial
    rintro - t ⟨ys, h1, h2, h3, -⟩
    exact ⟨by rw [h2.1, List.length_append, h1.length]; rfl, h3.shape⟩

theorem expandD_eq {e : Expr σ α} (hb : Built e) (ht : TameRaw e) {c : α → M σ T} (hc : ∀ y, (c y).Tame)
    (h : Holds o xs) (ho : Fits64 true o) : expandD e c (s, o) = expand e c (s, o) := by
  unfold expandD expand
  simp only [M.bind_eq, M.pure_eq]
  refine bind_congr_part (P := fun _ t => t = (s, o) ∧ 0 < o.shape.rank) (R := fun _ => True)
    (post_checkHead (fun h => ⟨rfl, h.1⟩) fun _ => trivial).part ?_
  rintro - t ⟨rfl, hr⟩
  split
  · rename_i h0
    have h0' : 0 < size e.dims := by rw [Shape.len_eq] at h0; exact h0
    refine withMutPartsD_eq rfl (part_expand ho hr h0') ?_
    refine M.Part.bind (P := fun _ t => Vec t.2 xs ∧ t.2.shape = o.shape ∧ xs.length + size e.dims ≤ t.2.cells.length)
      (part_imp (post_vecReserve e.shape.len (parts_vec h)).part ?_ fun _ _ => trivial) ?_
    · rintro - t ⟨-, h2, h3, h4⟩
      rw [Shape.len_eq] at h4
      exact ⟨h2, h3.shape, h4⟩
    · rintro - ⟨t, o1⟩ ⟨h2, h3, h4⟩
      refine M.Part.bind (P := fun _ u => ∃ s', expandShape o.shape e.dims = some s' ∧ u = (t, { o1 with shape := s' }))
        (R := fun _ => True) (M.Post.part (post_setShape ?_ fun _ => trivial)) ?_
      · intro s' hs'
        rw [show o1.shape = o.shape from h3] at hs'
        exact ⟨s', hs', rfl⟩
      · rintro - u ⟨s', hs', rfl⟩
        obtain ⟨-, -, w3, -⟩ := expandShape_some hr hs' h0'
        refine part_imp (part_cloneIntoVec (o := { o1 with shape := s' }) hb ht (fun h => by omega) hc h2 h4) ?_
          fun _ _ => trivial
        rintro - t ⟨h5, h6⟩
        rw [h5, h6]
        show _ = size s'.dims
        rw [w3, h.2.1]
  · rfl

theorem len_tensorFromExpr {e : Expr σ T} (hb : Built e) (ht : TameRaw e)
    (hp : size e.dims = 0 → size (e.dims.drop e.outerRank) = 0) :
    M.Part (tensorFromExpr e) (s, o) (fun _ t => t.2.len = size t.2.shape.dims) fun _ => True := by
  unfold tensorFromExpr
  simp only [M.bind_eq]
  refine M.Part.bind (P := fun _ t => t = (s, ({ o with cells := [], len := 0, shape := e.shape } : Own T))) rfl ?_
  rintro - t rfl
  refine M.Part.bind (P := fun _ t => t = (s, ({ o with cells := [], len := 0, shape := e.shape } : Own T))) rfl ?_
  rintro a t rfl
  refine M.Part.bind (P := fun _ t => t = (s, ({ o with cells := [], len := 0, shape := e.shape } : Own T)))
    (part_lift (fun _ _ => rfl) fun _ => trivial) ?_
  rintro - t rfl
  refine M.Part.bind (P := fun _ t => t = (s, ({ o with
    cells := List.replicate e.shape.len none, len := 0, shape := e.shape } : Own T))) rfl ?_
  rintro - t rfl
  refine M.Part.onPanic (P := fun _ => True) (part_imp (part_cloneIntoVec (xs := []) hb ht hp
    (fun _ => M.tame_pure _) ⟨rfl, by simp⟩ (by simp [Shape.len_eq, Expr.dims])) ?_ fun _ _ => trivial) fun t _ => ?_
  · rintro - t ⟨h1, h2⟩
    rw [h1, h2]
    exact Nat.zero_add _
  · unfold M.Part
    split <;> trivial

theorem tensorFromExprD_eq {e : Expr σ T} (hb : Built e) (ht : TameRaw e) (he : LenFits true e.dims)
    (hp : size e.dims = 0 → size (e.dims.drop e.outerRank) = 0) (hl : o.limit ≤ usizeMax) :
    tensorFromExprD e (s, o) = tensorFromExpr e (s, o) :=
  then_fromPartsD (tensorFromExpr_kept (shape_wf (wf_of_built hb)) he hl) (len_tensorFromExpr hb ht hp)

/-! `resize_with` -/

theorem resizeVecD_eq {newDims : List Nat} {f : M σ T} (hf : f.Tame) (h : Vec o xs)
    (hl : xs.length = size o.shape.dims) (hr : newDims.length = o.shape.dims.length) (hne : newDims ≠ []) :
    resizeVecD newDims (size newDims) f (s, o) = resizeVec newDims (size newDims) f (s, o) := by
  have hp := post_resizeVec (s := s) hf h hl hr hne
  have hu : resizeVec newDims (size newDims) f (s, o) ≠ .ub := by
    intro e
    unfold M.Post at hp
    rw [e] at hp
    exact hp
  change (if size newDims = 0 then vecClear else if newDims.tail = o.shape.dims.tail then
    vecResizeWith (size newDims) f else resizeCopy newDims (size newDims) f : M (σ × Own T) Unit) (s, o) ≠ .ub at hu
  show (if size newDims = 0 then vecClear else if newDims.tail = o.shape.dims.tail then
    vecResizeWith (size newDims) f else resizeCopyD newDims (size newDims) f : M (σ × Own T) Unit) (s, o) =
    (if size newDims = 0 then vecClear else if newDims.tail = o.shape.dims.tail then
    vecResizeWith (size newDims) f else resizeCopy newDims (size newDims) f : M (σ × Own T) Unit) (s, o)
  split
  · rfl
  · rename_i h1
    rw [if_neg h1] at hu
    split
    · rfl
    · rename_i h2
      rw [if_neg h2] at hu
      exact resizeCopyD_eq hr hu

theorem resizeWithD_eq {newDims : List Nat} {f : M σ T} (hf : f.Tame) (h : Holds o xs) (ho : Fits64 true o) :
    resizeWithD newDims f (s, o) = resizeWith newDims f (s, o) := by
  unfold resizeWithD resizeWith
  show M.bind (M.lift (check (newDims.length = o.shape.rank))) _ (s, o) =
    M.bind (M.lift (check (newDims.length = o.shape.rank))) _ (s, o)
  refine bind_congr_part (P := fun _ t => t = (s, o) ∧ newDims.length = o.shape.rank) (R := fun _ => True)
    (part_lift (fun _ h => ⟨rfl, ?_⟩) fun _ => trivial) ?_
  · unfold check at h
    split at h
    · assumption
    · cases h
  rintro - t ⟨rfl, hr⟩
  split
  · rename_i hne
    refine bind_congr_part (P := fun n t => t = (s, o) ∧ n = size newDims ∧ NoOverflow usizeMax newDims)
      (R := fun _ => True) (part_lift (fun n h => ?_) fun _ => trivial) ?_
    · rw [Shape.checkedLen_eq] at h
      split at h
      · injection h with h
        exact ⟨rfl, h.symm, by assumption⟩
      · cases h
    rintro n t ⟨rfl, rfl, hno⟩
    refine withMutPartsD_eq (bind_left_eq (resizeVecD_eq hf (parts_vec h) h.2.1 hr hne)) (part_resize ho hno) ?_
    refine M.Part.bind (part_imp (post_resizeVec hf (parts_vec h) h.2.1 hr hne).part (fun _ _ h => h) fun _ _ => trivial) ?_
    rintro - t ⟨ys, zs, dr, a1, -, a3, -⟩
    refine M.Post.part (post_setShape ?_ fun _ => trivial)
    intro s' hs'
    rw [Shape.withMutDims_eq] at hs'
    obtain ⟨d', h1, h2⟩ := Option.bind_eq_some_iff.mp hs'
    unfold Shape.copyFromSlice at h1
    split at h1
    · injection h1 with h1
      subst h1
      split at h2
      · injection h2 with h2
        subst h2
        exact a3.1.trans a1.length
      · cases h2
    · cases h1
  · rfl

/-! Conversions -/

theorem tensorIntoD_eq {f : Shape → Option Shape} (ho : Fits64 true o)
    (hf : ∀ s', f o.shape = some s' → s'.WF ∧ LenFits true s'.dims ∧ size s'.dims = size o.shape.dims) :
    tensorIntoD f (s, o) = tensorInto f (s, o) := by
  refine then_fromPartsD (R' := fun _ => True) (tensorInto_kept ho fun s' h => ⟨(hf s' h).1, (hf s' h).2.1⟩) ?_
  unfold tensorInto
  simp only [M.bind_eq]
  refine M.Part.bind (P := fun _ t => t = (s, parts o)) rfl ?_
  rintro - t rfl
  refine M.Part.onPanic (P := fun _ => True) (M.Post.part (post_setShape ?_ fun _ => trivial)) fun t _ => ?_
  · intro s' hs'
    show o.shape.len = size s'.dims
    rw [Shape.len_eq, (hf s' hs').2.2]
  · unfold M.Part
    split <;> trivial

theorem tensorIntoFlatD_eq (ho : Fits64 true o) : tensorIntoFlatD (s, o) = tensorIntoFlat (s, o) := by
  refine then_fromPartsD (R' := fun _ => True) (tensorIntoFlat_kept ho) ?_
  show o.shape.len = size [o.shape.len]
  rw [size_cons', show size [] = 1 from rfl, Nat.mul_one]

theorem tensorCloneD_eq {b : Own T} {ys : List T} (hb : Holds b ys) (ho : Fits64 true o) (hb' : Fits64 true b)
    {c : T → M σ T} (hc : ∀ y, (c y).Tame) : tensorCloneD b c (s, o) = tensorClone b c (s, o) := by
  refine then_fromPartsD (R' := fun _ => True) (tensorClone_kept ho hb' c) ?_
  refine M.Part.bind (P := fun a t => a = ys ∧ t = (s, o)) (post_readElems hb ⟨rfl, rfl⟩).part ?_
  rintro a t ⟨rfl, rfl⟩
  refine M.Part.bind (part_imp (post_vecClone hc).part (fun _ _ h => h) fun _ _ => trivial) ?_
  rintro - t ⟨ys, a1, a2, -⟩
  exact a2.1.trans (a1.length.trans hb.2.1)

theorem tensorFromVecD_eq {t : σ × Own T} (h : t.2.len ≤ usizeMax) : tensorFromVecD t = tensorFromVec t := by
  unfold tensorFromVecD tensorFromVec
  show fromPartsD (t.1, { t.2 with shape := ⟨.static [.dyn], [t.2.len]⟩ }) = _
  show M.bind (M.onPanic (M.lift (check (true = true → some t.2.len = Shape.checkedLen ⟨.static [.dyn], [t.2.len]⟩)))
    vecClear) _ _ = _
  rw [show check (true = true → some t.2.len = Shape.checkedLen ⟨.static [.dyn], [t.2.len]⟩) = some () from
    if_pos fun _ => ?_]
  · rfl
  · rw [Shape.checkedLen_eq, if_pos]
    · simp [size]
    · exact (LenFits.single (checks := true) h).2 rfl

theorem tensorFromSliceD_eq {src : List T} {c : T → M σ T} (hc : ∀ y, (c y).Tame) (hl : src.length ≤ usizeMax) :
    tensorFromSliceD src c (s, o) = tensorFromSlice src c (s, o) := by
  refine bind_congr_part (P := fun _ t => t.2.len = src.length) (R := fun _ => True)
    (part_imp (post_vecClone hc).part ?_ fun _ _ => trivial) fun _ t ht => tensorFromVecD_eq (ht.trans_le hl)
  rintro - t ⟨ys, a1, a2, -⟩
  exact a2.1.trans a1.length

theorem tensorFromIterD_eq {n : Nat} {step : Nat → M σ T} (hl : o.limit ≤ usizeMax) :
    tensorFromIterD n step (s, o) = tensorFromIter n step (s, o) := by
  show M.bind (M.onPanic (vecExtend n step) _) _ (s, { o with cells := [], len := 0 }) =
    M.bind (M.onPanic (vecExtend n step) _) _ (s, { o with cells := [], len := 0 })
  refine bind_congr_part (P := fun _ => Filled o.shape o.limit) (R := fun _ => True)
    (M.Part.onPanic (P := fun _ => True) (part_imp (M.Inv.part (filled_vecExtend (sh := o.shape) (L := o.limit))
      ⟨⟨rfl, rfl, Nat.zero_le _⟩, Nat.zero_le _⟩) (fun _ _ h => h) fun _ _ => trivial) fun t _ => ?_) ?_
  · unfold M.Part
    split <;> trivial
  · rintro - t ⟨⟨-, -, h3⟩, h4⟩
    exact tensorFromVecD_eq (h4.trans (h3.trans hl))

theorem tensorWithCapacityD_eq {ty : ShapeTy} {cap : Nat} :
    tensorWithCapacityD ty cap (s, o) = tensorWithCapacity ty cap (s, o) := by
  unfold tensorWithCapacityD tensorWithCapacity
  simp only [M.bind_assoc]
  refine bind_congr_part (P := fun _ _ => (Shape.default ty).checkedLen = some 0) (R := fun _ => True)
    (part_lift (fun _ h => ?_) fun _ => trivial) ?_
  · unfold check at h
    split at h
    · assumption
    · cases h
  intro _ t h
  refine bind_congr_at fun a u _ => bind_congr_at fun b v _ => ?_
  show M.bind (M.onPanic (M.lift (check (true = true → some 0 = (Shape.default ty).checkedLen))) vecClear) _ _ = _
  rw [show check (true = true → some 0 = (Shape.default ty).checkedLen) = some () from if_pos fun _ => h.symm]
  rfl

/-! `drain` -/

/-- What the assertions in the destructor of `Drain` need. -/
def DrainFit (d : DrainSt) (t : σ × Own T) : Prop :=
  d.pos + d.shape.len + d.tail ≤ t.2.cells.length ∧ ∀ s', t.2.shape.resizeDim t.2.shape.ty 0 d.newSize = some s' →
    NoOverflow usizeMax s'.dims ∧ size s'.dims ≤ t.2.cells.length

theorem DrainFit.of_meas {d : DrainSt} {t u : σ × Own T} (h : DrainFit d t) (hm : meas u = meas t) : DrainFit d u := by
  have e1 : u.2.cells.length = t.2.cells.length := congrArg (fun m => m.2.2) hm
  have e2 : u.2.shape = t.2.shape := congrArg (fun m => m.1) hm
  unfold DrainFit
  rw [e1, e2]
  exact h

theorem tensorSetMapping_eq {t : σ × Own T} {new : Shape} (h1 : NoOverflow usizeMax new.dims)
    (h2 : size new.dims ≤ t.2.cells.length) :
    tensorSetMapping true new t = .ok () (t.1, { t.2 with shape := new }) := by
  show M.bind (M.lift (check (true = true → new.checkedLen.isSome))) (fun _ =>
    M.bind (M.lift (check (true = true → new.len ≤ t.2.cells.length))) _) t = _
  rw [show check (true = true → new.checkedLen.isSome) = some () from
      if_pos fun _ => by rw [Shape.checkedLen_eq, if_pos h1]; rfl,
    show check (true = true → new.len ≤ t.2.cells.length) = some () from
      if_pos fun _ => by rw [Shape.len_eq]; exact h2]
  rfl

theorem drainDropD_eq {d : DrainSt} {t : σ × Own T} (h : DrainFit d t) : drainDropD d t = drainDrop d t := by
  unfold drainDropD drainDrop
  simp only [M.bind_eq]
  show M.bind (M.lift (t.2.shape.resizeDim t.2.shape.ty 0 d.newSize)) _ t =
    M.bind (M.lift (t.2.shape.resizeDim t.2.shape.ty 0 d.newSize)) _ t
  refine bind_congr_part (P := fun s' u => u = t ∧ NoOverflow usizeMax s'.dims ∧ size s'.dims ≤ t.2.cells.length)
    (R := fun _ => True) (part_lift (fun s' hs => ⟨rfl, h.2 s' hs⟩) fun _ => trivial) ?_
  rintro s' u ⟨rfl, h1, h2⟩
  split
  · rename_i hc
    refine tensorSetMapping_eq h1 ?_
    have := hc.1
    have := h.1
    simp only [List.length_append, List.length_take, List.length_drop, List.length_replicate] at *
    omega
  · rfl

theorem fit_drainNew {start stop : Bnd} (h : Holds o xs) (ho : Fits64 true o) :
    M.Part (drainNew start stop) (s, o) (fun d t => DrainFit d t) fun _ => True := by
  have hc : size o.shape.dims ≤ o.cells.length := by
    rw [← h.2.1, ← List.length_map (f := some)]; exact h.2.2.length_le
  refine part_imp (part_settled (part_drainNew h ho) (post_drainNew start stop h).part) ?_ fun _ _ => trivial
  rintro d t ⟨⟨h1, h2, h3, h4⟩, ⟨hr, hh⟩, d0, ds, a, b, hd, -, hab, hbd, rfl, rfl⟩
  refine ⟨h3, fun s' hs => ⟨(h4 s' hs).2.2 rfl, ?_⟩⟩
  rw [Shape.resizeDim_eq] at hs
  split at hs
  · injection hs with hs
    subst hs
    show size ((a :: ds).set 0 (d0 - (b - a))) ≤ o.cells.length
    rw [hd] at hc
    refine le_trans ?_ hc
    show size ((d0 - (b - a)) :: ds) ≤ _
    rw [size_cons', size_cons']
    exact Nat.mul_le_mul_right _ (by omega)
  · cases hs

theorem drainNewD_eq {start stop : Bnd} (h : Holds o xs) (ho : Fits64 true o) :
    drainNewD start stop (s, o) = drainNew start stop (s, o) := by
  have hc : size o.shape.dims ≤ o.cells.length := by
    rw [← h.2.1, ← List.length_map (f := some)]; exact h.2.2.length_le
  unfold drainNewD drainNew
  simp only [M.bind_eq, M.pure_eq]
  refine bind_congr_at fun a t ht => ?_
  obtain ⟨rfl, h1, h2⟩ := checkHead_ok ht
  show M.bind (M.lift (rangeNorm start stop (o.shape.dims.getD 0 0))) _ (s, o) =
    M.bind (M.lift (rangeNorm start stop (o.shape.dims.getD 0 0))) _ (s, o)
  refine bind_congr_part (P := fun r t => t = (s, o) ∧ r.1 ≤ r.2 ∧ r.2 ≤ o.shape.dims.getD 0 0) (R := fun _ => True)
    (part_lift (fun r h => ⟨rfl, (rangeNorm_some h).2.2⟩) fun _ => trivial) ?_
  rintro ⟨a, b⟩ t ⟨rfl, hab, hbd⟩
  dsimp only at hab hbd ⊢
  refine bind_congr_part (P := fun _ t => t = (s, o)) (R := fun _ => True) (part_lift (fun _ _ => rfl) fun _ => trivial) ?_
  rintro - t rfl
  refine bind_congr_part (P := fun _ t => t = (s, o)) (R := fun _ => True) (part_lift (fun _ _ => rfl) fun _ => trivial) ?_
  rintro m t rfl
  unfold setShape
  simp only [M.bind_eq, M.bind_assoc]
  show M.bind (M.lift (o.shape.resizeDim o.shape.ty 0 a)) _ (s, o) =
    M.bind (M.lift (o.shape.resizeDim o.shape.ty 0 a)) _ (s, o)
  refine bind_congr_part (P := fun s' t => t = (s, o) ∧ NoOverflow usizeMax s'.dims ∧ size s'.dims ≤ o.cells.length)
    (R := fun _ => True) (part_lift (fun s' hs => ⟨rfl, (resizeDim_fits ho.2.1 (by omega) hs).2.2 rfl, ?_⟩)
      fun _ => trivial) ?_
  · rw [Shape.resizeDim_eq] at hs
    split at hs
    · injection hs with hs
      subst hs
      refine le_trans ?_ hc
      show size (o.shape.dims.set 0 a) ≤ _
      cases hd : o.shape.dims with
      | nil => exact le_refl _
      | cons d ds =>
        rw [hd] at hbd
        exact Nat.mul_le_mul_right _ (show a ≤ d from hab.trans hbd)
    · cases hs
  rintro s' t ⟨rfl, h3, h4⟩
  refine bind_left_eq ?_
  exact tensorSetMapping_eq h3 h4

theorem drainRunD_eq {start stop : Bnd} {k : Nat} {leak : Bool} (h : Holds o xs) (ho : Fits64 true o) :
    drainRunD start stop k leak (s, o) = drainRun start stop k leak (s, o) := by
  unfold drainRunD drainRun
  refine (bind_left_eq (drainNewD_eq h ho)).trans ?_
  refine bind_congr_part (part_settled (fit_drainNew h ho) (part_drainNew h ho)) fun d t hd => ?_
  refine bind_congr_part (part_meas (meas_takeItems _ _ _) hd.2.1) fun ys u hu => ?_
  split
  · rfl
  · refine bind_congr_part (part_meas (meas_dropCells _ _) (hd.2.1.of_meas hu)) fun _ v hv => ?_
    exact bind_left_eq (drainDropD_eq ((hd.1.of_meas hu).of_meas hv))

theorem drainEndD_eq {d : DrainSt} {i : Nat} {t : σ × Own T} (h : DrainFit d t) (ht : Ok true t) :
    M.bind (dropItems d.pos d.shape.len i) (fun _ => drainDropD d) t =
      M.bind (dropItems d.pos d.shape.len i) (fun _ => drainDrop d) t :=
  bind_congr_part (part_meas (meas_dropCells _ _) ht) fun _ _ hv => drainDropD_eq (h.of_meas hv)

theorem up_eq {ρ : Type} {x y : M σ α} {t : σ × ρ} (h : x t.1 = y t.1) : M.up x t = M.up y t := by
  unfold M.up; rw [h]

theorem tensorAppendD_eq {o2 : Own T} {ys : List T} (h : Holds o xs) (h2 : Holds o2 ys) (ho : Fits64 true o)
    (ho2 : Fits64 true o2) : tensorAppendD ((s, o2), o) = tensorAppend ((s, o2), o) := by
  unfold tensorAppendD tensorAppend
  refine (bind_left_eq (up_eq (drainNewD_eq h2 ho2))).trans ?_
  refine bind_congr_part (part_up' (part_settled (part_settled (fit_drainNew h2 ho2) (part_drainNew h2 ho2))
    (post_drainNew .unbounded .unbounded h2).part)) ?_
  rintro d ⟨u, o'⟩ ⟨⟨⟨hfit, hok, hdl, -⟩, ⟨hr, hh⟩, d0, ds, a, b, hd, hn, -, -, hu, hdd⟩, rfl⟩
  have hab : a = 0 ∧ b = d0 := by
    have : rangeNorm .unbounded .unbounded d0 = some (0, d0) := by simp [rangeNorm, check]
    rw [this] at hn
    injection hn with hn
    exact ⟨(congrArg Prod.fst hn).symm, (congrArg Prod.snd hn).symm⟩
  obtain ⟨rfl, rfl⟩ := hab
  replace hu : u = (s, { o2 with shape := ⟨o2.shape.ty, 0 :: ds⟩ }) := hu
  have hcells : u.2.cells = o2.cells := by rw [hu]
  have hds : d.shape = ⟨o2.shape.ty, b :: ds⟩ := by rw [hdd]; rfl
  have hpos : d.pos = 0 := by rw [hdd]; simp
  show M.bind (M.onPanic (expandD _ _) _) _ (u, o') = M.bind (M.onPanic (expand _ _) _) _ (u, o')
  have hbuf : ((u.2.cells.drop d.pos).take d.shape.len).filterMap id = ys := by
    obtain ⟨rest, hc⟩ := h2.2.2
    have hlen : d.shape.len = ys.length := by
      rw [Shape.len_eq, h2.2.1, hd, hds]
    rw [hlen, hpos, hcells, List.drop_zero, ← hc, show ys.length = (ys.map some).length by simp, List.take_left]
    simp
  have hbuilt : Built (Expr.intoExpr d.shape (((u.2.cells.drop d.pos).take d.shape.len).filterMap id) 0 :
      Expr (σ × Own T) T) := by
    rw [hbuf]
    refine .intoExpr ?_ (by rw [h2.2.1, hd, hds])
    rw [hds]
    have := h2.1
    unfold Shape.WF at this ⊢
    rw [hd] at this
    exact this
  have hexp := expandD_eq (s := u) hbuilt (tameRaw_of_closures hbuilt (by trivial)) (c := M.pure) (fun _ => M.tame_pure _) h ho
  have hpart := part_fst (expand_kept (s := u) ho M.pure) (fst_expand
    (e := Expr.intoExpr d.shape (((u.2.cells.drop d.pos).take d.shape.len).filterMap id) 0) (by trivial) fun _ => keeps_pure _)
  have e1 : (M.onPanic (expandD (Expr.intoExpr d.shape (((u.2.cells.drop d.pos).take d.shape.len).filterMap id) 0)
        M.pure) (M.up (M.bind (dropItems d.pos d.shape.len 0) fun _ => drainDropD d)) :
        M ((σ × Own T) × Own T) Unit) (u, o') =
      M.onPanic (expand (Expr.intoExpr d.shape (((u.2.cells.drop d.pos).take d.shape.len).filterMap id) 0)
        M.pure) (M.up (M.bind (dropItems d.pos d.shape.len 0) fun _ => drainDrop d)) (u, o') := by
    unfold M.onPanic
    rw [hexp]
    unfold M.Part at hpart
    cases hx : expand (Expr.intoExpr d.shape (((u.2.cells.drop d.pos).take d.shape.len).filterMap id) 0)
      M.pure (u, o') with
    | panic t =>
      rw [hx] at hpart
      dsimp only
      rw [up_eq (drainEndD_eq (by rw [hpart.2]; exact hfit) (by rw [hpart.2]; exact hok))]
    | ok a t => rfl
    | ub => rfl
    | abort => rfl
  refine (bind_left_eq e1).trans ?_
  refine bind_congr_part (P := fun _ t => t.1 = u) (R := fun _ => True) (M.Part.onPanic (P := fun _ => True)
    (part_imp hpart (fun _ _ h => h.2) fun _ _ => trivial) fun t _ => ?_) ?_
  · unfold M.Part
    split <;> trivial
  rintro - ⟨t, o3⟩ rfl
  refine bind_congr_part (part_up' (part_meas (meas_takeItems _ _ _) hok)) ?_
  rintro - ⟨v, o4⟩ ⟨hv, -⟩
  exact up_eq (drainEndD_eq (hfit.of_meas hv) (hok.of_meas hv))

theorem tensorIntoExprD_eq (h : Fits64 true o) :
    tensorIntoExprD (s, o) = .ok () (s, { o with len := o.shape.len }) :=
  fromPartsD_eq (t := (s, parts o)) ⟨h, Shape.len_eq _⟩

/-! Indexing -/

theorem foldlM_congr {f g : β → α → Option β} : ∀ (l : List α) (b : β), (∀ x ∈ l, ∀ b, f b x = g b x) →
    l.foldlM f b = l.foldlM g b
  | [], _, _ => rfl
  | x :: l, b, h => by
    rw [List.foldlM_cons, List.foldlM_cons, h x List.mem_cons_self b]
    congr 1
    funext b'
    exact foldlM_congr l b' fun y hy => h y (List.mem_cons_of_mem _ hy)

theorem offsetD_eq {m : Mapping} (hw : m.WF) {idx : List Nat} (h : Valid m.dims idx) : m.offsetD idx = m.offset idx := by
  have hl := h.length_eq
  unfold Mapping.offsetD Mapping.offset
  rw [show check (idx.length = m.rank) = some () from if_pos (hl ▸ rfl)]
  refine foldlM_congr _ _ fun c hc b => ?_
  have hs := Mapping.mem_forEachStride.1 hc
  have hi : c.1 < m.dims.length := by
    rw [← hw.len]
    exact (List.getElem?_eq_some_iff.1 hs).1
  have hi' : c.1 < idx.length := by omega
  have hd : m.dim c.1 = some m.dims[c.1] := by
    show m.shape.dims[c.1]? = _
    exact List.getElem?_eq_getElem hi
  rw [List.getElem?_eq_getElem hi', hd]
  simp only [Option.bind_eq_bind, Option.bind_some]
  rw [show check (idx[c.1] < m.dims[c.1]) = some () from if_pos ?_]
  · rfl
  · exact (valid_iff.1 h).2 _ hi' hi

theorem indexD_eq {v : View} (hw : v.map.WF) (idx : List Nat) : v.indexD idx = v.index idx := by
  unfold View.indexD View.index
  by_cases hl : idx.length = v.map.rank
  · by_cases hv : (View.boundsLoop v.map idx).isSome
    · rw [offsetD_eq hw ((View.boundsLoop_isSome v.map idx hl).1 hv)]
    · rw [Option.not_isSome_iff_eq_none] at hv
      rw [hv]
      rfl
  · rw [show check (idx.length = v.map.rank) = none from if_neg hl]
    rfl

theorem linIndexD_eq (v : View) (k : Nat) : v.linIndexD k = v.linIndex k := by
  unfold View.linIndexD View.linIndex Mapping.linearOffsetD
  by_cases hk : k < v.map.len
  · rw [show check (k < v.map.len) = some () from if_pos hk]
    rfl
  · rw [show check (k < v.map.len) = none from if_neg hk]
    rfl

end Model
