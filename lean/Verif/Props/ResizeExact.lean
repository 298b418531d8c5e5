import Verif.Props.Tensor
import Verif.Spec.Resume

/-! When `resize_with` aborts the process, exactly. Property numbers refer to `properties.jsonl`. -/

namespace Props
open Model Spec
variable {σ T : Type}

/-- C34, exactly, for types whose default array is not empty (only constant dimensions): if there is memory and the
closure does not panic, `resize_with` returns iff the dimensions are unchanged. Otherwise it aborts the process iff
they are of the same number, their product does not overflow and it is different from the number of elements. In the
remaining cases it panics. -/
theorem C34_exact (newDims : List Nat) (f : M σ T) (hf : f.Tame) (hp : NoPanic f) (s : σ) (o : Own T) (xs : List T)
    (h : Holds o xs) (hd : size (Shape.default o.shape.ty).dims ≠ 0) (hl : size newDims ≤ o.limit) :
    (resizeWith newDims f (s, o) = .abort ↔ newDims.length = o.shape.dims.length ∧
      NoOverflow usizeMax newDims ∧ size newDims ≠ size o.shape.dims) ∧
    ((∃ t, resizeWith newDims f (s, o) = .ok () t) → newDims = o.shape.dims) := by
  have hdims : ∀ {ds}, o.shape.ty.Conforms ds → ds = o.shape.dims := fun hc =>
    (Shape.default_unique hd hc).trans (Shape.default_unique hd h.1).symm
  have hrun : resizeWith newDims f (s, o) = M.bind (M.lift (check (newDims.length = o.shape.rank)))
    (fun _ => if newDims ≠ [] then
        M.bind (M.lift (Shape.checkedLen ⟨.dynRank, newDims⟩)) fun newLen =>
          withMutParts (M.bind (resizeVec newDims newLen f) fun _ =>
            setShape fun s => s.withMutDims fun dims => Shape.copyFromSlice dims newDims)
      else M.pure ()) (s, o) := rfl
  rw [hrun]
  by_cases hr : newDims.length = o.shape.dims.length
  rotate_left
  · rw [show check (newDims.length = o.shape.rank) = none from if_neg hr]
    exact ⟨⟨nofun, fun h => absurd h.1 hr⟩, nofun⟩
  rw [show check (newDims.length = o.shape.rank) = some () from if_pos hr, M.lift_some, M.pure_bind]
  by_cases hne : newDims ≠ []
  rotate_left
  · have hnil : newDims = [] := by simpa using hne
    have hod : o.shape.dims = [] := List.eq_nil_of_length_eq_zero (by rw [← hr, hnil]; rfl)
    rw [if_neg hne]
    exact ⟨⟨nofun, fun h => absurd (by rw [hnil, hod]) h.2.2⟩, fun _ => by rw [hnil, hod]⟩
  rw [if_pos hne, Shape.checkedLen_eq]
  by_cases hno : NoOverflow usizeMax newDims
  rotate_left
  · rw [if_neg hno]
    exact ⟨⟨nofun, fun h => absurd h.2.1 hno⟩, nofun⟩
  rw [if_pos hno, M.lift_some, M.pure_bind]
  have hpost := post_resizeVec hf (s := s) (o := parts o) (parts_vec h) h.2.1 (newDims := newDims) hr hne
  show (M.onPanic (M.bind (resizeVec newDims (size newDims) f) _) partsGuard (s, parts o) = .abort ↔ _) ∧
    ((∃ t, M.onPanic (M.bind (resizeVec newDims (size newDims) f) _) partsGuard (s, parts o) = .ok () t) → _)
  unfold M.Post at hpost
  unfold M.onPanic M.bind
  cases hv : resizeVec newDims (size newDims) f (s, parts o) with
  | ub => rw [hv] at hpost; exact hpost.elim
  | abort => rw [hv] at hpost; exact hpost.elim
  | panic t =>
    rw [hv] at hpost
    rcases hpost.2 with h | ⟨u, v, h⟩
    · exact absurd hl (Nat.not_le.2 h)
    · exact absurd h (hp u v)
  | ok a t =>
    rw [hv] at hpost
    obtain ⟨t, o2⟩ := t
    obtain ⟨ys, zs, dr, a1, -, a3, a4, -⟩ := hpost
    have hsh : o2.shape = o.shape := a4.shape
    have hlen : o2.len = size newDims := a3.1.trans a1.length
    have hset : setShape (σ := σ) (T := T) (fun s => s.withMutDims fun dims => Shape.copyFromSlice dims newDims) (t, o2) =
        if o.shape.ty.Conforms newDims then .ok () (t, { o2 with shape := ⟨o.shape.ty, newDims⟩ })
        else .panic (t, o2) := by
      have hwm : (o2.shape.withMutDims fun dims => Shape.copyFromSlice dims newDims) =
          if o.shape.ty.Conforms newDims then some ⟨o.shape.ty, newDims⟩ else none := by
        rw [hsh, Shape.withMutDims_eq]
        unfold Shape.copyFromSlice
        rw [if_pos (show o.shape.dims.length = newDims.length from hr.symm)]
        rfl
      show M.bind (M.lift (o2.shape.withMutDims fun dims => Shape.copyFromSlice dims newDims)) _ (t, o2) = _
      rw [hwm]
      split <;> rfl
    simp only [hset]
    by_cases hc : o.shape.ty.Conforms newDims
    · rw [if_pos hc]
      exact ⟨⟨nofun, fun h => absurd (by rw [hdims hc]) h.2.2⟩, fun _ => hdims hc⟩
    rw [if_neg hc]
    have hguard : partsGuard (t, o2) = if size newDims = size o.shape.dims then .ok () (t, o2) else .panic (t, o2) := by
      show (if o2.len ≠ o2.shape.len then _ else _ : M (σ × Own T) Unit) (t, o2) = _
      rw [hlen, hsh, Shape.len_eq]
      by_cases he : size newDims = size o.shape.dims
      · rw [if_neg (by simpa using he), if_pos he]; rfl
      · rw [if_pos he, if_neg he]
        show M.bind (M.lift (check ((Shape.default o.shape.ty).len = 0))) _ (t, o2) = _
        rw [show check ((Shape.default o.shape.ty).len = 0) = none from if_neg (by rw [Shape.len_eq]; exact hd)]
        rfl
    simp only [hguard]
    by_cases he : size newDims = size o.shape.dims
    · rw [if_pos he]
      exact ⟨⟨nofun, fun h => absurd he h.2.2⟩, nofun⟩
    · rw [if_neg he]
      exact ⟨⟨fun _ => ⟨hr, hno, he⟩, fun _ => rfl⟩, nofun⟩

/-- C34_exact: a tensor that meets the hypotheses, for which other dimensions with the same product panic. -/
example : Holds constTensor [1, 2, 3, 4] ∧ size (Shape.default constTensor.shape.ty).dims ≠ 0 ∧
    NoPanic (M.pure 0 : M Unit Nat) ∧
    resizeWith [3, 2] (M.pure 0 : M Unit Nat) ((), constTensor) = .abort ∧
    (∃ t, resizeWith [1, 4] (M.pure 0 : M Unit Nat) ((), constTensor) = .panic t ∧ t.2.shape.dims = [2, 2]) := by
  refine ⟨C34_violated.1, by decide, fun _ _ => nofun, C34_violated.2, _, rfl, rfl⟩

end Props
