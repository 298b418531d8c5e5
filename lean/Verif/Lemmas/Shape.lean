import Verif.Spec.Conform
import Verif.Lemmas.Index

namespace Model

@[simp] theorem check_isSome {b : Prop} [Decidable b] : (check b).isSome ↔ b := by
  unfold check; split <;> simp_all

@[simp] theorem check_eq_some {b : Prop} [Decidable b] {u} : check b = some u ↔ b := by
  unfold check; split <;> simp_all

theorem check_bind {α} {b : Prop} [Decidable b] (f : Unit → Option α) :
    (check b >>= f) = if b then f () else none := by
  unfold check; split <;> rfl

theorem check_pos {α} {b : Prop} [Decidable b] (h : b) (f : Unit → Option α) :
    (check b >>= f) = f () := by
  rw [check_bind, if_pos h]

theorem check_neg {α} {b : Prop} [Decidable b] (h : ¬ b) (f : Unit → Option α) :
    (check b >>= f) = none := by
  rw [check_bind, if_neg h]

@[simp] theorem DimTy.fits_const {n s} : (DimTy.const n).Fits s ↔ s = n := Iff.rfl
@[simp] theorem DimTy.fits_dyn {s} : DimTy.dyn.Fits s ↔ True := Iff.rfl
@[simp] theorem DimTy.fits_default (d : DimTy) : d.Fits d.default := by cases d <;> simp [DimTy.default]

theorem DimTy.fromSize_eq (d : DimTy) (s) : d.fromSize s = if d.Fits s then some s else none := by
  cases d with
  | const n => simp only [fromSize, fits_const]; split <;> simp_all
  | dyn => simp [fromSize]

namespace ShapeTy

@[simp] theorem conforms_dynRank (dims) : ShapeTy.dynRank.Conforms dims := trivial
@[simp] theorem conforms_nil {dims} : (ShapeTy.static []).Conforms dims ↔ dims = [] := by
  simp [Conforms]
@[simp] theorem conforms_cons {d ds n ns} :
    (ShapeTy.static (d :: ds)).Conforms (n :: ns) ↔ d.Fits n ∧ (ShapeTy.static ds).Conforms ns := by
  simp [Conforms]
@[simp] theorem not_conforms_cons_nil {d ds} : ¬ (ShapeTy.static (d :: ds)).Conforms [] := by
  simp [Conforms]

theorem conforms_static_length {ds dims} (h : (ShapeTy.static ds).Conforms dims) :
    ds.length = dims.length := List.Forall₂.length_eq h

theorem writeBack_eq (ty : ShapeTy) (dims) :
    ty.writeBack dims = if ty.Conforms dims then some dims else none := by
  cases ty with
  | dynRank => simp [writeBack]
  | static ds =>
    induction ds generalizing dims with
    | nil => cases dims <;> simp [writeBack]
    | cons d ds ih =>
      cases dims with
      | nil => simp [writeBack]
      | cons n ns =>
        simp only [writeBack, DimTy.fromSize_eq, ih, conforms_cons]
        by_cases h1 : d.Fits n <;> by_cases h2 : (ShapeTy.static ds).Conforms ns <;> simp [h1, h2]

end ShapeTy

namespace Shape

theorem len_eq (s : Shape) : s.len = Spec.size s.dims := by
  simp [len, Spec.size, List.prod_eq_foldl]

theorem isEmpty_iff {s : Shape} : s.isEmpty = true ↔ Spec.size s.dims = 0 := by
  simp [isEmpty, len_eq]

theorem new_eq_some {ty : ShapeTy} {rank s} (h : new ty rank = some s) :
    s.ty = ty ∧ s.dims.length = rank := by
  cases ty with
  | dynRank => simp [new] at h; subst h; simp
  | static ds =>
    simp only [new] at h
    split at h
    · simp at h; subst h; simp_all
    · simp at h

theorem new_of_conforms {ty : ShapeTy} {dims} (h : ty.Conforms dims) :
    ∃ s, new ty dims.length = some s := by
  cases ty with
  | dynRank => simp [new]
  | static ds => simp [new, ShapeTy.conforms_static_length h]

theorem withMutDims_eq (s : Shape) (f) :
    s.withMutDims f = (f s.dims).bind fun d => if s.ty.Conforms d then some ⟨s.ty, d⟩ else none := by
  simp only [withMutDims, ShapeTy.writeBack_eq]
  cases f s.dims with
  | none => rfl
  | some d => simp; split <;> rfl

/-- Generic "allocate and fill" pattern. -/
theorem new_bind_withMutDims {ty : ShapeTy} {rank : Nat} {dims : List Nat} {f}
    (hl : dims.length = rank) (hf : ∀ l : List Nat, l.length = rank → f l = some dims) :
    (new ty rank >>= fun s => s.withMutDims f) = if ty.Conforms dims then some ⟨ty, dims⟩ else none := by
  cases h : new ty rank with
  | none =>
    have : ¬ ty.Conforms dims := fun hc => by
      obtain ⟨s, hs⟩ := new_of_conforms hc
      rw [hl, h] at hs; simp at hs
    simp [this]
  | some s =>
    obtain ⟨h1, h2⟩ := new_eq_some h
    simp [withMutDims_eq, hf _ h2, h1]

theorem fromDims_eq (ty : ShapeTy) (dims) :
    fromDims ty dims = if ty.Conforms dims then some ⟨ty, dims⟩ else none := by
  unfold fromDims
  apply new_bind_withMutDims rfl
  intro l hl; simp [copyFromSlice, hl]

theorem prependDim_eq (s : Shape) (ty : ShapeTy) (size) :
    s.prependDim ty size =
      if ty.Conforms (size :: s.dims) then some ⟨ty, size :: s.dims⟩ else none := by
  unfold prependDim
  apply new_bind_withMutDims (by simp [rank])
  intro l hl
  cases l with
  | nil => simp at hl
  | cons a l => simp at hl; simp [copyFromSlice, hl, rank]

theorem removeDim_eq (s : Shape) (ty : ShapeTy) (index) :
    s.removeDim ty index =
      if index < s.dims.length ∧ ty.Conforms (s.dims.eraseIdx index)
      then some ⟨ty, s.dims.eraseIdx index⟩ else none := by
  unfold removeDim
  rw [check_bind]
  simp only [rank]
  by_cases h : index < s.dims.length
  · simp only [h, true_and, if_true]
    apply new_bind_withMutDims
    · rw [List.length_eraseIdx]; simp [h]
    · intro l hl
      have h1 : (l.take index).length = (s.dims.take index).length := by simp; omega
      have h2 : (l.drop index).length = (s.dims.drop (index+1)).length := by simp; omega
      simp only [copyFromSlice, h1, h2, if_true]
      simp [List.eraseIdx_eq_take_drop_succ]
  · simp [h]

theorem resizeDim_eq (s : Shape) (ty : ShapeTy) (index newSize) :
    s.resizeDim ty index newSize =
      if index < s.dims.length ∧ ty.Conforms (s.dims.set index newSize)
      then some ⟨ty, s.dims.set index newSize⟩ else none := by
  unfold resizeDim
  rw [check_bind]
  simp only [rank]
  by_cases h : index < s.dims.length
  · simp only [h, true_and, if_true]
    apply new_bind_withMutDims
    · simp
    · intro l hl; simp [copyFromSlice, hl]
  · simp [h]

theorem reverse_eq (s : Shape) :
    s.reverse = if s.ty.reverse.Conforms s.dims.reverse
      then some ⟨s.ty.reverse, s.dims.reverse⟩ else none := by
  unfold reverse
  apply new_bind_withMutDims
  · simp [rank]
  · intro l hl; simp [rank] at hl; simp [copyFromSlice, hl]

end Shape
end Model
