import Verif.Spec.Storage
import Verif.Lemmas.Storage
import Verif.Lemmas.Resize
import Verif.Props.Reshape
import Verif.Props.Tensor

/-! Copies, conversions and capacity of owned arrays (C52 - C54). -/

namespace Props
open Spec Model

variable {σ T : Type}

/-! ### C52: copies -/

/-- `clone`: a usable tensor with the same shape, whose elements are the clones in order, each element
cloned once; nothing is dropped. A panic comes from the allocation, before anything is cloned, or from a
clone, and then the clones made before are dropped once. -/
theorem C52_clone (b : Own T) (xs : List T) (h : Holds b xs) (c : T → M σ T) (hc : ∀ y, (c y).Tame)
    (s : σ) (o : Own T) :
    M.Post (tensorClone b c) (s, o)
      (fun _ t => ∃ ys, Ran (cloneStep xs c) xs.length s ys t.1 ∧ Holds t.2 ys ∧
        t.2.shape = b.shape ∧ t.2.log = o.log)
      (fun t => (o.limit < xs.length ∧ t.1 = s ∧ t.2.log = o.log) ∨
        ∃ k ys, Stopped (cloneStep xs c) xs.length s k ys t.1 ∧ t.2.log = o.log ++ ys) :=
  post_tensorClone hc h

/-- Clones that return equal values give exact copies. -/
theorem C52_copy (b : Own T) (xs : List T) (h : Holds b xs) (c : T → M σ T) (hc : ∀ y, (c y).Tame)
    (hf : Faithful c) (s : σ) (o : Own T) (t : σ × Own T) (ht : tensorClone b c (s, o) = .ok () t) :
    Holds t.2 xs ∧ t.2.shape = b.shape ∧ t.2.log = o.log := by
  have := C52_clone b xs h c hc s o
  unfold M.Post at this
  rw [ht] at this
  obtain ⟨ys, h1, h2, h3⟩ := this
  rw [ran_faithful hf h1, List.take_length] at h2
  exact ⟨h2, h3⟩

/-- `clone_from`: the target becomes a copy of the source. All its old elements are dropped once. If a
clone panics, either every element is still owned and the target keeps its shape, or the target is
empty and everything was dropped. -/
theorem C52_clone_from (b : Own T) (src : List T) (hb : Holds b src) (o : Own T) (xs : List T)
    (ho : Holds o xs) (hty : b.shape.ty = o.shape.ty) (c : T → M σ T) (hc : ∀ y, (c y).Tame) (s : σ) :
    M.Post (tensorCloneFrom b c) (s, o)
      (fun _ t => ∃ ys dropped, Ran (cloneStep src c) src.length s ys t.1 ∧ Holds t.2 ys ∧
        t.2.shape = b.shape ∧ dropped.Perm xs ∧ t.2.log = o.log ++ dropped)
      (fun t => ∃ k ys owned dropped, (Stopped (cloneStep src c) src.length s k ys t.1 ∨
          Ran (cloneStep src c) k s ys t.1) ∧ (owned ++ dropped).Perm (xs ++ ys) ∧
        Holds t.2 owned ∧ t.2.log = o.log ++ dropped ∧
        (t.2.shape = o.shape ∨ owned = [] ∧ t.2.shape.ty = o.shape.ty)) := by
  refine M.Post.bind (post_readElems (Q := fun a t => a = src ∧ t = (s, o)) hb ⟨rfl, rfl⟩) ?_
  rintro a t ⟨rfl, rfl⟩
  refine (post_cloneFrom hc ho hb.1 hb.2.1 hty).mono ?_ ?_
  · rintro - t ⟨ys, h1, h2, h3, h4, -⟩
    refine ⟨ys, xs.drop a.length ++ xs.take a.length, h1, h2, h3, ?_, by rw [h4, List.append_assoc]⟩
    exact List.perm_append_comm.trans (by rw [List.take_append_drop])
  · rintro t ⟨k, ys, h1, -, -, ⟨h2, h3, h4⟩ | ⟨h2, h3, h4⟩⟩
    · refine ⟨k, ys, _, xs.drop a.length ++ (xs.take a.length).take k, h1, ?_, h2,
        by rw [h4, List.append_assoc], Or.inl h3⟩
      have e : xs = (xs.take a.length).take k ++ (xs.take a.length).drop k ++ xs.drop a.length := by
        rw [List.take_append_drop, List.take_append_drop]
      conv_rhs => rw [e]
      classical
      rw [List.perm_iff_count]
      intro z
      simp only [List.count_append]
      omega
    · refine ⟨k, ys, [], xs.drop a.length ++ (xs.take a.length).take k ++ ys ++
        (xs.take a.length).drop k, h1, ?_, h2, by rw [h4]; simp only [List.append_assoc],
        Or.inr ⟨rfl, by rw [h3, Shape.default_ty]⟩⟩
      have e : xs = (xs.take a.length).take k ++ (xs.take a.length).drop k ++ xs.drop a.length := by
        rw [List.take_append_drop, List.take_append_drop]
      conv_rhs => rw [e]
      classical
      rw [List.perm_iff_count]
      intro z
      simp only [List.count_append, List.count_nil]
      omega

/-- A tensor with dimensions `[2, 2]` and a spare cell. -/
def spare22 : Own Nat := ⟨[some 5, some 6, some 7, some 8, none], 0, ⟨.static [.const 2, .dyn], [2, 2]⟩, [], 9⟩

/-- A clone that counts its calls and panics in the third. -/
def clone3 (x : Nat) : M Nat Nat := fun s => if s = 2 then .panic s else .ok x (s + 1)

/-- Cloning four elements; the third clone panics when started at zero. -/
example : Holds spare22 [5, 6, 7, 8] ∧
    tensorClone spare22 clone3 (3, noTensor) = .ok () (7, ⟨[some 5, some 6, some 7, some 8], 4,
      ⟨.static [.const 2, .dyn], [2, 2]⟩, [], 100⟩) ∧
    tensorClone spare22 clone3 (0, noTensor) =
      .panic (2, ⟨[none, none, none, none], 2, ⟨.dynRank, []⟩, [5, 6], 100⟩) := by
  refine ⟨⟨by decide, by decide, [none], rfl⟩, ?_, ?_⟩ <;> decide +kernel

/-! ### C53: conversions -/

/-- `into_vec`: the vector holds the elements in row-major order. -/
theorem C53_into_vec (o : Own T) (xs : List T) (h : Holds o xs) (s : σ) :
    ∃ o', tensorIntoVec (s, o) = .ok () (s, o') ∧ IsVec o' xs ∧ o'.log = o.log ∧
      o'.cells = o.cells := by
  obtain ⟨o', h1, h2, h3, h4, -⟩ := tensorIntoVec_eq h s
  exact ⟨o', h1, h2, h3, h4⟩

/-- `From<Vec>`: a one-dimensional tensor with the elements of the vector, in the same allocation. -/
theorem C53_from_vec (o : Own T) (xs : List T) (h : IsVec o xs) (s : σ) :
    ∃ o', tensorFromVec (s, o) = .ok () (s, o') ∧ Holds o' xs ∧
      o'.shape = ⟨.static [.dyn], [xs.length]⟩ ∧ o'.log = o.log ∧ o'.cells = o.cells := by
  obtain ⟨o', h1, h2, h3, h4, h5, -⟩ := tensorFromVec_eq h s
  exact ⟨o', h1, h2, h3, h4, h5⟩

/-- `From<&[T]>`: a one-dimensional tensor with the clones of the elements. -/
theorem C53_from_slice (src : List T) (c : T → M σ T) (hc : ∀ y, (c y).Tame) (s : σ) (o : Own T) :
    M.Post (tensorFromSlice src c) (s, o)
      (fun _ t => ∃ ys, Ran (cloneStep src c) src.length s ys t.1 ∧ Holds t.2 ys ∧
        t.2.shape = ⟨.static [.dyn], [src.length]⟩ ∧ t.2.log = o.log)
      (fun t => (o.limit < src.length ∧ t.1 = s ∧ t.2.log = o.log) ∨
        ∃ k ys, Stopped (cloneStep src c) src.length s k ys t.1 ∧ t.2.log = o.log ++ ys) :=
  post_tensorFromSlice hc

/-- `FromIterator`: a one-dimensional tensor with the items in order. If the iterator panics, or memory
runs out, the items received so far are dropped once. -/
theorem C53_from_iter (n : Nat) (step : Nat → M σ T) (ht : ∀ k, k < n → (step k).Tame) (s : σ)
    (o : Own T) :
    M.Post (tensorFromIter n step) (s, o)
      (fun _ t => ∃ ys, Ran step n s ys t.1 ∧ Holds t.2 ys ∧
        t.2.shape = ⟨.static [.dyn], [n]⟩ ∧ t.2.log = o.log)
      (fun t => ∃ k ys dropped, (Stopped step n s k ys t.1 ∨ Ran step k s ys t.1) ∧
        dropped.Perm ys ∧ t.2.log = o.log ++ dropped) := by
  refine (post_tensorFromIter ht).mono (fun _ _ h => h) ?_
  rintro t (⟨k, ys, h1, h2⟩ | ⟨k, ys, y, -, h1, h2⟩)
  · exact ⟨k, ys, ys, .inl h1, List.Perm.refl _, h2⟩
  · exact ⟨k + 1, ys ++ [y], y :: ys, .inr h1, (List.perm_append_singleton y ys).symm, h2⟩

/-- `extend` of a one-dimensional tensor: the new items follow the old elements. If the iterator panics
or memory runs out, nothing is lost or dropped twice: the tensor keeps its elements or is empty. -/
theorem C53_extend (o : Own T) (xs : List T) (h : Holds o xs) (hty : o.shape.ty = .static [.dyn])
    (n : Nat) (step : Nat → M σ T) (ht : ∀ k, k < n → (step k).Tame) (s : σ) :
    M.Post (tensorExtend n step) (s, o)
      (fun _ t => ∃ ys, Ran step n s ys t.1 ∧ Holds t.2 (xs ++ ys) ∧
        t.2.shape = ⟨.static [.dyn], [xs.length + n]⟩ ∧ t.2.log = o.log)
      (fun t => ∃ k ys owned dropped, (Stopped step n s k ys t.1 ∨ Ran step k s ys t.1) ∧
        (owned ++ dropped).Perm (xs ++ ys) ∧ (owned = xs ∨ owned = []) ∧ Holds t.2 owned ∧
        t.2.log = o.log ++ dropped) := by
  refine (post_tensorExtend ht h hty).mono ?_ ?_
  · rintro - t ⟨ys, h1, h2, h3, h4, -⟩
    exact ⟨ys, h1, h2, h3, h4⟩
  · rintro t ⟨k, ys, ends, hk, h1, h2, -⟩
    have hrun : ∃ m, (Stopped step n s m (ys ++ ends) t.1 ∨ Ran step m s (ys ++ ends) t.1) ∧
        ys.length = k := by
      rcases h1 with ⟨h1, rfl⟩ | ⟨y, h1, rfl⟩
      · exact ⟨k, .inl (by simpa using h1), h1.2.choose_spec.1.length⟩
      · exact ⟨k + 1, .inr h1, by simpa using h1.length⟩
    obtain ⟨m, hm, hl⟩ := hrun
    rcases h2 with ⟨rfl, h3, -, h5⟩ | ⟨-, h3, -, h5⟩
    · obtain rfl := List.length_eq_zero_iff.1 hl
      exact ⟨m, [] ++ ends, xs, ends, hm, by simp, .inl rfl, h3, h5⟩
    · refine ⟨m, ys ++ ends, [], ends ++ xs ++ ys, hm, ?_, .inr rfl, h3, by rw [h5]; simp⟩
      classical
      rw [List.perm_iff_count]
      intro z
      simp only [List.count_append, List.count_nil]
      omega

/-- `into_shape`: the same elements in the same order with the requested shape (C12 says how it is
resolved); if the request cannot be met, it panics and the elements are dropped once. -/
theorem C53_into_shape (o : Own T) (xs : List T) (h : Holds o xs) (ns : Shape) (hn : ns.WF) (s : σ) :
    M.Post (tensorIntoShape ns) (s, o)
      (fun _ t => t.1 = s ∧ Holds t.2 xs ∧ t.2.shape.ty = ns.ty ∧
        Resolves usizeMax xs.length ns.dims t.2.shape.dims ∧ t.2.log = o.log)
      (fun t => t.1 = s ∧ t.2.log = o.log ++ xs ∧
        ¬ (ns.ty.Conforms (ns.dims.map fun d => if d = usizeMax then 1 else d) ∧
          NoOverflow usizeMax (ns.dims.map fun d => if d = usizeMax then 1 else d) ∧
          ∃ dims, Resolves usizeMax xs.length ns.dims dims ∧ ns.ty.Conforms dims)) := by
  have hw : (whole o.shape).map.WF := Mapping.wf_dense.2 h.1
  have key := C12 (whole o.shape) hw rfl ns hn
  have e : (whole o.shape).reshape ns = (o.shape.reshape ns).map fun s' => whole s' := by
    show (Mapping.reshape (.dense o.shape) ns).bind _ = _
    unfold Mapping.reshape
    show ((o.shape.reshape ns).bind _).bind _ = _
    cases o.shape.reshape ns <;> rfl
  have hs : size (whole o.shape).dims = xs.length := h.2.1.symm
  rw [e, hs] at key
  refine (post_tensorInto h ?_).mono ?_ ?_
  · intro s' hs'
    have := C13 (whole o.shape) (whole s') hw ns hn (by rw [e, hs']; rfl)
    refine ⟨?_, this.2.2.2.1⟩
    show s'.ty.Conforms s'.dims
    rw [show s'.ty = ns.ty from this.1]
    exact this.2.1
  · rintro - t ⟨h1, h2, h3, h4, -⟩
    rw [h3] at key
    obtain ⟨-, k2, k3, -⟩ := key.2 _ rfl
    exact ⟨h1, h2, k2, k3, h4⟩
  · rintro t ⟨h1, h2, h3⟩
    refine ⟨h1, h3, fun hh => ?_⟩
    have := key.1.2 hh
    rw [h2] at this
    cases this

/-- `into_mapping` and `into_dyn`: the same dimensions and elements with another shape type; if the type
does not allow these dimensions, it panics and the elements are dropped once. -/
theorem C53_into_mapping (o : Own T) (xs : List T) (h : Holds o xs) (ty : ShapeTy) (s : σ) :
    M.Post (tensorIntoMapping ty) (s, o)
      (fun _ t => t.1 = s ∧ Holds t.2 xs ∧ t.2.shape = ⟨ty, o.shape.dims⟩ ∧ t.2.log = o.log)
      (fun t => t.1 = s ∧ t.2.log = o.log ++ xs ∧ ¬ ty.Conforms o.shape.dims) := by
  have e := Shape.fromDims_eq ty o.shape.dims
  by_cases hc : ty.Conforms o.shape.dims
  · rw [if_pos hc] at e
    refine (post_tensorInto h ?_).mono ?_ ?_
    · intro s' hs'
      rw [e] at hs'
      injection hs' with hs'
      subst hs'
      exact ⟨hc, rfl⟩
    · rintro - t ⟨h1, h2, h3, h4, -⟩
      rw [e] at h3
      injection h3 with h3
      exact ⟨h1, h2, h3.symm, h4⟩
    · rintro t ⟨-, h2, -⟩
      rw [e] at h2
      cases h2
  · rw [if_neg hc] at e
    refine (post_tensorInto h ?_).mono ?_ ?_
    · intro s' hs'
      rw [e] at hs'
      cases hs'
    · rintro - t ⟨-, -, h3, -⟩
      rw [e] at h3
      cases h3
    · rintro t ⟨h1, -, h3⟩
      exact ⟨h1, h3, hc⟩

/-- `into_flat`: one dimension with all elements; it never panics. -/
theorem C53_into_flat (o : Own T) (xs : List T) (h : Holds o xs) (s : σ) :
    M.Post tensorIntoFlat (s, o)
      (fun _ t => t.1 = s ∧ Holds t.2 xs ∧ t.2.shape = ⟨.static [.dyn], [xs.length]⟩ ∧
        t.2.log = o.log)
      (fun _ => False) := by
  refine (post_tensorInto h ?_).mono ?_ ?_
  · intro s' hs'
    injection hs' with hs'
    subst hs'
    refine ⟨vec1_wf _, ?_⟩
    show size [o.shape.len] = _
    rw [Shape.len_eq]; simp
  · rintro - t ⟨h1, h2, h3, h4, -⟩
    injection h3 with h3
    refine ⟨h1, h2, ?_, h4⟩
    rw [← h3, Shape.len_eq, h.2.1]
  · rintro t ⟨-, h2, -⟩
    cases h2

/-- `into_scalar` returns the only element, which is moved out and not dropped; it panics exactly when
the number of elements is not one, and then drops them once. -/
theorem C53_into_scalar (o : Own T) (xs : List T) (h : Holds o xs) (s : σ) :
    M.Post tensorIntoScalar (s, o)
      (fun x t => t.1 = s ∧ xs = [x] ∧ t.2.log = o.log ∧ ∀ c ∈ t.2.cells.take 1, c = none)
      (fun t => t.1 = s ∧ xs.length ≠ 1 ∧ t.2.log = o.log ++ xs) ∧
    M.Post arrayIntoScalar (s, o)
      (fun x t => t.1 = s ∧ xs = [x] ∧ t.2.log = o.log ∧ ∀ c ∈ t.2.cells.take 1, c = none)
      (fun t => t.1 = s ∧ xs.length ≠ 1 ∧ t.2.log = o.log ++ xs) :=
  ⟨post_tensorIntoScalar h, post_arrayIntoScalar h⟩

/-- `Array::into_shape`: the same elements in the same order with the dimensions of the new type; it
panics exactly when the number of elements differs, and then drops them once. -/
theorem C53_array_into_shape (o : Own T) (xs : List T) (h : Holds o xs) (dims : List Nat) (s : σ) :
    M.Post (arrayIntoShape (constTy dims)) (s, o)
      (fun _ t => t.1 = s ∧ Holds t.2 xs ∧ t.2.shape = ⟨constTy dims, dims⟩ ∧ t.2.log = o.log)
      (fun t => t.1 = s ∧ size dims ≠ xs.length ∧ t.2.log = o.log ++ xs) := by
  have e : Shape.default (constTy dims) = ⟨constTy dims, dims⟩ := by
    show (⟨_, _⟩ : Shape) = _
    congr 1
    rw [List.map_map]
    exact List.map_id dims
  refine (post_arrayIntoShape (constTy dims) h).mono ?_ ?_
  · rintro - t ⟨h1, h2, h3, h4, -⟩
    exact ⟨h1, h2, by rw [h3, e], h4⟩
  · rintro t ⟨h1, h2, h3⟩
    rw [e] at h2
    exact ⟨h1, h2, h3⟩

/-- Conversions of a tensor with four elements. -/
example :
    tensorIntoShape ⟨.static [.dyn, .const 1], [usizeMax, 1]⟩ ((), spare22) =
      .ok () ((), ⟨[some 5, some 6, some 7, some 8, none], 4, ⟨.static [.dyn, .const 1], [4, 1]⟩, [], 9⟩) ∧
    (tensorIntoScalar : M (Unit × Own Nat) Nat) ((), spare22) =
      .panic ((), ⟨[none, none, none, none, none], 0, ⟨.static [.const 2, .dyn], [2, 2]⟩, [5, 6, 7, 8], 9⟩) ∧
    (tensorIntoScalar : M (Unit × Own Nat) Nat) ((), ⟨[some 3], 0, ⟨.dynRank, [1, 1]⟩, [], 9⟩) =
      .ok 3 ((), ⟨[none], 1, ⟨.dynRank, [1, 1]⟩, [], 9⟩) := by
  decide +kernel

/-! ### C54: capacity -/

/-- `reserve` and `reserve_exact`: the elements and the shape stay, there is room for the given number
of further elements. Otherwise it panics, and nothing changes. -/
theorem C54_reserve (o : Own T) (xs : List T) (h : Holds o xs) (add : Nat) (s : σ) :
    M.Post (tensorReserve add) (s, o)
      (fun _ t => t.1 = s ∧ Same o t.2 xs ∧ xs.length + add ≤ tensorCapacity t.2)
      (fun t => t.1 = s ∧ Same o t.2 xs ∧ o.limit < xs.length + add) :=
  post_tensorReserve add h

/-- `try_reserve` never panics; it fails only if there is no memory, and then nothing changes. -/
theorem C54_try_reserve (o : Own T) (xs : List T) (h : Holds o xs) (add : Nat) (s : σ) :
    M.Post (tensorTryReserve add) (s, o)
      (fun b t => t.1 = s ∧ Same o t.2 xs ∧ (b = true → xs.length + add ≤ tensorCapacity t.2) ∧
        (b = false → o.limit < xs.length + add ∧ tensorCapacity t.2 = tensorCapacity o))
      (fun _ => False) := by
  refine (post_tensorTryReserve add h (R := fun _ => False)).mono ?_ (fun _ h => h)
  rintro b t ⟨h1, h2, h3, h4⟩
  exact ⟨h1, h2, h3, fun hb => ⟨(h4 hb).1, congrArg List.length (h4 hb).2⟩⟩

/-- `shrink_to` and `shrink_to_fit` (with the bound 0): only the capacity changes, and it does not fall
below the length, or the bound. -/
theorem C54_shrink (o : Own T) (xs : List T) (h : Holds o xs) (cap : Nat) (s : σ) :
    M.Post (tensorShrinkTo cap) (s, o)
      (fun _ t => t.1 = s ∧ Same o t.2 xs ∧
        tensorCapacity t.2 = min (tensorCapacity o) (max xs.length cap))
      (fun _ => False) := by
  refine (M.post_and (post_tensorShrinkTo cap h (R := fun _ => False))
    (post_tensorShrinkTo_cap cap h (R := fun _ => False))).mono ?_ (fun _ h => h.1)
  rintro - t ⟨⟨h1, h2⟩, h3⟩
  exact ⟨h1, h2, h3⟩

/-- The length never exceeds the capacity, and the spare capacity is exactly what follows the last
element. -/
theorem C54_spare (o : Own T) (xs : List T) (h : Holds o xs) :
    xs.length ≤ tensorCapacity o ∧ tensorSpare o = some (xs.length, tensorCapacity o - xs.length) := by
  refine ⟨?_, tensorSpare_eq h⟩
  have := h.2.2.length_le
  rwa [List.length_map] at this

/-- `new` (capacity 0) and `with_capacity` give an empty tensor with the capacity asked for, of any type
that has an empty default array: one with a dynamic or zero dimension, or a dynamic rank. -/
theorem C54_with_capacity (ty : ShapeTy) (cap : Nat) (s : σ) (o : Own T) :
    M.Post (tensorWithCapacity ty cap) (s, o)
      (fun _ t => t.1 = s ∧ Holds t.2 [] ∧ t.2.shape.ty = ty ∧ tensorCapacity t.2 = cap ∧ t.2.log = o.log)
      (fun t => t = (s, o) ∧ (o.limit < cap ∨
        ¬ ∃ dims, ty.Conforms dims ∧ size dims = 0 ∧ NoOverflow usizeMax dims)) := by
  by_cases h : (Shape.default ty).checkedLen = some 0 ∧ cap ≤ o.limit
  · refine M.post_of_eq (by rw [tensorWithCapacity_eq, if_pos h]) ⟨rfl, ⟨Shape.default_wf ty, ?_, ?_⟩,
      Shape.default_ty ty, ?_, rfl⟩
    · have := h.1
      rw [Shape.checkedLen_eq] at this
      split at this
      · injection this with this
        exact this.symm
      · cases this
    · exact List.nil_prefix
    · exact List.length_replicate
  · refine M.post_panic_of_eq (by rw [tensorWithCapacity_eq, if_neg h]) ⟨rfl, ?_⟩
    rw [not_and_or] at h
    rcases h with h | h
    · refine Or.inr fun ⟨dims, h1, h2, h3⟩ => h ?_
      obtain ⟨h4, h5⟩ := default_empty h1 h2 h3
      rw [Shape.checkedLen_eq, if_pos h5, h4]
    · exact Or.inl (by omega)

/-- Reserving, shrinking, and creating. -/
example :
    (tensorReserve 3 : M (Unit × Own Nat) Unit) ((), spare22) = .ok () ((), ⟨[some 5, some 6, some 7,
      some 8, none, none, none], 4, ⟨.static [.const 2, .dyn], [2, 2]⟩, [], 9⟩) ∧
    (tensorTryReserve 6 : M (Unit × Own Nat) Bool) ((), spare22) = .ok false ((), { spare22 with len := 4 }) ∧
    (tensorWithCapacity (.static [.const 3]) 2 : M (Unit × Own Nat) Unit) ((), noTensor) =
      .panic ((), noTensor) ∧
    (tensorWithCapacity (.static [.const 3, .dyn]) 2 : M (Unit × Own Nat) Unit) ((), noTensor) =
      .ok () ((), ⟨[none, none], 0, ⟨.static [.const 3, .dyn], [3, 0]⟩, [], 100⟩) := by
  decide +kernel

end Props
