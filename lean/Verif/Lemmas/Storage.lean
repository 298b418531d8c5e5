import Verif.Model.Storage
import Verif.Lemmas.TensorOps
import Verif.Lemmas.ShapeReshape
import Verif.Lemmas.Resize
import Verif.Spec.Storage

/-! Lemmas about `Model/Storage.lean`. -/

namespace Model
open Spec

variable {σ T : Type}

theorem readElems_eq {b : Own T} {xs : List T} (h : Holds b xs) (s : σ) :
    (readElems b : M σ (List T)) s = .ok xs s := by
  obtain ⟨-, h1, rest, h2⟩ := h
  have e : b.cells.take b.shape.len = xs.map some := by
    rw [← h2, Shape.len_eq, ← h1, List.take_left' (by simp)]
  have e2 : (xs.map some).filterMap id = xs := by
    rw [List.filterMap_map]; exact List.filterMap_some
  show (if _ then M.pure _ else M.ub : M σ (List T)) s = _
  rw [e, if_pos ⟨by rw [List.length_map, h1, Shape.len_eq], by simp⟩, e2]
  rfl

theorem post_readElems {b : Own T} {xs : List T} (h : Holds b xs) {t : σ × Own T}
    {Q : List T → σ × Own T → Prop} {R} (hq : Q xs t) : M.Post (M.up (readElems b)) t Q R := by
  have : (M.up (readElems b) : M (σ × Own T) _) t = .ok xs t := by
    unfold M.up; rw [readElems_eq h]
  exact M.post_of_eq this hq

theorem post_cloneLoop {s : σ} {o : Own T} {src : List T} {c : T → M σ T}
    (hc : ∀ y, (c y).Tame) (h : Vec o []) (hl : src.length ≤ o.cells.length) :
    M.Post (src.foldlM (fun _ y => M.bind (M.up (c y)) vecAppend) ()) (s, o)
      (fun _ t => ∃ ys, Ran (cloneStep src c) src.length s ys t.1 ∧ Vec t.2 ys ∧ Eff o t.2 [] ∧
        t.2.cells.length = o.cells.length)
      (fun t => ∃ k ys, Stopped (cloneStep src c) src.length s k ys t.1 ∧ Vec t.2 ys ∧ Eff o t.2 []) := by
  refine M.post_foldlM (σ := σ × Own T) (τ := Unit)
    (f := fun _ y => M.bind (M.up (c y)) vecAppend)
    (R := fun t => ∃ k ys, Stopped (cloneStep src c) src.length s k ys t.1 ∧ Vec t.2 ys ∧ Eff o t.2 [])
    (I := fun m _ t => ∃ ys, Ran (cloneStep src c) m s ys t.1 ∧ Vec t.2 ys ∧ Eff o t.2 [] ∧
        t.2.cells.length = o.cells.length)
    src ?_ (acc := ()) (s := (s, o)) ⟨[], ran_zero, h, Eff.refl o, rfl⟩
  rintro m hm - ⟨t4, o4⟩ ⟨ys, c1, c2, c3, c4⟩
  have c4 : o4.cells.length = o.cells.length := c4
  have hl := c1.length
  have hy : src[m]? = some src[m] := List.getElem?_eq_getElem hm
  refine M.Post.bind (P := fun z u => c src[m] t4 = .ok z u.1 ∧ u.2 = o4)
    (M.post_up (((hc _).post t4).mono (fun x t' h => ⟨h, rfl⟩) ?_)) ?_
  · intro t' h
    exact ⟨m, ys, ⟨hm, t4, c1, by rw [cloneStep_eq hy]; exact h⟩, c2, c3⟩
  · rintro z ⟨t5, o5⟩ ⟨hz, rfl⟩
    refine M.Post.mono (post_vecAppend z c2 (by
      have c4 : o5.cells.length = o.cells.length := c4
      show ys.length < o5.cells.length
      omega)) ?_ (fun t h => h)
    rintro - ⟨t6, o6⟩ ⟨rfl, d1, d2, d3⟩
    exact ⟨ys ++ [z], c1.succ (by rw [cloneStep_eq hy]; exact hz), d1, by simpa using c3.trans d2,
      d3.trans c4⟩

theorem post_vecClone {s : σ} {o : Own T} {src : List T} {c : T → M σ T} (hc : ∀ y, (c y).Tame) :
    M.Post (vecClone src c) (s, o)
      (fun _ t => ∃ ys, Ran (cloneStep src c) src.length s ys t.1 ∧ Vec t.2 ys ∧ Eff o t.2 [])
      (fun t => (o.limit < src.length ∧ t.1 = s ∧ t.2.log = o.log) ∨
        ∃ k ys, Stopped (cloneStep src c) src.length s k ys t.1 ∧ t.2.log = o.log ++ ys) := by
  have h0 : Vec ({ o with cells := [], len := 0 } : Own T) [] := ⟨rfl, by simp⟩
  show M.Post (M.bind (vecReserve src.length) _) (s, { o with cells := [], len := 0 }) _ _
  refine M.Post.bind (M.Post.mono (post_vecReserve src.length h0) (fun _ _ h => h) ?_) ?_
  · rintro t ⟨rfl, hl⟩
    exact Or.inl ⟨by simpa using hl, rfl, rfl⟩
  · rintro - ⟨t, o1⟩ ⟨rfl, b1, b2, b3⟩
    refine M.post_onPanic (M.Post.mono (post_cloneLoop hc b1 (by simpa using b3)) ?_ ?_)
    · rintro - t ⟨ys, a1, a2, a3, -⟩
      have := b2.trans a3
      exact ⟨ys, a1, a2, ⟨this.log, this.shape, this.limit⟩⟩
    · rintro ⟨t, o2⟩ ⟨k, ys, a1, a2, a3⟩
      refine post_dropAll a2 fun o' ho => Or.inr ⟨k, ys, a1, ?_⟩
      have := (b2.trans a3).log
      have this : o2.log = o.log := by simpa using this
      rw [ho, this]

theorem post_tensorClone {s : σ} {o b : Own T} {src : List T} {c : T → M σ T} (hc : ∀ y, (c y).Tame)
    (h : Holds b src) :
    M.Post (tensorClone b c) (s, o)
      (fun _ t => ∃ ys, Ran (cloneStep src c) src.length s ys t.1 ∧ Holds t.2 ys ∧
        t.2.shape = b.shape ∧ t.2.log = o.log)
      (fun t => (o.limit < src.length ∧ t.1 = s ∧ t.2.log = o.log) ∨
        ∃ k ys, Stopped (cloneStep src c) src.length s k ys t.1 ∧ t.2.log = o.log ++ ys) := by
  refine M.Post.bind (post_readElems (Q := fun a t => a = src ∧ t = (s, o)) h ⟨rfl, rfl⟩) ?_
  rintro a t ⟨rfl, rfl⟩
  refine M.Post.bind (post_vecClone hc) ?_
  rintro - t ⟨ys, a1, a2, a3⟩
  refine M.post_of_eq (x := upd _) (a := ()) rfl ⟨ys, a1, ⟨h.1, ?_, a2.2⟩, rfl, ?_⟩
  · rw [a1.length]; exact h.2.1
  · simpa using a3.log

theorem vec1_wf (n : Nat) : (⟨.static [.dyn], [n]⟩ : Shape).WF := by
  show (ShapeTy.static [.dyn]).Conforms [_]
  simp

theorem tensorFromVec_eq {o : Own T} {xs : List T} (h : Vec o xs) (s : σ) :
    ∃ o', tensorFromVec (s, o) = .ok () (s, o') ∧ Holds o' xs ∧
      o'.shape = ⟨.static [.dyn], [xs.length]⟩ ∧ o'.log = o.log ∧ o'.cells = o.cells ∧
      o'.limit = o.limit := by
  refine ⟨_, rfl, ⟨vec1_wf _, ?_, h.2⟩, ?_, rfl, rfl, rfl⟩
  · show xs.length = size [o.len]
    rw [h.1]; simp
  · show (⟨_, [o.len]⟩ : Shape) = _
    rw [h.1]

theorem tensorIntoVec_eq {o : Own T} {xs : List T} (h : Holds o xs) (s : σ) :
    ∃ o', tensorIntoVec (s, o) = .ok () (s, o') ∧ Vec o' xs ∧ o'.log = o.log ∧ o'.cells = o.cells ∧
      o'.limit = o.limit :=
  ⟨_, rfl, parts_vec h, rfl, rfl, rfl⟩

theorem post_tensorFromSlice {s : σ} {o : Own T} {src : List T} {c : T → M σ T}
    (hc : ∀ y, (c y).Tame) :
    M.Post (tensorFromSlice src c) (s, o)
      (fun _ t => ∃ ys, Ran (cloneStep src c) src.length s ys t.1 ∧ Holds t.2 ys ∧
        t.2.shape = ⟨.static [.dyn], [src.length]⟩ ∧ t.2.log = o.log)
      (fun t => (o.limit < src.length ∧ t.1 = s ∧ t.2.log = o.log) ∨
        ∃ k ys, Stopped (cloneStep src c) src.length s k ys t.1 ∧ t.2.log = o.log ++ ys) := by
  refine M.Post.bind (post_vecClone hc) ?_
  rintro - ⟨t, o1⟩ ⟨ys, a1, a2, a3⟩
  obtain ⟨o', e, b1, b2, b3, -⟩ := tensorFromVec_eq a2 t
  refine M.post_of_eq e ⟨ys, a1, b1, ?_, ?_⟩
  · rw [b2, a1.length]
  · rw [b3]; simpa using a3.log

theorem post_tensorFromIter {s : σ} {o : Own T} {n : Nat} {step : Nat → M σ T}
    (ht : ∀ k, k < n → (step k).Tame) :
    M.Post (tensorFromIter n step) (s, o)
      (fun _ t => ∃ ys, Ran step n s ys t.1 ∧ Holds t.2 ys ∧
        t.2.shape = ⟨.static [.dyn], [n]⟩ ∧ t.2.log = o.log)
      (fun t => (∃ k ys, Stopped step n s k ys t.1 ∧ t.2.log = o.log ++ ys) ∨
        ∃ k ys y, k < n ∧ Ran step (k + 1) s (ys ++ [y]) t.1 ∧ t.2.log = o.log ++ y :: ys) := by
  have h0 : Vec ({ o with cells := [], len := 0 } : Own T) [] := ⟨rfl, by simp⟩
  show M.Post (M.bind (M.onPanic _ _) _) (s, { o with cells := [], len := 0 }) _ _
  refine M.Post.bind (M.post_onPanic (M.Post.mono (post_vecExtend ht h0) (fun _ _ h => h) ?_)) ?_
  · rintro ⟨t, o1⟩ (⟨k, ys, a1, a2, a3⟩ | ⟨k, ys, y, ak, a1, a2, a3⟩)
    · refine post_dropAll a2 fun o' ho => Or.inl ⟨k, ys, a1, ?_⟩
      have : o1.log = o.log := by simpa using a3.log
      show o'.log = _
      rw [ho, this]; rfl
    · refine post_dropAll a2 fun o' ho => Or.inr ⟨k, ys, y, ak, a1, ?_⟩
      have : o1.log = o.log ++ [y] := a3.log
      show o'.log = _
      rw [ho, this]; simp
  · rintro - ⟨t, o1⟩ ⟨ys, a1, a2, a3⟩
    obtain ⟨o', e, b1, b2, b3, -⟩ := tensorFromVec_eq a2 t
    refine M.post_of_eq e ⟨ys, a1, b1, ?_, ?_⟩
    · rw [b2]; simp [a1.length]
    · rw [b3]; simpa using a3.log

/-- Dropping all elements of a tensor. -/
theorem post_dropTensor {s : σ} {o : Own T} {ys : List T} {R : σ × Own T → Prop} (h : Holds o ys)
    (hr : ∀ o', o'.log = o.log ++ ys → R (s, o')) :
    M.Post (dropCells 0 o.shape.len) (s, o) (fun _ t => R t) fun _ => False := by
  obtain ⟨-, h1, rest, h2⟩ := h
  have e := dropCells_eq (o := o) (pre := []) (ys := ys) (xs := rest) (n := o.shape.len) s
    (by simpa using h2.symm) (by rw [Shape.len_eq, h1])
  exact M.post_of_eq e (hr _ rfl)

theorem post_checkDrop {s : σ} {o : Own T} {ys : List T} {p : Prop} [Decidable p] (h : Holds o ys) :
    M.Post (M.onPanic (M.lift (check p)) (dropCells 0 o.shape.len)) (s, o)
      (fun _ t => t = (s, o) ∧ p) (fun t => t.1 = s ∧ ¬ p ∧ t.2.log = o.log ++ ys) := by
  refine M.post_onPanic ?_
  by_cases hp : p
  · rw [show check p = some () from if_pos hp]
    exact ⟨rfl, hp⟩
  · rw [show check p = none from if_neg hp]
    exact post_dropTensor h fun o' ho => ⟨rfl, hp, ho⟩

theorem post_tensorIntoScalar {s : σ} {o : Own T} {xs : List T} (h : Holds o xs) :
    M.Post tensorIntoScalar (s, o)
      (fun x t => t.1 = s ∧ xs = [x] ∧ t.2.log = o.log ∧ ∀ c ∈ t.2.cells.take 1, c = none)
      (fun t => t.1 = s ∧ xs.length ≠ 1 ∧ t.2.log = o.log ++ xs) := by
  have hlen : o.shape.len = xs.length := by rw [Shape.len_eq, h.2.1]
  show M.Post (M.bind (M.onPanic _ (dropCells 0 o.shape.len)) _) (s, o) _ _
  refine M.Post.bind (M.Post.mono (post_checkDrop h) (fun _ _ h => h) ?_) ?_
  · rintro t ⟨h1, h2, h3⟩
    exact ⟨h1, by rwa [← hlen], h3⟩
  · rintro - t ⟨rfl, h1⟩
    obtain ⟨x, rfl⟩ : ∃ x, xs = [x] := List.length_eq_one_iff.1 (by rw [← hlen, h1])
    obtain ⟨rest, h2⟩ := h.2.2
    have e := takeCell_eq (o := { o with len := o.shape.len }) (pre := []) (x := x) (xs := rest)
      (p := o.shape.len - 1) s (by simpa using h2.symm) (by rw [h1]; rfl)
    refine M.post_of_eq (x := M.bind tensorIntoVec _) e ⟨rfl, rfl, rfl, ?_⟩
    simp

theorem post_arrayIntoShape {s : σ} {o : Own T} {xs : List T} (ty : ShapeTy) (h : Holds o xs) :
    M.Post (arrayIntoShape ty) (s, o)
      (fun _ t => t.1 = s ∧ Holds t.2 xs ∧ t.2.shape = Shape.default ty ∧ t.2.log = o.log ∧
        t.2.cells = o.cells)
      (fun t => t.1 = s ∧ size (Shape.default ty).dims ≠ xs.length ∧ t.2.log = o.log ++ xs) := by
  have hlen : o.shape.len = xs.length := by rw [Shape.len_eq, h.2.1]
  show M.Post (M.bind (M.onPanic _ (dropCells 0 o.shape.len)) _) (s, o) _ _
  refine M.Post.bind (M.Post.mono (post_checkDrop h) (fun _ _ h => h) ?_) ?_
  · rintro t ⟨h1, h2, h3⟩
    exact ⟨h1, by rwa [hlen, Shape.len_eq] at h2, h3⟩
  · rintro - t ⟨rfl, h1⟩
    rw [hlen, Shape.len_eq] at h1
    exact M.post_of_eq (x := upd _) (a := ()) rfl ⟨rfl, ⟨Shape.default_wf _, h1.symm, h.2.2⟩, rfl, rfl, rfl⟩

theorem post_arrayIntoScalar {s : σ} {o : Own T} {xs : List T} (h : Holds o xs) :
    M.Post arrayIntoScalar (s, o)
      (fun x t => t.1 = s ∧ xs = [x] ∧ t.2.log = o.log ∧ ∀ c ∈ t.2.cells.take 1, c = none)
      (fun t => t.1 = s ∧ xs.length ≠ 1 ∧ t.2.log = o.log ++ xs) := by
  have hlen : o.shape.len = xs.length := by rw [Shape.len_eq, h.2.1]
  show M.Post (M.bind (M.onPanic _ (dropCells 0 o.shape.len)) _) (s, o) _ _
  refine M.Post.bind (M.Post.mono (post_checkDrop h) (fun _ _ h => h) ?_) ?_
  · rintro t ⟨h1, h2, h3⟩
    exact ⟨h1, by rwa [← hlen], h3⟩
  · rintro - t ⟨rfl, h1⟩
    obtain ⟨x, rfl⟩ : ∃ x, xs = [x] := List.length_eq_one_iff.1 (by rw [← hlen, h1])
    refine M.Post.bind (M.Post.mono (post_arrayIntoShape (.static []) h) (fun _ _ h => h) ?_) ?_
    · rintro t ⟨-, h2, -⟩
      exact absurd rfl h2
    · rintro - ⟨t, o1⟩ ⟨rfl, a1, -, a3, a4⟩
      obtain ⟨rest, h2⟩ := a1.2.2
      have e := takeCell_eq (o := o1) (pre := []) (x := x) (xs := rest) (p := 0) t
        (by simpa using h2.symm) rfl
      refine M.post_of_eq e ⟨rfl, rfl, a3, ?_⟩
      simp

theorem tensorWithCapacity_eq (ty : ShapeTy) (cap : Nat) (s : σ) (o : Own T) :
    tensorWithCapacity ty cap (s, o) =
      if (Shape.default ty).checkedLen = some 0 ∧ cap ≤ o.limit then
        .ok () (s, { o with cells := List.replicate cap none, len := 0, shape := Shape.default ty })
      else .panic (s, o) := by
  unfold tensorWithCapacity
  by_cases h1 : (Shape.default ty).checkedLen = some 0
  · rw [show check ((Shape.default ty).checkedLen = some 0) = some () from if_pos h1]
    by_cases h2 : cap ≤ o.limit
    · rw [if_pos ⟨h1, h2⟩]
      show M.bind (M.lift (check (cap ≤ o.limit))) _ (s, o) = _
      rw [show check (cap ≤ o.limit) = some () from if_pos h2]
      rfl
    · rw [if_neg fun h => h2 h.2]
      show M.bind (M.lift (check (cap ≤ o.limit))) _ (s, o) = _
      rw [show check (cap ≤ o.limit) = none from if_neg h2]
      rfl
  · rw [show check ((Shape.default ty).checkedLen = some 0) = none from if_neg h1,
      if_neg fun h => h1 h.1]
    rfl

theorem post_tensorTryReserve {s : σ} {o : Own T} {xs : List T} {R} (add : Nat) (h : Holds o xs) :
    M.Post (tensorTryReserve add) (s, o)
      (fun b t => t.1 = s ∧ Same o t.2 xs ∧ (b = true → xs.length + add ≤ t.2.cells.length) ∧
        (b = false → o.limit < xs.length + add ∧ t.2.cells = o.cells)) R := by
  have hv := parts_vec h
  refine post_withMutParts ?_
  show M.Post (if _ then _ else _ : M (σ × Own T) Bool) (s, parts o) _ _
  have h1 := hv.1
  by_cases hc : (parts o).len + add ≤ (parts o).cells.length ∨ (parts o).len + add ≤ (parts o).limit
  · rw [if_pos hc]
    have key : M.Post (vecReserve add) (s, parts o) (fun _ t => t.1 = s ∧ Same o t.2 xs ∧
        xs.length + add ≤ t.2.cells.length) (fun t => False) := by
      by_cases hc1 : (parts o).len + add ≤ (parts o).cells.length
      · refine M.post_of_eq (a := ()) (t := (s, parts o)) ?_
          ⟨rfl, parts_same h hv (Eff.refl _), by rw [← h1]; exact hc1⟩
        show (if _ then _ else _ : M (σ × Own T) Unit) (s, parts o) = _
        rw [if_pos hc1]; rfl
      · refine M.Post.mono (post_vecReserve add hv) ?_ ?_
        · rintro - ⟨t, o'⟩ ⟨rfl, a1, a2, a3⟩
          exact ⟨rfl, parts_same h a1 a2, a3⟩
        · rintro t ⟨rfl, hl⟩
          rw [h1] at hc hc1
          rcases hc with hc | hc
          · exact hc1 hc
          · omega
    refine M.Post.bind (M.Post.mono key (fun _ _ h => h) (fun _ h => h.elim)) ?_
    rintro - t ⟨a1, a2, a3⟩
    exact ⟨a1, a2, fun _ => a3, fun h => by cases h⟩
  · rw [if_neg hc]
    rw [not_or, h1] at hc
    refine ⟨rfl, parts_same h hv (Eff.refl _), fun h => (by cases h), fun _ => ⟨?_, rfl⟩⟩
    have := hc.2
    have e : (parts o).limit = o.limit := rfl
    omega

theorem post_tensorShrinkTo_cap {s : σ} {o : Own T} {xs : List T} {R} (cap : Nat) (h : Holds o xs) :
    M.Post (tensorShrinkTo cap) (s, o)
      (fun _ t => t.2.cells.length = min o.cells.length (max xs.length cap)) R := by
  refine post_withMutParts ?_
  refine M.post_of_eq (x := upd _) (a := ()) rfl ?_
  show (List.take _ _).length = _
  rw [List.length_take, (parts_vec h).1, Nat.min_comm]
  rfl

theorem tensorSpare_eq {o : Own T} {xs : List T} (h : Holds o xs) :
    tensorSpare o = some (xs.length, o.cells.length - xs.length) := by
  have hlen : o.shape.len = xs.length := by rw [Shape.len_eq, h.2.1]
  have := h.2.2.length_le
  rw [List.length_map] at this
  unfold tensorSpare tensorCapacity
  rw [hlen, show check (xs.length ≤ o.cells.length) = some () from if_pos this]
  rfl

theorem ran_succ_iff {α : Type} {step : Nat → M σ α} {n : Nat} {s s' : σ} {ys : List α} :
    Ran step (n + 1) s ys s' ↔
      ∃ zs z t, ys = zs ++ [z] ∧ Ran step n s zs t ∧ step n t = .ok z s' := by
  constructor
  · intro h
    unfold Ran at h
    rw [List.range_succ, List.mapM_append] at h
    simp only [M.bind_eq, M.pure_eq, M.bind] at h
    cases h1 : (List.range n).mapM step s with
    | ok zs t =>
      rw [h1] at h
      simp only [List.mapM_cons, List.mapM_nil, M.bind_eq, M.pure_eq, M.bind] at h
      cases h2 : step n t with
      | ok z t' =>
        rw [h2] at h
        simp only [M.pure] at h
        injection h with h3 h4
        subst h3 h4
        exact ⟨zs, z, t, rfl, h1, h2⟩
      | panic => rw [h2] at h; cases h
      | ub => rw [h2] at h; cases h
      | abort => rw [h2] at h; cases h
    | panic => rw [h1] at h; cases h
    | ub => rw [h1] at h; cases h
    | abort => rw [h1] at h; cases h
  · rintro ⟨zs, z, t, rfl, h1, h2⟩
    exact h1.succ h2

theorem ran_faithful {c : T → M σ T} {xs ys : List T} {n : Nat} {s s' : σ} (hf : Faithful c)
    (h : Ran (cloneStep xs c) n s ys s') : ys = xs.take n := by
  induction n generalizing ys s' with
  | zero =>
    have := h.length
    rw [List.length_eq_zero_iff.1 this]; simp
  | succ n ih =>
    obtain ⟨zs, z, t, rfl, h1, h2⟩ := ran_succ_iff.1 h
    have e := ih h1
    subst e
    cases hx : xs[n]? with
    | none =>
      have : cloneStep xs c n t = .ub := by
        show M.bind (orUb xs[n]?) c t = _
        rw [hx]; rfl
      rw [this] at h2
      cases h2
    | some y =>
      rw [cloneStep_eq hx] at h2
      rw [hf _ _ _ _ h2, List.take_add_one, hx]
      rfl

/-- The default array is empty if there is any empty array of the type. -/
theorem default_empty {ty : ShapeTy} {dims : List Nat} (h1 : ty.Conforms dims) (h2 : size dims = 0)
    (h3 : NoOverflow usizeMax dims) :
    size (Shape.default ty).dims = 0 ∧ NoOverflow usizeMax (Shape.default ty).dims := by
  constructor
  · by_contra h
    rw [Shape.default_unique h h1] at h2
    exact h h2
  · cases ty with
    | dynRank => decide +kernel
    | static ds =>
      have key : ∀ (ds : List DimTy) (dims : List Nat) (k : Nat), List.Forall₂ DimTy.Fits ds dims →
          size ((ds.map DimTy.default).take k) ≤ size (dims.take k) := by
        intro ds dims k h
        induction h generalizing k with
        | nil => simp
        | @cons d n ds dims hd _ ih =>
          cases k with
          | zero => simp
          | succ k =>
            rw [List.map_cons, List.take_succ_cons, List.take_succ_cons, size_cons, size_cons]
            refine Nat.mul_le_mul ?_ (ih k)
            cases d with
            | const m => exact (show n = m from hd) ▸ le_refl _
            | dyn => exact Nat.zero_le _
      intro k hk
      have hl : ((Shape.default (.static ds)).dims).length = dims.length := by
        show (ds.map DimTy.default).length = _
        rw [List.length_map]
        exact List.Forall₂.length_eq h1
      exact (key ds dims k h1).trans (h3 k (by rw [← hl]; exact hk))

end Model
