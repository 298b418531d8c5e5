import Verif.Lemmas.Tensor
import Verif.Lemmas.Types

/-! Rules for the operations of `Tensor`. -/

namespace Model
open Spec

variable {σ T α β : Type}

/-! Shapes. -/

theorem Shape.default_wf (ty : ShapeTy) : (Shape.default ty).WF := by
  cases ty with
  | dynRank => trivial
  | static ds =>
    show List.Forall₂ DimTy.Fits ds (ds.map DimTy.default)
    rw [List.forall₂_map_right_iff, List.forall₂_same]
    intro d _
    exact DimTy.fits_default d

theorem Shape.default_ty (ty : ShapeTy) : (Shape.default ty).ty = ty := by cases ty <;> rfl

/-- If the default shape has elements, it is the only shape of that type. -/
theorem Shape.default_unique {ty : ShapeTy} (h : size (Shape.default ty).dims ≠ 0) {dims : List Nat}
    (hc : ty.Conforms dims) : dims = (Shape.default ty).dims := by
  cases ty with
  | dynRank => exact absurd rfl h
  | static ds =>
    replace hc : List.Forall₂ DimTy.Fits ds dims := hc
    replace h : size (ds.map DimTy.default) ≠ 0 := h
    show dims = ds.map DimTy.default
    induction hc with
    | nil => rfl
    | @cons d n ds ns hf _ ih =>
      rw [List.map_cons, size_cons] at h
      rw [List.map_cons, ih (fun e => h (by rw [e, Nat.mul_zero]))]
      cases d with
      | const k => rw [show n = k from hf]; rfl
      | dyn => exact absurd (by show 0 * _ = 0; rw [Nat.zero_mul]) h

theorem ShapeTy.conforms_head_dyn {ty : ShapeTy} (h : ty.head = .dyn) {d d' : Nat} {ds : List Nat}
    (hc : ty.Conforms (d :: ds)) : ty.Conforms (d' :: ds) := by
  cases ty with
  | dynRank => trivial
  | static l =>
    cases l with
    | nil => simp at hc
    | cons x l =>
      have : x = .dyn := h
      subst this
      rw [conforms_cons] at hc ⊢
      exact ⟨trivial, hc.2⟩

theorem Shape.default_size_of_head {s : Shape} (hs : s.WF) (hr : 0 < s.rank) (h : s.ty.head = .dyn) :
    size (Shape.default s.ty).dims = 0 := by
  obtain ⟨ty, dims⟩ := s
  cases ty with
  | dynRank => rfl
  | static l =>
    cases l with
    | nil =>
      have := ShapeTy.conforms_static_length (show (ShapeTy.static []).Conforms dims from hs)
      simp only [Shape.rank] at hr
      simp at this
      omega
    | cons x l =>
      have : x = .dyn := h
      subst this
      show 0 * _ = 0
      rw [Nat.zero_mul]

/-! The guard. -/

theorem partsGuard_same {o : Own T} {ys : List T} (h : Vec o ys) (hl : ys.length = size o.shape.dims)
    (s : σ) : partsGuard (s, o) = .ok () (s, o) := by
  show (if o.len ≠ o.shape.len then _ else _ : M (σ × Own T) Unit) (s, o) = _
  rw [if_neg (by rw [Shape.len_eq, h.1, hl]; simp)]
  rfl

theorem partsGuard_reset {o : Own T} {ys : List T} (h : Vec o ys) (hl : ys.length ≠ size o.shape.dims)
    (hd : size (Shape.default o.shape.ty).dims = 0) (s : σ) :
    ∃ o', partsGuard (s, o) = .ok () (s, o') ∧ Holds o' [] ∧ o'.log = o.log ++ ys ∧
      o'.shape = Shape.default o.shape.ty ∧ o'.limit = o.limit := by
  obtain ⟨h1, rest, h2⟩ := h
  have e := dropCells_eq (o := { o with shape := Shape.default o.shape.ty }) (pre := []) (ys := ys)
    (xs := rest) (n := o.len) s (by simpa using h2.symm) h1
  refine ⟨{ o with
    shape := Shape.default o.shape.ty
    cells := [] ++ List.replicate ys.length none ++ rest
    log := o.log ++ ys }, ?_, ?_, ?_, ?_, ?_⟩
  · show (if o.len ≠ o.shape.len then _ else _ : M (σ × Own T) Unit) (s, o) = _
    rw [if_pos (by rw [Shape.len_eq, h1]; exact hl)]
    show M.bind (M.lift (check ((Shape.default o.shape.ty).len = 0))) _ (s, o) = _
    rw [show check ((Shape.default o.shape.ty).len = 0) = some () from
      if_pos (by rw [Shape.len_eq]; exact hd)]
    exact e
  · exact ⟨Shape.default_wf _, hd.symm, by simp⟩
  · rfl
  · rfl
  · rfl

theorem partsGuard_abort {o : Own T} {ys : List T} (h : Vec o ys) (hl : ys.length ≠ size o.shape.dims)
    (hd : size (Shape.default o.shape.ty).dims ≠ 0) (s : σ) : partsGuard (s, o) = .panic (s, o) := by
  show (if o.len ≠ o.shape.len then _ else _ : M (σ × Own T) Unit) (s, o) = _
  rw [if_pos (by rw [Shape.len_eq, h.1]; exact hl)]
  show M.bind (M.lift (check ((Shape.default o.shape.ty).len = 0))) _ (s, o) = _
  rw [show check ((Shape.default o.shape.ty).len = 0) = none from
    if_neg (by rw [Shape.len_eq]; exact hd)]
  rfl

/-- What the guard leads to from a state in which the closure panicked. -/
def Recovers (R : σ × Own T → Prop) (t : σ × Own T) : Prop :=
  ∃ ys, Vec t.2 ys ∧ (ys.length = size t.2.shape.dims → R t) ∧
    (ys.length ≠ size t.2.shape.dims → size (Shape.default t.2.shape.ty).dims = 0 →
      ∀ o', Holds o' [] → o'.log = t.2.log ++ ys → o'.shape = Shape.default t.2.shape.ty →
        o'.limit = t.2.limit → R (t.1, o'))

/-- The state at the start of the closure passed to `with_mut_parts`. -/
def parts (o : Own T) : Own T := { o with len := o.shape.len }

theorem parts_vec {o : Own T} {xs : List T} (h : Holds o xs) : Vec (parts o) xs :=
  ⟨by show o.shape.len = _; rw [Shape.len_eq, h.2.1], h.2.2⟩

theorem postA_withMutParts {x : M (σ × Own T) α} {s : σ} {o : Own T} {ty : ShapeTy} {C : Prop}
    {Q : α → σ × Own T → Prop} {R : σ × Own T → Prop}
    (hx : M.Post x (s, parts o) Q fun t => (t.2.shape.ty = ty ∧ Recovers R t) ∧ C) :
    M.PostA (withMutParts x) (s, o) Q R (size (Shape.default ty).dims ≠ 0 ∧ C) := by
  show M.PostA (M.onPanic x partsGuard) (s, parts o) Q R _
  unfold M.PostA M.onPanic
  unfold M.Post at hx
  cases hr : x (s, parts o) with
  | ok a t => rw [hr] at hx; exact hx
  | ub => rw [hr] at hx; exact hx
  | abort => rw [hr] at hx; exact hx.elim
  | panic t =>
    rw [hr] at hx
    obtain ⟨⟨ht, ys, hv, h1, h2⟩, hc⟩ := hx
    obtain ⟨t, o'⟩ := t
    simp only
    by_cases hl : ys.length = size o'.shape.dims
    · rw [partsGuard_same hv hl]; exact h1 hl
    · by_cases hd : size (Shape.default o'.shape.ty).dims = 0
      · obtain ⟨o2, e, a1, a2, a3, a4⟩ := partsGuard_reset hv hl hd t
        rw [e]
        exact h2 hl hd o2 a1 a2 a3 a4
      · rw [partsGuard_abort hv hl hd]
        rw [← ht]; exact ⟨hd, hc⟩

theorem post_withMutParts {x : M (σ × Own T) α} {s : σ} {o : Own T}
    {Q : α → σ × Own T → Prop} {R : σ × Own T → Prop}
    (hx : M.Post x (s, parts o) Q fun t => Recovers R t ∧
      ∀ ys, Vec t.2 ys → ys.length ≠ size t.2.shape.dims →
        size (Shape.default t.2.shape.ty).dims = 0) :
    M.Post (withMutParts x) (s, o) Q R := by
  show M.Post (M.onPanic x partsGuard) (s, parts o) Q R
  refine M.post_onPanic (hx.mono (fun _ _ h => h) ?_)
  rintro ⟨t, o'⟩ ⟨⟨ys, hv, h1, h2⟩, hd⟩
  by_cases hl : ys.length = size o'.shape.dims
  · exact M.post_of_eq (partsGuard_same hv hl t) (h1 hl)
  · obtain ⟨o2, e, a1, a2, a3, a4⟩ := partsGuard_reset hv hl (hd ys hv hl) t
    exact M.post_of_eq e (h2 hl (hd ys hv hl) o2 a1 a2 a3 a4)

theorem Vec.holds {o : Own T} {xs : List T} (h : Vec o xs) (hw : o.shape.WF)
    (hl : xs.length = size o.shape.dims) : Holds o xs := ⟨hw, hl, h.2⟩

theorem Same.refl {o : Own T} {xs : List T} (h : Holds o xs) : Same o o xs := ⟨h, rfl, rfl, rfl⟩

theorem parts_same {o o' : Own T} {xs : List T} (h : Holds o xs) (hv : Vec o' xs)
    (he : Eff (parts o) o' []) : Same o o' xs :=
  ⟨⟨by rw [he.shape]; exact h.1, by rw [he.shape]; exact h.2.1, hv.2⟩, he.shape,
    by rw [he.log]; simp [parts], he.limit⟩

/-! The simple operations. -/

theorem post_tensorClear {s : σ} {o : Own T} {xs : List T} (h : Holds o xs) :
    M.Post tensorClear (s, o)
      (fun _ t => t.1 = s ∧ Holds t.2 [] ∧ t.2.shape = Shape.default o.shape.ty ∧
        t.2.log = o.log ++ xs ∧ t.2.limit = o.limit)
      (fun t => t = (s, o) ∧ size (Shape.default o.shape.ty).dims ≠ 0) := by
  show M.Post (M.bind (M.lift (check ((Shape.default o.shape.ty).len = 0))) _) (s, o) _ _
  refine M.Post.bind (P := fun _ t => t = (s, o) ∧ size (Shape.default o.shape.ty).dims = 0)
    (M.post_lift (fun _ h => ⟨rfl, ?_⟩) fun h => ⟨rfl, ?_⟩) ?_
  · rw [check_eq_some, Shape.len_eq] at h; exact h
  · intro hd
    rw [← Shape.len_eq] at hd
    rw [show check ((Shape.default o.shape.ty).len = 0) = some () from if_pos hd] at h
    cases h
  · rintro - t ⟨rfl, hd⟩
    refine post_withMutParts (M.Post.bind (post_vecClear (parts_vec h)) ?_)
    rintro - ⟨t, o'⟩ ⟨rfl, hv, he⟩
    refine M.post_of_eq (x := upd _) (a := ()) rfl ⟨rfl, ?_, ?_, ?_, ?_⟩
    · refine ⟨?_, ?_, by simp⟩
      · exact Shape.default_wf _
      · show 0 = size (Shape.default o'.shape.ty).dims
        rw [he.shape]; exact hd.symm
    · show Shape.default o'.shape.ty = _
      rw [he.shape]; rfl
    · exact he.log
    · exact he.limit

theorem post_checkHead {s : σ} {o : Own T} {Q : Unit → σ × Own T → Prop} {R : σ × Own T → Prop}
    (h1 : 0 < o.shape.rank ∧ o.shape.ty.head = .dyn → Q () (s, o))
    (h2 : ¬ (0 < o.shape.rank ∧ o.shape.ty.head = .dyn) → R (s, o)) :
    M.Post checkHead (s, o) Q R := by
  show M.Post (M.bind (M.lift (check (0 < o.shape.rank)))
    fun _ => M.lift (check (o.shape.ty.head = .dyn))) (s, o) Q R
  by_cases ha : 0 < o.shape.rank
  · rw [show check (0 < o.shape.rank) = some () from if_pos ha]
    by_cases hb : o.shape.ty.head = .dyn
    · rw [show check (o.shape.ty.head = .dyn) = some () from if_pos hb]
      exact h1 ⟨ha, hb⟩
    · rw [show check (o.shape.ty.head = .dyn) = none from if_neg hb]
      exact h2 fun h => hb h.2
  · rw [show check (0 < o.shape.rank) = none from if_neg ha]
    exact h2 fun h => ha h.1

theorem post_setShape {s : σ} {o : Own T} {f : Shape → Option Shape} {Q : Unit → σ × Own T → Prop}
    {R : σ × Own T → Prop} (h1 : ∀ s', f o.shape = some s' → Q () (s, { o with shape := s' }))
    (h2 : f o.shape = none → R (s, o)) : M.Post (setShape f) (s, o) Q R := by
  show M.Post (M.bind (M.lift (f o.shape)) fun s' => upd fun o => { o with shape := s' }) (s, o) Q R
  cases hf : f o.shape with
  | none => exact h2 hf
  | some s' => exact h1 s' hf

theorem post_tensorTruncate {s : σ} {o : Own T} {xs : List T} (n : Nat) (h : Holds o xs) :
    M.Post (tensorTruncate n) (s, o)
      (fun _ t => t.1 = s ∧ Holds t.2 (xs.take (n * size o.shape.dims.tail)) ∧
        t.2.shape = ⟨o.shape.ty, min n (o.shape.dims.getD 0 0) :: o.shape.dims.tail⟩ ∧
        t.2.log = o.log ++ xs.drop (n * size o.shape.dims.tail) ∧ t.2.limit = o.limit)
      (fun t => t = (s, o) ∧ ¬ (0 < o.shape.rank ∧ o.shape.ty.head = .dyn)) := by
  refine M.Post.bind (P := fun _ t => t = (s, o) ∧ 0 < o.shape.rank ∧ o.shape.ty.head = .dyn)
    (post_checkHead (fun h => ⟨rfl, h⟩) fun h => ⟨rfl, h⟩) ?_
  rintro - t ⟨rfl, hr, hh⟩
  obtain ⟨d, ds, hd⟩ : ∃ d ds, o.shape.dims = d :: ds := by
    cases hd : o.shape.dims with
    | nil => simp [Shape.rank, hd] at hr
    | cons d ds => exact ⟨d, ds, rfl⟩
  show M.Post (if n < o.shape.dims.getD 0 0 then _ else _ : M (σ × Own T) Unit) (s, o) _ _
  have hxl : xs.length = d * size ds := by rw [h.2.1, hd, size_cons]
  by_cases hn : n < o.shape.dims.getD 0 0
  · rw [if_pos hn]
    have hn' : n < d := by rw [hd] at hn; exact hn
    have hset : o.shape.dims.set 0 n = n :: ds := by rw [hd]; rfl
    have hconf : o.shape.ty.Conforms (n :: ds) := by
      have := h.1; unfold Shape.WF at this; rw [hd] at this
      exact ShapeTy.conforms_head_dyn hh this
    refine post_withMutParts (M.Post.bind (P := fun _ t => t = (s, { parts o with shape :=
      ⟨o.shape.ty, n :: ds⟩ })) (post_setShape (o := parts o) ?_ ?_) ?_)
    · intro s' hs'
      simp only [Shape.withMutDims_eq, parts, hset, Option.bind_some] at hs'
      rw [if_pos hconf] at hs'
      injection hs' with hs'
      rw [← hs']
    · intro hs'
      simp only [Shape.withMutDims_eq, parts, hset, Option.bind_some] at hs'
      rw [if_pos hconf] at hs'
      cases hs'
    · rintro - t rfl
      have hv : Vec ({ parts o with shape := ⟨o.shape.ty, n :: ds⟩ } : Own T) xs := parts_vec h
      refine M.Post.mono (post_vecTruncate (Shape.len ⟨o.shape.ty, n :: ds⟩) hv) ?_ (fun _ h => h)
      rintro - ⟨t, o'⟩ ⟨rfl, h1, h2⟩
      rw [Shape.len_eq, show (⟨o.shape.ty, n :: ds⟩ : Shape).dims = n :: ds from rfl, size_cons] at h1 h2
      rw [hd, List.tail_cons]
      have hsh : o'.shape = ⟨o.shape.ty, n :: ds⟩ := h2.shape
      refine ⟨rfl, h1.holds (by rw [hsh]; exact hconf) ?_, ?_, h2.log, h2.limit⟩
      · rw [hsh, List.length_take, hxl]
        show _ = n * size ds
        have := Nat.mul_le_mul_right (size ds) hn'.le
        omega
      · rw [hsh, show min n ((d :: ds).getD 0 0) = n from Nat.min_eq_left hn'.le]
  · rw [if_neg hn]
    have hn' : d ≤ n := by rw [hd] at hn; simpa using hn
    have := Nat.mul_le_mul_right (size ds) hn'
    rw [hd, List.tail_cons]
    refine ⟨rfl, ?_, ?_, ?_, rfl⟩
    · rw [List.take_of_length_le (by omega)]; exact h
    · rw [show min n ((d :: ds).getD 0 0) = d from Nat.min_eq_right hn', ← hd]
    · rw [List.drop_of_length_le (by omega), List.append_nil]

theorem post_tensorReserve {s : σ} {o : Own T} {xs : List T} (add : Nat) (h : Holds o xs) :
    M.Post (tensorReserve add) (s, o)
      (fun _ t => t.1 = s ∧ Same o t.2 xs ∧ xs.length + add ≤ t.2.cells.length)
      (fun t => t.1 = s ∧ Same o t.2 xs ∧ o.limit < xs.length + add) := by
  refine post_withMutParts (M.Post.mono (post_vecReserve add (parts_vec h)) ?_ ?_)
  · rintro - ⟨t, o'⟩ ⟨rfl, hv, he, hc⟩
    exact ⟨rfl, parts_same h hv he, hc⟩
  · rintro t ⟨rfl, hl⟩
    refine ⟨⟨xs, parts_vec h, fun _ => ⟨rfl, parts_same h (parts_vec h) (Eff.refl _), hl⟩,
      fun hn => absurd h.2.1 hn⟩, ?_⟩
    intro ys hy hne
    exfalso
    apply hne
    have h1 := hy.1
    rw [(parts_vec h).1] at h1
    rw [← h1]; exact h.2.1

theorem post_tensorShrinkTo {s : σ} {o : Own T} {xs : List T} {R} (cap : Nat) (h : Holds o xs) :
    M.Post (tensorShrinkTo cap) (s, o) (fun _ t => t.1 = s ∧ Same o t.2 xs) R := by
  refine post_withMutParts ?_
  refine M.post_of_eq (x := upd _) (a := ()) rfl ⟨rfl, ?_⟩
  refine parts_same h ⟨(parts_vec h).1, ?_⟩ ⟨by simp, rfl, rfl⟩
  obtain ⟨rest, hrest⟩ := (parts_vec h).2
  refine List.prefix_take_iff.2 ⟨⟨rest, hrest⟩, ?_⟩
  rw [List.length_map, ← (parts_vec h).1]
  exact le_max_left _ _

/-! Appending the items of an expression. -/

theorem post_itemLoop {e : Expr σ α} (hb : Built e) (hs : Sound e) (ht : TameItems e)
    (hp : size e.dims = 0 → size (e.dims.drop e.outerRank) = 0) {c : α → M σ T}
    (hc : ∀ y, (c y).Tame) {s : σ} {o : Own T} {xs : List T} (h : Vec o xs)
    (hcap : xs.length + size e.dims ≤ o.cells.length) :
    M.Post ((e.up : Expr (σ × Own T) α).forEach fun x => M.bind (M.up (c x)) vecAppend) (s, o)
      (fun _ t => ∃ ys, Ran (itemStep e c) (size e.dims) s ys t.1 ∧ Vec t.2 (xs ++ ys) ∧
        Eff o t.2 [] ∧ t.2.cells.length = o.cells.length)
      (fun t => ∃ k ys, Stopped (itemStep e c) (size e.dims) s k ys t.1 ∧ Vec t.2 (xs ++ ys) ∧
        Eff o t.2 [] ∧ t.2.cells.length = o.cells.length) := by
  refine Iter.post_fold_up (ρ := Own T) (τ := Unit) hb hs hp
    (f := fun _ x => M.bind (M.up (c x)) vecAppend)
    (R := fun t => ∃ k ys, Stopped (itemStep e c) (size e.dims) s k ys t.1 ∧ Vec t.2 (xs ++ ys) ∧
        Eff o t.2 [] ∧ t.2.cells.length = o.cells.length)
    (I := fun m _ t => ∃ ys, Ran (itemStep e c) m s ys t.1 ∧ Vec t.2 (xs ++ ys) ∧
        Eff o t.2 [] ∧ t.2.cells.length = o.cells.length)
    ?_ (acc := ()) (s := (s, o)) ⟨[], ran_zero, by simpa using h, Eff.refl o, rfl⟩
  rintro m hm - ⟨t, o1⟩ ⟨ys, hr, hv, he, hl⟩
  have hl : o1.cells.length = o.cells.length := hl
  have hlen := hr.length
  apply M.post_bind_iff.1
  have e1 : (M.bind (M.up (item e m (unrank e.dims m))) fun x =>
      M.bind (M.up (c x)) vecAppend : M (σ × Own T) Unit) =
      M.bind (M.up (itemStep e c m)) vecAppend := by
    unfold itemStep
    rw [M.up_bind, M.bind_assoc]
  rw [e1]
  refine M.Post.bind (P := fun x u => itemStep e c m t = .ok x u.1 ∧ u.2 = o1) (M.post_up
    ((((ht m _ (unrank_valid hm)).bind hc).post t).mono (fun x t' h => ⟨h, rfl⟩)
      fun t' h => ⟨m, ys, ⟨hm, t, hr, h⟩, hv, he, hl⟩)) ?_
  rintro x ⟨t2, o2⟩ ⟨hx, rfl⟩
  refine M.Post.mono (post_vecAppend x hv (by
    have hl : o2.cells.length = o.cells.length := hl
    show (xs ++ ys).length < o2.cells.length
    rw [List.length_append]; omega)) ?_ (fun t h => h)
  rintro - ⟨t3, o3⟩ ⟨rfl, h1, h2, h3⟩
  refine ⟨ys ++ [x], hr.succ hx, ?_, ?_, h3.trans hl⟩
  · rw [← List.append_assoc]; exact h1
  · simpa using he.trans h2

theorem expandShape_none {s : Shape} {src : List Nat} (hr : 0 < s.rank) (hs : s.WF)
    (hh : s.ty.head = .dyn) : expandShape s src = none ↔ ¬ Fits s src := by
  unfold expandShape Fits
  by_cases h0 : size s.dims = 0
  · rw [if_pos (Shape.isEmpty_iff.2 h0), if_pos h0]
    by_cases hl : src.length = s.rank
    · rw [if_pos hl, Shape.withMutDims_eq, Shape.copyFromSlice, if_pos hl.symm, Option.bind_some]
      split <;> simp_all
    · rw [if_neg hl, Shape.fromDims_eq]
      split <;> simp_all
  · rw [if_neg (fun h => h0 (Shape.isEmpty_iff.1 h)), if_neg h0, Shape.withMutDims_eq]
    by_cases h1 : src.length = s.dims.length
    · by_cases h2 : src.tail = s.dims.tail
      · rw [check_pos h1, check_pos h2]
        obtain ⟨ty, dims⟩ := s
        cases dims with
        | nil => simp [Shape.rank] at hr
        | cons d ds =>
          cases src with
          | nil => simp at h1
          | cons a as =>
            have : ty.Conforms ((d + a) :: ds) := ShapeTy.conforms_head_dyn hh hs
            simp only [List.length_cons, List.tail_cons, Nat.add_right_cancel_iff] at h1 h2
            simp [this, h2]
      · rw [check_pos h1, check_neg h2]; simp [h2]
    · rw [check_neg h1]; simp [h1]

theorem expandShape_some {s s' : Shape} {src : List Nat} (hr : 0 < s.rank)
    (h : expandShape s src = some s') (hsrc : 0 < size src) :
    s'.WF ∧ s'.ty = s.ty ∧ size s'.dims = size s.dims + size src ∧ s'.dims =
      if size s.dims = 0 then src else (s.dims.getD 0 0 + src.getD 0 0) :: s.dims.tail := by
  unfold expandShape at h
  by_cases h0 : size s.dims = 0
  · rw [if_pos (Shape.isEmpty_iff.2 h0)] at h
    have hc : s.ty.Conforms src ∧ s' = ⟨s.ty, src⟩ := by
      split at h
      · rw [Shape.withMutDims_eq, Option.bind_eq_some_iff] at h
        obtain ⟨d, hd, h⟩ := h
        unfold Shape.copyFromSlice at hd
        split at hd
        · injection hd with hd
          subst hd
          split at h
          · injection h with h
            exact ⟨by assumption, h.symm⟩
          · cases h
        · cases hd
      · rw [Shape.fromDims_eq] at h
        split at h
        · injection h with h
          exact ⟨by assumption, h.symm⟩
        · cases h
    obtain ⟨hc, rfl⟩ := hc
    refine ⟨hc, rfl, ?_, by rw [if_pos h0]⟩
    rw [h0, Nat.zero_add]
  · rw [if_neg (fun h => h0 (Shape.isEmpty_iff.1 h)), Shape.withMutDims_eq,
      Option.bind_eq_some_iff] at h
    obtain ⟨d, hd, h⟩ := h
    by_cases h1 : src.length = s.dims.length
    · by_cases h2 : src.tail = s.dims.tail
      · rw [check_pos h1, check_pos h2] at hd
        injection hd with hd
        subst hd
        split at h
        · rename_i hc
          injection h with h
          subst h
          obtain ⟨ty, dims⟩ := s
          cases dims with
          | nil => simp [Shape.rank] at hr
          | cons d ds =>
            cases src with
            | nil => simp at h1
            | cons a as =>
              have h2 : as = ds := h2
              subst h2
              refine ⟨hc, rfl, ?_, by rw [if_neg h0]; rfl⟩
              show (d + a) * size as = d * size as + a * size as
              rw [Nat.add_mul]
        · cases h
      · rw [check_pos h1, check_neg h2] at hd; cases hd
    · rw [check_neg h1] at hd; cases hd

theorem post_expand {e : Expr σ α} (hb : Built e) (hs : Sound e) (ht : TameItems e)
    {c : α → M σ T} (hc : ∀ y, (c y).Tame) {s : σ} {o : Own T} {xs : List T} (h : Holds o xs) :
    M.Post (expand e c) (s, o)
      (fun _ t => (0 < o.shape.rank ∧ o.shape.ty.head = .dyn) ∧
        ((size e.dims = 0 ∧ t = (s, o)) ∨
        (0 < size e.dims ∧ Fits o.shape e.dims ∧ ∃ ys, Ran (itemStep e c) (size e.dims) s ys t.1 ∧
          Holds t.2 (xs ++ ys) ∧ t.2.shape.ty = o.shape.ty ∧ t.2.shape.dims =
            (if size o.shape.dims = 0 then e.dims else
              (o.shape.dims.getD 0 0 + e.dims.getD 0 0) :: o.shape.dims.tail) ∧
          t.2.log = o.log ∧ t.2.limit = o.limit)))
      (fun t => (t.1 = s ∧ Same o t.2 xs ∧ (¬ (0 < o.shape.rank ∧ o.shape.ty.head = .dyn) ∨
          (0 < size e.dims ∧ (¬ Fits o.shape e.dims ∨ o.limit < xs.length + size e.dims)))) ∨
        (0 < size e.dims ∧ Fits o.shape e.dims ∧ ∃ k ys, Stopped (itemStep e c) (size e.dims) s k ys t.1 ∧
          Holds t.2 [] ∧ t.2.shape = Shape.default o.shape.ty ∧ t.2.log = o.log ++ (xs ++ ys) ∧
          t.2.limit = o.limit)) := by
  refine M.Post.bind (P := fun _ t => t = (s, o) ∧ 0 < o.shape.rank ∧ o.shape.ty.head = .dyn)
    (post_checkHead (fun h => ⟨rfl, h⟩) fun hn => Or.inl ⟨rfl, Same.refl h, Or.inl hn⟩) ?_
  rintro - t ⟨rfl, hr, hh⟩
  show M.Post (if 0 < e.shape.len then _ else _ : M (σ × Own T) Unit) (s, o) _ _
  by_cases h0 : 0 < e.shape.len
  swap
  · rw [if_neg h0]
    rw [Shape.len_eq] at h0
    exact ⟨⟨hr, hh⟩, Or.inl ⟨by show size e.shape.dims = 0; omega, rfl⟩⟩
  rw [if_pos h0]
  have hlen : e.shape.len = size e.dims := Shape.len_eq _
  rw [hlen] at h0 ⊢
  have hvec := parts_vec h
  have hdef := Shape.default_size_of_head h.1 hr hh
  have same : ∀ o', Vec o' xs → Eff (parts o) o' [] → ∀ R : σ × Own T → Prop, R (s, o') →
      (Recovers R (s, o') ∧ ∀ ys, Vec (s, o').2 ys → ys.length ≠ size (s, o').2.shape.dims →
        size (Shape.default (s, o').2.shape.ty).dims = 0) := by
    intro o' hv he R hR
    refine ⟨⟨xs, hv, fun _ => hR, fun hn => absurd ?_ hn⟩, fun ys _ _ => ?_⟩
    · show _ = size o'.shape.dims
      rw [he.shape]; exact h.2.1
    · show size (Shape.default o'.shape.ty).dims = 0
      rw [he.shape]; exact hdef
  refine post_withMutParts (M.Post.bind (M.Post.mono (post_vecReserve (size e.dims) hvec)
    (fun _ _ h => h) ?_) ?_)
  · rintro t ⟨rfl, hl⟩
    exact same _ hvec (Eff.refl _) _ (Or.inl ⟨rfl, parts_same h hvec (Eff.refl _),
      Or.inr ⟨h0, Or.inr hl⟩⟩)
  · rintro - ⟨t, o1⟩ ⟨rfl, hv1, he1, hc1⟩
    have hsh : o1.shape = o.shape := he1.shape
    refine M.Post.bind (P := fun _ u => ∃ s', expandShape o.shape e.dims = some s' ∧
      u = (t, { o1 with shape := s' })) (post_setShape ?_ ?_) ?_
    · intro s' hs'
      rw [hsh] at hs'
      exact ⟨s', hs', rfl⟩
    · intro hn
      rw [hsh] at hn
      refine same _ hv1 he1 _ (Or.inl ⟨rfl, parts_same h hv1 he1, Or.inr ⟨h0, Or.inl ?_⟩⟩)
      exact (expandShape_none hr h.1 hh).1 hn
    · rintro - u ⟨s', hs', rfl⟩
      have hfit : Fits o.shape e.dims := by
        by_contra hn
        rw [(expandShape_none hr h.1 hh).2 hn] at hs'
        cases hs'
      obtain ⟨w1, w2, w3, w4⟩ := expandShape_some hr hs' h0
      have hv2 : Vec ({ o1 with shape := s' } : Own T) xs := hv1
      have hc1 : xs.length + size e.dims ≤ o1.cells.length := hc1
      show M.Post (M.bind (M.lift (check (e.shape.len ≤ o1.cells.length - o1.len))) _)
        (t, { o1 with shape := s' }) _ _
      rw [show check (e.shape.len ≤ o1.cells.length - o1.len) = some () from
        if_pos (by rw [hlen, hv1.1]; omega)]
      refine M.Post.mono (post_itemLoop (o := { o1 with shape := s' }) hb hs ht (fun h => by omega) hc hv2 hc1) ?_ ?_
      · rintro - u ⟨ys, a1, a2, a3, -⟩
        have a3s : u.2.shape = s' := a3.shape
        refine ⟨⟨hr, hh⟩, Or.inr ⟨h0, hfit, ys, a1, a2.holds (by rw [a3s]; exact w1) ?_, ?_, ?_, ?_, ?_⟩⟩
        · rw [a3s, w3, List.length_append, a1.length, h.2.1]
        · rw [a3s, w2]
        · rw [a3s, w4]
        · have := a3.log; have := he1.log; simp_all [parts]
        · rw [a3.limit]; exact he1.limit
      · rintro u ⟨k, ys, a1, a2, a3, -⟩
        have a3s : u.2.shape = s' := a3.shape
        obtain ⟨hk, t', ht', -⟩ := id a1
        have hyl := ht'.length
        refine ⟨⟨xs ++ ys, a2, fun heq => ?_, fun _ _ o' b1 b2 b3 b4 => ?_⟩, fun _ _ _ => ?_⟩
        · exfalso
          rw [a3s, w3, List.length_append, h.2.1] at heq
          omega
        · refine Or.inr ⟨h0, hfit, k, ys, a1, b1, ?_, ?_, ?_⟩
          · rw [b3, a3s, w2]
          · rw [b2]; have := a3.log; have := he1.log; simp_all [parts]
          · rw [b4, a3.limit]; exact he1.limit
        · rw [a3s, w2]; exact hdef

/-! Extending, cloning and converting. -/

theorem post_tensorExtend {s : σ} {o : Own T} {xs : List T} {n : Nat} {step : Nat → M σ T}
    (ht : ∀ k, k < n → (step k).Tame) (h : Holds o xs) (hty : o.shape.ty = .static [.dyn]) :
    M.Post (tensorExtend n step) (s, o)
      (fun _ t => ∃ ys, Ran step n s ys t.1 ∧ Holds t.2 (xs ++ ys) ∧
        t.2.shape = ⟨.static [.dyn], [xs.length + n]⟩ ∧ t.2.log = o.log ∧ t.2.limit = o.limit)
      (fun t => ∃ k ys ends, k < n ∧ ((Stopped step n s k ys t.1 ∧ ends = []) ∨
          ∃ y, Ran step (k + 1) s (ys ++ [y]) t.1 ∧ ends = [y]) ∧ ((k = 0 ∧ Holds t.2 xs ∧
            t.2.shape = o.shape ∧ t.2.log = o.log ++ ends) ∨
          (0 < k ∧ Holds t.2 [] ∧ t.2.shape = ⟨.static [.dyn], [0]⟩ ∧
            t.2.log = o.log ++ ends ++ xs ++ ys)) ∧ t.2.limit = o.limit) := by
  have hdef : size (Shape.default o.shape.ty).dims = 0 := by rw [hty]; rfl
  have key : ∀ (t : σ × Own T) (k : Nat) (ys ends : List T), k < n → ys.length = k →
      ((Stopped step n s k ys t.1 ∧ ends = []) ∨ ∃ y, Ran step (k + 1) s (ys ++ [y]) t.1 ∧ ends = [y]) →
      Vec t.2 (xs ++ ys) → Eff (parts o) t.2 ends → Recovers (fun t => ∃ k ys ends, k < n ∧
        ((Stopped step n s k ys t.1 ∧ ends = []) ∨
          ∃ y, Ran step (k + 1) s (ys ++ [y]) t.1 ∧ ends = [y]) ∧ ((k = 0 ∧ Holds t.2 xs ∧
            t.2.shape = o.shape ∧ t.2.log = o.log ++ ends) ∨
          (0 < k ∧ Holds t.2 [] ∧ t.2.shape = ⟨.static [.dyn], [0]⟩ ∧
            t.2.log = o.log ++ ends ++ xs ++ ys)) ∧ t.2.limit = o.limit) t := by
    intro t k ys ends hk hl hcase hv he
    have hsh : t.2.shape = o.shape := he.shape
    refine ⟨xs ++ ys, hv, fun heq => ?_, fun hne _ o' b1 b2 b3 b4 => ?_⟩
    · rw [hsh, List.length_append, h.2.1] at heq
      have hk0 : k = 0 := by omega
      have : ys = [] := List.length_eq_zero_iff.1 (by omega)
      subst this
      refine ⟨k, [], ends, hk, hcase, Or.inl ⟨hk0, ?_, hsh, ?_⟩, he.limit⟩
      · rw [List.append_nil] at hv
        exact hv.holds (by rw [hsh]; exact h.1) (by rw [hsh]; exact h.2.1)
      · rw [he.log]; rfl
    · have hk0 : 0 < k := by
        rcases Nat.eq_zero_or_pos k with h0 | h0
        · exfalso; apply hne
          rw [hsh, List.length_append, h.2.1]; omega
        · exact h0
      refine ⟨k, ys, ends, hk, hcase, Or.inr ⟨hk0, b1, ?_, ?_⟩, ?_⟩
      · rw [b3, hsh, hty]; rfl
      · rw [b2, he.log]; simp [parts]
      · rw [b4, he.limit]; rfl
  refine post_withMutParts (M.Post.bind (M.Post.mono (post_vecExtend ht (parts_vec h))
    (fun _ _ h => h) ?_) ?_)
  · rintro t (⟨k, ys, a1, a2, a3⟩ | ⟨k, ys, y, ak, a1, a2, a3⟩)
    · have hl := a1.2.choose_spec.1.length
      refine ⟨key t k ys [] a1.1 hl (Or.inl ⟨a1, rfl⟩) a2 a3, fun _ _ _ => ?_⟩
      rw [a3.shape]; exact hdef
    · have hl := a1.length
      refine ⟨key t k ys [y] ak (by simpa using hl) (Or.inr ⟨y, a1, rfl⟩) a2 a3, fun _ _ _ => ?_⟩
      rw [a3.shape]; exact hdef
  · rintro - t ⟨ys, a1, a2, a3⟩
    have hl := a1.length
    refine M.post_of_eq (x := upd _) (a := ()) rfl ⟨ys, a1, ⟨?_, ?_, a2.2⟩, ?_, ?_, a3.limit⟩
    · show (ShapeTy.static [.dyn]).Conforms [_]
      simp
    · show (xs ++ ys).length = size [t.2.len]
      rw [a2.1]; simp
    · show (⟨_, [t.2.len]⟩ : Shape) = _
      rw [a2.1, List.length_append, hl]
    · show t.2.log = _
      rw [a3.log]; simp [parts]

theorem post_cloneFrom {s : σ} {o : Own T} {xs src : List T} {sh : Shape} {c : T → M σ T}
    (hc : ∀ y, (c y).Tame) (h : Holds o xs) (hw : sh.WF) (hl : src.length = size sh.dims)
    (hty : sh.ty = o.shape.ty) :
    M.Post (cloneFrom src sh c) (s, o)
      (fun _ t => ∃ ys, Ran (cloneStep src c) src.length s ys t.1 ∧ Holds t.2 ys ∧ t.2.shape = sh ∧
        t.2.log = o.log ++ xs.drop src.length ++ xs.take src.length ∧ t.2.limit = o.limit)
      (fun t => ∃ k ys, (Stopped (cloneStep src c) src.length s k ys t.1 ∨
          Ran (cloneStep src c) k s ys t.1) ∧ k ≤ src.length ∧ t.2.limit = o.limit ∧
        ((Holds t.2 (ys ++ (xs.take src.length).drop k) ∧ t.2.shape = o.shape ∧
          t.2.log = o.log ++ xs.drop src.length ++ (xs.take src.length).take k) ∨
        (Holds t.2 [] ∧ t.2.shape = Shape.default o.shape.ty ∧
          t.2.log = o.log ++ xs.drop src.length ++ (xs.take src.length).take k ++ ys ++
            (xs.take src.length).drop k))) := by
  refine post_withMutParts (M.Post.bind (M.Post.mono (post_vecCloneFrom hc (parts_vec h))
    (fun _ _ h => h) ?_) ?_)
  · rintro t ⟨k, ys, a1, a2, a3, a4⟩
    have hsh : t.2.shape = o.shape := a4.shape
    have hyl : ys.length = k := by
      rcases a1 with a1 | a1
      · exact a1.2.choose_spec.1.length
      · exact a1.length
    refine ⟨⟨_, a3, fun heq => ?_, fun hne _ o' b1 b2 b3 b4 => ?_⟩, fun zs hz hne => ?_⟩
    · refine ⟨k, ys, a1, a2, a4.limit, Or.inl ⟨a3.holds (by rw [hsh]; exact h.1) heq, hsh, ?_⟩⟩
      rw [a4.log, ← List.append_assoc]; rfl
    · refine ⟨k, ys, a1, a2, b4.trans a4.limit, Or.inr ⟨b1, by rw [b3, hsh], ?_⟩⟩
      rw [b2, a4.log]; simp [parts]
    · by_contra hd
      rw [hsh] at hd hne
      apply hne
      have e1 := Shape.default_unique hd h.1
      have e2 := Shape.default_unique hd (show o.shape.ty.Conforms sh.dims by rw [← hty]; exact hw)
      have : src.length = xs.length := by rw [hl, h.2.1, e1, e2]
      have hz' := hz.1
      rw [a3.1] at hz'
      rw [← hz', List.length_append, List.length_drop, List.length_take, ← h.2.1]
      omega
  · rintro - t ⟨ys, a1, a2, a3⟩
    refine M.post_of_eq (x := upd _) (a := ()) rfl ⟨ys, a1, ⟨hw, ?_, a2.2⟩, rfl, ?_, a3.limit⟩
    · rw [a1.length]; exact hl
    · show t.2.log = _
      rw [a3.log, ← List.append_assoc]; rfl

theorem post_tensorInto {s : σ} {o : Own T} {xs : List T} {f : Shape → Option Shape} (h : Holds o xs)
    (hf : ∀ s', f o.shape = some s' → s'.WF ∧ size s'.dims = size o.shape.dims) :
    M.Post (tensorInto f) (s, o)
      (fun _ t => t.1 = s ∧ Holds t.2 xs ∧ f o.shape = some t.2.shape ∧ t.2.log = o.log ∧
        t.2.limit = o.limit)
      (fun t => t.1 = s ∧ f o.shape = none ∧ t.2.log = o.log ++ xs) := by
  show M.Post (M.onPanic (setShape f) _) (s, parts o) _ _
  refine M.post_onPanic (post_setShape (o := parts o) ?_ ?_)
  · intro s' hs'
    refine ⟨rfl, ⟨(hf s' hs').1, ?_, h.2.2⟩, hs', rfl, rfl⟩
    show xs.length = size s'.dims
    rw [(hf s' hs').2]; exact h.2.1
  · intro hn
    obtain ⟨h1, rest, h2⟩ := parts_vec h
    have e := dropCells_eq (o := parts o) (pre := []) (ys := xs)
      (xs := rest) (n := (parts o).len) s (by simpa using h2.symm) h1
    exact M.post_of_eq (x := M.bind own _) e ⟨rfl, hn, rfl⟩

/-! Evaluation. -/

theorem post_dropAll {s : σ} {o : Own T} {ys : List T} {R : σ × Own T → Prop} (h : Vec o ys)
    (hr : ∀ o', o'.log = o.log ++ ys → R (s, o')) :
    M.Post (M.bind own fun o => dropCells 0 o.len) (s, o) (fun _ t => R t) fun _ => False := by
  obtain ⟨h1, rest, h2⟩ := h
  have e := dropCells_eq (o := o) (pre := []) (ys := ys) (xs := rest) (n := o.len) s
    (by simpa using h2.symm) h1
  exact M.post_of_eq (x := M.bind own _) e (hr _ rfl)

theorem post_tensorFromExpr {e : Expr σ T} (hb : Built e) (hs : Sound e) (ht : TameItems e)
    (hw : e.shape.WF) (hp : size e.dims = 0 → size (e.dims.drop e.outerRank) = 0) (s : σ) (o : Own T) :
    M.Post (tensorFromExpr e) (s, o)
      (fun _ t => ∃ ys, Ran (fun n => item e n (unrank e.dims n)) (size e.dims) s ys t.1 ∧
        Holds t.2 ys ∧ t.2.shape = e.shape ∧ t.2.log = o.log)
      (fun t => (o.limit < size e.dims ∧ t.1 = s ∧ t.2.log = o.log) ∨
        ∃ k ys, Stopped (fun n => item e n (unrank e.dims n)) (size e.dims) s k ys t.1 ∧
          t.2.log = o.log ++ ys) := by
  have hlen : e.shape.len = size e.dims := Shape.len_eq _
  show M.Post (M.bind (M.lift (check (e.shape.len ≤ o.limit))) _)
    (s, { o with cells := [], len := 0, shape := e.shape }) _ _
  by_cases hl : e.shape.len ≤ o.limit
  swap
  · rw [show check (e.shape.len ≤ o.limit) = none from if_neg hl]
    exact Or.inl ⟨by rw [← hlen]; omega, rfl, rfl⟩
  rw [show check (e.shape.len ≤ o.limit) = some () from if_pos hl]
  let o1 : Own T := { o with
    cells := List.replicate e.shape.len none
    len := 0
    shape := e.shape }
  show M.Post (M.onPanic (cloneIntoVec e M.pure) _) (s, o1) _ _
  refine M.post_onPanic ?_
  show M.Post (M.bind (M.lift (check (e.shape.len ≤ o1.cells.length - o1.len))) _) (s, o1) _ _
  rw [show check (e.shape.len ≤ o1.cells.length - o1.len) = some () from
    if_pos (by simp [o1])]
  have hstep : itemStep e (M.pure : T → M σ T) = fun n => item e n (unrank e.dims n) := by
    funext n; exact M.bind_pure _
  have := post_itemLoop (o := o1) (xs := []) (s := s) hb hs ht hp (c := M.pure)
    (fun y => M.tame_pure y) ⟨rfl, by simp⟩ (by simp [o1, hlen])
  rw [hstep] at this
  refine M.Post.mono this ?_ ?_
  · rintro - t ⟨ys, a1, a2, a3, -⟩
    have hsh : t.2.shape = e.shape := a3.shape
    refine ⟨ys, a1, a2.holds (by rw [hsh]; exact hw) ?_, hsh, ?_⟩
    · rw [hsh, List.nil_append, a1.length]
    · rw [a3.log, List.append_nil]
  · rintro t ⟨k, ys, a1, a2, a3, -⟩
    refine post_dropAll a2 fun o' ho' => Or.inr ⟨k, ys, a1, ?_⟩
    rw [ho', a3.log, List.append_nil]; rfl

theorem post_arrayFromExpr {ty : ShapeTy} {e : Expr σ T} (hb : Built e) (hs : Sound e)
    (ht : TameItems e) (hp : size e.dims = 0 → size (e.dims.drop e.outerRank) = 0) (s : σ) (o : Own T) :
    M.Post (arrayFromExpr ty e) (s, o)
      (fun _ t => ty.Conforms e.dims ∧
        ∃ ys, Ran (fun n => item e n (unrank e.dims n)) (size e.dims) s ys t.1 ∧
          Holds t.2 ys ∧ t.2.shape = ⟨ty, e.dims⟩ ∧ t.2.log = o.log ∧ t.2.cells = ys.map some)
      (fun t => (¬ ty.Conforms e.dims ∧ t = (s, o)) ∨ (ty.Conforms e.dims ∧
        ∃ k ys, Stopped (fun n => item e n (unrank e.dims n)) (size e.dims) s k ys t.1 ∧
          t.2.log = o.log ++ ys)) := by
  show M.Post (M.bind (M.lift (Shape.fromDims ty e.dims)) _) (s, o) _ _
  rw [Shape.fromDims_eq]
  by_cases hc : ty.Conforms e.dims
  swap
  · rw [if_neg hc]; exact Or.inl ⟨hc, rfl⟩
  rw [if_pos hc]
  have hlen : Shape.len ⟨ty, e.dims⟩ = size e.dims := Shape.len_eq _
  let o1 : Own T := { o with
    cells := List.replicate (Shape.len ⟨ty, e.dims⟩) none
    len := 0
    shape := ⟨ty, e.dims⟩ }
  show M.Post (M.bind (M.onPanic (e.up.forEach vecAppend) _) _) (s, o1) _ _
  have hbody : (vecAppend : T → M (σ × Own T) Unit) =
      fun x => M.bind (M.up (M.pure x)) vecAppend := by funext x; rfl
  have hstep : itemStep e (M.pure : T → M σ T) = fun n => item e n (unrank e.dims n) := by
    funext n; exact M.bind_pure _
  have := post_itemLoop (o := o1) (xs := []) (s := s) hb hs ht hp (c := M.pure)
    (fun y => M.tame_pure y) ⟨rfl, by simp⟩ (by simp [o1, hlen])
  rw [hstep, ← hbody] at this
  refine M.Post.bind (M.post_onPanic (M.Post.mono this (fun _ _ h => h) ?_)) ?_
  · rintro t ⟨k, ys, a1, a2, a3, -⟩
    refine post_dropAll a2 fun o' ho' => Or.inr ⟨hc, k, ys, a1, ?_⟩
    rw [ho', a3.log, List.append_nil]; rfl
  · rintro - ⟨t, o2⟩ ⟨ys, a1, a2, a3, a4⟩
    have hsh : o2.shape = ⟨ty, e.dims⟩ := a3.shape
    have hyl := a1.length
    have hcells : o2.cells = ys.map some := by
      obtain ⟨-, rest, hrest⟩ := a2
      have hl : o2.cells.length = _ := a4
      simp only [List.nil_append] at hrest
      have hl1 : o1.cells.length = size e.dims := by simp [o1, hlen]
      rw [hl1] at hl
      have hrest' : ys.map some ++ rest = o2.cells := hrest
      have : rest = [] := by
        apply List.length_eq_zero_iff.1
        have := congrArg List.length hrest'
        rw [List.length_append, List.length_map] at this
        omega
      rw [← hrest', this, List.append_nil]
    show M.Post (if o2.cells.all Option.isSome then _ else _ : M (σ × Own T) Unit) (t, o2) _ _
    rw [if_pos (by rw [hcells]; simp)]
    refine ⟨hc, ys, a1, a2.holds (by rw [hsh]; exact hc) ?_, hsh, ?_, hcells⟩
    · rw [hsh, List.nil_append, hyl]
    · rw [a3.log, List.append_nil]

end Model
