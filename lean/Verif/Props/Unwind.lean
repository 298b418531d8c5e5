import Verif.Lemmas.UnwindClone
import Verif.Lemmas.UnwindNone
import Verif.Props.Tensor

/-! Destructors that panic (C72). -/

namespace Props
open Spec Model Model.Iter Model.Expr

variable {σ T α β : Type}

/-- With no destructor that panics, the operations are those of the other properties. -/
theorem C72_none :
    (Unwind.tensorClear (fun _ => false) : M (σ × Own T) Unit) = tensorClear ∧
    (∀ n, (Unwind.tensorTruncate (fun _ => false) n : M (σ × Own T) Unit) = tensorTruncate n) ∧
    (∀ a b k leak, (Unwind.drainRun (fun _ => false) a b k leak : M (σ × Own T) (List T)) =
      drainRun a b k leak) ∧
    (∀ k, (Unwind.intoItems (fun _ => false) k : M (σ × Own T) (List T)) = intoItems k) ∧
    (Unwind.tensorAppend (fun _ => false) : M ((σ × Own T) × Own T) Unit) = tensorAppend ∧
    (∀ n, (Unwind.tensorReserve (fun _ => false) n : M (σ × Own T) Unit) = tensorReserve n) ∧
    (∀ (e : Expr σ α) (c : α → M σ T), Unwind.expand (fun _ => false) e c = expand e c) ∧
    (∀ n (step : Nat → M σ T), Unwind.tensorExtend (fun _ => false) n step = tensorExtend n step) ∧
    (∀ f, (Unwind.tensorInto (fun _ => false) f : M (σ × Own T) Unit) = tensorInto f) ∧
    (∀ e : Expr σ T, Unwind.tensorFromExpr (fun _ => false) e = tensorFromExpr e) ∧
    (∀ ty (e : Expr σ T), Unwind.arrayFromExpr (fun _ => false) ty e = arrayFromExpr ty e) ∧
    (∀ (e : Expr σ β) (f : T → β → M σ T), Unwind.zipWith (fun _ => false) e f = zipWith e f) ∧
    (∀ dims (f : M σ T), Unwind.resizeWith (fun _ => false) dims f = resizeWith dims f) ∧
    (∀ src sh (c : T → M σ T), Unwind.cloneFrom (fun _ => false) src sh c = cloneFrom src sh c) :=
  ⟨Unwind.tensorClear_none, Unwind.tensorTruncate_none, Unwind.drainRun_none, Unwind.intoItems_none,
    Unwind.tensorAppend_none, fun _ => Unwind.withMutParts_none _, Unwind.expand_none,
    Unwind.tensorExtend_none, Unwind.tensorInto_none, Unwind.tensorFromExpr_none,
    Unwind.arrayFromExpr_none, Unwind.zipWith_none, Unwind.resizeWith_none, Unwind.cloneFrom_none⟩

/-! ### Operations that drop elements -/

/-- `clear` empties the array and drops each element, even if a destructor panics; the panic goes on
afterwards. The process is aborted if two destructors panic. -/
theorem C72_clear (bad : T → Bool) (s : σ) (o : Own T) (xs : List T) (h : Holds o xs)
    (hd : size (Shape.default o.shape.ty).dims = 0) :
    ∃ o', Unwind.tensorClear bad (s, o) = afterDrops bad xs () (s, o') ∧ Holds o' [] ∧
      o'.shape = Shape.default o.shape.ty ∧ o'.log = o.log ++ xs := by
  have hp := post_tensorClear (s := s) h
  unfold M.Post at hp
  cases hx : tensorClear (s, o) with
  | ok a t =>
    rw [hx] at hp
    obtain ⟨t, o'⟩ := t
    obtain ⟨rfl, h1, h2, h3, -⟩ := hp
    exact ⟨o', Unwind.drops Unwind.after_tensorClear hx h3, h1, h2, h3⟩
  | panic t => rw [hx] at hp; exact absurd hd hp.2
  | ub => rw [hx] at hp; exact hp.elim
  | abort => rw [hx] at hp; exact hp.elim

/-- `truncate` keeps the first rows and drops each of the other elements. -/
theorem C72_truncate (bad : T → Bool) (n : Nat) (s : σ) (o : Own T) (xs : List T) (h : Holds o xs)
    (hr : 0 < o.shape.dims.length) (hd : o.shape.ty.head = .dyn) :
    ∃ o', Unwind.tensorTruncate bad n (s, o) =
        afterDrops bad (xs.drop (n * size o.shape.dims.tail)) () (s, o') ∧
      Holds o' (xs.take (n * size o.shape.dims.tail)) ∧
      o'.shape = ⟨o.shape.ty, min n (o.shape.dims.getD 0 0) :: o.shape.dims.tail⟩ ∧
      o'.log = o.log ++ xs.drop (n * size o.shape.dims.tail) := by
  have hp := post_tensorTruncate (s := s) n h
  unfold M.Post at hp
  cases hx : tensorTruncate n (s, o) with
  | ok a t =>
    rw [hx] at hp
    obtain ⟨t, o'⟩ := t
    obtain ⟨rfl, h1, h2, h3, -⟩ := hp
    exact ⟨o', Unwind.drops (Unwind.after_tensorTruncate n) hx h3, h1, h2, h3⟩
  | panic t => rw [hx] at hp; exact absurd ⟨hr, hd⟩ hp.2
  | ub => rw [hx] at hp; exact hp.elim
  | abort => rw [hx] at hp; exact hp.elim

/-- Draining rows and dropping the drain after `k` items: the other items are dropped and the rows behind
are moved, even if a destructor panics. -/
theorem C72_drain (bad : T → Bool) (start stop : Bnd) (k : Nat) (s : σ) (o : Own T) (xs : List T)
    (h : Holds o xs) (d : Nat) (ds : List Nat) (ho : o.shape.dims = d :: ds) (hd : o.shape.ty.head = .dyn)
    (hmax : d ≤ usizeMax) (hr : lo start ≤ hi d stop ∧ hi d stop ≤ d) :
    ∃ o', Unwind.drainRun bad start stop k false (s, o) =
        afterDrops bad ((rowsOf (size ds) (lo start) (hi d stop) xs).drop k)
          ((rowsOf (size ds) (lo start) (hi d stop) xs).take k) (s, o') ∧
      Holds o' (xs.take (lo start * size ds) ++ xs.drop (hi d stop * size ds)) ∧
      o'.shape = ⟨o.shape.ty, (d - (hi d stop - lo start)) :: ds⟩ ∧
      o'.log = o.log ++ (rowsOf (size ds) (lo start) (hi d stop) xs).drop k := by
  obtain ⟨o', hx, -⟩ := C37 start stop k s o xs h d ds ho hd hmax hr
  have hp := post_drainRun (s := s) start stop k false h
  unfold M.Post at hp
  rw [hx] at hp
  obtain ⟨-, d0, ds', a, b, h1, h2, -, -, -, -, h3, h4⟩ := hp
  rw [ho] at h1
  injection h1 with h5 h6
  subst h5 h6
  rw [rangeNorm_eq hmax, if_pos hr] at h2
  injection h2 with h2
  injection h2 with h5 h6
  subst h5 h6
  rcases h4 with ⟨h4, -⟩ | ⟨-, h4, h5, h6⟩
  · cases h4
  · exact ⟨o', Unwind.drops (Unwind.after_drainRun start stop k false) hx h6, h4, h5, h6⟩

/-- An owned array used as an iterator and dropped after `k` items (with `k = 0`: dropping the array): each
of the other items is dropped, even if a destructor panics. -/
theorem C72_into (bad : T → Bool) (k : Nat) (s : σ) (o : Own T) (xs : List T) (h : Holds o xs) :
    ∃ o', Unwind.intoItems bad k (s, o) = afterDrops bad (xs.drop k) (xs.take k) (s, o') ∧
      o'.log = o.log ++ xs.drop k := by
  have hp := post_intoItems (s := s) k (R := fun _ => False) h
  unfold M.Post at hp
  cases hx : intoItems k (s, o) with
  | ok a t =>
    rw [hx] at hp
    obtain ⟨t, o'⟩ := t
    obtain ⟨rfl, rfl, h3, -⟩ := hp
    exact ⟨o', Unwind.drops (Unwind.after_intoItems k) hx h3, h3⟩
  | panic t => rw [hx] at hp; exact hp.elim
  | ub => rw [hx] at hp; exact hp.elim
  | abort => rw [hx] at hp; exact hp.elim

/-- An element whose destructor panics. -/
def isSeven (x : Nat) : Bool := x = 7

/-- One destructor panics: the array is empty, and each element was dropped once. -/
example : Unwind.tensorClear isSeven ((), tensor42) = .panic ((), ⟨List.replicate 8 none, 0,
      ⟨.static [.dyn, .dyn], [0, 0]⟩, List.range 8, 100⟩) ∧
    Unwind.tensorClear (fun x => decide (6 ≤ x)) ((), tensor42) = .abort ∧
    Unwind.tensorTruncate isSeven 3 ((), tensor42) = .panic ((), ⟨((List.range 6).map some) ++ [none, none], 6,
      ⟨.static [.dyn, .dyn], [3, 2]⟩, [6, 7], 100⟩) ∧
    Unwind.tensorTruncate (fun x => x == 0) 3 ((), tensor42) = .ok () ((), ⟨((List.range 6).map some) ++ [none, none], 6,
      ⟨.static [.dyn, .dyn], [3, 2]⟩, [6, 7], 100⟩) := by
  refine ⟨by decide +kernel, by decide +kernel, by decide +kernel, by decide +kernel⟩

/-- Draining with a destructor that panics: the rows behind are moved nevertheless. -/
example : Unwind.drainRun (fun x => x == 3) (.included 1) (.excluded 3) 1 false ((), tensor42) =
      .panic ((), ⟨[some 0, some 1, some 6, some 7, none, none, none, none], 0,
        ⟨.static [.dyn, .dyn], [2, 2]⟩, [3, 4, 5], 100⟩) ∧
    Unwind.intoItems (fun x => x == 0) 1 ((), tensor42) = .ok [0] ((), ⟨List.replicate 8 none, 0,
      ⟨.static [.dyn, .dyn], [4, 2]⟩, [1, 2, 3, 4, 5, 6, 7], 100⟩) ∧
    Unwind.intoItems (fun x => x == 5) 1 ((), tensor42) = .panic ((), ⟨List.replicate 8 none, 0,
      ⟨.static [.dyn, .dyn], [4, 2]⟩, [1, 2, 3, 4, 5, 6, 7], 100⟩) := by
  refine ⟨by decide +kernel, by decide +kernel, by decide +kernel⟩

/-! ### Operations that drop elements when they fail -/

/-- `expand`: when it fails elements may be dropped, with the same outcome as if no destructor panicked, and
the process is aborted if one does. The theorems on `expand` (C35, C36, C39) describe that outcome. -/
theorem C72_expand (bad : T → Bool) (e : Expr σ α) (hb : Built e) (hs : Sound e) (ht : TameItems e)
    (c : α → M σ T) (hc : ∀ y, (c y).Tame) (s : σ) (o : Own T) (xs : List T) (h : Holds o xs) :
    Unwind.expand bad e c (s, o) =
      withDestructors (badDrops bad) (badDrops bad (s, o)) (expand e c (s, o)) :=
  Unwind.same (Unwind.after_expand (Unwind.keep_zero e) fun _ => Unwind.keeps_zero _) s o
    (post_expand hb hs ht hc h).ne_ub

/-- `reserve` (which never drops anything). -/
theorem C72_reserve (bad : T → Bool) (n : Nat) (s : σ) (o : Own T) (xs : List T) (h : Holds o xs) :
    Unwind.tensorReserve bad n (s, o) = tensorReserve n (s, o) := by
  rw [Unwind.same (Unwind.after_tensorReserve n) s o (post_tensorReserve n h).ne_ub]
  have hp := post_tensorReserve (s := s) n h
  unfold M.Post at hp
  cases hx : tensorReserve n (s, o) with
  | ok a t =>
    rw [hx] at hp
    simp only [withDestructors, badDrops, hp.2.1.log, if_true]
  | panic t =>
    rw [hx] at hp
    simp only [withDestructors, badDrops, hp.2.1.log, if_true]
  | ub => rfl
  | abort => rfl

/-- `extend`. -/
theorem C72_extend (bad : T → Bool) (n : Nat) (step : Nat → M σ T) (ht : ∀ k, k < n → (step k).Tame) (s : σ)
    (o : Own T) (xs : List T) (h : Holds o xs) (hty : o.shape.ty = .static [.dyn]) :
    Unwind.tensorExtend bad n step (s, o) =
      withDestructors (badDrops bad) (badDrops bad (s, o)) (tensorExtend n step (s, o)) :=
  Unwind.same (Unwind.after_tensorExtend n fun _ => Unwind.keeps_zero _) s o (post_tensorExtend ht h hty).ne_ub

/-- The conversions of an owned array, which drop the array if they fail: then a second panic aborts. -/
theorem C72_convert (bad : T → Bool) (f : Shape → Option Shape) (s : σ) (o : Own T) (xs : List T)
    (h : Holds o xs) (hf : ∀ s', f o.shape = some s' → s'.WF ∧ size s'.dims = size o.shape.dims) :
    Unwind.tensorInto bad f (s, o) =
      if f o.shape = none ∧ xs.countP bad ≠ 0 then .abort else tensorInto f (s, o) := by
  rw [Unwind.same (Unwind.after_tensorInto f) s o (post_tensorInto h hf).ne_ub]
  have hp := post_tensorInto (s := s) h hf
  unfold M.Post at hp
  cases hx : tensorInto f (s, o) with
  | ok a t =>
    rw [hx] at hp
    obtain ⟨-, -, h1, h2, -⟩ := hp
    rw [if_neg (by rw [h1]; simp)]
    simp only [withDestructors, badDrops, h2, if_true]
  | panic t =>
    rw [hx] at hp
    obtain ⟨-, h1, h2⟩ := hp
    simp only [withDestructors, badDrops, h2, List.countP_append, Nat.add_eq_left, h1, true_and, ne_eq, ite_not]
  | ub => rw [hx] at hp; exact hp.elim
  | abort => rw [hx] at hp; exact hp.elim

/-- Evaluation into a `Tensor`. -/
theorem C72_tensor (bad : T → Bool) (e : Expr σ T) (hb : Built e) (hs : Sound e) (ht : TameItems e)
    (hp : size e.dims = 0 → size (e.dims.drop e.outerRank) = 0) (s : σ) (o : Own T) :
    Unwind.tensorFromExpr bad e (s, o) =
      withDestructors (badDrops bad) (badDrops bad (s, o)) (tensorFromExpr e (s, o)) :=
  Unwind.same (Unwind.after_tensorFromExpr (Unwind.keep_zero e)) s o
    (post_tensorFromExpr hb hs ht (shape_wf (wf_of_built hb)) hp s o).ne_ub

/-- Evaluation into an `Array`. -/
theorem C72_array (bad : T → Bool) (ty : ShapeTy) (e : Expr σ T) (hb : Built e) (hs : Sound e)
    (ht : TameItems e) (hp : size e.dims = 0 → size (e.dims.drop e.outerRank) = 0) (s : σ) (o : Own T) :
    Unwind.arrayFromExpr bad ty e (s, o) =
      withDestructors (badDrops bad) (badDrops bad (s, o)) (arrayFromExpr ty e (s, o)) :=
  Unwind.same (Unwind.after_arrayFromExpr ty (Unwind.keep_zero e)) s o
    (post_arrayFromExpr hb hs ht hp s o).ne_ub

/-- `zip_with` (owned arithmetic). -/
theorem C72_zip_with (bad : T → Bool) (e : Expr σ β) (f : T → β → M σ T) (s : σ) (o : Own T) (xs : List T)
    (h : Holds o xs) (hb : Built e) (ht : TameItems e) (hf : ∀ x y, (f x y).Tame)
    (hs : ∀ z, zipNew (view false (whole o.shape)) e = some z → Sound z ∧
      (size z.dims = 0 → size (z.dims.drop z.outerRank) = 0)) :
    Unwind.zipWith bad e f (s, o) =
      withDestructors (badDrops bad) (badDrops bad (s, o)) (zipWith e f (s, o)) :=
  Unwind.same (Unwind.after_zipWith (Unwind.keep_zero e) fun _ _ => Unwind.keeps_zero _) s o
    (post_zipWith h hb ht hf hs).ne_ub

/-- `append`. -/
theorem C72_append (bad : T → Bool) (s : σ) (o o2 : Own T) (xs ys : List T) (h : Holds o xs) (h2 : Holds o2 ys) :
    Unwind.tensorAppend bad ((s, o2), o) =
      withDestructors (badDrops2 bad) (badDrops2 bad ((s, o2), o)) (tensorAppend ((s, o2), o)) := by
  have := Unwind.after_tensorAppend (bad := bad) (e := fun _ : σ => 0) ((s, o2), o) (post_tensorAppend h h2).ne_ub
  rw [Unwind.cnt_eq] at this
  exact this

/-- A closure panics while the array is extended; the elements are dropped, one with a panic. -/
example :
    Unwind.tensorExtend isSeven 4 (fun _ => failing) (8, (⟨[1, 2].map some, 0, ⟨.static [.dyn], [2]⟩, [], 100⟩ : Own Nat)) =
      .panic (11, ⟨List.replicate 5 none, 5, ⟨.static [.dyn], [0]⟩, [1, 2, 8, 9, 10], 100⟩) ∧
    Unwind.tensorExtend (fun x => x == 9) 4 (fun _ => failing)
      (8, (⟨[1, 2].map some, 0, ⟨.static [.dyn], [2]⟩, [], 100⟩ : Own Nat)) = .abort ∧
    Unwind.tensorAppend isSeven (((), tensor42), constTensor) = .abort ∧
    Unwind.tensorAppend isSeven (((), tensor22), constTensor) = tensorAppend (((), tensor22), constTensor) ∧
    Unwind.tensorInto isSeven (fun _ => none) ((), tensor42) = .abort := by
  refine ⟨by decide +kernel, by decide +kernel, by decide +kernel, by decide +kernel, by decide +kernel⟩

/-! ### `resize_with` and `clone_from` -/

/-- `resize_with` succeeds exactly if it would with destructors that do not panic and none that was run
panics, with the same result (C33, C34); a failure without such a destructor is the same as well. -/
theorem C72_resize_ok (bad : T → Bool) (newDims : List Nat) (f : M σ T) (s : σ) (o : Own T) (t : σ × Own T) :
    (Unwind.resizeWith bad newDims f (s, o) = .ok () t ↔
      resizeWith newDims f (s, o) = .ok () t ∧ badDrops bad t = badDrops bad (s, o)) ∧
    (resizeWith newDims f (s, o) = .panic t → badDrops bad t = badDrops bad (s, o) →
      Unwind.resizeWith bad newDims f (s, o) = .panic t) := by
  have h := Unwind.tracks_resizeWith (bad := bad) newDims (Unwind.keeps_zero f)
  rw [Unwind.cnt_eq] at h
  exact ⟨⟨h.ok _ _ _, fun h' => h.same _ _ _ h'.1 h'.2⟩, h.panic _ _⟩

/-- `resize_with` if a destructor may panic. After a panic, the array is valid, with the old shape or empty
with the default shape, and each old element and each value made by the closure is either dropped or in the
array: exactly one of the destructors run has panicked, or none and there was another reason. The process is
aborted only if two of these destructors panic, or one after another failure, or as in C34. -/
theorem C72_resize (bad : T → Bool) (newDims : List Nat) (f : M σ T) (hf : f.Tame) (s : σ) (o : Own T)
    (xs : List T) (h : Holds o xs) :
    match Unwind.resizeWith bad newDims f (s, o) with
    | .ok _ t => ∃ ys zs dropped, Ran (resizeStep f o.shape.dims newDims xs) (size newDims) s ys t.1 ∧
        Calls f s zs t.1 ∧ Holds t.2 ys ∧ t.2.shape = ⟨o.shape.ty, newDims⟩ ∧ t.2.log = o.log ++ dropped ∧
        (dropped ++ ys).Perm (xs ++ zs) ∧ dropped.countP bad = 0
    | .panic t => ∃ ys zs dropped, CallsEnd f s zs t.1 ∧ Holds t.2 ys ∧ t.2.log = o.log ++ dropped ∧
        (dropped ++ ys).Perm (xs ++ zs) ∧ (t.2.shape = o.shape ∨ t.2.shape = Shape.default o.shape.ty) ∧
        (ResizeFails o newDims f ∧ dropped.countP bad = 0 ∨ dropped.countP bad = 1)
    | .ub => False
    | .abort => (size (Shape.default o.shape.ty).dims ≠ 0 ∧ ResizeFails o newDims f) ∨
        ∃ zs t, CallsEnd f s zs t ∧ (2 ≤ (xs ++ zs).countP bad ∨
          ResizeFails o newDims f ∧ 1 ≤ (xs ++ zs).countP bad) := by
  have hp := Unwind.postA_resizeWith (bad := bad) (newDims := newDims) (s := s) hf h
  unfold M.PostA at hp
  cases hx : Unwind.resizeWith bad newDims f (s, o) with
  | ok a t =>
    obtain ⟨h1, h2⟩ := ((C72_resize_ok bad newDims f s o t).1).1 hx
    have hb := post_resizeWith hf (newDims := newDims) (s := s) h
    unfold M.PostA at hb
    rw [h1] at hb
    obtain ⟨ys, zs, dr, -, -, a1, a2, a3, a4, a5, a6, -⟩ := hb
    refine ⟨ys, zs, dr, a1, a2, a3, a4, a5, a6, ?_⟩
    simp only [badDrops, a5, List.countP_append] at h2
    omega
  | panic t =>
    rw [hx] at hp
    obtain ⟨ys, zs, dr, a1, a2, a3, a4, -, a5, a6⟩ := hp
    exact ⟨ys, zs, dr, a1, a2, a3, a4, a5, a6⟩
  | ub => rw [hx] at hp; exact hp
  | abort => rw [hx] at hp; exact hp

/-- The same for `clone_from`. -/
theorem C72_clone_from_ok (bad : T → Bool) (src : List T) (sh : Shape) (c : T → M σ T) (s : σ) (o : Own T)
    (t : σ × Own T) :
    (Unwind.cloneFrom bad src sh c (s, o) = .ok () t ↔
      cloneFrom src sh c (s, o) = .ok () t ∧ badDrops bad t = badDrops bad (s, o)) ∧
    (cloneFrom src sh c (s, o) = .panic t → badDrops bad t = badDrops bad (s, o) →
      Unwind.cloneFrom bad src sh c (s, o) = .panic t) := by
  have h := Unwind.tracks_cloneFrom (bad := bad) src sh fun y => Unwind.keeps_zero (c y)
  rw [Unwind.cnt_eq] at h
  exact ⟨⟨h.ok _ _ _, fun h' => h.same _ _ _ h'.1 h'.2⟩, h.panic _ _⟩

/-- `clone_from` if a destructor may panic. The first `k` elements of the source were cloned, the last clone
perhaps with a panic. After a panic, the array is valid: with the clones in the places of the first elements, or
empty with the default shape. Exactly one of the destructors run has panicked, or none and there was another
reason: a clone panicked or memory was exhausted. The process is aborted only if two destructors panic, or
one after such a failure. -/
theorem C72_clone_from (bad : T → Bool) (src : List T) (sh : Shape) (c : T → M σ T) (hc : ∀ y, (c y).Tame)
    (s : σ) (o : Own T) (xs : List T) (h : Holds o xs) (hw : sh.WF) (hl : src.length = size sh.dims)
    (hty : sh.ty = o.shape.ty) :
    match Unwind.cloneFrom bad src sh c (s, o) with
    | .ok _ t => ∃ ys, Ran (cloneStep src c) src.length s ys t.1 ∧ Holds t.2 ys ∧ t.2.shape = sh ∧
        t.2.log = o.log ++ xs.drop src.length ++ xs.take src.length ∧ xs.countP bad = 0
    | .panic t => ∃ k ys dropped, (Stopped (cloneStep src c) src.length s k ys t.1 ∨
          Ran (cloneStep src c) k s ys t.1) ∧ k ≤ src.length ∧
        ((Holds t.2 (ys ++ (xs.take src.length).drop k) ∧ t.2.shape = o.shape ∧
          dropped = xs.drop src.length ++ (xs.take src.length).take k) ∨
        (Holds t.2 [] ∧ t.2.shape = Shape.default o.shape.ty ∧
          dropped = xs.drop src.length ++ (xs.take src.length).take k ++ ys ++ (xs.take src.length).drop k)) ∧
        t.2.log = o.log ++ dropped ∧
        ((o.limit < src.length ∨ ∃ y ∈ src, ∃ u v, c y u = .panic v) ∧ dropped.countP bad = 0 ∨
          dropped.countP bad = 1)
    | .ub => False
    | .abort => ∃ k ys t, (Stopped (cloneStep src c) src.length s k ys t ∨
          Ran (cloneStep src c) k s ys t) ∧ k ≤ src.length ∧ (2 ≤ (xs ++ ys).countP bad ∨
        (o.limit < src.length ∨ ∃ y ∈ src, ∃ u v, c y u = .panic v) ∧ 1 ≤ (xs ++ ys).countP bad) := by
  have hp := Unwind.postA_cloneFrom (bad := bad) (s := s) (F := o.limit < src.length ∨ ∃ y ∈ src, ∃ u v,
    c y u = .panic v) id hc h hw hl hty
  unfold M.PostA at hp
  cases hx : Unwind.cloneFrom bad src sh c (s, o) with
  | ok a t =>
    obtain ⟨h1, h2⟩ := ((C72_clone_from_ok bad src sh c s o t).1).1 hx
    have hb := post_cloneFrom (s := s) hc h hw hl hty
    unfold M.Post at hb
    rw [h1] at hb
    obtain ⟨ys, a1, a2, a3, a4, -⟩ := hb
    refine ⟨ys, a1, a2, a3, a4, ?_⟩
    have := congrArg (List.countP bad) (List.take_append_drop src.length xs)
    simp only [badDrops, a4, List.countP_append] at h2 this
    omega
  | panic t =>
    rw [hx] at hp
    obtain ⟨k, ys, dr, a1, -, a2, a3, a4⟩ := hp
    exact ⟨k, ys, dr, a1.1, a1.2, a2, a3, a4⟩
  | ub => rw [hx] at hp; exact hp
  | abort =>
    rw [hx] at hp
    obtain ⟨k, ys, t, a1, a2⟩ := hp
    exact ⟨k, ys, t, a1.1, a1.2, a2⟩

/-- Shrinking the rows of `[[1, 2], [3, 4]]` to one element each: the second row is not reached if the destructor
of 2 panics, and all elements are dropped. The process is aborted if another of them panics. -/
example :
    Unwind.resizeWith (fun x => x == 2) [2, 1] (M.pure 0) ((), tensor22) = .panic ((), ⟨List.replicate 4 none, 0,
      ⟨.static [.dyn, .dyn], [0, 0]⟩, [2, 3, 4, 1], 100⟩) ∧
    Unwind.resizeWith (fun x => decide (x ≤ 2)) [2, 1] (M.pure 0) ((), tensor22) = .abort ∧
    Unwind.resizeWith (fun x => x == 1) [2, 1] (M.pure 0) ((), tensor22) =
      resizeWith [2, 1] (M.pure 0) ((), tensor22) ∧
    Unwind.resizeWith (fun x => x == 7) [2, 3] (fun s => if s < 8 then .ok s (s + 1) else .panic s)
      (7, tensor22) = .abort := by
  refine ⟨by decide +kernel, by decide +kernel, by decide +kernel, by decide +kernel⟩

/-- Cloning 5, 6 into `[1, 2, 3, 4]`: the destructors of 3 and 4 run first, then those of 1 and 2. After a panic of
the destructor of 1 it has been replaced by 5. -/
example :
    Unwind.cloneFrom (fun x => x == 1) [5, 6] ⟨.static [.dyn], [2]⟩ (fun x => M.pure x)
      ((), ⟨[1, 2].map some, 0, ⟨.static [.dyn], [2]⟩, [], 100⟩) =
      .panic ((), ⟨[5, 2].map some, 2, ⟨.static [.dyn], [2]⟩, [1], 100⟩) ∧
    Unwind.cloneFrom (fun x => x == 1) [5, 6] ⟨.static [.dyn], [2]⟩ (fun x => M.pure x)
      ((), ⟨[1, 2, 3, 4].map some, 0, ⟨.static [.dyn], [4]⟩, [], 100⟩) =
      .panic ((), ⟨List.replicate 4 none, 2, ⟨.static [.dyn], [0]⟩, [3, 4, 1, 5, 2], 100⟩) ∧
    Unwind.cloneFrom (fun x => x == 1 || x == 5) [5, 6] ⟨.static [.dyn], [2]⟩ (fun x => M.pure x)
      ((), ⟨[1, 2, 3, 4].map some, 0, ⟨.static [.dyn], [4]⟩, [], 100⟩) = .abort := by
  refine ⟨by decide +kernel, by decide +kernel, by decide +kernel⟩

end Props
