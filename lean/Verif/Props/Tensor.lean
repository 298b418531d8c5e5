import Verif.Lemmas.History
import Verif.Props.Assign

/-! Owned arrays: evaluation, resizing, appending, draining, and ownership of elements (C31 - C42). -/

namespace Props
open Spec Model Model.Iter Model.Expr

variable {σ T α β : Type}

/-! ### C31, C42: evaluation -/

/-- Evaluating an expression into a `Tensor` gives an array with the shape of the expression, whose
elements are the items in row-major order (each computed once); nothing is dropped, and no write goes
past the allocation. Panics come from an item or a failed allocation. Missing: the expressions with
known defects (see `C31_violated`). -/
theorem C31_tensor_partial (e : Expr σ T) (hb : Built e) (hs : Sound e) (ht : TameItems e)
    (hp : size e.dims = 0 → size (e.dims.drop e.outerRank) = 0) (s : σ) (o : Own T) :
    M.Post (tensorFromExpr e) (s, o)
      (fun _ t => ∃ ys, Ran (fun n => item e n (unrank e.dims n)) (size e.dims) s ys t.1 ∧
        Holds t.2 ys ∧ t.2.shape = e.shape ∧ t.2.log = o.log)
      (fun t => (o.limit < size e.dims ∧ t.1 = s) ∨ ∃ k ys,
        Stopped (fun n => item e n (unrank e.dims n)) (size e.dims) s k ys t.1) := by
  refine (post_tensorFromExpr hb hs ht (shape_wf (wf_of_built hb)) hp s o).mono (fun _ _ h => h) ?_
  rintro t (⟨h1, h2, -⟩ | ⟨k, ys, h, -⟩)
  · exact .inl ⟨h1, h2⟩
  · exact .inr ⟨k, ys, h⟩

/-- The same for an `Array`, which panics without any effect if the dimensions of the expression are
not those of the array type. -/
theorem C31_array_partial (ty : ShapeTy) (e : Expr σ T) (hb : Built e) (hs : Sound e)
    (ht : TameItems e) (hp : size e.dims = 0 → size (e.dims.drop e.outerRank) = 0) (s : σ) (o : Own T) :
    M.Post (arrayFromExpr ty e) (s, o)
      (fun _ t => ty.Conforms e.dims ∧
        ∃ ys, Ran (fun n => item e n (unrank e.dims n)) (size e.dims) s ys t.1 ∧
          Holds t.2 ys ∧ t.2.shape = ⟨ty, e.dims⟩ ∧ t.2.log = o.log ∧ t.2.cells = ys.map some)
      (fun t => (¬ ty.Conforms e.dims ∧ t = (s, o)) ∨ (ty.Conforms e.dims ∧ ∃ k ys,
        Stopped (fun n => item e n (unrank e.dims n)) (size e.dims) s k ys t.1)) := by
  refine (post_arrayFromExpr hb hs ht hp s o).mono (fun _ _ h => h) ?_
  rintro t (h | ⟨h1, k, ys, h, -⟩)
  · exact .inl h
  · exact .inr ⟨h1, k, ys, h⟩

/-- An unused storage place with room for 100 elements. -/
def noTensor {T : Type} : Own T := ⟨[], 0, ⟨.dynRank, []⟩, [], 100⟩

/-- The code as it is: evaluating the empty view of `C29_violated` writes past the allocation. -/
theorem C31_violated :
    ∃ v, Reach true (whole ⟨.static [.dyn, .dyn], [2, 3]⟩) v ∧ size v.dims = 0 ∧
      tensorFromExpr (view true v : Expr Unit Int) ((), noTensor) = .ub := by
  let v1 : View := ⟨0, .strided ⟨.static [.dyn, .dyn], [2, 0]⟩ [3, 1]⟩
  let v2 : View := ⟨0, .strided ⟨.static [.dyn, .dyn], [0, 2]⟩ [1, 3]⟩
  refine ⟨v2, .call (v := v1) (.call .refl (.inr (by decide))
    (.view (xs := [.full, .range .unbounded (.excluded 0)]) rfl (by decide +kernel)))
    (.inr (by decide)) (.reorder (by decide)), by decide, by decide +kernel⟩

/-- Evaluation of a transposed view, and of a stateful closure. -/
example : tensorFromExpr (view true (swapped 2 3) : Expr Unit Int) ((), noTensor) =
      .ok () ((), ⟨[0, 3, 1, 4, 2, 5].map some, 6, ⟨.static [.dyn, .dyn], [3, 2]⟩, [], 100⟩) ∧
    arrayFromExpr (.static [.const 3]) (fromElem ⟨.static [.const 3], [3]⟩ (fun s => .ok s (s + 1)) :
      Expr Nat Nat) (7, noTensor) =
      .ok () (10, ⟨[7, 8, 9].map some, 3, ⟨.static [.const 3], [3]⟩, [], 100⟩) := by
  constructor <;> decide +kernel

/-- If an item panics while an expression is evaluated into a `Tensor`, exactly the elements that had
been produced are dropped, each once. Missing: the expressions with known defects. -/
theorem C42_tensor_partial (e : Expr σ T) (hb : Built e) (hs : Sound e) (ht : TameItems e)
    (hp : size e.dims = 0 → size (e.dims.drop e.outerRank) = 0) (s : σ) (o : Own T) :
    M.Post (tensorFromExpr e) (s, o) (fun _ t => t.2.log = o.log)
      (fun t => (o.limit < size e.dims ∧ t.1 = s ∧ t.2.log = o.log) ∨ ∃ k ys,
        Stopped (fun n => item e n (unrank e.dims n)) (size e.dims) s k ys t.1 ∧
          t.2.log = o.log ++ ys) :=
  (post_tensorFromExpr hb hs ht (shape_wf (wf_of_built hb)) hp s o).mono
    (fun _ _ ⟨_, _, _, _, h⟩ => h) fun _ h => h

/-- The same for an `Array`. -/
theorem C42_array_partial (ty : ShapeTy) (e : Expr σ T) (hb : Built e) (hs : Sound e)
    (ht : TameItems e) (hp : size e.dims = 0 → size (e.dims.drop e.outerRank) = 0) (s : σ) (o : Own T) :
    M.Post (arrayFromExpr ty e) (s, o) (fun _ t => t.2.log = o.log)
      (fun t => (¬ ty.Conforms e.dims ∧ t = (s, o)) ∨ ∃ k ys,
        Stopped (fun n => item e n (unrank e.dims n)) (size e.dims) s k ys t.1 ∧
          t.2.log = o.log ++ ys) := by
  refine (post_arrayFromExpr hb hs ht hp s o).mono (fun _ _ ⟨_, _, _, _, _, h, _⟩ => h) ?_
  rintro t (h | ⟨-, h⟩)
  · exact .inl h
  · exact .inr h

/-- The third call panics: the two elements are dropped. -/
example : (match tensorFromExpr (fromElem ⟨.static [.dyn], [5]⟩ (fun s =>
      if s < 2 then .ok s (s + 1) else .panic s) : Expr Nat Nat) (0, noTensor) with
    | .panic t => some (t.1, t.2.log)
    | _ => none) = some (2, [0, 1]) := by
  decide +kernel

/-! ### C33, C34: resizing -/

/-- After `resize_with`, the element at each index is the old element if the index was valid before,
and otherwise the result of a call of the closure, called in row-major order of the new indices. -/
theorem C33 (newDims : List Nat) (f : M σ T) (hf : f.Tame) (s : σ) (o : Own T) (xs : List T)
    (h : Holds o xs) (t : σ × Own T) (ht : resizeWith newDims f (s, o) = .ok () t) :
    t.2.shape = ⟨o.shape.ty, newDims⟩ ∧ ∃ ys, Holds t.2 ys ∧
      Ran (fun n => if Valid o.shape.dims (unrank newDims n)
        then orUb xs[rowMajor o.shape.dims (unrank newDims n)]? else f) (size newDims) s ys t.1 := by
  have := post_resizeWith hf (newDims := newDims) (s := s) h
  unfold M.PostA at this
  rw [ht] at this
  obtain ⟨ys, zs, dr, -, -, h1, -, h2, h3, -⟩ := this
  exact ⟨h3, ys, h2, h1⟩

/-- `resize_with` succeeds for the dimensions allowed by the type, unless the length overflows, the
allocation fails or the closure panics. -/
theorem C33_succeeds (newDims : List Nat) (f : M σ T) (hf : f.Tame) (s : σ) (o : Own T) (xs : List T)
    (h : Holds o xs) (hc : o.shape.ty.Conforms newDims) (hl : newDims.length = o.shape.dims.length)
    (hn : NoOverflow usizeMax newDims) (hm : size newDims ≤ o.limit)
    (hnp : ∀ s, ∃ x s', f s = .ok x s') :
    ∃ t, resizeWith newDims f (s, o) = .ok () t := by
  have hnf : ¬ ResizeFails o newDims f := by
    rintro (h | h | h | h | ⟨u, v, h⟩)
    · exact h hl
    · exact h hn
    · omega
    · exact h hc
    · obtain ⟨x, w, hx⟩ := hnp u
      rw [hx] at h; cases h
  have := post_resizeWith hf (newDims := newDims) (s := s) h
  unfold M.PostA at this
  cases hr : resizeWith newDims f (s, o) with
  | ok a t => exact ⟨t, rfl⟩
  | panic t =>
    rw [hr] at this
    obtain ⟨_, _, _, -, -, -, -, -, -, h⟩ := this
    exact absurd h hnf
  | ub => rw [hr] at this; exact this.elim
  | abort => rw [hr] at this; exact absurd this.2 hnf

/-- Whatever happens during `resize_with`, every element is accounted for: the old elements and the
results of the closure are the elements dropped and those in the array afterwards. The array stays
usable, also after a panic. Missing (see `C34_violated`): for types whose default array is not empty
(only constant dimensions) a failure aborts the process. -/
theorem C34_partial (newDims : List Nat) (f : M σ T) (hf : f.Tame) (s : σ) (o : Own T) (xs : List T)
    (h : Holds o xs) :
    M.PostA (resizeWith newDims f) (s, o)
      (fun _ t => ∃ ys zs dropped, Calls f s zs t.1 ∧ Holds t.2 ys ∧ t.2.log = o.log ++ dropped ∧
        (dropped ++ ys).Perm (xs ++ zs))
      (fun t => ∃ ys zs dropped, CallsEnd f s zs t.1 ∧ Holds t.2 ys ∧ t.2.log = o.log ++ dropped ∧
        (dropped ++ ys).Perm (xs ++ zs) ∧
        (t.2.shape = o.shape ∨ t.2.shape = Shape.default o.shape.ty) ∧ ResizeFails o newDims f)
      (size (Shape.default o.shape.ty).dims ≠ 0 ∧ ResizeFails o newDims f) := by
  have := post_resizeWith hf (newDims := newDims) (s := s) h
  unfold M.PostA at this ⊢
  cases hr : resizeWith newDims f (s, o) with
  | ok a t =>
    rw [hr] at this
    obtain ⟨ys, zs, dr, -, -, -, h1, h2, -, h3, h4, -⟩ := this
    exact ⟨ys, zs, dr, h1, h2, h3, h4⟩
  | panic t =>
    rw [hr] at this
    obtain ⟨ys, zs, dr, h1, h2, h3, h4, -, h5⟩ := this
    exact ⟨ys, zs, dr, h1, h2, h3, h4, h5⟩
  | ub => rw [hr] at this; exact this
  | abort => rw [hr] at this; exact this

/-- A 2 by 2 tensor with constant dimensions. -/
def constTensor : Own Nat := ⟨[1, 2, 3, 4].map some, 0, ⟨.static [.const 2, .const 2], [2, 2]⟩, [], 100⟩

/-- The code as it is: resizing a tensor with constant dimensions to other dimensions aborts. -/
theorem C34_violated : Holds constTensor [1, 2, 3, 4] ∧
    resizeWith [3, 2] (M.pure 0 : M Unit Nat) ((), constTensor) = .abort := by
  refine ⟨⟨by decide, by decide, by decide⟩, by decide +kernel⟩

/-- A 2 by 2 tensor. -/
def tensor22 : Own Nat := ⟨[1, 2, 3, 4].map some, 0, ⟨.static [.dyn, .dyn], [2, 2]⟩, [], 100⟩

example : Holds tensor22 [1, 2, 3, 4] := ⟨by decide, by decide, by decide⟩

/-- Growing one dimension and shrinking the other; and a closure that panics in its second call. -/
example : resizeWith [3, 1] (fun s => .ok s (s + 1) : M Nat Nat) (10, tensor22) =
      .ok () (11, ⟨[1, 3, 10].map some, 3, ⟨.static [.dyn, .dyn], [3, 1]⟩, [2, 4], 100⟩) ∧
    (match resizeWith [2, 3] (fun s => if s < 11 then .ok s (s + 1) else .panic s : M Nat Nat)
        (10, tensor22) with
      | .panic t => some (t.1, t.2.shape.dims, t.2.log)
      | _ => none) = some (11, [0, 0], [1, 2, 10, 3, 4]) := by
  constructor <;> decide +kernel

/-! ### C35, C36: appending -/

/-- `expand` appends the (cloned) items of the expression: the old rows come first, then those of the
expression. An empty array takes the dimensions of the expression. -/
theorem C35_expand_partial (e : Expr σ α) (hb : Built e) (hs : Sound e) (ht : TameItems e)
    (c : α → M σ T) (hc : ∀ y, (c y).Tame) (s : σ) (o : Own T) (xs : List T) (h : Holds o xs)
    (t : σ × Own T) (hr : expand e c (s, o) = .ok () t) :
    ∃ ys, Ran (itemStep e c) (size e.dims) s ys t.1 ∧ Holds t.2 (xs ++ ys) ∧
      t.2.shape.ty = o.shape.ty ∧ t.2.log = o.log ∧ t.2.shape.dims =
        if size e.dims = 0 then o.shape.dims else if size o.shape.dims = 0 then e.dims
        else (o.shape.dims.getD 0 0 + e.dims.getD 0 0) :: o.shape.dims.tail := by
  have := post_expand hb hs ht hc (s := s) h
  unfold M.Post at this
  rw [hr] at this
  obtain ⟨-, ⟨h1, h2⟩ | ⟨h1, -, ys, h2, h3, h4, h5, h6, -⟩⟩ := this
  · subst h2
    refine ⟨[], by rw [h1]; exact ran_zero, by simpa using h, rfl, rfl, by rw [if_pos h1]⟩
  · exact ⟨ys, h2, h3, h4, h6, by rw [if_neg (by omega)]; exact h5⟩

/-- `append` moves all elements of the other tensor, which is left without rows. -/
theorem C35_append (s : σ) (o o2 : Own T) (xs ys : List T) (h : Holds o xs) (h2 : Holds o2 ys)
    (t : (σ × Own T) × Own T) (hr : tensorAppend ((s, o2), o) = .ok () t) :
    t.1.1 = s ∧ Holds t.2 (xs ++ ys) ∧ t.2.log = o.log ∧ t.2.shape.ty = o.shape.ty ∧
      t.2.shape.dims = (if size o2.shape.dims = 0 then o.shape.dims
        else if size o.shape.dims = 0 then o2.shape.dims
        else (o.shape.dims.getD 0 0 + o2.shape.dims.getD 0 0) :: o.shape.dims.tail) ∧
      Holds t.1.2 [] ∧ t.1.2.shape = ⟨o2.shape.ty, 0 :: o2.shape.dims.tail⟩ ∧ t.1.2.log = o2.log := by
  have := post_tensorAppend (s := s) h h2
  unfold M.Post at this
  rw [hr] at this
  obtain ⟨h1, -, h3, h4, h5, -, h6, h7, -, h8, h9⟩ := this
  refine ⟨h1, h6, h7, h8, ?_, h3, h4, h5⟩
  rcases h9 with ⟨h9, h10⟩ | ⟨h9, -, h10⟩
  · rw [if_pos h9, h10]
  · rw [if_neg (by omega), h10]

/-- `expand` succeeds if the dimensions fit, there is memory, and neither the items nor the clones
panic. -/
theorem C35_expand_succeeds_partial (e : Expr σ α) (hb : Built e) (hs : Sound e) (ht : TameItems e)
    (c : α → M σ T) (hc : ∀ y, (c y).Tame) (s : σ) (o : Own T) (xs : List T) (h : Holds o xs)
    (hr : 0 < o.shape.dims.length) (hd : o.shape.ty.head = .dyn) (hfit : Fits o.shape e.dims)
    (hm : xs.length + size e.dims ≤ o.limit)
    (hnp : ∀ n, n < size e.dims → ∀ u v, itemStep e c n u ≠ .panic v) :
    ∃ t, expand e c (s, o) = .ok () t := by
  have := post_expand hb hs ht hc (s := s) h
  unfold M.Post at this
  cases hx : expand e c (s, o) with
  | ok a t => exact ⟨t, rfl⟩
  | panic t =>
    rw [hx] at this
    rcases this with ⟨-, -, h1 | ⟨-, h1 | h1⟩⟩ | ⟨-, -, k, ys, ⟨hk, u, -, hp⟩, -⟩
    · exact absurd ⟨hr, hd⟩ h1
    · exact absurd hfit h1
    · omega
    · exact absurd hp (hnp k hk u _)
  | ub => rw [hx] at this; exact this.elim
  | abort => rw [hx] at this; exact this.elim

/-- Appending to a non-empty tensor, and to an empty one. -/
example : expand (view true (swapped 2 2) : Expr Unit Int) (fun x => M.pure (x.toNat + 10)) ((), tensor22) =
      .ok () ((), ⟨[1, 2, 3, 4, 10, 12, 11, 13].map some, 8, ⟨.static [.dyn, .dyn], [4, 2]⟩, [], 100⟩) ∧
    Fits tensor22.shape [2, 2] ∧
    (tensorAppend : M ((Unit × Own Nat) × Own Nat) Unit)
      (((), tensor22), ⟨[], 0, ⟨.static [.dyn, .dyn], [0, 7]⟩, [], 100⟩) =
      .ok () (((), ⟨[none, none, none, none], 0, ⟨.static [.dyn, .dyn], [0, 2]⟩, [], 100⟩),
        ⟨[1, 2, 3, 4].map some, 4, ⟨.static [.dyn, .dyn], [2, 2]⟩, [], 100⟩) := by
  refine ⟨by decide +kernel, by simp [Fits, tensor22, size], by decide +kernel⟩

/-- If the dimensions do not match, or the first dimension cannot grow, `expand` panics and leaves
the array as it was, for any expression whatsoever. Nothing of the expression is evaluated. -/
theorem C36 (e : Expr σ α) (c : α → M σ T) (s : σ) (o : Own T) (xs : List T) (h : Holds o xs)
    (hm : ¬ (0 < o.shape.dims.length ∧ o.shape.ty.head = .dyn) ∨
      (0 < size e.dims ∧ ¬ Fits o.shape e.dims)) :
    ∃ o', expand e c (s, o) = .panic (s, o') ∧ Holds o' xs ∧ o'.shape = o.shape ∧ o'.log = o.log := by
  have := post_expand_mismatch (e := e) (c := c) (s := s) h hm
  unfold M.Post at this
  cases hr : expand e c (s, o) with
  | ok a t => rw [hr] at this; exact this.elim
  | panic t =>
    rw [hr] at this
    obtain ⟨t, o'⟩ := t
    obtain ⟨rfl, h2⟩ := this
    exact ⟨o', rfl, h2.holds, h2.shape, h2.log⟩
  | ub => rw [hr] at this; exact this.elim
  | abort => rw [hr] at this; exact this.elim

/-- A failed `append` leaves the first tensor as it was. The second one stays usable; its elements are
still there, or all of them have been dropped once. -/
theorem C36_append (s : σ) (o o2 : Own T) (xs ys : List T) (h : Holds o xs) (h2 : Holds o2 ys)
    (t : (σ × Own T) × Own T) (hr : tensorAppend ((s, o2), o) = .panic t) :
    t.1.1 = s ∧ Holds t.2 xs ∧ t.2.shape = o.shape ∧ t.2.log = o.log ∧
      (t.1.2 = o2 ∨ (Holds t.1.2 [] ∧ t.1.2.log = o2.log ++ ys)) := by
  have := post_tensorAppend (s := s) h h2
  unfold M.Post at this
  rw [hr] at this
  obtain ⟨h1, h3, h4⟩ := this
  refine ⟨h1, h3.holds, h3.shape, h3.log, ?_⟩
  rcases h4 with ⟨h4, -⟩ | ⟨-, h4, -, h5, -⟩
  · exact .inl h4
  · exact .inr ⟨h4, h5⟩

/-- Rows of length 3 cannot be appended to rows of length 2. -/
example : ¬ Fits tensor22.shape [5, 3] ∧
    expand (view true (whole ⟨.static [.dyn, .dyn], [5, 3]⟩) : Expr Unit Int) (fun x => M.pure x.toNat)
      ((), tensor22) = .panic ((), { tensor22 with
        cells := tensor22.cells ++ List.replicate 15 none
        len := 4 }) := by
  refine ⟨by simp [Fits, tensor22, size], by decide +kernel⟩

/-! ### C37, C38: draining -/

/-- `drain` of a range of rows, with `k` items taken and the drain dropped: the items are the first
ones of the range in order, and the array consists of the rows before and after the range. -/
theorem C37 (start stop : Bnd) (k : Nat) (s : σ) (o : Own T) (xs : List T) (h : Holds o xs)
    (d : Nat) (ds : List Nat) (ho : o.shape.dims = d :: ds) (hd : o.shape.ty.head = .dyn)
    (hmax : d ≤ usizeMax) (hr : lo start ≤ hi d stop ∧ hi d stop ≤ d) :
    ∃ o', drainRun start stop k false (s, o) =
        .ok ((rowsOf (size ds) (lo start) (hi d stop) xs).take k) (s, o') ∧
      Holds o' (xs.take (lo start * size ds) ++ xs.drop (hi d stop * size ds)) ∧
      o'.shape = ⟨o.shape.ty, (d - (hi d stop - lo start)) :: ds⟩ := by
  have hn : rangeNorm start stop d = some (lo start, hi d stop) := by rw [rangeNorm_eq hmax, if_pos hr]
  have := post_drainRun (s := s) start stop k false h
  unfold M.Post at this
  cases hx : drainRun start stop k false (s, o) with
  | ok ys t =>
    rw [hx] at this
    obtain ⟨t, o'⟩ := t
    obtain ⟨-, d0, ds', a, b, e1, e2, -, -, e3, -, e4, ⟨e5, -⟩ | ⟨-, e6, e7, -⟩⟩ := this
    · cases e5
    · rw [ho] at e1
      injection e1 with e1 e1'
      subst e1 e1'
      rw [hn] at e2
      injection e2 with e2
      injection e2 with e2 e2'
      subst e2 e2'
      simp only at e3
      subst e3
      exact ⟨o', by rw [e4], e6, e7⟩
  | panic t =>
    rw [hx] at this
    exfalso
    rcases this.2 with h1 | h1
    · exact h1 ⟨by show 0 < o.shape.dims.length; rw [ho]; simp, hd⟩
    · rw [ho] at h1
      rw [show (d :: ds).getD 0 0 = d from rfl, hn] at h1
      cases h1
  | ub => rw [hx] at this; exact this.elim
  | abort => rw [hx] at this; exact this.elim

/-- A range that is not within the first dimension is rejected, and nothing changes. -/
theorem C37_rejects (start stop : Bnd) (k : Nat) (leak : Bool) (s : σ) (o : Own T) (xs : List T)
    (h : Holds o xs) (hmax : o.shape.dims.getD 0 0 ≤ usizeMax)
    (hr : ¬ (lo start ≤ hi (o.shape.dims.getD 0 0) stop ∧
      hi (o.shape.dims.getD 0 0) stop ≤ o.shape.dims.getD 0 0)) :
    drainRun start stop k leak (s, o) = .panic (s, o) := by
  have := post_drainRun (s := s) start stop k leak h
  unfold M.Post at this
  cases hx : drainRun start stop k leak (s, o) with
  | ok ys t =>
    rw [hx] at this
    obtain ⟨-, d0, ds', a, b, e1, e2, -⟩ := this
    rw [e1] at hr hmax
    rw [show (d0 :: ds').getD 0 0 = d0 from rfl] at hr hmax
    rw [rangeNorm_eq hmax, if_neg hr] at e2
    cases e2
  | panic t => rw [hx] at this; rw [this.1]
  | ub => rw [hx] at this; exact this.elim
  | abort => rw [hx] at this; exact this.elim

/-- Each drained element is handed to the caller or dropped, exactly once, when the drain is dropped.
If it is leaked, nothing is dropped and the array holds the rows before the range. -/
theorem C38 (start stop : Bnd) (k : Nat) (leak : Bool) (s : σ) (o : Own T) (xs : List T)
    (h : Holds o xs) (ys : List T) (t : σ × Own T)
    (hr : drainRun start stop k leak (s, o) = .ok ys t) :
    ∃ before drained after dropped, xs = before ++ drained ++ after ∧
      drained = rowsOf (size o.shape.dims.tail) (lo start) (hi (o.shape.dims.getD 0 0) stop) xs ∧
      drained = ys ++ dropped ∧ t.1 = s ∧
      (leak = false → Holds t.2 (before ++ after) ∧ t.2.log = o.log ++ dropped) ∧
      (leak = true → Holds t.2 before ∧ t.2.log = o.log) := by
  have := post_drainRun (s := s) start stop k leak h
  unfold M.Post at this
  rw [hr] at this
  obtain ⟨-, d0, ds, a, b, e1, e2, e3, e4, e5, -, e6, e7⟩ := this
  obtain ⟨r1, r2, -, -⟩ := rangeNorm_some e2
  simp only at r1 r2
  have hl : xs.length = d0 * size ds := by rw [h.2.1, e1, size_cons]
  refine ⟨xs.take (a * size ds), rowsOf (size ds) a b xs, xs.drop (b * size ds),
    (rowsOf (size ds) a b xs).drop k, (rows_split e3 e4 hl).1, ?_, ?_, e5, ?_, ?_⟩
  · rw [e1, r1, r2]; rfl
  · rw [e6, List.take_append_drop]
  · intro hk
    rcases e7 with ⟨h1, -⟩ | ⟨-, h1, -, h2⟩
    · rw [hk] at h1; cases h1
    · exact ⟨h1, h2⟩
  · intro hk
    rcases e7 with ⟨-, h1, -, h2⟩ | ⟨h1, -⟩
    · exact ⟨h1, h2⟩
    · rw [hk] at h1; cases h1

/-- Four rows of two elements. -/
def tensor42 : Own Nat := ⟨(List.range 8).map some, 0, ⟨.static [.dyn, .dyn], [4, 2]⟩, [], 100⟩

/-- Draining the rows 1 and 2, taking 3 items; dropped and leaked. -/
example : Holds tensor42 (List.range 8) ∧
    (match (drainRun (.included 1) (.excluded 3) 3 false : M (Unit × Own Nat) _) ((), tensor42) with
      | .ok ys t => some (ys, t.2.cells.take 4, t.2.shape.dims, t.2.log)
      | _ => none) = some ([2, 3, 4], [some 0, some 1, some 6, some 7], [2, 2], [5]) ∧
    (match (drainRun (.included 1) (.excluded 3) 3 true : M (Unit × Own Nat) _) ((), tensor42) with
      | .ok ys t => some (ys, t.2.cells.take 2, t.2.shape.dims, t.2.log)
      | _ => none) = some ([2, 3, 4], [some 0, some 1], [1, 2], []) := by
  refine ⟨⟨by decide, by decide, by decide⟩, by decide +kernel, by decide +kernel⟩

/-! ### C39: truncating and clearing -/

/-- `truncate` keeps the first rows and drops the others, each once. -/
theorem C39_truncate (n : Nat) (s : σ) (o : Own T) (xs : List T) (h : Holds o xs)
    (d : Nat) (ds : List Nat) (ho : o.shape.dims = d :: ds) (hd : o.shape.ty.head = .dyn) :
    ∃ o', tensorTruncate n (s, o) = .ok () (s, o') ∧ Holds o' (xs.take (min n d * size ds)) ∧
      o'.shape = ⟨o.shape.ty, min n d :: ds⟩ ∧ o'.log = o.log ++ xs.drop (min n d * size ds) := by
  have hl : xs.length = d * size ds := by rw [h.2.1, ho, size_cons]
  have htake : xs.take (n * size ds) = xs.take (min n d * size ds) ∧
      xs.drop (n * size ds) = xs.drop (min n d * size ds) := by
    by_cases hn : n ≤ d
    · rw [min_eq_left hn]; exact ⟨rfl, rfl⟩
    · have : d * size ds ≤ n * size ds := Nat.mul_le_mul_right _ (by omega)
      rw [min_eq_right (by omega), List.take_of_length_le (by omega), List.take_of_length_le (by omega),
        List.drop_of_length_le (by omega), List.drop_of_length_le (by omega)]
      exact ⟨rfl, rfl⟩
  have := post_tensorTruncate (s := s) n h
  rw [ho] at this
  unfold M.Post at this
  cases hx : tensorTruncate n (s, o) with
  | ok a t =>
    rw [hx] at this
    obtain ⟨t, o'⟩ := t
    obtain ⟨rfl, h1, h2, h3, -⟩ := this
    refine ⟨o', rfl, ?_, h2, ?_⟩
    · rw [← htake.1]; exact h1
    · rw [← htake.2]; exact h3
  | panic t =>
    rw [hx] at this
    exact absurd ⟨by show 0 < o.shape.dims.length; rw [ho]; simp, hd⟩ this.2
  | ub => rw [hx] at this; exact this.elim
  | abort => rw [hx] at this; exact this.elim

/-- `clear` leaves an empty array and drops each element once, if the type has an empty array. It
panics without any effect otherwise. -/
theorem C39_clear (s : σ) (o : Own T) (xs : List T) (h : Holds o xs) :
    (∃ o', tensorClear (s, o) = .ok () (s, o') ∧ size o'.shape.dims = 0 ∧ o'.shape.ty = o.shape.ty ∧
        Holds o' [] ∧ o'.log = o.log ++ xs) ∨
      (tensorClear (s, o) = .panic (s, o) ∧ ∀ dims, o.shape.ty.Conforms dims → size dims ≠ 0) := by
  have := post_tensorClear (s := s) h
  unfold M.Post at this
  cases hx : tensorClear (s, o) with
  | ok a t =>
    rw [hx] at this
    obtain ⟨t, o'⟩ := t
    obtain ⟨rfl, h1, h2, h3, -⟩ := this
    have h0 := h1.2.1
    refine .inl ⟨o', rfl, h0.symm, ?_, h1, h3⟩
    show o'.shape.ty = _
    rw [show o'.shape = _ from h2, Shape.default_ty]
  | panic t =>
    rw [hx] at this
    refine .inr ⟨by rw [this.1], fun dims hd => ?_⟩
    rw [Shape.default_unique this.2 hd]; exact this.2
  | ub => rw [hx] at this; exact this.elim
  | abort => rw [hx] at this; exact this.elim

example : (match (tensorTruncate 3 : M (Unit × Own Nat) Unit) ((), tensor42) with
      | .ok _ t => some (t.2.cells.take 6, t.2.shape.dims, t.2.log)
      | _ => none) = some ((List.range 6).map some, [3, 2], [6, 7]) ∧
    (match (tensorClear : M (Unit × Own Nat) Unit) ((), tensor42) with
      | .ok _ t => some (t.2.shape.dims, t.2.log)
      | _ => none) = some ([0, 0], List.range 8) ∧
    (tensorClear : M (Unit × Own Nat) Unit) ((), constTensor) = .panic ((), constTensor) := by
  refine ⟨by decide +kernel, by decide +kernel, by decide +kernel⟩

/-! ### C40, C41: consuming a tensor -/

/-- In-place `map` / `zip_with`: the elements are replaced by the results, in row-major order. If the
operand cannot be broadcast, all elements are dropped. If the closure panics, all elements are dropped
once: the results so far and the remaining ones (the current one is owned by the closure). If the
operand panics, no element is dropped twice (but one result is leaked, see `C40_leaks`). Missing: the
expressions with known defects (see `C40_violated`). -/
theorem C40_partial (s : σ) (o : Own T) (xs : List T) (h : Holds o xs) (e : Expr σ β) (hb : Built e)
    (ht : TameItems e) (f : T → β → M σ T) (hf : ∀ x y, (f x y).Tame)
    (hs : ∀ z, zipNew (view false (whole o.shape)) e = some z → Sound z ∧
      (size z.dims = 0 → size (z.dims.drop z.outerRank) = 0)) :
    M.Post (zipWith e f) (s, o)
      (fun _ t => CanCast e o.shape.dims ∧ ∃ ys,
        Ran (zipItem o.shape.dims xs e f) (size o.shape.dims) s ys t.1 ∧ Holds t.2 ys ∧
          t.2.shape = o.shape ∧ t.2.log = o.log)
      (fun t => (¬ CanCast e o.shape.dims ∧ t.1 = s ∧ t.2.log = o.log ++ xs) ∨
        (CanCast e o.shape.dims ∧ ∃ k ys,
          (ZipStopped o.shape.dims xs e f s k ys t.1 false ∧ t.2.log = o.log ++ ys ++ xs.drop (k + 1)) ∨
          (ZipStopped o.shape.dims xs e f s k ys t.1 true ∧
            t.2.log = o.log ++ ys.take (k - 1) ++ xs.drop k))) :=
  (post_zipWith h hb ht hf hs).mono
    (fun _ _ ⟨h1, ys, h2, h3, h4, h5, _⟩ => ⟨h1, ys, h2, h3, h4, h5⟩) fun _ h => h

/-- The code as it is: an empty tensor combined with an empty view reads an element that does not
exist. -/
theorem C40_violated :
    ∃ v, Reach true (whole ⟨.static [.dyn, .dyn], [2, 3]⟩) v ∧ v.dims = [0, 2] ∧
      zipWith (view true v : Expr Unit Int) (fun x _ => M.pure x)
        ((), (⟨[], 0, ⟨.static [.dyn, .dyn], [0, 2]⟩, [], 100⟩ : Own Nat)) = .ub := by
  let v1 : View := ⟨0, .strided ⟨.static [.dyn, .dyn], [2, 0]⟩ [3, 1]⟩
  let v2 : View := ⟨0, .strided ⟨.static [.dyn, .dyn], [0, 2]⟩ [1, 3]⟩
  refine ⟨v2, .call (v := v1) (.call .refl (.inr (by decide))
    (.view (xs := [.full, .range .unbounded (.excluded 0)]) rfl (by decide +kernel)))
    (.inr (by decide)) (.reorder (by decide)), by decide, by decide +kernel⟩

/-- The code as it is: if the operand panics at element 2, the result for element 1 is leaked. -/
theorem C40_leaks :
    (match zipWith (fromElem ⟨.static [.dyn, .dyn], [2, 2]⟩ (fun s =>
        if s < 2 then .ok s (s + 1) else .panic s) : Expr Nat Nat) (fun x _ => M.pure (x + 100))
        (0, tensor22) with
      | .panic t => some t.2.log
      | _ => none) = some [101, 3, 4] := by
  decide +kernel

/-- Success, and a closure that panics at element 2. -/
example : (match zipWith (view true (swapped 2 2) : Expr Unit Int) (fun x y => M.pure (10 * x + y.toNat))
        ((), tensor22) with
      | .ok _ t => some (t.2.cells, t.2.log)
      | _ => none) = some ([10, 22, 31, 43].map some, []) ∧
    (match zipWith (fill (M.pure ()) : Expr Unit Unit)
        (fun x _ => if x = 3 then M.panic else M.pure (x + 100)) ((), tensor22) with
      | .panic t => some t.2.log
      | _ => none) = some [101, 102, 4] := by
  constructor <;> decide +kernel

/-- Consuming an owned array and stopping after `k` items: the first items are handed out in order, the
others are dropped once, and no cell is left with a value. -/
theorem C41 (k : Nat) (s : σ) (o : Own T) (xs : List T) (h : Holds o xs) :
    ∃ o', intoItems k (s, o) = .ok (xs.take k) (s, o') ∧ o'.log = o.log ++ xs.drop k ∧
      ∀ p : Nat, p < xs.length → o'.cells[p]? = some none := by
  have := post_intoItems (s := s) (R := fun _ => False) k h
  unfold M.Post at this
  cases hx : intoItems k (s, o) with
  | ok a t =>
    rw [hx] at this
    obtain ⟨t, o'⟩ := t
    obtain ⟨rfl, h1, h2, h3⟩ := this
    exact ⟨o', by rw [h1], h2, h3⟩
  | panic t => rw [hx] at this; exact this.elim
  | ub => rw [hx] at this; exact this.elim
  | abort => rw [hx] at this; exact this.elim

example : (match (intoItems 3 : M (Unit × Own Nat) _) ((), tensor22) with
    | .ok ys t => some (ys, t.2.log)
    | _ => none) = some ([1, 2, 3], [4]) := by
  decide +kernel

/-! ### C32: histories -/

/-- After any finite history of operations, in which any panic of a borrowing operation may have been
caught, both tensors own exactly as many elements as their dimensions say. A further operation never
has undefined behaviour; it aborts only in the situation of `C34_violated`. Any expression can be used for
`expand`, also with the known defects. Beyond the operations of the claim, histories can contain
`zip_with` and evaluation of expressions, if these have no phantom rows (`TensorOp.Allowed`; without
that see `C40_violated` and `C31_violated`). -/
theorem C32 (S S' : Sys σ T) (h : History S S') (ha : Usable S.a) (hb : Usable S.b) :
    Usable S'.a ∧ Usable S'.b ∧ ∀ op : TensorOp σ T, op.Allowed S' → op.run S' ≠ .ub ∧
      (op.run S' = .abort → ∃ dims f, op = .resizeWith dims f ∧
        size (Shape.default S'.a.shape.ty).dims ≠ 0 ∧ ResizeFails S'.a dims f) := by
  have hg := good_of_history h ⟨ha, hb⟩
  refine ⟨hg.1, hg.2, fun op hop => ?_⟩
  have := post_op op S' hg hop
  unfold M.PostA at this
  constructor
  · intro hx; rw [hx] at this; exact this
  · intro hx; rw [hx] at this; exact this

/-- A closure that counts its calls and panics in the second one (starting from 10). -/
def failing : M Nat Nat := fun s => if s < 11 then .ok s (s + 1) else .panic s

/-- The tensor after truncating `tensor42` to 3 rows. -/
def afterTruncate : Own Nat :=
  ⟨(List.range 6).map some ++ [none, none], 6, ⟨.static [.dyn, .dyn], [3, 2]⟩, [6, 7], 100⟩

/-- The tensor after a leaked drain of all but the first row, with one item taken. -/
def afterDrain : Own Nat :=
  ⟨[some 0, some 1, none, some 3, some 4, some 5, none, none], 6, ⟨.static [.dyn, .dyn], [1, 2]⟩,
    [6, 7], 100⟩

/-- The tensor after a failed resize. -/
def afterResize : Own Nat :=
  ⟨[none, none, none, some 3, some 4, some 5, none, none], 3, ⟨.static [.dyn, .dyn], [0, 0]⟩,
    [6, 7, 0, 1, 10], 100⟩

/-- A history: truncate, a leaked drain, and a resize with a panic that is caught. -/
example : History (⟨10, tensor42, tensor22⟩ : Sys Nat Nat) ⟨11, afterResize, tensor22⟩ := by
  refine .caught (op := .resizeWith [2, 2] failing) (S' := ⟨10, afterDrain, tensor22⟩)
    (.ok (op := .drain (.included 1) .unbounded 1 true) (S' := ⟨10, afterTruncate, tensor22⟩)
      (.ok (op := .truncate 3) .refl trivial ?_) trivial ?_) (fun s => ?_) id ?_
  · have : (tensorTruncate 3 : M (Nat × Own Nat) Unit) (10, tensor42) = .ok () (10, afterTruncate) := by
      decide +kernel
    simp only [TensorOp.run, onA, this]
  · have : (M.bind (drainRun (.included 1) .unbounded 1 true) fun _ => M.pure () :
        M (Nat × Own Nat) Unit) (10, afterTruncate) = .ok () (10, afterDrain) := by
      decide +kernel
    simp only [TensorOp.run, onA, this]
  · unfold M.Post failing
    by_cases hs : s < 11 <;> simp [hs]
  · have : resizeWith [2, 2] failing (10, afterDrain) = .panic (11, afterResize) := by
      decide +kernel
    simp only [TensorOp.run, onA, this]

end Props
