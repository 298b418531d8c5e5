import Verif.Lemmas.Owned
import Verif.Props.Resume
import Verif.Props.TensorExact

/-! Operations that take owned arrays by value: each element is moved out or dropped exactly once (C75). -/

namespace Props
open Spec Model Model.Iter Model.Expr

variable {σ α β T : Type}

/-- The functions that keep the state of the expression have the same results as those of the other properties. -/
theorem C75_model (e : Expr σ α) (t : Expr σ T) (c : α → M σ T) (g : T → α → M σ T) (v : View) (ty : ShapeTy) :
    (∀ (f : α → M σ Unit) s, (e.forEachE f s).result = e.forEach f s) ∧
    (∀ s, (cloneIntoVecE e c s).result = cloneIntoVec e c s) ∧
    (∀ s, (tensorFromExprE t s).result = tensorFromExpr t s) ∧
    (∀ s, (arrayFromExprE ty t s).result = arrayFromExpr ty t s) ∧
    (∀ s, (expandE e c s).result = expand e c s) ∧
    (∀ s, (zipWithE e g s).result = zipWith e g s) ∧
    (∀ s, (assignE v e c s).result = assign v e c s) ∧
    (∀ s, (opAssignE v e g s).result = opAssign v e g s) :=
  ⟨forEachE_result e, cloneIntoVecE_result e c, tensorFromExprE_result t, arrayFromExprE_result ty t,
    expandE_result e c, zipWithE_result e g, assignE_result v e c, opAssignE_result v e g⟩

/-- Conversion of an expression to a `Tensor`. If it returns then all elements of the arrays in the expression
have been moved out. If it panics then the arrays drop exactly the elements that have not been moved out, and
these are all elements, or those after item `k` or up from item `k`, where the panic is in item `k`; the items
before that are dropped. Missing: expressions with phantom rows, see C75_violated. -/
theorem C75_tensor_partial (e : Expr σ T) (hb : Built e) (ht : TameClosures e) (hp : NoPhantomRows e) (s : σ)
    (o : Own T) :
    match tensorFromExprE e (s, o) with
    | .ok _ l t => AllMoved e l ∧ Disposed l.expr ∧ ∃ ys, Ran (rawNth e) (size e.dims) s ys t.1 ∧ Holds t.2 ys ∧
        t.2.shape = e.shape ∧ t.2.log = o.log
    | .panic l t => Disposed l.expr ∧ (((o.limit < size e.dims ∨ (BadFn e ∧ size e.dims = 0)) ∧ NoneMoved e l ∧
          t.1 = s ∧ t.2.log = o.log) ∨ ∃ k ys, SomeMoved e k l ∧
          Stopped (rawNth e) (size e.dims) s k ys t.1 ∧ t.2.log = o.log ++ ys)
    | .ub => False
    | .abort => False := by
  have h := post_tensorFromExprE hb (tameRaw_of_closures hb ht) hp s o
  unfold Out.Post at h
  cases hx : tensorFromExprE e (s, o) with
  | ok x l t => rw [hx] at h; exact ⟨h.1, disposed_all h.1, h.2⟩
  | panic l t => rw [hx] at h; exact h
  | ub => rw [hx] at h; exact h
  | abort => rw [hx] at h; exact h

/-- C75_tensor_partial: an array whose second element makes the closure panic. The first two are moved out, the
value made of the first is dropped, and then the other two elements. -/
example : Built halting ∧ TameClosures halting ∧ NoPhantomRows halting ∧
    ∃ l o, tensorFromExprE halting ((), ⟨[], 0, ⟨.static [.dyn, .dyn], [0, 0]⟩, [], 100⟩) = .panic l ((), o) ∧
      l.expr.owned = [(2, 4)] ∧ l.expr.dropE = some [[2, 3]] ∧ o.log = [10] :=
  ⟨halting_built, halting_tame, fun h => absurd h (by decide), _, _, rfl, rfl, by decide, rfl⟩

/-- The same for conversion to an `Array`, and so for `Array::map`, `apply` and `zip_with`. Missing: expressions
with phantom rows, see C75_violated. -/
theorem C75_array_partial (ty : ShapeTy) (e : Expr σ T) (hb : Built e) (ht : TameClosures e) (hp : NoPhantomRows e)
    (s : σ) (o : Own T) :
    match arrayFromExprE ty e (s, o) with
    | .ok _ l t => AllMoved e l ∧ Disposed l.expr ∧ ∃ ys, Ran (rawNth e) (size e.dims) s ys t.1 ∧ Holds t.2 ys ∧
        t.2.shape = ⟨ty, e.dims⟩ ∧ t.2.log = o.log
    | .panic l t => Disposed l.expr ∧ (((¬ ty.Conforms e.dims ∨ (BadFn e ∧ size e.dims = 0)) ∧ NoneMoved e l ∧
          t.1 = s ∧ t.2.log = o.log) ∨ ∃ k ys, SomeMoved e k l ∧
          Stopped (rawNth e) (size e.dims) s k ys t.1 ∧ t.2.log = o.log ++ ys)
    | .ub => False
    | .abort => False := by
  have h := post_arrayFromExprE (ty := ty) hb (tameRaw_of_closures hb ht) hp s o
  unfold Out.Post at h
  cases hx : arrayFromExprE ty e (s, o) with
  | ok x l t => rw [hx] at h; exact ⟨h.1, disposed_all h.1, h.2⟩
  | panic l t => rw [hx] at h; exact h
  | ub => rw [hx] at h; exact h
  | abort => rw [hx] at h; exact h

/-- C75_array_partial: as above; and for a shape that does not fit, all elements are dropped. -/
example : Built halting ∧ TameClosures halting ∧ NoPhantomRows halting ∧
    (∃ l o, arrayFromExprE (.static [.const 2, .const 2]) halting
        ((), ⟨[], 0, ⟨.static [.dyn, .dyn], [0, 0]⟩, [], 100⟩) = .panic l ((), o) ∧
      l.expr.owned = [(2, 4)] ∧ l.expr.dropE = some [[2, 3]] ∧ o.log = [10]) ∧
    (∃ l o, arrayFromExprE (.static [.const 2, .const 3]) halting
        ((), ⟨[], 0, ⟨.static [.dyn, .dyn], [0, 0]⟩, [], 100⟩) = .panic l ((), o) ∧
      l.expr.owned = [(0, 4)] ∧ l.expr.dropE = some [[0, 1, 2, 3]] ∧ o.log = []) :=
  ⟨halting_built, halting_tame, fun h => absurd h (by decide), ⟨_, _, rfl, rfl, by decide, rfl⟩,
    ⟨_, _, rfl, rfl, by decide, rfl⟩⟩

/-- The same for `expand`, here for all expressions: if nothing is to be appended then the expression is not
evaluated. -/
theorem C75_expand (e : Expr σ α) (hb : Built e) (ht : TameClosures e) (c : α → M σ T) (hc : ∀ y, (c y).Tame)
    (s : σ) (o : Own T) (xs : List T) (h : Holds o xs) :
    match expandE e c (s, o) with
    | .ok _ l t => AllMoved e l ∧ Disposed l.expr ∧ ((size e.dims = 0 ∧ t = (s, o)) ∨ ∃ ys,
        Ran (fun n => M.bind (rawNth e n) c) (size e.dims) s ys t.1 ∧ Holds t.2 (xs ++ ys) ∧ t.2.log = o.log)
    | .panic l t => Disposed l.expr ∧ ((NoneMoved e l ∧ t.1 = s ∧ Holds t.2 xs ∧ t.2.shape = o.shape ∧
          t.2.log = o.log) ∨ ∃ k ys, SomeMoved e k l ∧
          Stopped (fun n => M.bind (rawNth e n) c) (size e.dims) s k ys t.1 ∧ Holds t.2 [] ∧
          t.2.log = o.log ++ (xs ++ ys))
    | .ub => False
    | .abort => False := by
  have h := post_expandE (s := s) hb (tameRaw_of_closures hb ht) hc h
  unfold Out.Post at h
  cases hx : expandE e c (s, o) with
  | ok x l t => rw [hx] at h; exact ⟨h.1, disposed_all h.1, h.2⟩
  | panic l t =>
    rw [hx] at h
    exact ⟨h.1, h.2.imp_left fun h => ⟨h.1, h.2.1, h.2.2.holds, h.2.2.shape, h.2.2.log⟩⟩
  | ub => rw [hx] at h; exact h
  | abort => rw [hx] at h; exact h

/-- C75_expand: a tensor `[1, 2]` is expanded by the expression above; it becomes empty. -/
example : Built halting ∧ TameClosures halting ∧
    ∃ l o, expandE halting M.pure ((), ⟨[some 1, some 2], 2, ⟨.static [.dyn, .dyn], [1, 2]⟩, [], 100⟩) =
        .panic l ((), o) ∧
      l.expr.owned = [(2, 4)] ∧ l.expr.dropE = some [[2, 3]] ∧ o.log = [1, 2, 10] :=
  ⟨halting_built, halting_tame, _, _, rfl, rfl, by decide, rfl⟩

/-- Owned arithmetic and `zip_with`: the same for the arrays of the operand; the elements of the tensor are the
subject of C40. Missing: expressions with phantom rows, see C75_violated. -/
theorem C75_zip_partial (e : Expr σ β) (hb : Built e) (ht : TameClosures e) (f : T → β → M σ T)
    (hf : ∀ x y, (f x y).Tame) (s : σ) (o : Own T) (xs : List T) (h : Holds o xs)
    (hp : ∀ z, zipNew (view false (whole o.shape)) e = some z → NoPhantomRows z) :
    match zipWithE e f (s, o) with
    | .ok _ l _ => CanCast e o.shape.dims ∧ AllMoved e l ∧ Disposed l.expr
    | .panic l t => Disposed l.expr ∧
        ((¬ CanCast e o.shape.dims ∧ NoneMoved e l ∧ t.1 = s) ∨ (CanCast e o.shape.dims ∧ ∃ n, SomeMoved e n l))
    | .ub => False
    | .abort => False := by
  have hv : (whole o.shape).map.WF := Mapping.wf_dense.2 h.1
  have hr := C40_exact s o xs h e hb f hf fun z hz => ⟨tameRaw_of_closures (.zip (.view hv) hb hz) (by
    unfold zipNew at hz
    obtain ⟨z', -, rfl⟩ := Option.map_eq_some_iff.1 hz
    exact ⟨trivial, ht⟩), hp z hz⟩
  unfold M.Post at hr
  rw [← zipWithE_result e f (s, o)] at hr
  obtain ⟨h1, h2⟩ := viewLoop_moved hv hb (up_built (ρ := Nat) (up_built (ρ := Own T) hb))
    (by simp [dims]) (by simp) (by rw [owned_up, owned_up]) (noPhantom_up (noPhantom_up hp)) (zipStep f) ((s, o), 0)
    rfl
  have hE : zipWithE e f (s, o) =
      (Out.onPanic (viewLoop (whole o.shape) e e.up.up (zipStep f) ((s, o), 0)) (zipGuard o.shape.len)).scope := by
    show Out.scope (Out.onPanic _ _) = _
    unfold viewLoop whole
    cases zipNew (view false ⟨0, .dense o.shape⟩) (e.up.up : Expr ((σ × Own T) × Nat) β) <;> rfl
  rw [hE] at hr ⊢
  generalize viewLoop (whole o.shape) e e.up.up (zipStep f) ((s, o), 0) = r at hr h1 h2 ⊢
  cases r with
  | ok x l t => exact ⟨(h1 l t rfl).1, (h1 l t rfl).2, disposed_all (h1 l t rfl).2⟩
  | panic l t =>
    obtain ⟨h3, h4⟩ := h2 l t rfl
    unfold Out.onPanic at hr ⊢
    cases hg : zipGuard o.shape.len t with
    | ok x t' =>
      simp only [hg] at hr ⊢
      refine ⟨h3, ?_⟩
      rcases h4 with ⟨h4, h5, -⟩ | h4
      · rcases hr with ⟨-, h6, -⟩ | ⟨z, hz, -⟩
        · exact .inl ⟨h4, h5, h6⟩
        · exact absurd ((zipNew_view_isSome hv hb).1 (by rw [hz]; rfl)) h4
      · exact .inr h4
    | panic t' => simp only [hg] at hr; exact hr.elim
    | ub => simp only [hg] at hr; exact hr.elim
    | abort => simp only [hg] at hr; exact hr.elim
  | ub => exact hr
  | abort => exact hr

/-- C75_zip_partial: the elements of a `[2, 2]` tensor and of the array in the expression above are combined; the
panic is in the operand, when two elements of the array have been taken. (The first sum is leaked, see C40.) -/
example : Built halting ∧ TameClosures halting ∧ Holds tensor22 [1, 2, 3, 4] ∧
    (∀ z, zipNew (view false (whole tensor22.shape)) halting = some z → NoPhantomRows z) ∧
    ∃ l o, zipWithE halting (fun x y => M.pure (x + y)) ((), tensor22) = .panic l ((), o) ∧
      l.expr.owned = [(2, 4)] ∧ l.expr.dropE = some [[2, 3]] ∧ o.log = [2, 3, 4] :=
  ⟨halting_built, halting_tame, ⟨by decide, rfl, [], rfl⟩, fun z hz h => absurd h (by cases hz; decide), _, _, rfl, rfl, by decide, rfl⟩

/-- Assignment to a view, in all cases in which it is no undefined behaviour (see C29 for these). Missing:
expressions with phantom rows, see C75_violated. -/
theorem C75_assign_partial (v : View) (hv : v.map.WF) (e : Expr σ α) (hb : Built e) (c : α → M σ T)
    (hp : ∀ z, zipNew (view false v) e = some z → NoPhantomRows z) (s : σ) (m : List T) :
    match assignE v e c (s, m) with
    | .ok _ l _ => CanCast e v.dims ∧ AllMoved e l ∧ Disposed l.expr
    | .panic l t => Disposed l.expr ∧
        ((¬ CanCast e v.dims ∧ NoneMoved e l ∧ t = (s, m)) ∨ (CanCast e v.dims ∧ ∃ n, SomeMoved e n l))
    | .ub => assign v e c (s, m) = .ub
    | .abort => assign v e c (s, m) = .abort := by
  have hE := assignE_result v e c (s, m)
  obtain ⟨h1, h2⟩ := viewLoop_moved hv hb (up_built (ρ := List T) hb) (by simp [dims]) (by simp) (owned_up e)
    (noPhantom_up hp) (fun py => M.bind (M.up (c py.2)) fun x => writeMem py.1 x) (s, m) (r := assignE v e c (s, m)) (by
      unfold viewLoop assignE
      cases zipNew (view false v) (e.up : Expr (σ × List T) _) <;> rfl)
  cases hx : assignE v e c (s, m) with
  | ok x l t => exact ⟨(h1 l t hx).1, (h1 l t hx).2, disposed_all (h1 l t hx).2⟩
  | panic l t => exact h2 l t hx
  | ub => rw [hx] at hE; exact hE.symm
  | abort => rw [hx] at hE; exact hE.symm

/-- C75_assign_partial: assignment of an owned array to a strided view. -/
example : evens.map.WF ∧ Built halting ∧
    (∀ z, zipNew (view false evens) halting = some z → NoPhantomRows z) ∧
    ∃ l m, assignE evens halting M.pure ((), [0, 0, 0, 0, 0, 0, 0, 0]) = .panic l ((), m) ∧
      l.expr.owned = [(2, 4)] ∧ l.expr.dropE = some [[2, 3]] ∧ m = [10, 0, 0, 0, 0, 0, 0, 0] :=
  ⟨by decide, halting_built, fun z hz h => absurd h (by cases hz; decide), _, _, rfl, rfl, by decide, rfl⟩

/-- Compound assignment, in the same way (see C30). Missing: expressions with phantom rows, see C75_violated. -/
theorem C75_opAssign_partial (v : View) (hv : v.map.WF) (e : Expr σ β) (hb : Built e) (g : T → β → M σ T)
    (hp : ∀ z, zipNew (view false v) e = some z → NoPhantomRows z) (s : σ) (m : List T) :
    match opAssignE v e g (s, m) with
    | .ok _ l _ => CanCast e v.dims ∧ AllMoved e l ∧ Disposed l.expr
    | .panic l t => Disposed l.expr ∧
        ((¬ CanCast e v.dims ∧ NoneMoved e l ∧ t = (s, m)) ∨ (CanCast e v.dims ∧ ∃ n, SomeMoved e n l))
    | .ub => opAssign v e g (s, m) = .ub
    | .abort => opAssign v e g (s, m) = .abort := by
  have hE := opAssignE_result v e g (s, m)
  obtain ⟨h1, h2⟩ := viewLoop_moved hv hb (up_built (ρ := List T) hb) (by simp [dims]) (by simp) (owned_up e)
    (noPhantom_up hp) (fun py => M.bind (readMem py.1) fun x => M.bind (M.up (g x py.2)) fun x' => writeMem py.1 x') (s, m) (r := opAssignE v e g (s, m)) (by
      unfold viewLoop opAssignE
      cases zipNew (view false v) (e.up : Expr (σ × List T) _) <;> rfl)
  cases hx : opAssignE v e g (s, m) with
  | ok x l t => exact ⟨(h1 l t hx).1, (h1 l t hx).2, disposed_all (h1 l t hx).2⟩
  | panic l t => exact h2 l t hx
  | ub => rw [hx] at hE; exact hE.symm
  | abort => rw [hx] at hE; exact hE.symm

/-- C75_opAssign_partial: the function panics for the third element. -/
example : evens.map.WF ∧ Built strided ∧
    (∀ z, zipNew (view false evens) strided = some z → NoPhantomRows z) ∧
    ∃ l m, opAssignE evens strided (fun x y => if y.2 = 12 then M.panic else M.pure (x + y.2))
        ((), [1, 1, 1, 1, 1, 1, 1, 1]) = .panic l ((), m) ∧
      l.expr.owned = [(3, 4)] ∧ l.expr.dropE = some [[3]] ∧ m = [11, 1, 12, 1, 1, 1, 1, 1] := by
  refine ⟨by decide, ?_, fun z hz h => absurd h (by cases hz; decide), _, _, rfl, rfl, by decide, rfl⟩
  exact .zip (a := .view true evens) (b := .intoExpr ⟨.static [.dyn, .dyn], [2, 2]⟩ [10, 11, 12, 13] 0)
    (.view (by decide)) (.intoExpr (by decide) rfl) rfl

/-- An empty owned array of shape `[0, 2]`. -/
def emptied : Expr Unit Nat := .intoExpr ⟨.static [.dyn, .dyn], [0, 2]⟩ [] 0

/-- An empty strided view of shape `[0, 2]`. -/
def gap : View := ⟨0, .strided ⟨.static [.dyn, .dyn], [0, 2]⟩ [4, 2]⟩

/-- C75 is violated by the code as it is: assigning an empty owned array to an empty strided view reads elements
beyond the end of the array, as do compound assignment and conversion of the combined expression. -/
theorem C75_violated : gap.map.WF ∧ Built emptied ∧ TameClosures emptied ∧ CanCast emptied gap.dims ∧
    assignE gap emptied M.pure ((), [1, 2, 3, 4]) = .ub ∧
    opAssignE gap emptied (fun x y => M.pure (x + y)) ((), [1, 2, 3, 4]) = .ub ∧
    ∃ e : Expr Unit (Int × Nat), Built e ∧ TameClosures e ∧ zipNew (view true gap) emptied = some e ∧
      tensorFromExprE e ((), ⟨[], 0, ⟨.static [.dyn, .dyn], [0, 0]⟩, [], 100⟩) = .ub ∧
      arrayFromExprE (.static [.const 0, .const 2]) e
        ((), ⟨[], 0, ⟨.static [.dyn, .dyn], [0, 0]⟩, [], 100⟩) = .ub := by
  have hb : Built emptied := .intoExpr (s := ⟨.static [.dyn, .dyn], [0, 2]⟩) (by decide) rfl
  exact ⟨by decide, hb, trivial, ⟨List.suffix_refl _, fun _ => rfl⟩, rfl, rfl, _, .zip (a := .view true gap) (.view (by decide)) hb rfl,
    ⟨trivial, trivial⟩, rfl, rfl, rfl⟩

end Props
