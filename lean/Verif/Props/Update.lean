import Verif.Lemmas.Update
import Verif.Props.OwnedZip

/-! Changing elements in place (C79). -/

namespace Props
open Spec Model Model.Iter Model.Expr

variable {σ α β T : Type}

/-- A loop over an exclusive view and an expression that changes the elements in any way (compound assignment, `assign`,
`for_each` on the zip of both). If it returns, then each element of the view has been changed once, in row-major order
and together with the matching item, and nothing else; all elements of the arrays in the expression have been moved out.
If it panics then the elements before have been changed, the element for which the change panics is as the change left
it, and nothing else has been changed. There is no undefined behaviour. Missing: expressions with phantom rows, see
C79_violated. -/
theorem C79_update_partial (v : View) (m : List T) (hv : Exclusive v m.length) (e : Expr σ β) (hb : Built e)
    (ht : TameClosures e) (u : β → M (σ × T) Unit) (hu : ∀ y, (u y).Tame)
    (hp : ∀ z, zipNew (view false v) e = some z → NoPhantomRows z) (s : σ) :
    match updateE v e u (s, m) with
    | .ok _ l t => AllMoved e l ∧ Disposed l.expr ∧ ∃ z, zipNew (view false v) e = some z ∧
        ∃ ys, Ran (updated v m (operand z) u) (size v.dims) s ys t.1 ∧ Written v m ys t.2
    | .panic l t => Disposed l.expr ∧ ((¬ CanCast e v.dims ∧ NoneMoved e l ∧ t = (s, m)) ∨
        ∃ z, zipNew (view false v) e = some z ∧ ((BadFn z ∧ size v.dims = 0 ∧ NoneMoved e l ∧ t = (s, m)) ∨
          ∃ k, (SomeMoved e k l ∧ OperandStops v m (operand z) u s k t) ∨
            (Moved e (k + 1) l ∧ ChangeStops v m (operand z) u s k t)))
    | .ub => False
    | .abort => False := by
  have hw := wf_of_built hb
  have hsome := zipNew_view_isSome (σ := σ) hv.1 hb
  unfold updateE
  rw [show (view false v : Expr (σ × List T) Int) = (view false v : Expr σ Int).up from rfl, up_zipNew]
  cases hz : zipNew (view false v : Expr σ Int) e with
  | none =>
    rw [hz] at hsome
    exact ⟨disposed_none hw (l := ⟨e⟩) rfl, .inl ⟨fun h => by simpa using hsome.2 h, rfl, rfl⟩⟩
  | some z =>
    simp only [Option.map_some]
    have hbz : Built z := .zip (.view hv.1) hb hz
    have ho := zipNew_owned hz
    have hd : z.dims = v.dims := (zip_view hz).1
    by_cases he : BadFn z ∧ row z = 0
    · have hl := forEachE_bad hbz he.1 he.2 (fun py => updMem py.1 (u py.2)) (s, m)
      unfold Out.Post at hl
      cases hx : Expr.forEachE (z.up : Expr (σ × List T) (Int × β)) (fun py => updMem py.1 (u py.2)) (s, m) with
      | ok x l t => rw [hx] at hl; exact hl.elim
      | panic l t =>
        rw [hx] at hl
        have hn : NoneMoved e l := by have := hl.1; unfold NoneMoved at this ⊢; rw [this, ho]
        refine ⟨disposed_none hw hn, .inr ⟨z, rfl, .inl ⟨he.1, ?_, hn, hl.2⟩⟩⟩
        rw [← hd]
        rcases Nat.eq_zero_or_pos (size z.dims) with h0 | h0
        · exact h0
        · rw [size_split h0, he.2, Nat.mul_zero]
      | ub => rw [hx] at hl; exact hl
      | abort => rw [hx] at hl; exact hl
    · have hl := update_loopE hv hbz (fun h => Nat.pos_of_ne_zero fun h0 => he ⟨h, h0⟩) (hp z hz) hd
        (op := operand z) (mk := Prod.mk) (body := fun py => updMem py.1 (u py.2)) (u := u)
        (fun n hn p hpi => rawNth_zipView hv.1 hz hn hpi) (fun p y => rfl)
        (fun n hn => tame_operand hv.1 hb ht hz hn) hu s
      unfold Out.Post at hl
      cases hx : Expr.forEachE (z.up : Expr (σ × List T) (Int × β)) (fun py => updMem py.1 (u py.2)) (s, m) with
      | ok x l t =>
        rw [hx] at hl
        have h1 : AllMoved e l := by have := hl.1; unfold AllMoved at this ⊢; rw [this, ho]
        exact ⟨h1, disposed_all h1, z, rfl, hl.2⟩
      | panic l t =>
        rw [hx] at hl
        obtain ⟨k, hk, ⟨h1, h2⟩ | ⟨h1, h2⟩⟩ := hl
        · exact ⟨disposed_some (wf_of_built hbz) hk h1, .inr ⟨z, rfl, .inr ⟨k, .inl ⟨(someMoved_congr ho).1 h1, h2⟩⟩⟩⟩
        · refine ⟨disposed_some (wf_of_built hbz) hk (someMoved_of_moved h1), .inr ⟨z, rfl, .inr ⟨k, .inr ⟨?_, h2⟩⟩⟩⟩
          unfold Moved at h1 ⊢
          rw [h1, ho]
      | ub => rw [hx] at hl; exact hl
      | abort => rw [hx] at hl; exact hl

/-- Compound assignment with an operator that panics halfway, for the third index: it leaves 0 in the element. -/
example : Exclusive (swapped 2 2) 4 ∧ Built tens ∧ TameClosures tens ∧
    (∀ z, zipNew (view false (swapped 2 2)) tens = some z → NoPhantomRows z) ∧
    ∃ l m, updateE (swapped 2 2) tens (fun y s => if y = 30 then .panic (s.1, 0) else .ok () (s.1, s.2 + y))
        ((), [1, 2, 3, 4]) = .panic l ((), m) ∧ l.expr.owned = [(3, 4)] ∧ m = [11, 0, 23, 4] :=
  ⟨C29_reachable ⟨.static [.dyn, .dyn], [2, 2]⟩ (by decide) (fun d hd => by simp at hd; subst hd; decide)
    (by decide) true _ (.call .refl (.inr (by decide)) (.reorder (by decide))) [0, 0, 0, 0] rfl,
    .intoExpr (by decide) rfl, trivial, fun z hz h => absurd h (by cases hz; decide), _, _, rfl, rfl, rfl⟩

/-- A loop over the elements of an exclusive view (`fill`, `fill_with`, `for_each` on `expr_mut`), in the same way.
Missing: views with phantom rows. -/
theorem C79_each_partial (v : View) (m : List T) (hv : Exclusive v m.length) (u : M (σ × T) Unit) (hu : u.Tame)
    (hp : NoPhantomRows (view false v : Expr σ Int)) (s : σ) :
    match update v u (s, m) with
    | .ok _ t => ∃ ys, Ran (updated v m (fun _ => M.pure ()) fun _ : Unit => u) (size v.dims) s ys t.1 ∧
        Written v m ys t.2
    | .panic t => ∃ k, ChangeStops v m (fun _ => M.pure ()) (fun _ : Unit => u) s k t
    | .ub => False
    | .abort => False := by
  have hl := update_loopE (σ := σ) hv (z := view false v) (.view hv.1) (fun h => h.elim) hp rfl
    (op := fun _ => M.pure ()) (mk := fun p _ => p) (body := fun p => updMem p u) (u := fun _ : Unit => u)
    (fun n hn p hpi => by
      rw [View.index_eq _ hv.1, if_pos (show Valid v.dims (unrank v.dims n) from unrank_valid hn)] at hpi
      injection hpi with hpi
      have hvis : visited (view false v : Expr σ Int) = v.dims :=
        visited_of_pos (show 0 < size v.dims by omega)
      unfold rawNth
      simp only [rawItem, hvis, M.pure_bind]
      rw [hpi])
    (fun _ _ => rfl) (fun _ _ => M.tame_pure _) (fun _ => hu) s
  have hE := forEachE_result ((view false v : Expr σ Int).up : Expr (σ × List T) Int) (fun p => updMem p u) (s, m)
  unfold update
  unfold Out.Post at hl
  rw [show (view false v : Expr (σ × List T) Int) = (view false v : Expr σ Int).up from rfl, ← hE]
  cases hx : Expr.forEachE ((view false v : Expr σ Int).up : Expr (σ × List T) Int) (fun p => updMem p u) (s, m) with
  | ok x l t => rw [hx] at hl; exact hl.2
  | panic l t =>
    rw [hx] at hl
    obtain ⟨k, -, ⟨-, -, ys, t', -, h, -⟩ | ⟨-, h⟩⟩ := hl
    · cases h
    · exact ⟨k, h⟩
  | ub => rw [hx] at hl; exact hl
  | abort => rw [hx] at hl; exact hl

/-- `fill_with` where the closure panics the third time: the elements before are new, the others as before. -/
example : Exclusive (swapped 2 2) 4 ∧ NoPhantomRows (view false (swapped 2 2) : Expr Nat Int) ∧
    update (swapped 2 2) (fun s => if s.1 = 7 then .panic s else .ok () (s.1 + 1, 10 * s.1)) (5, [1, 2, 3, 4]) =
      .panic (7, [50, 2, 60, 4]) :=
  ⟨C29_reachable ⟨.static [.dyn, .dyn], [2, 2]⟩ (by decide) (fun d hd => by simp at hd; subst hd; decide)
    (by decide) true _ (.call .refl (.inr (by decide)) (.reorder (by decide))) [0, 0, 0, 0] rfl,
    fun h => absurd h (by decide), rfl⟩

/-! ### Values that are overwritten -/

/-- Assignment, with the values that it drops. If it returns, then the old value of each element of the view has been
dropped, once and in order, no other value has been dropped, and each value that was in the array or has been made is
in the array or has been dropped. If it panics, because of an operand, a clone or the destructor of an old value, the
same holds for the elements up to this one. Missing: expressions with phantom rows; destructors of the elements left in
the expression that panic (this aborts the process). -/
theorem C79_assign_drop_partial (bad : T → Bool) (v : View) (m : List T) (hv : Exclusive v m.length) (e : Expr σ α)
    (hb : Built e) (ht : TameClosures e) (c : α → M σ T) (hc : ∀ y, (c y).Tame)
    (hp : ∀ z, zipNew (view false v) e = some z → NoPhantomRows z) (s : σ) (log : List T) :
    match assignDropE bad v e c ((s, log), m) with
    | .ok _ l t => AllMoved e l ∧ Disposed l.expr ∧ Quiet bad v m (size v.dims) ∧
        ∃ z, zipNew (view false v) e = some z ∧ ∃ ys,
          Ran (fun n => M.bind (operand z n) c) (size v.dims) s ys t.1.1 ∧ Replaced v m log ys t.2 t.1.2
    | .panic l t => Disposed l.expr ∧ ((¬ CanCast e v.dims ∧ NoneMoved e l ∧ t = ((s, log), m)) ∨
        ∃ z, zipNew (view false v) e = some z ∧
          ((BadFn z ∧ size v.dims = 0 ∧ NoneMoved e l ∧ t = ((s, log), m)) ∨
          ∃ k, SomeMoved e k l ∧ OverwriteStops bad v m (fun n => M.bind (operand z n) c) s log k t))
    | .ub => False
    | .abort => False := by
  have hd : (e.up : Expr (σ × List T) α).dims = e.dims := by rw [dims, dims, up_shape]
  have hzup : ∀ z', zipNew (view false v) (e.up : Expr (σ × List T) α) = some z' → ∃ z,
      zipNew (view false v) e = some z ∧ z' = z.up := by
    intro z' hz'
    rw [show (view false v : Expr (σ × List T) Int) = (view false v : Expr σ Int).up from rfl, up_zipNew] at hz'
    obtain ⟨z, h1, h2⟩ := Option.map_eq_some_iff.1 hz'
    exact ⟨z, h1, h2.symm⟩
  have hop : ∀ z : Expr σ (Int × α), operand (z.up : Expr (σ × List T) (Int × α)) = fun n => M.up (operand z n) := by
    intro z
    funext n
    unfold operand
    rw [up_rawNth, M.up_bind]
    rfl
  have h := C79_update_partial v m hv (e.up : Expr (σ × List T) α) (up_built hb) (up_tameClosures ht)
    (fun y => M.bind (M.up (M.up (c y))) (overwrite bad)) (fun y => (M.tame_up (M.tame_up (hc y))).bind fun x s => by
      show M.Post _ _ _ _
      unfold M.Post overwrite
      by_cases h : bad s.2 <;> simp [h]) (fun z' hz' => by
        obtain ⟨z, h1, rfl⟩ := hzup z' hz'
        have := hp z h1
        unfold NoPhantomRows at this ⊢
        rwa [dims, up_shape, up_outerRank]) (s, log)
  unfold assignDropE
  cases hx : updateE v (e.up : Expr (σ × List T) α) (fun y => M.bind (M.up (M.up (c y))) (overwrite bad))
      ((s, log), m) with
  | ok x l t =>
    rw [hx] at h
    obtain ⟨h1, h2, z', h3, ys, h4, h5⟩ := h
    obtain ⟨z, h6, rfl⟩ := hzup z' h3
    rw [hop] at h4
    obtain ⟨g1, olds, g2, g3, g4⟩ := ran_drops h4
    refine ⟨by unfold AllMoved at h1 ⊢; rw [h1, owned_up], h2, quiet_of g2 g4, z, h6, ys, g1, ?_⟩
    rw [g3]
    exact replaced_of hv h4.length.le h5 (by rw [h4.length]; exact g2)
  | panic l t =>
    rw [hx] at h
    obtain ⟨h1, ⟨h2, h3, h4⟩ | ⟨z', h3, h4⟩⟩ := h
    · refine ⟨h1, .inl ⟨fun hcc => h2 ?_, by unfold NoneMoved at h3 ⊢; rw [h3, owned_up], h4⟩⟩
      unfold CanCast
      rw [hd, up_repeatable]
      exact hcc
    · obtain ⟨z, h6, rfl⟩ := hzup z' h3
      refine ⟨h1, .inr ⟨z, h6, ?_⟩⟩
      rw [hop] at h4
      rcases h4 with ⟨g1, g2, g3, g4⟩ | ⟨k, ⟨g1, g2⟩ | ⟨g1, g2⟩⟩
      · exact .inl ⟨up_badFn.1 g1, g2, by unfold NoneMoved at g3 ⊢; rw [g3, owned_up], g4⟩
      · exact .inr ⟨k, by unfold SomeMoved at g1 ⊢; rwa [owned_up] at g1, stops_drops hv (.inl g2)⟩
      · refine .inr ⟨k, ?_, stops_drops hv (.inr g2)⟩
        have := someMoved_of_moved g1
        unfold SomeMoved at this ⊢
        rwa [owned_up] at this
  | ub => rw [hx] at h; exact h
  | abort => rw [hx] at h; exact h

/-- The destructor of the second element panics: two elements have been replaced and dropped, and two moved out. -/
example : ∃ l, assignDropE (· == 3) (swapped 2 2) tens M.pure (((), []), [1, 2, 3, 4]) =
    .panic l (((), [1, 3]), [10, 2, 20, 4]) ∧ l.expr.owned = [(2, 4)] := ⟨_, rfl, rfl⟩

/-- `fill` and `fill_with`, in the same way. -/
theorem C79_fill_drop_partial (bad : T → Bool) (v : View) (m : List T) (hv : Exclusive v m.length) (f : M σ T)
    (hf : f.Tame) (hp : NoPhantomRows (view false v : Expr σ Int)) (s : σ) (log : List T) :
    match fillDrop bad v f ((s, log), m) with
    | .ok _ t => Quiet bad v m (size v.dims) ∧ ∃ ys, Ran (fun _ => f) (size v.dims) s ys t.1.1 ∧
        Replaced v m log ys t.2 t.1.2
    | .panic t => ∃ k, OverwriteStops bad v m (fun _ => f) s log k t
    | .ub => False
    | .abort => False := by
  have h := C79_each_partial v m hv (M.bind (M.up (M.up f)) (overwrite bad)) ((M.tame_up (M.tame_up hf)).bind fun x s => by
      show M.Post _ _ _ _
      unfold M.Post overwrite
      by_cases h : bad s.2 <;> simp [h]) hp (s, log)
  unfold fillDrop
  cases hx : update v (M.bind (M.up (M.up f)) (overwrite bad)) ((s, log), m) with
  | ok x t =>
    rw [hx] at h
    obtain ⟨ys, h4, h5⟩ := h
    obtain ⟨g1, olds, g2, g3, g4⟩ := ran_drops (op := fun _ => M.pure ()) (c := fun _ : Unit => f) h4
    refine ⟨quiet_of g2 g4, ys, g1, ?_⟩
    rw [g3]
    exact replaced_of hv h4.length.le h5 (by rw [h4.length]; exact g2)
  | panic t =>
    rw [hx] at h
    obtain ⟨k, h⟩ := h
    exact ⟨k, stops_drops hv (op := fun _ => M.pure ()) (c := fun _ : Unit => f) (.inr h)⟩
  | ub => rw [hx] at h; exact h
  | abort => rw [hx] at h; exact h

example : fillDrop (fun _ => false) (swapped 2 2) (fun s => if s = 7 then .panic s else .ok (10 * s) (s + 1))
    ((5, [9]), [1, 2, 3, 4]) = .panic ((7, [9, 1, 3]), [50, 2, 60, 4]) := rfl

/-- C79 is violated by the code as it is: for an empty strided view elements are changed that are not in the view, or do
not exist. -/
theorem C79_violated : gap.map.WF ∧ size gap.dims = 0 ∧
    (∃ t, fillDrop (fun _ => false) gap (M.pure 7 : M Unit Nat) (((), []), [1, 2, 3, 4]) = .ok () t ∧
      t = (((), [1, 3]), [7, 2, 7, 4])) ∧
    fillDrop (fun _ => false) gap (M.pure 7 : M Unit Nat) (((), []), []) = .ub ∧
    assignDropE (fun _ => false) gap emptied M.pure (((), []), [1, 2, 3, 4]) = .ub :=
  ⟨by decide, by decide, ⟨_, rfl, rfl⟩, rfl, rfl⟩

end Props
