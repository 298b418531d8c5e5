import Verif.Lemmas.OwnedZip
import Verif.Props.OwnedAssign

/-! Owned arithmetic and `zip_with` for operands that own arrays, with the item in which it panics (C75). -/

namespace Props
open Spec Model Model.Iter Model.Expr

variable {σ β T : Type}

/-- If owned arithmetic or `zip_with` returns, then all elements of the arrays in the operand have been moved out, and
the tensor holds the results. If the shapes do not fit then none are moved out, and all elements of the tensor are
dropped. If it panics in item `k`, then the arrays drop exactly the elements that have not been moved out; if the panic
is in the function then exactly `k + 1` have been moved out of each. There is no undefined behaviour. (The elements of
the tensor that are dropped or leaked are those in C40.) Missing: expressions with phantom rows. -/
theorem C75_zip_item_partial (e : Expr σ β) (hb : Built e) (ht : TameClosures e) (f : T → β → M σ T)
    (hf : ∀ x y, (f x y).Tame) (s : σ) (o : Own T) (xs : List T) (h : Holds o xs)
    (hp : ∀ z, zipNew (view false (whole o.shape)) e = some z → NoPhantomRows z) :
    match zipWithE e f (s, o) with
    | .ok _ l t => AllMoved e l ∧ Disposed l.expr ∧ ∃ z, zipNew (view false (whole o.shape)) e = some z ∧ ∃ ys,
        Ran (zipResult xs (operand z) f) (size o.shape.dims) s ys t.1 ∧ Holds t.2 ys ∧
          t.2.shape = o.shape ∧ t.2.log = o.log
    | .panic l t => Disposed l.expr ∧
        ((¬ CanCast e o.shape.dims ∧ NoneMoved e l ∧ t.1 = s ∧ t.2.log = o.log ++ xs) ∨
        ∃ z, zipNew (view false (whole o.shape)) e = some z ∧
          ((BadFn z ∧ size o.shape.dims = 0 ∧ NoneMoved e l ∧ t.1 = s ∧ t.2.log = o.log) ∨ ∃ k ys,
          (Moved e (k + 1) l ∧ ZipStops (size o.shape.dims) xs (operand z) f s k ys t.1 false ∧
            t.2.log = o.log ++ ys ++ xs.drop (k + 1)) ∨
          (SomeMoved e k l ∧ ZipStops (size o.shape.dims) xs (operand z) f s k ys t.1 true ∧
            t.2.log = o.log ++ ys.take (k - 1) ++ xs.drop k)))
    | .ub => False
    | .abort => False := by
  have hv : (whole o.shape).map.WF := Mapping.wf_dense.2 h.1
  have hw := wf_of_built hb
  obtain ⟨rest, hc⟩ := h.2.2
  replace hc := hc.symm
  have hlen : Shape.len o.shape = xs.length := by rw [Shape.len_eq, h.2.1]
  have hguard : ∀ {n : Nat} {t : σ} {o' : Own T} {as bs : List T} {gap : List (Option T)},
      o'.cells = as.map some ++ gap ++ bs.map some ++ rest → as.length = n - 1 → as.length + gap.length = n →
      xs.length - n = bs.length → ∃ t', zipGuard o.shape.len ((t, o'), n) = .ok () t' ∧ t'.1.1 = t ∧
        t'.1.2.log = o'.log ++ as ++ bs := by
    intro n t o' as bs gap h1 h2 h3 h4
    have := post_zipGuard (s := t) (len := o.shape.len) (R := fun _ => False) h1 h2 h3 (by rw [hlen]; exact h4)
    unfold M.Post at this
    cases hg : zipGuard o.shape.len ((t, o'), n) with
    | ok x t' => rw [hg] at this; exact ⟨t', rfl, this.1, this.2.1⟩
    | panic t' => rw [hg] at this; exact this.elim
    | ub => rw [hg] at this; exact this.elim
    | abort => rw [hg] at this; exact this.elim
  obtain ⟨u0, hu0, hu1, hu2⟩ := hguard (n := 0) (t := s) (o' := o) (as := []) (bs := xs) (gap := [])
    (by simp [hc]) rfl rfl rfl
  have hE : zipWithE e f (s, o) =
      (Out.onPanic (viewLoop (whole o.shape) e e.up.up (zipStep f) ((s, o), 0)) (zipGuard o.shape.len)).scope := by
    show Out.scope (Out.onPanic _ _) = _
    unfold viewLoop whole
    cases zipNew (view false ⟨0, .dense o.shape⟩) (e.up.up : Expr ((σ × Own T) × Nat) β) <;> rfl
  rw [hE]
  unfold viewLoop
  rw [show (view false (whole o.shape) : Expr ((σ × Own T) × Nat) Int) =
    ((view false (whole o.shape) : Expr σ Int).up : Expr (σ × Own T) Int).up from rfl, up_zipNew, up_zipNew]
  cases hz : zipNew (view false (whole o.shape) : Expr σ Int) e with
  | none =>
    have hcc : ¬ CanCast e o.shape.dims := fun h => by
      have := (zipNew_view_isSome (σ := σ) hv hb).2 h
      rw [hz] at this
      cases this
    simp only [Option.map_none, Out.onPanic, hu0, Out.scope]
    exact ⟨disposed_none hw (l := ⟨e⟩) rfl, .inl ⟨hcc, rfl, hu1, by rw [hu2]; simp⟩⟩
  | some z =>
    simp only [Option.map_some]
    have hbz : Built z := .zip (.view hv) hb hz
    have ho := zipNew_owned hz
    have hd : z.dims = o.shape.dims := (zip_view hz).1
    have htz : TameClosures z := by
      unfold zipNew at hz
      obtain ⟨z', -, rfl⟩ := Option.map_eq_some_iff.1 hz
      exact ⟨trivial, ht⟩
    have hnone : ∀ l, NoneMoved z l → NoneMoved e l := fun l h => by unfold NoneMoved at h ⊢; rw [h, ho]
    by_cases he : BadFn z ∧ row z = 0
    · have h0 : size z.dims = 0 := by
        rcases Nat.eq_zero_or_pos (size z.dims) with h0 | h0
        · exact h0
        · rw [size_split h0, he.2, Nat.mul_zero]
      have hxs : xs = [] := List.length_eq_zero_iff.1 (by rw [h.2.1, ← hd, h0])
      have hl := forEachE_bad (ρ := Nat) (e := (z.up : Expr (σ × Own T) (Int × β))) (up_built hbz)
        (up_badFn.2 he.1) (by rw [← he.2]; simp [row, Expr.dims]) (zipStep f) ((s, o), 0)
      unfold Out.Post at hl
      cases hx : Expr.forEachE (z.up.up : Expr ((σ × Own T) × Nat) (Int × β)) (zipStep f) ((s, o), 0) with
      | ok x l t => rw [hx] at hl; exact hl.elim
      | panic l t =>
        rw [hx] at hl
        obtain ⟨hn, rfl⟩ := hl
        have hn' : NoneMoved e l := by
          unfold NoneMoved at hn ⊢
          rw [hn, owned_up, ho]
        simp only [Out.onPanic, hu0, Out.scope]
        exact ⟨disposed_none hw hn', .inr ⟨z, rfl, .inl ⟨he.1, by rw [← hd, h0], hn', hu1, by rw [hu2, hxs]; simp⟩⟩⟩
      | ub => rw [hx] at hl; exact hl.elim
      | abort => rw [hx] at hl; exact hl.elim
    · have hl := zip_loopE h hc hb hz (tameRaw_of_closures hbz htz) (fun h => Nat.pos_of_ne_zero fun h0 => he ⟨h, h0⟩)
        (hp z hz) hf s
      unfold Out.Post at hl
      cases hx : Expr.forEachE (z.up.up : Expr ((σ × Own T) × Nat) (Int × β)) (zipStep f) ((s, o), 0) with
      | ok x l t =>
        rw [hx] at hl
        obtain ⟨h1, ys, h2, h3⟩ := hl
        have h1' : AllMoved e l := by unfold AllMoved at h1 ⊢; rw [h1, ho]
        simp only [Out.onPanic, Out.scope]
        refine ⟨h1', disposed_all h1', z, rfl, ys, h2, ?_⟩
        rw [h3]
        exact ⟨⟨h.1, h2.length, rest, rfl⟩, rfl, rfl⟩
      | panic l t =>
        rw [hx] at hl
        obtain ⟨k, ys, hk, ⟨h1, h2, h3, h4, h5⟩ | ⟨h1, h2, h3, h4, h5⟩⟩ := hl
        · obtain ⟨⟨t1, o'⟩, n⟩ := t
          simp only at h2 h3 h4 h5
          subst h3
          have hyl : ys.length = k := by obtain ⟨-, t0, hr, -⟩ := h2; exact hr.length
          obtain ⟨u, hg, g1, g2⟩ := hguard (n := k + 1) (t := t1) (o' := o') (as := ys) (bs := xs.drop (k + 1))
            (gap := [none]) (by rw [h4]; simp) (by omega) (by simp [hyl]) (by rw [List.length_drop])
          simp only [Out.onPanic, hg, Out.scope]
          refine ⟨disposed_some (wf_of_built hbz) hk (someMoved_of_moved h1), .inr ⟨z, rfl, .inr ⟨k, ys, .inl ⟨?_, ?_, ?_⟩⟩⟩⟩
          · unfold Moved at h1 ⊢; rw [h1, ho]
          · rw [g1]; exact h2
          · rw [g2, h5]
        · obtain ⟨⟨t1, o'⟩, n⟩ := t
          simp only at h2 h3 h4 h5
          subst h3
          have hyl : ys.length = n := by obtain ⟨-, t0, hr, -⟩ := h2; exact hr.length
          obtain ⟨u, hg, g1, g2⟩ := hguard (n := n) (t := t1) (o' := o') (as := ys.take (n - 1)) (bs := xs.drop n)
            (gap := (ys.drop (n - 1)).map some)
            (by rw [h4, ← List.map_append (l₁ := ys.take (n - 1)), List.take_append_drop])
            (by rw [List.length_take]; omega) (by rw [List.length_map, List.length_take, List.length_drop]; omega)
            (by rw [List.length_drop])
          simp only [Out.onPanic, hg, Out.scope]
          refine ⟨disposed_some (wf_of_built hbz) hk h1, .inr ⟨z, rfl, .inr ⟨n, ys, .inr ⟨(someMoved_congr ho).1 h1, ?_, ?_⟩⟩⟩⟩
          · rw [g1]; exact h2
          · rw [g2, h5]
      | ub => rw [hx] at hl; exact hl.elim
      | abort => rw [hx] at hl; exact hl.elim

/-- The elements of an owned `[2, 2]` array. -/
def tens : Expr Unit Nat := .intoExpr ⟨.static [.dyn, .dyn], [2, 2]⟩ [10, 20, 30, 40] 0

/-- C75_zip_item_partial: the function panics for the third element; three elements have been moved out. -/
example : Built tens ∧ TameClosures tens ∧ Holds tensor22 [1, 2, 3, 4] ∧
    (∀ z, zipNew (view false (whole tensor22.shape)) tens = some z → NoPhantomRows z) ∧
    ∃ l o, zipWithE tens (fun x y => if x = 3 then M.panic else M.pure (x + y)) ((), tensor22) = .panic l ((), o) ∧
      l.expr.owned = [(3, 4)] ∧ l.expr.dropE = some [[3]] ∧ o.log = [11, 22, 4] :=
  ⟨.intoExpr (by decide) rfl, trivial, ⟨by decide, rfl, [], rfl⟩, fun z hz h => absurd h (by cases hz; decide),
    _, _, rfl, rfl, by decide, rfl⟩

end Props
