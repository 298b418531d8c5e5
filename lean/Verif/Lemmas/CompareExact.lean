import Verif.Lemmas.Compare
import Verif.Lemmas.Phantom
import Verif.Model.Slice
import Verif.Model.Serde

namespace Model
open Spec Model.Expr Model.Iter

variable {σ A : Type}

theorem panic_bind {α β : Type} (f : α → M σ β) : M.bind (M.panic : M σ α) f = M.panic := rfl

/-- The state of the iterator over the rows of a view. -/
theorem new_axis {v : View} {m : Mapping} {d : Nat} (hm : m.dims = [d]) :
    Iter.new (Expr.axis true v (.const 0) m 0 : Expr σ View) =
      ⟨Expr.axis true v (.const 0) m 0, 0, d, [], []⟩ := by
  have hd : (Expr.axis true v (.const 0) m 0 : Expr σ View).dims = [d] := hm
  have hor : (Expr.axis true v (.const 0) m 0 : Expr σ View).outerRank = 0 := by
    change (Expr.axis true v (.const 0) m 0 : Expr σ View).dims.length - 1 = 0
    rw [hd]; rfl
  unfold Iter.new
  simp [hor, hd]

theorem get_axis_zero {v : View} {m : Mapping} (hv : v.map.WF) (h : 0 < v.dims.length)
    (ho : ¬ NoOverflow usizeMax v.dims.tail) (i : Nat) :
    (Expr.axis true v (.const 0) m 0 : Expr σ View).get i = M.panic := by
  simp only [Expr.get]
  have hp : axisPos (.const 0) v.map.dims.length = some 0 := by
    show axisPos (.const 0) v.dims.length = _
    simp [axisPos, h]
  rw [Axis.removeMap_eq (.const 0) _ hv, hp]
  simp only [Option.bind_eq_bind, Option.bind_some, Shape.checkedLen_eq]
  have hne : ¬ NoOverflow usizeMax (Mapping.mk ((Axis.const 0).remove v.map.shape.ty) (v.map.dims.eraseIdx 0)
      (v.map.strides.eraseIdx 0) ((Axis.const 0).split v.map.shape.ty v.map.layout)).shape.dims := by
    change ¬ NoOverflow usizeMax (Mapping.mk _ _ _ _).dims
    rw [Mapping.mk_dims, List.eraseIdx_zero]; exact ho
  rw [if_neg hne]
  rfl

/-- The first step of the iterator over the rows of a view: a panic if the length of a row overflows,
otherwise the first row. -/
theorem next_axis {v : View} {m : Mapping} {d : Nat} {ds : List Nat} (hv : v.map.WF)
    (he : (axisNew true v (.const 0) : Option (Expr σ View)) = some (.axis true v (.const 0) m 0))
    (hd : v.dims = d :: ds) (h0 : 0 < d) (hm : m.dims = [d]) :
    (¬ NoOverflow usizeMax ds →
      (Iter.new (Expr.axis true v (.const 0) m 0 : Expr σ View)).next = M.panic) ∧
    (NoOverflow usizeMax ds → ∃ v' it, v'.map.WF ∧ v'.dims = ds ∧ v.axisAt (.const 0) 0 = some v' ∧
      (Iter.new (Expr.axis true v (.const 0) m 0 : Expr σ View)).next = M.pure (some v', it)) := by
  have hl : 0 < v.dims.length := by rw [hd]; simp
  constructor
  · intro ho
    rw [new_axis hm]
    unfold Iter.next
    simp only
    rw [if_neg (show ¬ 0 = d by omega), get_axis_zero hv hl (by rw [hd]; exact ho)]
    rfl
  · intro ho
    have hb := Built.axis (σ := σ) hv he
    have hs : Sound (Expr.axis true v (.const 0) m 0 : Expr σ View) :=
      axis_sound fun _ => by rw [hd]; exact ho
    obtain ⟨v', hv', hw', hd', -⟩ := row_zero hv hl (i := 0) (by rw [hd]; exact h0)
    refine ⟨v', iterN (Expr.axis true v (.const 0) m 0) (0 + 1), hw', by rw [hd', hd]; rfl, hv', ?_⟩
    have hdm : (Expr.axis true v (.const 0) m 0 : Expr σ View).dims = [d] := hm
    rw [new_eq (wf_of_built hb) hs, show iterAt (Expr.axis true v (.const 0) m 0 : Expr σ View) 0 0 0 =
      iterN _ 0 from rfl, next_iterN (wf_of_built hb) hs (by rw [hdm]; simp [size]; exact h0), hdm,
      show unrank [d] 0 = [0] by simp [unrank, size], item]
    simp only [List.getD_cons_zero, hv', orUb, M.pure_bind]

/-- What is left of the condition for the rows. -/
theorem not_rowsFit {ds : List Nat} (h : ¬ RowsFit ds) : ∃ d t, ds = d :: t ∧ 0 < d ∧
    (NoOverflow usizeMax t → ¬ RowsFit t ∧ 2 ≤ t.length) := by
  cases ds with
  | nil =>
    exfalso; apply h
    intro k _ _
    rw [List.drop_nil]
    intro i _
    simp [size, usizeMax]
  | cons d t =>
    have hpos : 0 < d := by
      by_contra hd
      apply h
      intro k hk hp
      exact absurd (hp d (by obtain ⟨k, rfl⟩ := Nat.exists_eq_succ_of_ne_zero (Nat.ne_of_gt hk); simp)) hd
    refine ⟨d, t, rfl, hpos, fun ho => ?_⟩
    have hr : ¬ RowsFit t := by
      intro hr
      apply h
      intro k hk hp
      obtain ⟨k, rfl⟩ := Nat.exists_eq_succ_of_ne_zero (Nat.ne_of_gt hk)
      rcases Nat.eq_zero_or_pos k with rfl | hk'
      · exact ho
      · exact hr k hk' fun x hx => hp x (by rw [Nat.succ_eq_add_one, List.take_succ_cons]; simp [hx])
    refine ⟨hr, ?_⟩
    by_contra hlt
    apply hr
    intro k hk _
    rw [List.drop_eq_nil_of_le (by omega)]
    intro i _
    simp [size, usizeMax]

theorem rowsFit_short {ds : List Nat} (h : ds.length < 2) : RowsFit ds := by
  intro k hk _
  rw [List.drop_eq_nil_of_le (by omega)]
  intro i _
  simp [size, usizeMax]

theorem bound_pos {α : Type} (it : Iter σ α) : ∃ n, it.bound = n + 1 := ⟨_, rfl⟩

theorem not_dense_row {v v' : View} (hv : v.map.WF) (h : ¬ v.map.isDense = true)
    (hr : v.axisAt (.const 0) 0 = some v') : ¬ v'.map.isDense = true := by
  rw [View.axisAt_eq v hv] at hr
  obtain ⟨p, -, hr⟩ := Option.bind_eq_some_iff.1 hr
  split at hr
  swap
  · cases hr
  · injection hr with hr
    rw [← hr, Mapping.isDense_iff, Mapping.mk_layout]
    rw [Mapping.isDense_iff] at h
    show ¬ v.layout = .dense
    exact h

/-- Comparison panics before any element is looked at. -/
theorem eqLoop_panic (cmp : Int → Int → M σ Bool) : ∀ (fuel : Nat) (v w : View), v.map.WF → w.map.WF →
    v.dims = w.dims → v.dims.length < fuel → ¬ (v.map.isDense = true ∧ w.map.isDense = true) →
    ¬ RowsFit v.dims → eqLoop cmp fuel v w = M.panic := by
  intro fuel
  induction fuel with
  | zero => intro v w _ _ _ h; omega
  | succ fuel ih =>
    intro v w hv hw hd hlen hdense hfit
    have hr : ¬ v.map.rank < 2 := fun h => hfit (rowsFit_short h)
    rw [eqLoop, if_pos hd, if_neg hdense, if_neg hr]
    obtain ⟨d, t, hdt, h0, hrest⟩ := not_rowsFit hfit
    have hl : 0 < v.dims.length := by rw [hdt]; simp
    have hwt : w.dims = d :: t := by rw [← hd, hdt]
    obtain ⟨m, he, hm⟩ := axisNew_zero (σ := σ) hv hl
    obtain ⟨m', he', hm'⟩ := axisNew_zero (σ := σ) hw (by rw [← hd]; exact hl)
    rw [hdt] at hm
    rw [hwt] at hm'
    change m.dims = [d] at hm
    change m'.dims = [d] at hm'
    rw [he, he', M.lift_some, M.lift_some, M.pure_bind, M.pure_bind]
    obtain ⟨n, hn⟩ := bound_pos (Iter.new (Expr.axis true v (.const 0) m 0 : Expr σ View))
    rw [hn, iterEq]
    by_cases ho : NoOverflow usizeMax t
    · obtain ⟨v', it, hvw, hvd, hva, hvn⟩ := (next_axis hv he hdt h0 hm).2 ho
      obtain ⟨w', it', hww, hwd, hwa, hwn⟩ := (next_axis hw he' hwt h0 hm').2 ho
      rw [hvn, hwn, M.pure_bind, M.pure_bind]
      show M.bind (eqLoop cmp fuel v' w') _ = _
      rw [ih v' w' hvw hww (by rw [hvd, hwd]) (by rw [hvd]; rw [hdt] at hlen; simp at hlen; omega) ?_
        (by rw [hvd]; exact (hrest ho).1)]
      · rfl
      · rintro ⟨h1, h2⟩
        apply hdense
        constructor
        · by_contra h; exact not_dense_row hv h hva h1
        · by_contra h; exact not_dense_row hw h hwa h2
    · rw [(next_axis hv he hdt h0 hm).1 ho]
      rfl

theorem containsLoop_panic (f : Int → M σ Bool) : ∀ (fuel : Nat) (v : View), v.map.WF →
    v.dims.length < fuel → ¬ v.map.isDense = true →
    ¬ RowsFit v.dims → containsLoop f fuel v = M.panic := by
  intro fuel
  induction fuel with
  | zero => intro v _ h; omega
  | succ fuel ih =>
    intro v hv hlen hdense hfit
    have hr : ¬ v.map.rank < 2 := fun h => hfit (rowsFit_short h)
    rw [containsLoop, if_neg hdense, if_neg hr]
    obtain ⟨d, t, hdt, h0, hrest⟩ := not_rowsFit hfit
    have hl : 0 < v.dims.length := by rw [hdt]; simp
    obtain ⟨m, he, hm⟩ := axisNew_zero (σ := σ) hv hl
    rw [hdt] at hm
    change m.dims = [d] at hm
    rw [he, M.lift_some, M.pure_bind]
    obtain ⟨n, hn⟩ := bound_pos (Iter.new (Expr.axis true v (.const 0) m 0 : Expr σ View))
    rw [hn, iterAny]
    by_cases ho : NoOverflow usizeMax t
    · obtain ⟨v', it, hvw, hvd, hva, hvn⟩ := (next_axis hv he hdt h0 hm).2 ho
      rw [hvn, M.pure_bind]
      show M.bind (containsLoop f fuel v') _ = _
      rw [ih v' hvw (by rw [hvd]; rw [hdt] at hlen; simp at hlen; omega) (not_dense_row hv hdense hva)
        (by rw [hvd]; exact (hrest ho).1)]
      rfl
    · rw [(next_axis hv he hdt h0 hm).1 ho]
      rfl

theorem debugLoop_panic (fmt : Int → M σ A) : ∀ (fuel : Nat) (v : View), v.map.WF →
    v.dims.length < fuel → ¬ RowsFit v.dims → debugLoop fmt fuel v = M.panic := by
  intro fuel
  induction fuel with
  | zero => intro v _ h; omega
  | succ fuel ih =>
    intro v hv hlen hfit
    obtain ⟨d, t, hdt, h0, hrest⟩ := not_rowsFit hfit
    have hl : 0 < v.dims.length := by rw [hdt]; simp
    obtain ⟨m, he, hm⟩ := axisNew_zero (σ := σ) hv hl
    rw [debugLoop, if_neg (show ¬ v.map.rank = 0 by show ¬ v.dims.length = 0; omega)]
    rw [hdt] at hm
    change m.dims = [d] at hm
    rw [he, M.lift_some, M.pure_bind]
    obtain ⟨n, hn⟩ := bound_pos (Iter.new (Expr.axis true v (.const 0) m 0 : Expr σ View))
    show M.bind (forCollect _ (Iter.new _).bound (Iter.new _)) _ = _
    rw [hn, forCollect]
    by_cases ho : NoOverflow usizeMax t
    · obtain ⟨v', it, hvw, hvd, hva, hvn⟩ := (next_axis hv he hdt h0 hm).2 ho
      rw [hvn, M.pure_bind]
      show M.bind (M.bind (debugLoop fmt fuel v') _) _ = _
      rw [ih v' hvw (by rw [hvd]; rw [hdt] at hlen; simp at hlen; omega) (by rw [hvd]; exact (hrest ho).1)]
      rfl
    · rw [(next_axis hv he hdt h0 hm).1 ho]
      rfl

theorem serRank_panic (enc : Int → M σ (Val A)) : ∀ (rank : Nat) (v : View), v.map.WF →
    v.dims.length = rank → ¬ RowsFit v.dims → serRank enc rank v = M.panic := by
  intro rank
  induction rank with
  | zero => intro v _ h hf; exact absurd (rowsFit_short (by omega)) hf
  | succ rank ih =>
    intro v hv hlen hfit
    obtain ⟨d, t, hdt, h0, hrest⟩ := not_rowsFit hfit
    have hl : 0 < v.dims.length := by rw [hdt]; simp
    obtain ⟨m, he, hm⟩ := axisNew_zero (σ := σ) hv hl
    have hdim : v.map.dim 0 = some d := by
      show v.dims[0]? = _
      rw [hdt]; rfl
    rw [serRank, hdim, M.lift_some, M.pure_bind]
    rw [hdt] at hm
    change m.dims = [d] at hm
    rw [he, M.lift_some, M.pure_bind]
    obtain ⟨n, hn⟩ := bound_pos (Iter.new (Expr.axis true v (.const 0) m 0 : Expr σ View))
    show M.bind (forCollect _ (Iter.new _).bound (Iter.new _)) _ = _
    rw [hn, forCollect]
    by_cases ho : NoOverflow usizeMax t
    · obtain ⟨v', it, hvw, hvd, hva, hvn⟩ := (next_axis hv he hdt h0 hm).2 ho
      rw [hvn, M.pure_bind]
      show M.bind (M.bind (serRank enc rank v') _) _ = _
      rw [ih v' hvw (by rw [hvd]; rw [hdt] at hlen; simpa using hlen) (by rw [hvd]; exact (hrest ho).1)]
      rfl
    · rw [(next_axis hv he hdt h0 hm).1 ho]
      rfl

end Model
