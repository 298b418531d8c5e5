import Verif.Lemmas.Serde
import Verif.Lemmas.Compare

namespace Model
open Spec Model.Expr Model.Iter

variable {σ α β A T : Type} {de : Val A → Option T}

theorem forCollect_iterN {e : Expr σ α} (hw : e.Wf) (hs : Sound e) (hp : Plain e)
    (f : α → M σ β) : ∀ (k n fuel : Nat), n + k = size e.dims → k < fuel →
    forCollect f fuel (iterN e n) =
      (List.range' n k).mapM fun i => M.bind (item e i (unrank e.dims i)) f := by
  intro k
  induction k with
  | zero =>
    intro n fuel hn hf
    obtain ⟨fuel, rfl⟩ := Nat.exists_eq_add_one_of_ne_zero (by omega : fuel ≠ 0)
    obtain rfl : n = size e.dims := by omega
    obtain ⟨c, hc⟩ := next_iterN_end hw hp
    rw [forCollect, hc]
    rfl
  | succ k ih =>
    intro n fuel hn hf
    obtain ⟨fuel, rfl⟩ := Nat.exists_eq_add_one_of_ne_zero (by omega : fuel ≠ 0)
    rw [forCollect, next_iterN hw hs (by omega)]
    simp only [List.range'_succ, List.mapM_cons, M.bind_assoc, M.pure_bind,
      ih (n + 1) fuel (by omega) (by omega)]
    show _ = M.bind _ _
    rw [M.bind_assoc]
    rfl

theorem mapM_congr {ι : Type} {f g : ι → M σ β} {l : List ι} (h : ∀ x ∈ l, f x = g x) :
    l.mapM f = l.mapM g := by
  induction l with
  | nil => rfl
  | cons x l ih =>
    rw [List.mapM_cons, List.mapM_cons, h x (by simp), ih fun y hy => h y (by simp [hy])]

theorem nestM_congr {ds : List Nat} {f g : List Nat → M σ (Val A)} (h : ∀ j, Valid ds j → f j = g j) :
    nestM ds f = nestM ds g := by
  induction ds generalizing f g with
  | nil => exact h [] (by simp)
  | cons d ds ih =>
    rw [nestM, nestM]
    congr 1
    refine mapM_congr fun i hi => ih fun j hj => h (i :: j) ?_
    rw [valid_cons]
    exact ⟨List.mem_range.1 hi, hj⟩

theorem serRank_eq (enc : Int → M σ (Val A)) : ∀ (rank : Nat) (v : View), v.map.WF →
    v.dims.length = rank → RowsFit v.dims →
    serRank enc rank v = nestM v.dims fun j => M.bind (orUb (v.index j)) enc := by
  intro rank
  induction rank with
  | zero =>
    intro v hv hl _
    have h0 : v.dims = [] := List.eq_nil_of_length_eq_zero hl
    rw [serRank, h0, nestM]
    obtain ⟨p, hp⟩ := Option.isSome_iff_exists.1
      ((View.index_isSome v hv []).2 (by rw [h0]; simp))
    rw [hp]
    rfl
  | succ rank ih =>
    intro v hv hl hf
    have hlp : 0 < v.dims.length := by omega
    obtain ⟨m, he, hm⟩ := axisNew_zero (σ := σ) hv hlp
    have hb := Built.axis (σ := σ) hv he
    cases hvd : v.dims with
    | nil => rw [hvd] at hl; simp at hl
    | cons d ds =>
      have hg : v.dims.getD 0 0 = d := by rw [hvd]; rfl
      have hd0 : v.map.dim 0 = some d := by
        rw [Mapping.dim_eq]
        show v.dims[0]? = _
        rw [hvd]; rfl
      have hsound := axis_sound (σ := σ) (m := m) (rowsFit_head hf hlp)
      have hbound := lt_bound (wf_of_built hb) hsound
      have hdm : (Expr.axis true v (.const 0) m 0 : Expr σ View).dims = [d] := by
        rw [← hg]; exact hm
      have hnew : Iter.new (Expr.axis true v (.const 0) m 0 : Expr σ View) = iterN _ 0 :=
        new_eq (wf_of_built hb) hsound
      rw [serRank, hd0, he, M.lift_some, M.lift_some, M.pure_bind, M.pure_bind]
      show M.bind (forCollect _ (Iter.new _).bound (Iter.new _)) _ = _
      generalize hB : (Iter.new (Expr.axis true v (.const 0) m 0 : Expr σ View)).bound = B at hbound ⊢
      rw [hnew, forCollect_iterN (wf_of_built hb) hsound (axis_plain hm) _ _ 0 _ (by omega) hbound,
        hdm, nestM, ← List.range_eq_range', show size [d] = d by simp [size]]
      congr 1
      refine mapM_congr fun i hi => ?_
      have hi : i < d := List.mem_range.1 hi
      have hu : unrank [d] i = [i] := by simp [unrank, size]
      obtain ⟨v', hv', hvw, hvd', hvi⟩ := row_zero hv hlp (i := i) (by rw [hg]; exact hi)
      have ht : v'.dims = ds := by rw [hvd', hvd]; rfl
      rw [hu, item]
      simp only [List.getD_cons_zero, hv', orUb, M.pure_bind]
      rw [ih v' hvw (by rw [ht]; rw [hvd] at hl; simpa using hl)
        (by rw [ht]; exact rowsFit_tail (hvd ▸ hf : RowsFit (d :: ds)) (by omega)), ht]
      simp only [hvi]
      rfl

theorem nestM_pure (ds : List Nat) (f : List Nat → Val A) :
    (nestM ds fun j => M.pure (f j) : M σ (Val A)) = M.pure (nest ds f) := by
  induction ds generalizing f with
  | nil => rfl
  | cons d ds ih =>
    rw [nestM, nest]
    simp only [ih]
    have : ∀ (l : List Nat) (g : Nat → Val A),
        (l.mapM fun i => (M.pure (g i) : M σ (Val A))) = M.pure (l.map g) := by
      intro l g
      induction l with
      | nil => rfl
      | cons x l ih' => rw [List.mapM_cons, ih']; rfl
    rw [this]
    rfl

theorem rect_nest {f : List Nat → Val A} {g : List Nat → T} : ∀ {tys : List DimTy} {ds : List Nat},
    (ShapeTy.static tys).Conforms ds → (∀ j, Valid ds j → de (f j) = some (g j)) →
    Rect de tys (nest ds f) (resetAfterZero tys ds) ((allIdx ds).map g) := by
  intro tys
  induction tys generalizing f g with
  | nil =>
    intro ds hc h
    rw [ShapeTy.conforms_nil] at hc
    subst hc
    exact ⟨rfl, g [], h [] (by simp), rfl⟩
  | cons t ts ih =>
    intro ds hc h
    cases ds with
    | nil => simp at hc
    | cons d ds =>
      rw [ShapeTy.conforms_cons] at hc
      rw [nest, resetAfterZero]
      refine ⟨_, (List.range d).map fun i => (allIdx ds).map fun j => g (i :: j), by simp; rfl, ?_,
        by simpa using hc.1, ?_, ?_⟩
      · rw [allIdx, List.map_flatMap, ← List.flatMap_def]
        simp [List.map_map, Function.comp_def]
      · rw [List.forall₂_map_left_iff, List.forall₂_map_right_iff, List.forall₂_same]
        intro i hi
        have hi : i < d := List.mem_range.1 hi
        rw [if_neg (by omega)]
        exact ih hc.2 fun j hj => h (i :: j) (by rw [valid_cons]; exact ⟨hi, hj⟩)
      · intro h0
        have : d = 0 := by simpa using h0
        rw [if_pos this]

theorem width_nest : ∀ (k : Nat) (ds : List Nat) (f : List Nat → Val A), k ≤ ds.length →
    width k (nest ds f) = size (ds.take k) := by
  intro k
  induction k with
  | zero => intro ds f _; simp [width, size]
  | succ k ih =>
    intro ds f hk
    cases ds with
    | nil => simp at hk
    | cons d ds =>
      rw [nest, width, List.map_map, List.take_succ_cons, size_cons]
      have : ((List.range d).map (width k ∘ fun i => nest ds fun j => f (i :: j))) =
          (List.range d).map fun _ => size (ds.take k) :=
        List.map_congr_left fun i _ => ih ds _ (by simpa using hk)
      rw [this]
      simp

theorem noOverflow_tail {B d : Nat} {ds : List Nat} (h : NoOverflow B (d :: ds)) (hd : 0 < d) :
    NoOverflow B ds := by
  intro k hk
  have := h (k + 1) (by simpa using hk)
  rw [List.take_succ_cons, size_cons] at this
  exact le_trans (Nat.le_mul_of_pos_left _ hd) this

theorem modest_nest {limit : Nat} : ∀ (ds : List Nat) (f : List Nat → Val A), NoOverflow usizeMax ds →
    size ds ≤ limit → usizeMax ∉ ds → Modest limit ds.length (nest ds f) := by
  intro ds
  induction ds with
  | nil => intro f _ _ _; exact trivial
  | cons d ds ih =>
    intro f hn hs hm
    have hw := width_nest (ds.length + 1) (d :: ds) f (le_refl _)
    have hwk := fun k hk => width_nest k (d :: ds) f hk
    rw [nest] at hw hwk
    rw [List.take_of_length_le (by simp)] at hw
    rw [nest, List.length_cons, Modest]
    have hd : d ≤ usizeMax := by
      have := hn 1 (by simp)
      simpa [size] using this
    have hd' : d ≠ usizeMax := fun h => hm (by simp [h])
    refine ⟨by simp; omega, by rw [hw]; exact hs, ?_, ?_, ?_⟩
    · intro k hk
      rw [hwk k (by simpa using hk)]
      exact hn k (by simpa using hk)
    · split
      · rename_i h0
        rw [List.eq_nil_of_length_eq_zero h0] at hs
        simpa [size] using hs
      · intro x hx
        cases d with
        | zero => simp at hx
        | succ d =>
          rw [List.range_succ_eq_map, List.map_cons, List.head?_cons] at hx
          injection hx with hx
          rw [← hx, width_nest _ _ _ (le_refl _), List.take_length, Nat.mul_comm]
          rwa [size_cons] at hs
    · intro x hx
      obtain ⟨i, hi, rfl⟩ := List.mem_map.1 hx
      have hi : i < d := List.mem_range.1 hi
      refine ih _ (noOverflow_tail hn (by omega)) ?_ fun h => hm (by simp [h])
      rw [size_cons] at hs
      exact le_trans (Nat.le_mul_of_pos_left _ (by omega)) hs

theorem rowsFit_of_noOverflow : ∀ {ds : List Nat}, NoOverflow usizeMax ds → RowsFit ds := by
  intro ds
  induction ds with
  | nil => intro h k _ _; rw [List.drop_nil]; exact h
  | cons d ds ih =>
    intro h k hk hp
    obtain ⟨k, rfl⟩ := Nat.exists_eq_add_one_of_ne_zero (by omega : k ≠ 0)
    have hd : 0 < d := hp d (by simp)
    have ht := noOverflow_tail h hd
    rw [List.drop_succ_cons]
    cases k with
    | zero => exact ht
    | succ k =>
      exact ih ht (k + 1) (by omega) fun x hx => hp x (by rw [List.take_succ_cons]; simp [hx])

end Model
