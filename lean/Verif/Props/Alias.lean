import Verif.Props.Exact
import Verif.Props.Safety
import Verif.Props.Views
import Verif.Spec.Alias

/-!
C55: mutable iteration does not hand out overlapping references. The items of one pass of `iter_mut`
(element positions), `axis_expr_mut`/`outer_expr_mut` and `lanes_mut` (views) can all be alive at the same
time, since the iterator yields them with the lifetime of the array.
-/

namespace Props
open Spec Model Model.Iter Model.Expr

variable {σ α β τ : Type}

theorem got_some_none (xs : List α) (n : Nat) : got (xs.map some ++ List.replicate n none) = xs := by
  unfold got
  rw [List.filterMap_append]
  have : List.filterMap (id : Option α → Option α) (List.replicate n none) = [] := by
    induction n with
    | zero => rfl
    | succ n ih => rw [List.replicate_succ, List.filterMap_cons]; exact ih
  rw [this, List.append_nil, List.filterMap_map]
  induction xs with
  | nil => rfl
  | cons x xs ih => simp

/-- The items obtained by any number of calls of `next` that does not continue after `None`, or any number
at all if the iterator has a single loop. -/
theorem runNext_upto (e : Expr σ α) (hb : Built e) (hs : Sound e) (hp : Plain e) (k : Nat)
    (hk : k ≤ size e.dims + 1 ∨ ∀ d ∈ e.dims.take e.outerRank, d ≤ 1) :
    ∃ it, runNext k (Iter.new e) = M.bind (firstItems e (min k (size e.dims))) fun xs =>
      M.pure (xs.map some ++ List.replicate (k - size e.dims) none, it) := by
  rcases Nat.lt_or_ge (size e.dims) k with h | h
  · rw [Nat.min_eq_right (Nat.le_of_lt h)]
    rcases hk with hk | hk
    · have : k = size e.dims + 1 := by omega
      subst this
      obtain ⟨it, hi⟩ := C19_next_partial e hb hs hp
      refine ⟨it, ?_⟩
      rw [hi, Nat.add_sub_cancel_left]
      rfl
    · obtain ⟨it, hi⟩ := C21_partial e hb hs hp hk (k - size e.dims - 1)
      refine ⟨it, ?_⟩
      rw [show size e.dims + (1 + (k - size e.dims - 1)) = k by omega,
        show 1 + (k - size e.dims - 1) = k - size e.dims by omega] at hi
      exact hi
  · rw [Nat.min_eq_left h, Nat.sub_eq_zero_of_le h]
    obtain ⟨it, hi, -⟩ := C20_partial e hb hs hp k h
    exact ⟨it, by simpa using hi⟩

/-- Items without effects. -/
theorem firstItems_pure (e : Expr σ α) (g : List Nat → α)
    (hg : ∀ n j, Valid e.dims j → item e n j = M.pure (g j)) (k : Nat) :
    firstItems e k = M.pure (((allIdx e.dims).take k).map g) := by
  unfold firstItems
  have h1 : ∀ x ∈ (allIdx e.dims).zipIdx.take k, Valid e.dims x.1 := by
    intro x hx
    have := List.mem_of_mem_take hx
    obtain ⟨n, hn, rfl⟩ := List.mem_iff_getElem.1 this
    rw [List.getElem_zipIdx]
    exact mem_allIdx.1 (List.getElem_mem _)
  have h2 : (allIdx e.dims).take k = ((allIdx e.dims).zipIdx.take k).map (·.1) := by
    rw [List.map_take]; simp
  rw [h2, List.map_map]
  generalize (allIdx e.dims).zipIdx.take k = l at h1
  induction l with
  | nil => rfl
  | cons x l ih =>
    rw [List.mapM_cons, hg _ _ (h1 x (by simp)), ih fun y hy => h1 y (by simp [hy])]
    rfl

theorem pairwise_items {ds : List Nat} {g : List Nat → α} {R : α → α → Prop}
    (h : ∀ i j, Valid ds i → Valid ds j → i ≠ j → R (g i) (g j)) (k : Nat) :
    (((allIdx ds).take k).map g).Pairwise R := by
  rw [List.pairwise_map]
  have h1 : ((allIdx ds).take k).Pairwise (· ≠ ·) := (allIdx_nodup ds).sublist (List.take_sublist _ _)
  refine h1.imp_of_mem ?_
  intro a b ha hb hab
  exact h a b (mem_allIdx.1 (List.mem_of_mem_take ha)) (mem_allIdx.1 (List.mem_of_mem_take hb)) hab

/-! ### C55 -/

/-- `iter_mut`: the elements handed out by one pass of the iterator of a reachable view are elements of the
view and no two of them are the same. Missing: empty strided views, where the code hands out elements that do
not belong to the view, and iterators of strided views that are used after they have returned `None`
(`C55_violated`). -/
theorem C55_elements_partial (s : Shape) (hs : s.WF) (hu : Usize s.dims) (hn : size s.dims ≤ usizeMax)
    (checks : Bool) (v : View) (hr : Reach checks (whole s) v) (rep : Bool)
    (h0 : 0 < size v.dims ∨ v.layout = .dense) (k : Nat)
    (hk : k ≤ size v.dims + 1 ∨ v.layout = .dense) (w : σ) :
    ∃ res it, runNext k (Iter.new (.view rep v : Expr σ Int)) w = .ok (res, it) w ∧
      (got res).Nodup ∧ (got res).length = min k (size v.dims) ∧
      ∀ x ∈ got res, ∃ p : Nat, x = p ∧ p < size s.dims ∧ ∃ j, Valid v.dims j ∧ v.index j = some x := by
  have hv : v.map.WF := (View.good_reach (View.inv_whole hs hu hn) hr).1
  have hdense : v.layout = .dense → (Expr.view rep v : Expr σ Int).outerRank = 0 := by
    intro h
    have hd : v.map.isDense = true := Mapping.isDense_iff.2 h
    unfold outerRank innerRank mapInnerRank
    rw [if_pos hd]
    by_cases h2 : v.map.shape.ty.rank? = some 0
    · rw [if_pos h2]
    · rw [if_neg h2]; exact Nat.sub_self _
  have hp : Plain (Expr.view rep v : Expr σ Int) := by
    rcases h0 with h | h
    · exact Or.inl h
    · exact plain_of_outer (hdense h)
  have hk' : k ≤ size v.dims + 1 ∨ ∀ d ∈ (Expr.view rep v : Expr σ Int).dims.take
      (Expr.view rep v : Expr σ Int).outerRank, d ≤ 1 := by
    rcases hk with h | h
    · exact Or.inl h
    · right; rw [hdense h]; simp
  obtain ⟨it, hi⟩ := runNext_upto _ (Built.view hv) (by unfold Sound Regular; trivial) hp k hk'
  have hidx : ∀ j, Valid v.dims j → v.index j = some (v.ptr + dot v.map.strides j) := by
    intro j hj; rw [View.index_eq v hv, if_pos hj]
  rw [firstItems_pure _ (fun j => v.ptr + dot v.map.strides j) (by
    intro n j hj
    simp only [item]
    rw [hidx j hj]; rfl), M.pure_bind] at hi
  refine ⟨_, it, congrFun hi w, ?_, ?_, ?_⟩
  · rw [got_some_none]
    refine pairwise_items ?_ _
    intro i j hvi hvj hij e
    exact hij (C05 s hs hu hn checks v hr i j hvi hvj (by rw [hidx i hvi, hidx j hvj, e]))
  · rw [got_some_none, List.length_map, List.length_take, length_allIdx]
    change min (min k (size v.dims)) (size v.dims) = _
    omega
  · rw [got_some_none]
    intro x hx
    obtain ⟨j, hj, rfl⟩ := List.mem_map.1 hx
    have hj' : Valid v.dims j := mem_allIdx.1 (List.mem_of_mem_take hj)
    obtain ⟨p, hp1, hp2⟩ := ((C04 s hs hu hn checks v hr j).1 hj')
    rw [hidx j hj'] at hp2
    exact ⟨p, Option.some.inj hp2, hp1, j, hj', hidx j hj'⟩

/-- Subarrays at different positions of an axis share no element. -/
theorem axisAt_apart (v : View) (hv : v.map.WF)
    (hinj : ∀ i j, Valid v.dims i → Valid v.dims j → v.index i = v.index j → i = j)
    (a : Axis) (i i' : Nat) (hne : i ≠ i') (w w' : View) (hw : v.axisAt a i = some w)
    (hw' : v.axisAt a i' = some w') : Apart w w' := by
  obtain ⟨p, hp, -, hx⟩ := (C08 v hv a i).2 w hw
  obtain ⟨p', hp', -, hx'⟩ := (C08 v hv a i').2 w' hw'
  rw [hp] at hp'; injection hp' with hp'; subst hp'
  have hlt : p < v.dims.length := Axis.index_lt ((axisIndex_eq a _).trans hp)
  intro j j' x h h'
  rw [hx] at h; rw [hx'] at h'
  have v1 : Valid v.dims (j.insertIdx p i) := (View.index_isSome v hv _).1 (by rw [h]; rfl)
  have v2 : Valid v.dims (j'.insertIdx p i') := (View.index_isSome v hv _).1 (by rw [h']; rfl)
  have he := hinj _ _ v1 v2 (h.trans h'.symm)
  have hl : ∀ {l : List Nat} {i}, Valid v.dims (l.insertIdx p i) → p ≤ l.length := by
    intro l i h
    by_contra hc
    have := h.length
    rw [List.insertIdx_of_length_lt (by omega)] at this
    omega
  have := congrArg (fun l => l[p]?) he
  simp only [List.getElem?_insertIdx_self, hl v1, hl v2, if_true, Option.some.injEq] at this
  exact hne this

/-- `axis_expr_mut` and `outer_expr_mut`: the subarrays handed out by any number of calls of `next` are parts
of the view and no two of them share an element. (For views without elements a panic is possible,
see `C27_violated`.) -/
theorem C55_axis (s : Shape) (hs : s.WF) (hu : Usize s.dims) (hn : size s.dims ≤ usizeMax)
    (checks : Bool) (v : View) (hr : Reach checks (whole s) v) (rep : Bool) (a : Axis) {e : Expr σ View}
    (he : axisNew rep v a = some e) (k : Nat) (w : σ) :
    (size v.dims = 0 ∧ runNext k (Iter.new e) w = .panic w) ∨
    ∃ res it, runNext k (Iter.new e) w = .ok (res, it) w ∧ (got res).Pairwise Apart ∧
      (∀ u ∈ got res, PartOf u v) ∧
      ∃ p, axisPos a v.dims.length = some p ∧ (got res).length = min k (v.dims.getD p 0) := by
  have hv : v.map.WF := (View.good_reach (View.inv_whole hs hu hn) hr).1
  have hb := Built.axis hv he
  simp only [axisNew, Option.map_eq_some_iff] at he
  obtain ⟨m, hm, rfl⟩ := he
  obtain ⟨p, hp1, hp2, hmd, -, -, -⟩ := axis_dims hv hm
  have hd : (Expr.axis rep v a m 0 : Expr σ View).dims = [v.dims.getD p 0] := hmd
  have hor : (Expr.axis rep v a m 0 : Expr σ View).outerRank = 0 := by
    change (Expr.axis rep v a m 0 : Expr σ View).dims.length - 1 = 0
    rw [hd]; rfl
  by_cases hS : Sound (Expr.axis rep v a m 0 : Expr σ View)
  · right
    obtain ⟨it, hi⟩ := runNext_upto _ hb hS (plain_of_outer hor) k (Or.inr (by rw [hor]; simp))
    have hlt : p < v.dims.length := Axis.index_lt ((axisIndex_eq a _).trans hp1)
    have hat : ∀ i, i < v.dims.getD p 0 → ∃ u, v.axisAt a i = some u := by
      intro i hi
      rw [← Option.isSome_iff_exists, (C08 v hv a i).1]
      refine ⟨p, v.dims[p], hp1, List.getElem?_eq_getElem hlt, ?_⟩
      rw [List.getD_eq_getElem?_getD, List.getElem?_eq_getElem hlt] at hi
      exact hi
    have hval : ∀ j, Valid (Expr.axis rep v a m 0 : Expr σ View).dims j →
        ∃ i, j = [i] ∧ i < v.dims.getD p 0 := by
      intro j hj
      rw [hd] at hj
      obtain ⟨i, is, rfl, h1, h2⟩ := valid_cons'.1 hj
      rw [valid_nil_iff] at h2
      subst h2
      exact ⟨i, rfl, h1⟩
    rw [firstItems_pure _ (fun j => (v.axisAt a (j.getD 0 0)).getD v) (by
      intro n j hj
      obtain ⟨i, rfl, h1⟩ := hval j hj
      obtain ⟨u, hu⟩ := hat i h1
      simp only [item, List.getD_cons_zero, hu]
      rfl), M.pure_bind] at hi
    refine ⟨_, it, congrFun hi w, ?_, ?_, p, hp1, ?_⟩
    · rw [got_some_none]
      refine pairwise_items ?_ _
      intro i j hvi hvj hij
      obtain ⟨i, rfl, h1⟩ := hval i hvi
      obtain ⟨j, rfl, h2⟩ := hval j hvj
      obtain ⟨u, hu⟩ := hat i h1
      obtain ⟨u', hu'⟩ := hat j h2
      simp only [List.getD_cons_zero, hu, hu', Option.getD_some]
      exact axisAt_apart v hv (fun i j hi hj e => C05 s hs ‹_› hn checks v hr i j hi hj e) a i j
        (by rintro rfl; exact hij rfl) u u' hu hu'
    · rw [got_some_none]
      intro x hx
      obtain ⟨j, hj, rfl⟩ := List.mem_map.1 hx
      obtain ⟨i, rfl, h1⟩ := hval j (mem_allIdx.1 (List.mem_of_mem_take hj))
      obtain ⟨u, hu⟩ := hat i h1
      simp only [List.getD_cons_zero, hu, Option.getD_some]
      intro l y hy
      obtain ⟨p', -, -, hx'⟩ := (C08 v hv a i).2 u hu
      rw [hx'] at hy
      exact ⟨_, hy⟩
    · rw [got_some_none, List.length_map, List.length_take, length_allIdx, hd]
      simp
  · have hS' : 0 < v.dims.getD p 0 ∧ ¬ NoOverflow usizeMax (v.dims.eraseIdx p) := by
      by_contra hc
      apply hS
      intro p' hp' h1
      rw [hp1] at hp'; injection hp' with hp'; subst hp'
      by_contra h2
      exact hc ⟨h1, h2⟩
    obtain ⟨h1, h2⟩ := hS'
    cases k with
    | zero => exact Or.inr ⟨[], _, rfl, List.Pairwise.nil, by simp [got], p, hp1, by simp [got]⟩
    | succ k =>
      left
      refine ⟨?_, ?_⟩
      · by_contra h0
        have hle : size v.dims ≤ usizeMax :=
          le_trans (View.good_reach (View.inv_whole hs hu hn) hr).2.2.size_le hn
        exact h2 (C27_size v.dims (Nat.pos_of_ne_zero h0) hle p)
      have hget : ∀ i, (Expr.axis rep v a m 0 : Expr σ View).get i = M.panic := by
        intro i
        simp only [Expr.get]
        rw [Axis.removeMap_eq a _ hv, show axisPos a v.map.dims.length = some p from hp1]
        simp only [Option.bind_eq_bind, Option.bind_some, Shape.checkedLen_eq]
        have hne : ¬ NoOverflow usizeMax (Mapping.mk (a.remove v.map.shape.ty) (v.map.dims.eraseIdx p)
            (v.map.strides.eraseIdx p) (a.split v.map.shape.ty v.map.layout)).shape.dims := by
          change ¬ NoOverflow usizeMax (Mapping.mk _ _ _ _).dims
          rw [Mapping.mk_dims]; exact h2
        rw [if_neg hne]
        rfl
      have hnew : Iter.new (Expr.axis rep v a m 0 : Expr σ View) =
          ⟨Expr.axis rep v a m 0, 0, v.dims.getD p 0, [], []⟩ := by
        unfold Iter.new
        simp [hor, hd]
      simp only [runNext, Iter.next, hnew]
      rw [if_neg (by omega), hget]
      rfl

theorem lane_index {u : View} {d : Nat} {l : List Nat} {x : Int} (hud : u.dims = [d])
    (h : u.index l = some x) : ∃ n, l = [n] := by
  have hl : l.length = 1 := by
    unfold View.index at h
    rw [Option.bind_eq_bind, Option.bind_eq_some_iff] at h
    obtain ⟨_, h1, -⟩ := h
    have : l.length = u.map.rank := by
      by_contra hc
      rw [check, if_neg hc] at h1
      cases h1
    rw [this]
    exact congrArg List.length hud
  match l, hl with
  | [n], _ => exact ⟨n, rfl⟩

/-- `lanes_mut`: the lanes handed out by any number of calls of `next` are parts of the view and no two of
them share an element, if the remaining dimensions form a single loop. Missing: the other cases
(`C55_violated`). -/
theorem C55_lanes_partial (s : Shape) (hs : s.WF) (hu : Usize s.dims) (hn : size s.dims ≤ usizeMax)
    (checks : Bool) (v : View) (hr : Reach checks (whole s) v) (rep : Bool) (a : Axis) {e : Expr σ View}
    (he : lanesNew rep v a = some e) (ho : e.outerRank = 0) (k : Nat) (w : σ) :
    ∃ res it, runNext k (Iter.new e) w = .ok (res, it) w ∧ (got res).Pairwise Apart ∧
      (∀ u ∈ got res, PartOf u v) ∧
      ∃ p, axisPos a v.dims.length = some p ∧ (got res).length = min k (size (v.dims.eraseIdx p)) := by
  have hv : v.map.WF := (View.good_reach (View.inv_whole hs hu hn) hr).1
  have hb := Built.lanes hv he
  simp only [lanesNew, Option.bind_eq_some_iff, Option.map_eq_some_iff] at he
  obtain ⟨m, hm, _, _, rfl⟩ := he
  obtain ⟨p, hp1, hp2, hmd, -, -⟩ := lanes_dims hv hm
  have hd : (Expr.lanes rep v a m 0 : Expr σ View).dims = v.dims.eraseIdx p := hmd
  have hS : Sound (Expr.lanes rep v a m 0 : Expr σ View) := by
    unfold Sound Regular; rw [ho]; exact Nat.zero_le _
  obtain ⟨it, hi⟩ := runNext_upto _ hb hS (plain_of_outer ho) k (Or.inr (by rw [ho]; simp))
  rw [firstItems_pure _ (fun j => (laneAt v a j).getD v) (by
    intro n j hj
    rw [hd] at hj
    obtain ⟨u, hu, -⟩ := C28_lane v hv a p hp1 j hj
    simp only [item, hu]
    rfl), M.pure_bind] at hi
  refine ⟨_, it, congrFun hi w, ?_, ?_, p, hp1, ?_⟩
  · rw [got_some_none]
    refine pairwise_items ?_ _
    intro i j hvi hvj hij
    rw [hd] at hvi hvj
    obtain ⟨u, hu, hud, -⟩ := C28_lane v hv a p hp1 i hvi
    obtain ⟨u', hu', hud', -⟩ := C28_lane v hv a p hp1 j hvj
    simp only [hu, hu', Option.getD_some]
    intro l l' x h h'
    obtain ⟨n, rfl⟩ := lane_index hud h
    obtain ⟨n', rfl⟩ := lane_index hud' h'
    exact C28_disjoint v hv a p hp1 (fun i j hi hj e => C05 s hs ‹_› hn checks v hr i j hi hj e)
      i j hvi hvj hij u u' hu hu' n n' x h h'
  · rw [got_some_none]
    intro y hy
    obtain ⟨j, hj, rfl⟩ := List.mem_map.1 hy
    have hj' := mem_allIdx.1 (List.mem_of_mem_take hj)
    rw [hd] at hj'
    obtain ⟨u, hu, hud, hux⟩ := C28_lane v hv a p hp1 j hj'
    simp only [hu, Option.getD_some]
    intro l x h
    obtain ⟨n, rfl⟩ := lane_index hud h
    rw [hux] at h
    exact ⟨_, h⟩
  · rw [got_some_none, List.length_map, List.length_take, length_allIdx, hd]
    omega

/-- A transposed 2 by 3 array: two columns of it, and its three lanes. -/
example : Reach true (whole ⟨.static [.dyn, .dyn], [2, 3]⟩) (swapped 2 3) ∧
    (M.bind (runNext 5 (Iter.new (Expr.view false (swapped 2 3) : Expr Unit Int)))
      fun p => M.pure (got p.1)) () = .ok [0, 3, 1, 4, 2] () ∧
    ((axisNew false (swapped 2 3) (.const 1)).map fun e => (M.bind (runNext 4 (Iter.new e)) fun p =>
      M.pure ((got p.1).map fun w => (w.index [0], w.index [2]))) ()) =
      some (.ok [(some 0, some 2), (some 3, some 5)] ()) ∧
    ((lanesNew false (swapped 2 3) .rows).map fun e => (e.outerRank, (M.bind (runNext 4 (Iter.new e))
      fun p => M.pure ((got p.1).map fun w => (w.index [0], w.index [1]))) ())) =
      some (0, .ok [(some 0, some 3), (some 1, some 4), (some 2, some 5)] ()) :=
  ⟨.call .refl (.inl rfl) (.reorder (by decide)), by rfl, by decide +kernel, by decide +kernel⟩

/-- The code as it is hands out overlapping `&mut` references, using safe calls only:
- `lanes_mut` along the last axis of a 2 by 2 by 2 array yields the first two lanes twice,
- an iterator of a strided view of a 2 by 2 array yields an element again after `None`,
- `split_axis_at_mut` of a 2 by 2 array with an empty first part: iterating the first part with `fold` (split
  along the first axis of the transposed array) or `next` (along the second axis) yields elements of the
  second part. -/
theorem C55_violated :
    ((lanesNew false (whole ⟨.static [.dyn, .dyn, .dyn], [2, 2, 2]⟩) .rows).map fun e =>
      (M.bind (runNext 4 (Iter.new e)) fun p => M.pure ((got p.1).map fun w => w.index [0])) ()) =
      some (.ok [some 0, some 2, some 0, some 2] ()) ∧
    ((whole ⟨.static [.dyn, .dyn], [2, 2]⟩).reorder = some (swapped 2 2) ∧
      (M.bind (runNext 6 (Iter.new (Expr.view false (swapped 2 2) : Expr Unit Int)))
        fun p => M.pure (got p.1)) () = .ok [0, 2, 1, 3, 1] ()) ∧
    (∃ v₁ v₂, (swapped 2 2).splitAxisAt (.const 0) 0 = some (v₁, v₂) ∧ size v₁.dims = 0 ∧
      (Expr.view false v₁ : Expr Unit Int).fold [] (fun acc x => M.pure (acc ++ [x])) () =
        .ok [0, 2] () ∧ v₂.index [0, 0] = some 0 ∧ v₂.index [0, 1] = some 2) ∧
    ∃ v₁ v₂, (whole ⟨.static [.dyn, .dyn], [2, 2]⟩).splitAxisAt (.const 1) 0 = some (v₁, v₂) ∧
      size v₁.dims = 0 ∧
      (M.bind (runNext 1 (Iter.new (Expr.view false v₁ : Expr Unit Int))) fun p => M.pure (got p.1)) () =
        .ok [2] () ∧ v₂.index [1, 0] = some 2 := by
  refine ⟨by decide +kernel, ⟨by decide, by rfl⟩, ?_, ?_⟩
  · exact ⟨⟨0, .strided ⟨.static [.dyn, .dyn], [0, 2]⟩ [1, 2]⟩,
      ⟨0, .strided ⟨.static [.dyn, .dyn], [2, 2]⟩ [1, 2]⟩, by decide +kernel, by decide, by rfl,
      by decide, by decide⟩
  · exact ⟨⟨0, .strided ⟨.static [.dyn, .dyn], [2, 0]⟩ [2, 1]⟩,
      ⟨0, .strided ⟨.static [.dyn, .dyn], [2, 2]⟩ [2, 1]⟩, by decide +kernel, by decide, by rfl,
      by decide⟩

end Props
