import Verif.Props.Alias

/-! C55, exactly: when `iter_mut` and `lanes_mut` hand out overlapping references. -/

namespace Props
open Spec Model Model.Iter Model.Expr

variable {σ : Type}

/-- C55, exactly, for `iter_mut`: any number of calls of `next` hands out distinct elements of the view iff the view is
dense, or all dimensions but the last are at most 1 and the view is not empty unless the last dimension is 0. -/
theorem C55_elements_iff (s : Shape) (hs : s.WF) (hu : Usize s.dims) (hn : size s.dims ≤ usizeMax)
    (checks : Bool) (v : View) (hr : Reach checks (whole s) v) (rep : Bool) (w : σ) :
    (∀ k, ∃ res it, runNext k (Iter.new (.view rep v : Expr σ Int)) w = .ok (res, it) w ∧ (got res).Nodup ∧
      ∀ x ∈ got res, ∃ j, Valid v.dims j ∧ v.index j = some x) ↔
    (v.layout = .dense ∨
      ((0 < size v.dims ∨ v.dims.getLast? = some 0) ∧ ∀ d ∈ v.dims.dropLast, d ≤ 1)) := by
  have hv : v.map.WF := (View.good_reach (View.inv_whole hs hu hn) hr).1
  have hidx : ∀ j, Valid v.dims j → v.index j = some (v.ptr + dot v.map.strides j) := by
    intro j hj; rw [View.index_eq v hv, if_pos hj]
  have hitem : ∀ n j, Valid (Expr.view rep v : Expr σ Int).dims j →
      item (Expr.view rep v : Expr σ Int) n j = M.pure (v.ptr + dot v.map.strides j) := by
    intro n j hj
    simp only [item]
    rw [hidx j hj]; rfl
  constructor
  · intro h
    by_cases hl : v.layout = .dense
    · exact Or.inl hl
    have hl' : v.layout = .strided := by cases hlay : v.layout <;> simp_all
    right
    by_cases h0 : size v.dims = 0
    · obtain ⟨h1, h2⟩ := C20_exact v hv rep h0 w
      rcases h2 with h2 | ⟨x, it, h2⟩
      · rcases h1.1 h2 with h3 | ⟨h3, h4⟩
        · exact absurd h3 hl
        · exact ⟨Or.inr h3, h4⟩
      · obtain ⟨res, it', h3, -, h4⟩ := h 1
        simp only [runNext, M.bind, h2, M.pure] at h3
        injection h3 with h3
        injection h3 with h3 h5
        subst h3
        obtain ⟨j, hj, -⟩ := h4 x (by simp [got])
        exact absurd (mem_allIdx.2 hj) (by
          rw [List.length_eq_zero_iff.1 ((length_allIdx v.dims).trans h0)]; exact List.not_mem_nil)
    · refine ⟨Or.inl (Nat.pos_of_ne_zero h0), ?_⟩
      by_contra hc
      push Not at hc
      obtain ⟨n, j, x, it, -, hj, hx, hrun⟩ := C21_exact (σ := σ) v hv rep (Nat.pos_of_ne_zero h0) hl' hc
      obtain ⟨res, it', h3, h4, -⟩ := h (size v.dims + 2)
      rw [hrun, firstItems_pure _ _ hitem, M.pure_bind] at h3
      injection h3 with h3
      injection h3 with h3 h5
      subst h3
      have hmem := List.mem_of_getElem? hj
      rw [hidx j (mem_allIdx.1 hmem)] at hx
      injection hx with hx
      have hg : ∀ (l : List Int) y, got (l.map some ++ [none, some y]) = l ++ [y] := by
        intro l y
        unfold got
        rw [List.filterMap_append, List.filterMap_map]
        simp
      rw [hg, List.nodup_append] at h4
      refine h4.2.2 x ?_ x (by simp) rfl
      refine List.mem_map.2 ⟨j, ?_, hx⟩
      rw [List.take_of_length_le (by rw [length_allIdx]; exact Nat.le_refl _)]
      exact hmem
  · intro h k
    have hO : (Expr.view rep v : Expr σ Int).outerRank = if v.map.isDense = true then 0 else v.dims.length - 1 :=
      outerRank_view ..
    have h1 : ∀ d ∈ (Expr.view rep v : Expr σ Int).dims.take (Expr.view rep v : Expr σ Int).outerRank, d ≤ 1 := by
      intro d hd
      rw [hO] at hd
      rcases h with h | ⟨-, h⟩
      · rw [if_pos (Mapping.isDense_iff.2 h)] at hd; simp at hd
      · split at hd
        · simp at hd
        · exact h d (by rw [List.dropLast_eq_take]; exact hd)
    have hp : Plain (Expr.view rep v : Expr σ Int) := by
      by_cases hd : v.map.isDense = true
      · exact plain_of_outer (by rw [hO, if_pos hd])
      · rcases h with h | ⟨h | h, h2⟩
        · exact absurd (Mapping.isDense_iff.2 h) hd
        · exact Or.inl h
        · refine Or.inr ⟨?_, h1⟩
          rw [hO, if_neg hd]
          change size (v.dims.drop (v.dims.length - 1)) = 0
          rcases List.eq_nil_or_concat v.dims with h3 | ⟨l, d, h3⟩
          · rw [h3] at h; cases h
          · rw [h3] at h ⊢
            simp at h ⊢
            exact h
    obtain ⟨it, hi⟩ := runNext_upto _ (Built.view hv) (by unfold Sound Regular; trivial) hp k (Or.inr h1)
    rw [firstItems_pure _ _ hitem, M.pure_bind] at hi
    refine ⟨_, it, congrFun hi w, ?_, ?_⟩
    · rw [got_some_none]
      refine pairwise_items ?_ _
      intro i j hvi hvj hij e
      exact hij (C05 s hs hu hn checks v hr i j hvi hvj (by rw [hidx i hvi, hidx j hvj, e]))
    · rw [got_some_none]
      intro x hx
      obtain ⟨j, hj, rfl⟩ := List.mem_map.1 hx
      have hj' : Valid v.dims j := mem_allIdx.1 (List.mem_of_mem_take hj)
      exact ⟨j, hj', hidx j hj'⟩

/-- A transposed 2 by 3 array does not meet the condition, and one with a single row does. -/
example : Reach true (whole ⟨.static [.dyn, .dyn], [2, 3]⟩) (swapped 2 3) ∧ (swapped 2 3).layout = .strided ∧
    (swapped 2 3).dims.dropLast = [3] ∧ Reach true (whole ⟨.static [.dyn, .dyn], [2, 1]⟩) (swapped 2 1) ∧
    (swapped 2 1).layout = .strided ∧ (swapped 2 1).dims.dropLast = [1] :=
  ⟨.call .refl (.inl rfl) (.reorder (by decide)), rfl, rfl, .call .refl (.inl rfl) (.reorder (by decide)), rfl, rfl⟩

/-- The views collected by a pure loop. -/
theorem foldlM_collect {α β : Type} (g : α → M σ β) (g' : α → β) (l : List α) (h : ∀ x ∈ l, g x = M.pure (g' x))
    (acc : List β) :
    l.foldlM (fun acc x => M.bind (g x) fun y => (M.pure (acc ++ [y]) : M σ (List β))) acc =
      M.pure (acc ++ l.map g') := by
  induction l generalizing acc with
  | nil => simp [pure]
  | cons x l ih =>
    rw [List.foldlM_cons, h x (by simp), M.pure_bind]
    change M.bind (M.pure _) _ = _
    rw [M.pure_bind, ih fun y hy => h y (by simp [hy])]
    simp

/-- C55, exactly, for `lanes_mut` of views that are not empty: iterating hands out lanes that share no element iff
the dimensions outside of the inner loop are all 1. -/
theorem C55_lanes_iff (s : Shape) (hs : s.WF) (hu : Usize s.dims) (hn : size s.dims ≤ usizeMax)
    (checks : Bool) (v : View) (hr : Reach checks (whole s) v) (h0 : 0 < size v.dims) (rep : Bool) (a : Axis)
    {e : Expr σ View} (he : lanesNew rep v a = some e) (w : σ) :
    ∃ us, e.fold [] (fun acc u => M.pure (acc ++ [u])) w = .ok us w ∧
      (us.Pairwise Apart ↔ ∀ d ∈ e.dims.take e.outerRank, d ≤ 1) := by
  have hv : v.map.WF := (View.good_reach (View.inv_whole hs hu hn) hr).1
  have he' := he
  simp only [lanesNew, Option.bind_eq_some_iff, Option.map_eq_some_iff] at he'
  obtain ⟨m, hm, _, _, he'⟩ := he'
  obtain ⟨p, hp1, hp2, hmd, -, -⟩ := lanes_dims hv hm
  have hd : e.dims = v.dims.eraseIdx p := by rw [← he']; exact hmd
  have hpos := size_pos_iff.1 h0
  have h1 : 0 < size (v.dims.eraseIdx p) := size_pos_iff.2 fun d hd => hpos d (List.mem_of_mem_eraseIdx hd)
  have hO : e.outerRank ≤ (v.dims.eraseIdx p).length := by rw [← hd]; exact outerRank_le e
  generalize hO' : e.outerRank = O at hO ⊢
  rw [hd]
  generalize hD : v.dims.eraseIdx p = D at h1 hO hd ⊢
  have hproj : ∀ j, Valid D j → Valid D (List.replicate O 0 ++ j.drop O) := by
    intro j hj
    have h2 := valid_zeros (ds := D.take O) (size_pos_iff.2 fun d hd =>
      size_pos_iff.1 h1 d (List.mem_of_mem_take hd))
    rw [List.length_take, Nat.min_eq_left hO] at h2
    conv => lhs; rw [← List.take_append_drop O D]
    rw [valid_append (by rw [List.length_take, List.length_replicate]; omega)]
    exact ⟨h2, hj.drop O⟩
  have hlane : ∀ j, Valid D j → ∃ u, laneAt v a j = some u ∧ u.dims = [v.dims.getD p 0] ∧
      ∀ i, u.index [i] = v.index (j.insertIdx p i) := fun j hj => C28_lane v hv a p hp1 j (by rw [hD]; exact hj)
  have hfold := C28_exact (σ := σ) v hv rep a he hp1 (by rw [hD]; exact h1) (fun acc u => M.pure (acc ++ [u])) []
  rw [hO', hD, foldlM_collect _ (fun j => (laneAt v a (List.replicate O 0 ++ j.drop O)).getD v) _ (by
    intro j hj
    obtain ⟨u, hu, -⟩ := hlane _ (hproj j (mem_allIdx.1 hj))
    rw [hu]; rfl), List.nil_append] at hfold
  refine ⟨_, congrFun hfold w, ?_⟩
  constructor
  · intro h
    by_contra hc
    push Not at hc
    obtain ⟨d, hd1, hd2⟩ := hc
    obtain ⟨c, hc, rfl⟩ := List.mem_iff_getElem.1 hd1
    rw [List.length_take, Nat.min_eq_left hO] at hc
    rw [List.getElem_take] at hd2
    have hz := valid_zeros h1
    have hz' := valid_set hz c 1 (by
      rw [List.getD_eq_getElem?_getD, List.getElem?_eq_getElem (by omega)]; exact hd2)
    have hne : List.replicate D.length 0 ≠ (List.replicate D.length 0).set c 1 := by
      intro h
      have := congrArg (fun l => l[c]?) h
      simp only [List.getElem?_replicate, List.getElem?_set_self', if_pos (show c < D.length by omega)] at this
      simp at this
    obtain ⟨u, hu, hud, hux⟩ := hlane _ (hproj _ hz)
    have hval : Valid v.dims ((List.replicate O 0 ++ (List.replicate D.length 0).drop O).insertIdx p 0) :=
      (valid_insertIdx hp2).2 ⟨hpos _ (List.getElem_mem _), by rw [hD]; exact hproj _ hz⟩
    have hself : ¬ Apart u u := by
      intro ha
      have h2 : u.index [0] = some (v.ptr + dot v.map.strides
          ((List.replicate O 0 ++ (List.replicate D.length 0).drop O).insertIdx p 0)) := by
        rw [hux, View.index_eq v hv, if_pos hval]
      exact ha [0] [0] _ h2 h2
    obtain ⟨n, hn1, hn2⟩ := List.mem_iff_getElem.1 (mem_allIdx.2 hz)
    obtain ⟨n', hn1', hn2'⟩ := List.mem_iff_getElem.1 (mem_allIdx.2 hz')
    have hsame : List.replicate O 0 ++ ((List.replicate D.length 0).set c 1).drop O =
        List.replicate O 0 ++ (List.replicate D.length 0).drop O := by
      rw [List.drop_set_of_lt hc]
    rw [List.pairwise_map, List.pairwise_iff_getElem] at h
    rcases Nat.lt_trichotomy n n' with hlt | rfl | hlt
    · have := h n n' hn1 hn1' hlt
      rw [hn2, hn2', hsame, hu] at this
      exact hself this
    · exact hne (hn2.symm.trans hn2')
    · have := h n' n hn1' hn1 hlt
      rw [hn2, hn2', hsame, hu] at this
      exact hself this
  · intro h
    have hid : ∀ j, Valid D j → List.replicate O 0 ++ j.drop O = j := by
      intro j hj
      have hlen := hj.length
      conv => rhs; rw [← List.take_append_drop O j]
      congr 1
      symm
      rw [List.eq_replicate_iff]
      refine ⟨by rw [List.length_take]; omega, ?_⟩
      intro b hb
      obtain ⟨c, hc, rfl⟩ := List.mem_iff_getElem.1 hb
      rw [List.length_take] at hc
      have h2 := (valid_iff.1 hj).2 c (by omega) (by omega)
      have hc' : c < (D.take O).length := by rw [List.length_take]; omega
      have h3 := h (D.take O)[c] (List.getElem_mem hc')
      rw [List.getElem_take] at h3 ⊢
      omega
    have := pairwise_items (ds := D) (g := fun j => (laneAt v a (List.replicate O 0 ++ j.drop O)).getD v)
      (R := Apart) (by
        intro i j hvi hvj hij
        simp only [hid i hvi, hid j hvj]
        obtain ⟨u, hu, hud, -⟩ := hlane i hvi
        obtain ⟨u', hu', hud', -⟩ := hlane j hvj
        simp only [hu, hu', Option.getD_some]
        intro l l' x h h'
        obtain ⟨n, rfl⟩ := lane_index hud h
        obtain ⟨n', rfl⟩ := lane_index hud' h'
        exact C28_disjoint v hv a p hp1 (fun i j hi hj e => C05 s hs ‹_› hn checks v hr i j hi hj e)
          i j (by rw [hD]; exact hvi) (by rw [hD]; exact hvj) hij u u' hu hu' n n' x h h') (size D)
    rwa [List.take_of_length_le (by rw [length_allIdx])] at this

/-- The lanes of a 2 by 2 by 2 array have an outer loop of size 2. -/
example : ((lanesNew false (whole ⟨.static [.dyn, .dyn, .dyn], [2, 2, 2]⟩) .rows : Option (Expr Unit View)).map
    fun e => e.dims.take e.outerRank) = some [2] := by decide +kernel

end Props
