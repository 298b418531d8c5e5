import Verif.Model.Compare
import Verif.Spec.Compare
import Verif.Lemmas.IterSeq
import Verif.Lemmas.Overflow

namespace Model
open Spec Model.Expr Model.Iter

variable {σ α β ι κ : Type}

theorem allM_append (f : ι → M σ Bool) (l l' : List ι) :
    allM f (l ++ l') = M.bind (allM f l) fun c => if c then allM f l' else M.pure false := by
  induction l with
  | nil => simp [allM]
  | cons x l ih =>
    simp only [List.cons_append, allM, M.bind_assoc, ih]
    congr 1; funext c; cases c <;> simp

theorem allM_map (f : ι → M σ Bool) (g : κ → ι) (l : List κ) :
    allM f (l.map g) = allM (fun x => f (g x)) l := by
  induction l with
  | nil => rfl
  | cons x l ih => simp only [List.map_cons, allM, ih]

theorem allM_flatMap (f : ι → M σ Bool) (g : κ → List ι) (l : List κ) :
    allM f (l.flatMap g) = allM (fun x => allM f (g x)) l := by
  induction l with
  | nil => rfl
  | cons x l ih => simp only [List.flatMap_cons, allM_append, allM, ih]

theorem allM_congr {f g : ι → M σ Bool} {l : List ι} (h : ∀ x ∈ l, f x = g x) :
    allM f l = allM g l := by
  induction l with
  | nil => rfl
  | cons x l ih =>
    simp only [allM, h x (by simp), ih fun y hy => h y (by simp [hy])]

theorem anyM_append (f : ι → M σ Bool) (l l' : List ι) :
    anyM f (l ++ l') = M.bind (anyM f l) fun c => if c then M.pure true else anyM f l' := by
  induction l with
  | nil => simp [anyM]
  | cons x l ih =>
    simp only [List.cons_append, anyM, M.bind_assoc, ih]
    congr 1; funext c; cases c <;> simp

theorem anyM_map (f : ι → M σ Bool) (g : κ → ι) (l : List κ) :
    anyM f (l.map g) = anyM (fun x => f (g x)) l := by
  induction l with
  | nil => rfl
  | cons x l ih => simp only [List.map_cons, anyM, ih]

theorem anyM_flatMap (f : ι → M σ Bool) (g : κ → List ι) (l : List κ) :
    anyM f (l.flatMap g) = anyM (fun x => anyM f (g x)) l := by
  induction l with
  | nil => rfl
  | cons x l ih => simp only [List.flatMap_cons, anyM_append, anyM, ih]

theorem anyM_congr {f g : ι → M σ Bool} {l : List ι} (h : ∀ x ∈ l, f x = g x) :
    anyM f l = anyM g l := by
  induction l with
  | nil => rfl
  | cons x l ih =>
    simp only [anyM, h x (by simp), ih fun y hy => h y (by simp [hy])]

theorem allM_pure {ι : Type} {f : ι → M σ Bool} {g : ι → Bool} {l : List ι}
    (h : ∀ x ∈ l, f x = M.pure (g x)) : allM f l = M.pure (l.all g) := by
  induction l with
  | nil => rfl
  | cons x l ih =>
    rw [allM, h x (by simp), ih fun y hy => h y (by simp [hy]), M.pure_bind, List.all_cons]
    cases g x <;> rfl

theorem anyM_pure {ι : Type} {f : ι → M σ Bool} {g : ι → Bool} {l : List ι}
    (h : ∀ x ∈ l, f x = M.pure (g x)) : anyM f l = M.pure (l.any g) := by
  induction l with
  | nil => rfl
  | cons x l ih =>
    rw [anyM, h x (by simp), ih fun y hy => h y (by simp [hy]), M.pure_bind, List.any_cons]
    cases g x <;> rfl

theorem sliceEq_eq (cmp : Int → Int → M σ Bool) (n : Nat) (p q : Int) :
    sliceEq cmp n p q = allM (fun i : Nat => cmp (p + i) (q + i)) (List.range n) := by
  induction n generalizing p q with
  | zero => rfl
  | succ n ih =>
    rw [List.range_succ_eq_map, sliceEq, allM, allM_map]
    simp only [Int.ofNat_zero, Int.add_zero, ih]
    congr 1; funext c
    congr 2
    funext i
    rw [show p + 1 + (i : Int) = p + ((i.succ : Nat) : Int) by push_cast; ring,
      show q + 1 + (i : Int) = q + ((i.succ : Nat) : Int) by push_cast; ring]

theorem sliceAny_eq (f : Int → M σ Bool) (n : Nat) (p : Int) :
    sliceAny f n p = anyM (fun i : Nat => f (p + i)) (List.range n) := by
  induction n generalizing p with
  | zero => rfl
  | succ n ih =>
    rw [List.range_succ_eq_map, sliceAny, anyM, anyM_map]
    simp only [Int.natCast_zero, Int.add_zero, ih]
    congr 1; funext c
    congr 2
    funext i
    rw [show p + 1 + (i : Int) = p + ((i.succ : Nat) : Int) by push_cast; ring]

theorem iterEq_iterN {e : Expr σ α} {e' : Expr σ β} (hw : e.Wf) (hw' : e'.Wf) (hs : Sound e)
    (hs' : Sound e') (hp : Plain e) (hp' : Plain e') (hd : e'.dims = e.dims)
    (cmp : α → β → M σ Bool) : ∀ (k n fuel : Nat), n + k = size e.dims → k < fuel →
    iterEq cmp fuel (iterN e n) (iterN e' n) =
      allM (fun i => M.bind (item e i (unrank e.dims i)) fun x =>
        M.bind (item e' i (unrank e.dims i)) fun y => cmp x y) (List.range' n k) := by
  intro k
  induction k with
  | zero =>
    intro n fuel hn hf
    obtain ⟨fuel, rfl⟩ := Nat.exists_eq_add_one_of_ne_zero (by omega : fuel ≠ 0)
    obtain rfl : n = size e.dims := by omega
    obtain ⟨c, hc⟩ := next_iterN_end hw hp
    obtain ⟨c', hc'⟩ := next_iterN_end hw' hp'
    rw [hd] at hc'
    rw [iterEq, hc, hc']
    rfl
  | succ k ih =>
    intro n fuel hn hf
    obtain ⟨fuel, rfl⟩ := Nat.exists_eq_add_one_of_ne_zero (by omega : fuel ≠ 0)
    rw [iterEq, next_iterN hw hs (by omega), next_iterN hw' hs' (by rw [hd]; omega), hd]
    simp only [List.range'_succ, allM, M.bind_assoc, M.pure_bind,
      ih (n + 1) fuel (by omega) (by omega)]

theorem iterAny_iterN {e : Expr σ α} (hw : e.Wf) (hs : Sound e) (hp : Plain e)
    (f : α → M σ Bool) : ∀ (k n fuel : Nat), n + k = size e.dims → k < fuel →
    iterAny f fuel (iterN e n) =
      anyM (fun i => M.bind (item e i (unrank e.dims i)) f) (List.range' n k) := by
  intro k
  induction k with
  | zero =>
    intro n fuel hn hf
    obtain ⟨fuel, rfl⟩ := Nat.exists_eq_add_one_of_ne_zero (by omega : fuel ≠ 0)
    obtain rfl : n = size e.dims := by omega
    obtain ⟨c, hc⟩ := next_iterN_end hw hp
    rw [iterAny, hc]
    rfl
  | succ k ih =>
    intro n fuel hn hf
    obtain ⟨fuel, rfl⟩ := Nat.exists_eq_add_one_of_ne_zero (by omega : fuel ≠ 0)
    rw [iterAny, next_iterN hw hs (by omega)]
    simp only [List.range'_succ, anyM, M.bind_assoc, M.pure_bind,
      ih (n + 1) fuel (by omega) (by omega)]

theorem lt_bound {e : Expr σ α} (hw : e.Wf) (hs : Sound e) : size e.dims < (Iter.new e).bound := by
  unfold Iter.bound
  rw [new_eq hw hs, outerCount_iterAt]
  show _ < rows e * row e + 1
  by_cases h : 0 < size e.dims
  · rw [size_split h]; omega
  · omega

theorem iterEq_new {e : Expr σ α} {e' : Expr σ β} (hw : e.Wf) (hw' : e'.Wf) (hs : Sound e)
    (hs' : Sound e') (hp : Plain e) (hp' : Plain e') (hd : e'.dims = e.dims)
    (cmp : α → β → M σ Bool) :
    iterEq cmp (Iter.new e).bound (Iter.new e) (Iter.new e') =
      allM (fun i => M.bind (item e i (unrank e.dims i)) fun x =>
        M.bind (item e' i (unrank e.dims i)) fun y => cmp x y) (List.range (size e.dims)) := by
  have hb := lt_bound hw hs
  rw [List.range_eq_range', ← iterEq_iterN hw hw' hs hs' hp hp' hd cmp _ 0 _ (by omega) hb]
  congr 1
  · exact new_eq hw hs
  · exact new_eq hw' hs'

theorem iterAny_new {e : Expr σ α} (hw : e.Wf) (hs : Sound e) (hp : Plain e) (f : α → M σ Bool) :
    iterAny f (Iter.new e).bound (Iter.new e) =
      anyM (fun i => M.bind (item e i (unrank e.dims i)) f) (List.range (size e.dims)) := by
  have hb := lt_bound hw hs
  rw [List.range_eq_range', ← iterAny_iterN hw hs hp f _ 0 _ (by omega) hb]
  congr 1
  exact new_eq hw hs

theorem index_dense {v : View} (hv : v.map.WF) (hd : v.map.isDense = true) {j : List Nat}
    (hj : Valid v.dims j) : v.index j = some (v.ptr + (rowMajor v.dims j : Int)) := by
  rw [View.index_eq v hv, if_pos hj]
  cases hm : v.map with
  | dense s =>
    have : v.map.strides = denseStrides v.dims := by
      rw [hm]; show _ = denseStrides v.map.dims; rw [hm]; rfl
    rw [← hm, this, dot_denseStrides hj.length]
  | strided _ _ => rw [hm] at hd; simp [Mapping.isDense] at hd

/-- The first axis of a view of positive rank. -/
theorem axisNew_zero {v : View} (hv : v.map.WF) (h : 0 < v.dims.length) :
    ∃ m, (axisNew true v (.const 0) : Option (Expr σ View)) = some (.axis true v (.const 0) m 0) ∧
      m.dims = [v.dims.getD 0 0] := by
  have hp : axisPos (.const 0) v.dims.length = some 0 := by simp [axisPos, h]
  have hg := Axis.get_eq (.const 0) v.map hv
  rw [hp, Option.bind_some] at hg
  refine ⟨_, by rw [axisNew, hg]; rfl, ?_⟩
  obtain ⟨p, hp', -, hd, -⟩ := axis_dims hv hg
  rw [hp] at hp'
  injection hp' with hp'
  rw [hd, ← hp']

theorem row_zero {v : View} (hv : v.map.WF) (h : 0 < v.dims.length) {i : Nat}
    (hi : i < v.dims.getD 0 0) :
    ∃ v', v.axisAt (.const 0) i = some v' ∧ v'.map.WF ∧ v'.dims = v.dims.tail ∧
      ∀ j, v'.index j = v.index (i :: j) := by
  have hp : axisPos (.const 0) v.dims.length = some 0 := by simp [axisPos, h]
  have := (View.axisAt_isSome v hv (.const 0) i).2 ⟨0, hp, hi⟩
  obtain ⟨v', hv'⟩ := Option.isSome_iff_exists.1 this
  obtain ⟨p, hp', -, -, hw, hd, -, hj⟩ := View.axisAt_parts hv hv'
  rw [hp] at hp'
  injection hp' with hp'
  subst hp'
  exact ⟨v', hv', hw, by rw [hd]; simp, fun j => by rw [hj]; simp⟩

theorem axis_plain {v : View} {a : Axis} {m : Mapping} {d : Nat} (hm : m.dims = [d]) :
    Plain (Expr.axis true v a m 0 : Expr σ View) := by
  apply plain_of_outer
  unfold outerRank
  simp only [innerRank]
  first
    | rfl
    | (show m.dims.length - 1 = 0; rw [hm]; rfl)

theorem view_plain {v : View} (h : v.map.isDense = true ∨ v.map.rank < 2 ∨ 0 < size v.dims) (r : Bool) :
    Plain (Expr.view r v : Expr σ Int) := by
  rcases h with h | h | h
  · apply plain_of_outer
    unfold outerRank innerRank mapInnerRank
    rw [if_pos h]
    by_cases h2 : v.map.shape.ty.rank? = some 0
    · rw [if_pos h2]
    · rw [if_neg h2]; exact Nat.sub_self _
  · apply plain_of_outer
    unfold outerRank innerRank mapInnerRank
    by_cases hd : v.map.isDense = true
    · rw [if_pos hd]
      by_cases h2 : v.map.shape.ty.rank? = some 0
      · rw [if_pos h2]
      · rw [if_neg h2]; exact Nat.sub_self _
    · rw [if_neg hd]
      by_cases h2 : v.map.rank > 0
      · rw [if_pos h2]; show v.map.rank - 1 = 0; omega
      · rw [if_neg h2]
  · left; exact h

theorem view_wf {v : View} (hv : v.map.WF) (r : Bool) : (Expr.view r v : Expr σ Int).Wf :=
  wf_of_built (Built.view hv)

theorem view_sound (v : View) (r : Bool) : Sound (Expr.view r v : Expr σ Int) := by
  unfold Sound Regular; trivial

theorem rowsFit_tail {d : Nat} {ds : List Nat} (h : RowsFit (d :: ds)) (hd : 0 < d) : RowsFit ds := by
  intro k hk hp
  exact h (k + 1) (by omega) (by
    intro x hx
    rw [List.take_succ_cons] at hx
    rcases List.mem_cons.1 hx with rfl | hx
    · exact hd
    · exact hp x hx)

theorem axis_sound {v : View} {m : Mapping}
    (hf : 0 < v.dims.getD 0 0 → NoOverflow usizeMax v.dims.tail) :
    Sound (Expr.axis true v (.const 0) m 0 : Expr σ View) := by
  unfold Sound Regular
  intro p hp h0
  have : p = 0 := by
    simp only [axisPos] at hp
    split at hp
    · exact (Option.some.inj hp).symm
    · simp at hp
  subst this
  have := hf h0
  rwa [List.eraseIdx_zero]

theorem rowsFit_head {v : View} (h : RowsFit v.dims) (hl : 0 < v.dims.length) :
    0 < v.dims.getD 0 0 → NoOverflow usizeMax v.dims.tail := by
  intro h0
  have := h 1 (by omega) (by
    intro d hd
    cases hv : v.dims with
    | nil => rw [hv] at hl; simp at hl
    | cons x xs =>
      rw [hv] at hd h0
      simp at hd h0
      omega)
  rwa [List.drop_one] at this

theorem eqLoop_eq (cmp : Int → Int → M σ Bool) : ∀ (fuel : Nat) (v w : View), v.map.WF → w.map.WF →
    v.dims = w.dims → v.dims.length < fuel →
    ((v.map.isDense = true ∧ w.map.isDense = true) ∨ v.dims.length < 2 ∨ RowsFit v.dims) →
    eqLoop cmp fuel v w = allM (fun j => M.bind (orUb (v.index j)) fun p =>
      M.bind (orUb (w.index j)) fun q => cmp p q) (allIdx v.dims) := by
  intro fuel
  induction fuel with
  | zero => intro v w _ _ _ h; omega
  | succ fuel ih =>
    intro v w hv hw hd hlen hfit
    rw [eqLoop, if_pos hd]
    by_cases hdense : v.map.isDense = true ∧ w.map.isDense = true
    · rw [if_pos hdense]
      have hl1 : v.map.shape.len = size v.dims := Mapping.len_eq v.map
      have hl2 : w.map.shape.len = size w.dims := Mapping.len_eq w.map
      rw [if_pos (by rw [hl1, hl2, hd]), sliceEq_eq, allIdx_eq_map_unrank, allM_map, hl1]
      refine allM_congr fun i hi => ?_
      have hi : i < size v.dims := List.mem_range.1 hi
      rw [index_dense hv hdense.1 (unrank_valid hi), index_dense hw hdense.2 (hd ▸ unrank_valid hi),
        ← hd, rowMajor_unrank hi]
      rfl
    · rw [if_neg hdense]
      by_cases hr : v.map.rank < 2
      · rw [if_pos hr]
        have hr' : w.map.rank < 2 := by
          have : w.map.rank = v.map.rank := by
            show w.dims.length = v.dims.length
            rw [hd]
          omega
        have hd' : (Expr.view true w : Expr σ Int).dims = (Expr.view true v : Expr σ Int).dims := hd.symm
        show iterEq cmp _ _ _ = _
        rw [iterEq_new (view_wf hv true) (view_wf hw true) (view_sound v true) (view_sound w true)
          (view_plain (.inr (.inl hr)) true) (view_plain (.inr (.inl hr')) true)
          hd',
          allIdx_eq_map_unrank, allM_map]
        rfl
      · rw [if_neg hr]
        have hl : 0 < v.dims.length := by
          have : ¬ v.dims.length < 2 := hr
          omega
        have hlw : 0 < w.dims.length := by rw [← hd]; exact hl
        have hf : RowsFit v.dims := by
          rcases hfit with h | h | h
          · exact absurd h hdense
          · exact absurd h hr
          · exact h
        obtain ⟨m, he, hm⟩ := axisNew_zero (σ := σ) hv hl
        obtain ⟨m', he', hm'⟩ := axisNew_zero (σ := σ) hw hlw
        have hb := Built.axis (σ := σ) hv he
        have hb' := Built.axis (σ := σ) hw he'
        rw [he, he', M.lift_some, M.lift_some, M.pure_bind, M.pure_bind,
          iterEq_new (wf_of_built hb) (wf_of_built hb') (axis_sound (rowsFit_head hf hl))
            (axis_sound (rowsFit_head (hd ▸ hf : RowsFit w.dims) hlw)) (axis_plain hm) (axis_plain hm')
            (show m'.dims = m.dims by rw [hm, hm', hd])]
        have hdm : (Expr.axis true v (.const 0) m 0 : Expr σ View).dims = [v.dims.getD 0 0] := hm
        rw [hdm]
        cases hvd : v.dims with
        | nil => rw [hvd] at hl; simp at hl
        | cons d ds =>
          have hg : v.dims.getD 0 0 = d := by rw [hvd]; rfl
          have hgw : w.dims.getD 0 0 = d := by rw [← hd, hg]
          rw [allIdx, allM_flatMap]
          simp only [List.getD_cons_zero]
          rw [show size [d] = d by simp [size]]
          refine allM_congr fun i hi => ?_
          have hi : i < d := List.mem_range.1 hi
          have hu : unrank [d] i = [i] := by simp [unrank, size]
          obtain ⟨v', hv', hvw, hvd', hvi⟩ := row_zero hv hl (i := i) (by rw [hg]; exact hi)
          obtain ⟨w', hw', hww, hwd', hwi⟩ := row_zero hw hlw (i := i) (by rw [hgw]; exact hi)
          have ht : v'.dims = ds := by rw [hvd', hvd]; rfl
          rw [hu, item, item]
          simp only [List.getD_cons_zero, hv', hw', orUb, M.pure_bind]
          rw [ih v' w' hvw hww (by rw [hvd', hwd', hd]) (by
              rw [ht]; rw [hvd] at hlen; simp at hlen; omega)
            (Or.inr (Or.inr (by rw [ht]; exact rowsFit_tail (hvd ▸ hf : RowsFit (d :: ds)) (by omega)))),
            ht, allM_map]
          simp only [hvi, hwi]
          rfl

theorem containsLoop_eq (f : Int → M σ Bool) : ∀ (fuel : Nat) (v : View), v.map.WF →
    v.dims.length < fuel →
    (v.map.isDense = true ∨ v.dims.length < 2 ∨ RowsFit v.dims) →
    containsLoop f fuel v = anyM (fun j => M.bind (orUb (v.index j)) f) (allIdx v.dims) := by
  intro fuel
  induction fuel with
  | zero => intro v _ h; omega
  | succ fuel ih =>
    intro v hv hlen hfit
    rw [containsLoop]
    by_cases hdense : v.map.isDense = true
    · rw [if_pos hdense]
      have hl1 : v.map.shape.len = size v.dims := Mapping.len_eq v.map
      rw [sliceAny_eq, allIdx_eq_map_unrank, anyM_map, hl1]
      refine anyM_congr fun i hi => ?_
      have hi : i < size v.dims := List.mem_range.1 hi
      rw [index_dense hv hdense (unrank_valid hi), rowMajor_unrank hi]
      rfl
    · rw [if_neg hdense]
      by_cases hr : v.map.rank < 2
      · rw [if_pos hr]
        show iterAny f _ _ = _
        rw [iterAny_new (view_wf hv true) (view_sound v true)
          (view_plain (.inr (.inl hr)) true), allIdx_eq_map_unrank, anyM_map]
        rfl
      · rw [if_neg hr]
        have hl : 0 < v.dims.length := by
          have : ¬ v.dims.length < 2 := hr
          omega
        have hf : RowsFit v.dims := by
          rcases hfit with h | h | h
          · exact absurd h hdense
          · exact absurd h hr
          · exact h
        obtain ⟨m, he, hm⟩ := axisNew_zero (σ := σ) hv hl
        have hb := Built.axis (σ := σ) hv he
        rw [he, M.lift_some, M.pure_bind,
          iterAny_new (wf_of_built hb) (axis_sound (rowsFit_head hf hl)) (axis_plain hm)]
        have hdm : (Expr.axis true v (.const 0) m 0 : Expr σ View).dims = [v.dims.getD 0 0] := hm
        rw [hdm]
        cases hvd : v.dims with
        | nil => rw [hvd] at hl; simp at hl
        | cons d ds =>
          have hg : v.dims.getD 0 0 = d := by rw [hvd]; rfl
          rw [allIdx, anyM_flatMap]
          simp only [List.getD_cons_zero]
          rw [show size [d] = d by simp [size]]
          refine anyM_congr fun i hi => ?_
          have hi : i < d := List.mem_range.1 hi
          have hu : unrank [d] i = [i] := by simp [unrank, size]
          obtain ⟨v', hv', hvw, hvd', hvi⟩ := row_zero hv hl (i := i) (by rw [hg]; exact hi)
          have ht : v'.dims = ds := by rw [hvd', hvd]; rfl
          rw [hu, item]
          simp only [List.getD_cons_zero, hv', orUb, M.pure_bind]
          rw [ih v' hvw (by rw [ht]; rw [hvd] at hlen; simp at hlen; omega)
            (Or.inr (Or.inr (by rw [ht]; exact rowsFit_tail (hvd ▸ hf : RowsFit (d :: ds)) (by omega)))),
            ht, anyM_map]
          simp only [hvi]
          rfl

end Model
