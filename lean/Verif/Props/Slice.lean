import Verif.Model.Slice
import Verif.Lemmas.Reach
import Verif.Lemmas.Compare
import Verif.Lemmas.Serialize
import Verif.Props.TensorExact
import Verif.Props.Storage
import Verif.Props.Convert
import Verif.Props.Assign
import Verif.Props.DynRank
import Verif.Props.Compare
import Verif.Props.Exact
import Verif.Props.Views
import Verif.Spec.Slice

/-!
Properties of the remaining methods of slices: ranges (C58), formatting (C59), shape arguments (C60), copying
(C61), the owned array type (C62), references to slices (C63) and copies of owning expressions (C64).
-/

namespace Props
open Model Spec Model.Expr Model.Iter

variable {σ A T : Type}

/-! ### C15, for slices -/

/-- `diag` of a slice, for arrays without a dimension equal to `usize::MAX`. -/
theorem C15_slice (v : View) (h : v.map.WF) (k : Int) (hd : ∀ d ∈ v.dims, d < usizeMax)
    (ho : NoOverflow usizeMax v.dims) :
    ((v.sliceDiag k).isSome ↔ ∃ r c : Nat, v.dims = [r, c] ∧ k ≤ c ∧ -k ≤ r) ∧
    ∀ v' r c, v.sliceDiag k = some v' → v.dims = [r, c] →
      (0 ≤ k → v'.dims = [min r (c - k.toNat)] ∧ ∀ i, v'.index [i] = v.index [i, i + k.toNat]) ∧
      (k < 0 → v'.dims = [min c (r - (-k).toNat)] ∧ ∀ i, v'.index [i] = v.index [i + (-k).toNat, i]) := by
  unfold View.sliceDiag
  have hc0 : v.ty.Conforms v.dims := h.1
  rw [View.fromDims_two hc0]
  by_cases hl : v.dims.length = 2
  swap
  · rw [if_neg hl]
    refine ⟨?_, by simp⟩
    simp only [Option.bind_eq_bind, Option.bind_none, Option.isSome_none, Bool.false_eq_true,
      false_iff, not_exists, not_and]
    intro r c e; rw [e] at hl; simp at hl
  obtain ⟨r, c, hrc⟩ : ∃ r c, v.dims = [r, c] := by
    match hd : v.dims, hl with
    | [r, c], _ => exact ⟨r, c, rfl⟩
  rw [if_pos hl]
  have hc : (ShapeTy.static [v.ty.head, v.ty.tail.head]).Conforms v.dims := by
    have h' : v.ty.Conforms [r, c] := hrc ▸ hc0
    rw [hrc]
    simp [ShapeTy.conforms_head h', ShapeTy.conforms_head (ShapeTy.conforms_tail h')]
  obtain ⟨w, hw, hwf, hwd, _, _, hwi⟩ := View.reshape_same v h hc
    (fun hm => absurd (hd _ hm) (by omega)) ho
  simp only [Option.bind_eq_bind, Option.bind_some, hw]
  have := C15 w hwf k
  simpa only [hwd, hwi] using this

/-- The exclusion in `C15_slice` is needed: `diag` of an empty array with a dimension `usize::MAX` panics,
`into_diag` of the same view does not. -/
theorem C15_placeholder_dimension :
    ∃ v : View, v.map.WF ∧ NoOverflow usizeMax v.dims ∧ v.dims = [0, usizeMax] ∧
      v.sliceDiag 0 = none ∧ (v.diag 0).isSome :=
  ⟨⟨0, .dense ⟨.static [.dyn, .dyn], [0, usizeMax]⟩⟩, by decide, by decide +kernel, rfl,
    by decide +kernel, by decide +kernel⟩

example : ((exV.sliceDiag 1).map fun v' => (v'.dims, v'.index [1])) = some ([2], exV.index [1, 2]) ∧
    ((exV.sliceDiag (-1)).map fun v' => (v'.dims, v'.index [0])) = some ([1], exV.index [1, 0]) ∧
    exV.sliceDiag 4 = none ∧ (∀ d ∈ exV.dims, d < usizeMax) ∧ NoOverflow usizeMax exV.dims := by
  decide +kernel

/-! ### C58 -/

theorem flatten_dense {v : View} (hl : v.layout = .dense) (hn : size v.dims ≤ usizeMax) :
    v.flatten = some ⟨v.ptr, .dense ⟨.static [.dyn], [size v.dims]⟩⟩ := by
  obtain ⟨p, m⟩ := v
  cases m with
  | strided s st => simp [View.layout, Mapping.layout] at hl
  | dense s =>
    have hs : Shape.reshape s ⟨.static [.dyn], [size s.dims]⟩ =
        some ⟨.static [.dyn], [size s.dims]⟩ := by
      rcases Nat.lt_or_eq_of_le hn with h | h
      · have hw : (⟨.static [.dyn], [size s.dims]⟩ : Shape).WF := by
          show (ShapeTy.static [.dyn]).Conforms _; simp
        rw [Shape.reshape_none_eq _ _ hw (by simp; show usizeMax ≠ _; change size s.dims < _ at h; omega),
          if_pos]
        refine ⟨fun k hk => ?_, by simp⟩
        simp at hk
        rcases (by omega : k = 0 ∨ k = 1) with rfl | rfl
        · simp [usizeMax]
        · simp; exact hn
      · change size s.dims = usizeMax at h
        rw [h]
        unfold Shape.reshape
        rw [Shape.len_eq, h]
        decide +kernel
    unfold View.flatten View.reshape Mapping.reshape
    rw [Mapping.len_eq]
    show (do let m ← (do let n ← Shape.reshape s ⟨.static [.dyn], [size s.dims]⟩; pure (Mapping.dense n))
             pure (⟨p, m⟩ : View)) = _
    rw [hs]
    rfl

theorem sliceRange_eq {len : Nat} (hn : len ≤ usizeMax) (start stop : Bnd) :
    sliceRange len start stop =
      if lo start ≤ hi len stop ∧ hi len stop ≤ len then some (lo start, hi len stop - lo start)
      else none := by
  have hc : ∀ a b : Nat, (do check (a ≤ b); check (b ≤ len); pure (a, b - a) : Option (Nat × Nat)) =
      if a ≤ b ∧ b ≤ len then some (a, b - a) else none := by
    intro a b
    unfold check
    by_cases h1 : a ≤ b <;> by_cases h2 : b ≤ len <;> simp [h1, h2]
  have hx : ∀ (n : Nat) (f : Nat → Option (Nat × Nat)), (n = usizeMax → f (n + 1) = none) →
      (if n = usizeMax then none else some (n + 1)) >>= f = f (n + 1) := by
    intro n f h
    by_cases hn : n = usizeMax
    · rw [if_pos hn, h hn]; rfl
    · rw [if_neg hn]; rfl
  have h2 : ∀ a : Nat, rangeStop len stop >>= (fun b => do
        check (a ≤ b); check (b ≤ len); pure (a, b - a)) =
      if a ≤ hi len stop ∧ hi len stop ≤ len then some (a, hi len stop - a) else none := by
    intro a
    cases stop with
    | included n =>
      refine (hx n _ fun h => ?_).trans (hc _ _)
      rw [hc, if_neg (by omega)]
    | excluded n => exact hc _ _
    | unbounded => exact hc _ _
  unfold sliceRange
  cases start with
  | included n => exact h2 _
  | excluded n =>
    refine (hx n _ fun h => ?_).trans (h2 _)
    rw [h2, if_neg (by omega)]
  | unbounded => exact h2 _

/-- Indexing a dense array with a range of any kind works exactly if the range lies within the elements in
row-major order, and gives these elements: the `k`-th element of the slice is the one whose multi-index has
the row-major number `start + k`. -/
theorem C58 (v : View) (hv : v.map.WF) (hl : v.layout = .dense) (hn : size v.dims ≤ usizeMax)
    (start stop : Bnd) :
    ((v.rangeIndex start stop).isSome ↔
      lo start ≤ hi (size v.dims) stop ∧ hi (size v.dims) stop ≤ size v.dims) ∧
    ∀ p n, v.rangeIndex start stop = some (p, n) → lo start + n = hi (size v.dims) stop ∧
      ∀ k < n, v.index (unrank v.dims (lo start + k)) = some (p + (k : Int)) := by
  have hd : v.map.isDense = true := Mapping.isDense_iff.2 hl
  have hR : v.rangeIndex start stop =
      if lo start ≤ hi (size v.dims) stop ∧ hi (size v.dims) stop ≤ size v.dims then
        some (v.ptr + (lo start : Int), hi (size v.dims) stop - lo start) else none := by
    unfold View.rangeIndex
    rw [flatten_dense hl hn]
    simp only [View.asSlice, Mapping.len_eq, Option.bind_eq_bind, Option.bind_some]
    rw [show size (Mapping.dense ⟨.static [.dyn], [size v.dims]⟩).dims = size v.dims by
      show size [size v.dims] = _; simp [size], sliceRange_eq hn]
    split <;> rfl
  rw [hR]
  constructor
  · split <;> simp_all
  · intro p n h
    split at h
    · rename_i hc
      simp only [Option.some.injEq, Prod.mk.injEq] at h
      obtain ⟨rfl, rfl⟩ := h
      refine ⟨by omega, fun k hk => ?_⟩
      have hlt : lo start + k < size v.dims := by omega
      rw [index_dense hv hd (unrank_valid hlt), rowMajor_unrank hlt]
      push_cast
      rw [Int.add_assoc]
    · cases h

example : (whole ⟨.static [.dyn, .const 3], [2, 3]⟩).rangeIndex (.included 1) (.excluded 4) = some (1, 3) ∧
    (whole ⟨.static [.dyn, .const 3], [2, 3]⟩).rangeIndex .unbounded .unbounded = some (0, 6) ∧
    (whole ⟨.static [.dyn, .const 3], [2, 3]⟩).rangeIndex (.included 4) (.excluded 3) = none ∧
    (whole ⟨.dynRank, [2, 3]⟩).rangeIndex (.included 2) (.included 6) = none := by decide +kernel

/-! ### C59 -/

theorem debugLoop_eq (fmt : Int → M σ A) : ∀ (rank : Nat) (v : View), v.map.WF →
    v.dims.length = rank → RowsFit v.dims →
    debugLoop fmt (rank + 1) v = treeM v.dims fun j => M.bind (orUb (v.index j)) fmt := by
  intro rank
  induction rank with
  | zero =>
    intro v hv hl _
    have h0 : v.dims = [] := List.eq_nil_of_length_eq_zero hl
    obtain ⟨p, hp⟩ := Option.isSome_iff_exists.1
      ((View.index_isSome v hv []).2 (by rw [h0]; simp))
    rw [debugLoop, if_pos (show v.map.rank = 0 from hl), h0, treeM, hp]
    rfl
  | succ rank ih =>
    intro v hv hl hf
    have hlp : 0 < v.dims.length := by omega
    obtain ⟨m, he, hm⟩ := axisNew_zero (σ := σ) hv hlp
    have hb := Built.axis (σ := σ) hv he
    cases hvd : v.dims with
    | nil => rw [hvd] at hl; simp at hl
    | cons d ds =>
      have hg : v.dims.getD 0 0 = d := by rw [hvd]; rfl
      have hsound := axis_sound (σ := σ) (m := m) (rowsFit_head hf hlp)
      have hbound := lt_bound (wf_of_built hb) hsound
      have hdm : (Expr.axis true v (.const 0) m 0 : Expr σ View).dims = [d] := by
        rw [← hg]; exact hm
      have hnew : Iter.new (Expr.axis true v (.const 0) m 0 : Expr σ View) = iterN _ 0 :=
        new_eq (wf_of_built hb) hsound
      rw [debugLoop, if_neg (show ¬ v.map.rank = 0 by show ¬ v.dims.length = 0; omega), he, M.lift_some,
        M.pure_bind]
      show M.bind (forCollect _ (Iter.new _).bound (Iter.new _)) _ = _
      generalize hB : (Iter.new (Expr.axis true v (.const 0) m 0 : Expr σ View)).bound = B at hbound ⊢
      rw [hnew, forCollect_iterN (wf_of_built hb) hsound (axis_plain hm) _ _ 0 _ (by omega) hbound,
        hdm, treeM, ← List.range_eq_range', show size [d] = d by simp [size]]
      congr 1
      refine mapM_congr fun i hi => ?_
      have hi : i < d := List.mem_range.1 hi
      have hu : unrank [d] i = [i] := by simp [unrank, size]
      obtain ⟨v', hv', hvw, hvd', hvi⟩ := row_zero hv hlp (i := i) (by rw [hg]; exact hi)
      have ht : v'.dims = ds := by rw [hvd', hvd]; rfl
      rw [hu, item]
      simp only [List.getD_cons_zero, hv', orUb, M.pure_bind]
      rw [ih v' hvw (by rw [ht]; rw [hvd] at hl; simpa using hl)
        (by rw [ht]; exact rowsFit_tail (hvd ▸ hf : RowsFit (d :: ds)) (by omega)), ht]
      simp only [hvi]
      rfl

/-- Formatting an array visits its elements in row-major order and makes nested lists of them, whatever the
layout and the rank. Missing: empty arrays with rows of more than `usize::MAX` elements, where it panics
(`C59_violated`). -/
theorem C59_partial (v : View) (hv : v.map.WF) (hf : RowsFit v.dims) (fmt : Int → M σ A) :
    debug fmt v = treeM v.dims fun j => M.bind (orUb (v.index j)) fmt :=
  debugLoop_eq fmt _ v hv rfl hf

theorem treeM_pure (f : List Nat → A) : ∀ ds : List Nat,
    ∃ a, (treeM ds (fun j => M.pure (f j)) : M σ (Arr A)) = M.pure a ∧ HasDims ds a ∧
      ∀ j, Valid ds j → nestedGet a j = some (f j) := by
  intro ds
  induction ds generalizing f with
  | nil =>
    refine ⟨.elem (f []), rfl, by simp [HasDims], fun j hj => ?_⟩
    cases j with
    | nil => simp [nestedGet]
    | cons _ _ => simp at hj
  | cons d ds ih =>
    choose g hg1 hg2 hg3 using fun i => ih fun j => f (i :: j)
    have hmap : ∀ l : List Nat, (l.mapM fun i => treeM ds fun j => M.pure (f (i :: j)) : M σ _) =
        M.pure (l.map g) := by
      intro l
      induction l with
      | nil => rfl
      | cons x l ih' => rw [List.mapM_cons, ih', hg1]; rfl
    refine ⟨.arr ((List.range d).map g), ?_, ?_, ?_⟩
    · rw [treeM, hmap]; rfl
    · simp [HasDims]; intro i _; exact hg2 i
    · intro j hj
      cases j with
      | nil => simp at hj
      | cons i j =>
        rw [valid_cons] at hj
        rw [nestedGet]
        simp [hj.1, hg3 i j hj.2]

theorem treeM_congr {f g : List Nat → M σ A} : ∀ {ds : List Nat}, (∀ j, Valid ds j → f j = g j) →
    treeM ds f = treeM ds g := by
  intro ds
  induction ds generalizing f g with
  | nil => intro h; rw [treeM, treeM, h [] (by simp)]
  | cons d ds ih =>
    intro h
    rw [treeM, treeM]
    congr 1
    refine mapM_congr fun i hi => ih fun j hj => h (i :: j) ?_
    rw [valid_cons]
    exact ⟨List.mem_range.1 hi, hj⟩

/-- If the elements can be formatted, then the result has the dimensions of the array, and the entry at each
index is the formatted element at this index. -/
theorem C59_tree_partial (v : View) (hv : v.map.WF) (hf : RowsFit v.dims) (g : Int → A) (s : σ) :
    ∃ a, debug (fun p => M.pure (g p)) v s = .ok a s ∧ HasDims v.dims a ∧
      ∀ j, Valid v.dims j → ∃ p, v.index j = some p ∧ nestedGet a j = some (g p) := by
  have hi : ∀ j, Valid v.dims j → ∃ p, v.index j = some p := fun j hj =>
    Option.isSome_iff_exists.1 ((View.index_isSome v hv j).2 hj)
  obtain ⟨a, h1, h2, h3⟩ := treeM_pure (σ := σ) (fun j => g ((v.index j).getD 0)) v.dims
  refine ⟨a, ?_, h2, fun j hj => ?_⟩
  · rw [C59_partial v hv hf, treeM_congr (g := fun j => M.pure (g ((v.index j).getD 0))), h1]
    · rfl
    · intro j hj
      obtain ⟨p, hp⟩ := hi j hj
      simp [hp, orUb]
  · obtain ⟨p, hp⟩ := hi j hj
    exact ⟨p, hp, by rw [h3 j hj, hp]; rfl⟩

/-- The code as it is: formatting an empty array can panic (B13). -/
theorem C59_violated : hugeRows.map.WF ∧ size hugeRows.dims = 0 ∧
    debug (fun p => M.pure p) hugeRows () = .panic () := by
  refine ⟨by decide +kernel, by decide +kernel, by rfl⟩

example : RowsFit (swapped 2 3).dims ∧ debug (fun p => M.pure p) (swapped 2 3) () =
    .ok (.arr [.arr [.elem 0, .elem 3], .arr [.elem 1, .elem 4], .arr [.elem 2, .elem 5]]) () :=
  ⟨C43_rows _ (by decide) (by decide), by rfl⟩

/-! ### C60 -/

/-- All arguments that stand for a shape are accepted, and give a shape of the right type whose dimensions are
those that `into_dims` shows. For shapes of dynamic rank this holds for both representations. -/
theorem C60 (a : ShapeArg) (ha : ∀ s, a = .shape s → s.WF) :
    (∃ s, a.intoShape = some s ∧ s.WF ∧ s.ty = argTy a ∧ s.dims = a.intoDims) ∧
    ((∀ s, a ≠ .shape s) → argTy a = .dynRank → ∃ r, a.dynRank = some r ∧ r.dims = a.intoDims) := by
  have hnew : ∀ ds : List Nat,
      ((DynRank.new ds.length).withMutDims fun i _ => ds.getD i 0).dims = ds := by
    intro ds
    unfold DynRank.new
    split
    · rename_i h
      match ds, h with
      | [x], _ => rfl
    · simp only [DynRank.withMutDims, DynRank.dims, List.length_replicate]
      apply List.ext_getElem
      · simp
      · intro i h1 h2
        simp at h1
        simp [h1]
  have hdyn : ∀ ds : List Nat, ShapeTy.dynRank.Conforms ds := fun ds => trivial
  cases a with
  | shape s => exact ⟨⟨s, rfl, ha s rfl, rfl, rfl⟩, fun h => absurd rfl (h s)⟩
  | array ds =>
    have hc : (ShapeTy.static (ds.map fun _ => .dyn)).Conforms ds := by
      clear ha
      induction ds with
      | nil => rw [List.map_nil, ShapeTy.conforms_nil]
      | cons d ds ih => rw [List.map_cons, ShapeTy.conforms_cons]; exact ⟨trivial, ih⟩
    refine ⟨⟨⟨.static (ds.map fun _ => .dyn), ds⟩, ?_, hc, by simp [argTy], rfl⟩, fun _ h => by
      simp [argTy] at h⟩
    show Shape.fromDims _ _ = _
    rw [Shape.fromDims_eq, if_pos hc]
  | arrayRef ds =>
    refine ⟨⟨⟨.dynRank, ds⟩, ?_, hdyn ds, rfl, rfl⟩, fun _ _ => ⟨_, rfl, hnew ds⟩⟩
    show Shape.fromDims _ _ = _
    rw [Shape.fromDims_eq, if_pos (hdyn ds)]
  | slice ds =>
    refine ⟨⟨⟨.dynRank, ds⟩, ?_, hdyn ds, rfl, rfl⟩, fun _ _ => ⟨_, rfl, hnew ds⟩⟩
    show Shape.fromDims _ _ = _
    rw [Shape.fromDims_eq, if_pos (hdyn ds)]
  | boxed ds => exact ⟨⟨_, rfl, hdyn ds, rfl, rfl⟩, fun _ _ => ⟨_, rfl, rfl⟩⟩
  | vec ds => exact ⟨⟨_, rfl, hdyn ds, rfl, rfl⟩, fun _ _ => ⟨_, rfl, rfl⟩⟩
  | const n =>
    refine ⟨⟨_, rfl, ?_, rfl, rfl⟩, fun _ h => by simp [argTy] at h⟩
    show (ShapeTy.static [.const n]).Conforms [n]; simp
  | dyn n =>
    refine ⟨⟨_, rfl, ?_, rfl, rfl⟩, fun _ h => by simp [argTy] at h⟩
    show (ShapeTy.static [.dyn]).Conforms [n]; simp

example : (ShapeArg.array [2, 3]).intoShape = some ⟨.static [.dyn, .dyn], [2, 3]⟩ ∧
    (ShapeArg.slice [2, 3]).intoShape = some ⟨.dynRank, [2, 3]⟩ ∧
    (ShapeArg.arrayRef [7]).dynRank = some (.one 7) ∧ (ShapeArg.vec [7]).dynRank = some (.dyn [7]) := by
  exact ⟨by decide +kernel, by decide +kernel, rfl, rfl⟩

/-! ### C61 -/

theorem copy_item (v : View) (m : Int → Option T) (c : T → M σ T) (n : Nat) :
    item (clonedView v m c) n (unrank v.dims n) = copyStep v m c n := by
  unfold clonedView copyStep
  rw [item, item]
  congr 1
  funext p
  unfold cloneAt
  cases m p <;> rfl

theorem copy_tame {v : View} (hv : v.map.WF) {m : Int → Option T} (hm : Within v m) {c : T → M σ T}
    (hc : ∀ y, (c y).Tame) {n : Nat} (hn : n < size v.dims) : (copyStep v m c n).Tame := by
  obtain ⟨p, hp⟩ := Option.isSome_iff_exists.1 ((View.index_isSome v hv _).2 (unrank_valid hn))
  obtain ⟨x, hx⟩ := Option.isSome_iff_exists.1 (hm _ p hp)
  unfold copyStep
  rw [hp]
  simp only [orUb, M.pure_bind, hx]
  exact hc x

theorem copy_raw {v : View} (hv : v.map.WF) (m : Int → Option T) (c : T → M σ T) {n : Nat}
    (hn : n < size v.dims) : rawNth (clonedView v m c) n = copyStep v m c n := by
  have hb : Built (clonedView v m c) := .map (.view hv)
  rw [rawNth_eq (wf_of_built hb) (by unfold Sound clonedView; simp [Regular]) hn]
  exact copy_item v m c n

theorem copy_plain {v : View} (hp : Visitable v) (m : Int → Option T) (c : T → M σ T) :
    NoPhantomRows (clonedView v m c) := by
  have h := C19_exact_count (σ := σ) (view true v)
  rw [length_allIdx, visited_view] at h
  exact h.1 ((visitable_iff v).2 hp)

theorem stopped_congr {step step' : Nat → M σ T} {n k : Nat} {s t : σ} {ys : List T}
    (h : Stopped step n s k ys t) (he : ∀ k, k < n → step k = step' k) : Stopped step' n s k ys t := by
  obtain ⟨hk, u, h1, h2⟩ := h
  exact ⟨hk, u, h1.congr fun i hi => he i (by omega), by rw [← he k hk]; exact h2⟩

/-- `to_tensor` (and `tensor(..)` of a view, `Tensor::from`) makes a tensor of the same shape with clones of the
elements: each element is cloned once, in row-major order, whatever the layout. It fails only if memory runs
out, or if a clone panics, and then the clones made so far are dropped. Missing: empty strided views with
phantom rows (`C61_violated`). -/
theorem C61_tensor_partial (v : View) (hv : v.map.WF) (hp : Visitable v) (m : Int → Option T)
    (hm : Within v m) (c : T → M σ T) (hc : ∀ y, (c y).Tame) (s : σ) (o : Own T) :
    M.Post (toTensor v m c) (s, o)
      (fun _ t => ∃ ys, Ran (copyStep v m c) (size v.dims) s ys t.1 ∧ Holds t.2 ys ∧
        t.2.shape = v.map.shape ∧ t.2.log = o.log)
      (fun t => (o.limit < size v.dims ∧ t.1 = s ∧ t.2.log = o.log) ∨
        ∃ k ys, Stopped (copyStep v m c) (size v.dims) s k ys t.1 ∧ t.2.log = o.log ++ ys) := by
  have hb : Built (clonedView v m c) := .map (.view hv)
  have hr : ∀ k, k < size v.dims → rawNth (clonedView v m c) k = copyStep v m c k :=
    fun k hk => copy_raw hv m c hk
  refine (C31_tensor_exact _ hb (fun n hn => ?_) (copy_plain hp m c) s o).mono ?_ ?_
  · rw [hr n hn]; exact copy_tame hv hm hc hn
  · rintro - t ⟨ys, h1, h2, h3, h4⟩
    exact ⟨ys, h1.congr hr, h2, h3, h4⟩
  · rintro t (⟨h1 | ⟨h1, -⟩, h2⟩ | ⟨k, ys, h1, h2⟩)
    · exact .inl ⟨h1, h2⟩
    · exact absurd h1 (by simp [clonedView, BadFn])
    · exact .inr ⟨k, ys, stopped_congr h1 hr, h2⟩

/-- `to_array` (and `array(..)` of a view, `Array::from`): the same for arrays, which need no memory. -/
theorem C61_array_partial (v : View) (hv : v.map.WF) (hp : Visitable v) (m : Int → Option T)
    (hm : Within v m) (c : T → M σ T) (hc : ∀ y, (c y).Tame) (s : σ) (o : Own T) :
    M.Post (toArray v m c) (s, o)
      (fun _ t => ∃ ys, Ran (copyStep v m c) (size v.dims) s ys t.1 ∧ Holds t.2 ys ∧
        t.2.shape = v.map.shape ∧ t.2.log = o.log ∧ t.2.cells = ys.map some)
      (fun t => ∃ k ys, Stopped (copyStep v m c) (size v.dims) s k ys t.1 ∧ t.2.log = o.log ++ ys) := by
  have hb : Built (clonedView v m c) := .map (.view hv)
  have hr : ∀ k, k < size v.dims → rawNth (clonedView v m c) k = copyStep v m c k :=
    fun k hk => copy_raw hv m c hk
  refine (C31_array_exact v.ty _ hb (fun n hn => ?_) (copy_plain hp m c) s o).mono ?_ ?_
  · rw [hr n hn]; exact copy_tame hv hm hc hn
  · rintro - t ⟨-, ys, h1, h2, h3, h4⟩
    exact ⟨ys, h1.congr hr, h2, h3, h4⟩
  · rintro t (⟨h1, -⟩ | ⟨-, ⟨h1, -⟩ | ⟨k, ys, h1, h2⟩⟩)
    · exact absurd hv.1 h1
    · exact absurd h1 (by simp [clonedView, BadFn])
    · exact ⟨k, ys, stopped_congr h1 hr, h2⟩

/-- `to_vec`: the same for a vector. -/
theorem C61_vec_partial (v : View) (hv : v.map.WF) (hp : Visitable v) (m : Int → Option T)
    (hm : Within v m) (c : T → M σ T) (hc : ∀ y, (c y).Tame) (s : σ) (o : Own T) :
    M.Post (toVec v m c) (s, o)
      (fun _ t => ∃ ys, Ran (copyStep v m c) (size v.dims) s ys t.1 ∧ IsVec t.2 ys ∧ t.2.log = o.log)
      (fun t => (o.limit < size v.dims ∧ t.1 = s ∧ t.2.log = o.log) ∨
        ∃ k ys, Stopped (copyStep v m c) (size v.dims) s k ys t.1 ∧ t.2.log = o.log ++ ys) := by
  refine M.Post.bind (C61_tensor_partial v hv hp m hm c hc s o) ?_
  rintro - ⟨s', o'⟩ ⟨ys, h1, h2, -, h4⟩
  obtain ⟨o2, h5, h6, h7, -⟩ := C53_into_vec o' ys h2 s'
  unfold M.Post
  rw [h5]
  exact ⟨ys, h1, h6, by rw [h7]; exact h4⟩

/-- The type that `Shape::Owned` selects, see C62. -/
theorem owned_eq {ty : ShapeTy} (h : ty.WF) : ty.owned = if AllConst ty then .array ty else .tensor ty := by
  cases ty with
  | dynRank => rfl
  | static ds =>
    show ownedStatic ds = _
    induction ds with
    | nil => rfl
    | cons d ds ih =>
      have hl : ds.length < 6 := by
        change (d :: ds).length ≤ 6 at h
        rw [List.length_cons] at h
        omega
      have ih := ih (show ds.length ≤ 6 by omega)
      have hpre : ∀ x, ShapeTy.prepend x (.static ds) = .static (x :: ds) := fun x => by
        show (if ds.length < 6 then ShapeTy.static (x :: ds) else .dynRank) = _
        rw [if_pos hl]
      cases d with
      | dyn =>
        rw [ownedStatic, hpre, if_neg]
        intro h
        exact h .dyn (by simp) rfl
      | const n =>
        rw [ownedStatic, ih]
        by_cases hc : AllConst (.static ds)
        · rw [if_pos hc, if_pos]
          · have : (ShapeTy.static ds).rank? ≠ some 6 := by
              show some ds.length ≠ some 6
              simp; omega
            show (if (ShapeTy.static ds).rank? = some 6 then OwnedTy.tensor (ShapeTy.prepend (.const n) (.static ds))
              else .array (ShapeTy.prepend (.const n) (.static ds))) = _
            rw [if_neg this, hpre]
          · intro x hx
            rcases List.mem_cons.1 hx with rfl | hx
            · simp
            · exact hc x hx
        · rw [if_neg hc, if_neg]
          · show OwnedTy.tensor (ShapeTy.prepend (.const n) (.static ds)) = _
            rw [hpre]
          · exact fun h => hc fun x hx => h x (List.mem_cons_of_mem _ hx)

/-- `to_owned` of a dense slice makes the owned array of the same shape with clones of all elements. -/
theorem C61_owned (v : View) (hv : v.map.WF) (hty : v.ty.WF) (hl : v.layout = .dense)
    (m : Int → Option T) (hm : Within v m) (c : T → M σ T) (hc : ∀ y, (c y).Tame) (s : σ) (o : Own T) :
    M.Post (toOwned v m c) (s, o)
      (fun _ t => ∃ ys, Ran (copyStep v m c) (size v.dims) s ys t.1 ∧ Holds t.2 ys ∧
        t.2.shape = v.map.shape ∧ t.2.log = o.log)
      (fun t => (¬ AllConst v.ty ∧ o.limit < size v.dims ∧ t.1 = s ∧ t.2.log = o.log) ∨
        ∃ k ys, Stopped (copyStep v m c) (size v.dims) s k ys t.1 ∧ t.2.log = o.log ++ ys) := by
  unfold toOwned
  rw [owned_eq hty]
  by_cases h : AllConst v.ty
  · rw [if_pos h]
    refine (C61_array_partial v hv (.inl hl) m hm c hc s o).mono ?_ ?_
    · rintro - t ⟨ys, h1, h2, h3, h4, -⟩
      exact ⟨ys, h1, h2, h3, h4⟩
    · exact fun t h => .inr h
  · rw [if_neg h]
    refine (C61_tensor_partial v hv (.inl hl) m hm c hc s o).mono (fun _ _ h => h) ?_
    rintro t (h1 | h1)
    · exact .inl ⟨h, h1⟩
    · exact .inr h1

/-- `clone_into` an array: the elements of the target are replaced by clones in row-major order, and nothing
else is changed. (For tensors see `C52_clone_from`.) -/
theorem C61_clone_into (v : View) (hv : v.map.WF) (hl : v.layout = .dense) (m : Int → Option T)
    (hm : Within v m) (c : T → M σ T) (hc : ∀ y, (c y).Tame) (target : View) (mem : List T)
    (ht : Exclusive target mem.length) (htl : target.layout = .dense) (hd : target.dims = v.dims) (s : σ) :
    M.Post (cloneIntoArray v m c target) (s, mem)
      (fun _ t => ∃ ys, Ran (copyStep v m c) (size v.dims) s ys t.1 ∧ Written target mem ys t.2)
      (fun t => ∃ k ys, Stopped (copyStep v m c) (size v.dims) s k ys t.1 ∧ Written target mem ys t.2) := by
  have hstep : ∀ n, M.bind (castItem target.dims (view true v : Expr σ Int) n) (cloneAt m c) =
      copyStep v m c n := by
    intro n
    unfold castItem copyStep
    rw [item, hd, show (view true v : Expr σ Int).dims = v.dims from rfl, Nat.sub_self, List.drop_zero]
    congr 1
    funext p
    unfold cloneAt
    cases m p <;> rfl
  have hcc : CanCast (view true v : Expr σ Int) target.dims := by
    rw [hd]; exact ⟨List.suffix_refl _, fun _ => rfl⟩
  refine (assign_post target mem ht (view true v : Expr σ Int) (.view hv) (cloneAt m c) ?_ ?_ s).mono ?_ ?_
  · intro n _ hn
    rw [hstep]
    exact copy_tame hv hm hc (by rw [← hd]; exact hn)
  · intro z hz
    obtain ⟨sh, rfl, -, -, h3, -⟩ := zip_trailing hz
    refine ⟨⟨trivial, trivial⟩, fun h => ?_⟩
    have : (zip (view false target) (view true v) sh : Expr σ (Int × Int)).outerRank = 0 := by
      have hds : sh.dims = target.dims := (h3 rfl).symm
      have h1 : target.map.isDense = true := Mapping.isDense_iff.2 htl
      have h2 : v.map.isDense = true := Mapping.isDense_iff.2 hl
      have e1 : sh.dims.length = target.map.rank := by rw [hds]
      have e2 : sh.dims.length = v.map.rank := by rw [hds, hd]
      have e3 : (zip (view false target) (view true v) sh : Expr σ (Int × Int)).rank = sh.dims.length := rfl
      unfold outerRank
      rw [e3]
      show (match minRank (mapInnerRank target.map) (mapInnerRank v.map) with
        | none => 0 | some k => sh.dims.length - k) = 0
      unfold mapInnerRank
      rw [if_pos h1, if_pos h2, ← e1, ← e2]
      by_cases h3 : target.map.shape.ty.rank? = some 0 <;> by_cases h4 : v.map.shape.ty.rank? = some 0 <;>
        simp [h3, h4, minRank]
    rw [this]
    exact h
  · rintro - t ⟨-, ys, h1, h2⟩
    exact ⟨ys, hd ▸ h1.congr fun n _ => hstep n, h2⟩
  · rintro t (⟨h1, -⟩ | ⟨-, k, ys, h1, h2⟩)
    · exact absurd hcc h1
    · exact ⟨k, ys, hd ▸ stopped_congr h1 fun n _ => hstep n, h2⟩

theorem copy_faithful {v : View} {m : Int → Option T} {c : T → M σ T} (hf : Faithful c) {n : Nat} {s t : σ}
    {ys : List T} (h : Ran (copyStep v m c) n s ys t) :
    ∀ k, k < n → ∃ p, v.index (unrank v.dims k) = some p ∧ m p = ys[k]? := by
  induction n generalizing ys t with
  | zero => intro k hk; omega
  | succ n ih =>
    obtain ⟨zs, z, u, rfl, h1, h2⟩ := ran_succ_iff.1 h
    have hl := h1.length
    intro k hk
    by_cases hkn : k < n
    · obtain ⟨p, hp, hm⟩ := ih h1 k hkn
      exact ⟨p, hp, by rw [hm, List.getElem?_append_left (by omega)]⟩
    · have : k = n := by omega
      subst this
      unfold copyStep at h2
      cases hp : v.index (unrank v.dims k) with
      | none => rw [hp] at h2; cases h2
      | some p =>
        rw [hp] at h2
        cases hm : m p with
        | none => simp only [orUb, M.pure_bind, hm] at h2; cases h2
        | some x =>
          simp only [orUb, M.pure_bind, hm] at h2
          refine ⟨p, rfl, ?_⟩
          rw [hf _ _ _ _ h2, ← hl, List.getElem?_append_right (Nat.le_refl _), Nat.sub_self, hm]
          rfl

/-- If cloning an element gives an equal one, the copy made by `to_tensor` has the same element as the source
at every index, and no other indices. -/
theorem C61_copy (v : View) (hv : v.map.WF) (hp : Visitable v) (m : Int → Option T) (hm : Within v m)
    (c : T → M σ T) (hc : ∀ y, (c y).Tame) (hf : Faithful c) (s : σ) (o : Own T) (t : σ × Own T)
    (ht : toTensor v m c (s, o) = .ok () t) :
    t.2.shape = v.map.shape ∧ ∀ j, Valid v.dims j → (tensorAt t.2 j).isSome ∧
      tensorAt t.2 j = (v.index j).bind m := by
  have := C61_tensor_partial v hv hp m hm c hc s o
  unfold M.Post at this
  rw [ht] at this
  obtain ⟨ys, h1, h2, h3, -⟩ := this
  refine ⟨h3, fun j hj => ?_⟩
  have hd : t.2.shape.dims = v.dims := by rw [h3]
  have hlt := rowMajor_lt hj
  obtain ⟨p, e1, e2⟩ := copy_faithful hf h1 _ hlt
  rw [unrank_rowMajor hj] at e1
  have e3 : tensorAt t.2 j = m p := by
    rw [tensorAt_eq h2 j (by rw [hd]; exact hj), hd, e2]
  have := hm j p e1
  rw [e3, e1]
  exact ⟨this, rfl⟩

/-- `tensor(..)` of an array, here with a faithful clone: exactly if the indices are in range it gives a tensor with
the dimensions and the elements of the selection. -/
theorem C61_sub_partial (v : View) (hv : v.map.WF) (xs : List DimIdx) (hx : v.dims.length = xs.length)
    (hd : ∀ d ∈ v.dims, d ≤ usizeMax) (hp : ∀ w, v.view xs = some w → Visitable w)
    (m : Int → Option T) (hm : Within v m) (c : T → M σ T) (hc : ∀ y, (c y).Tame) (hf : Faithful c)
    (s : σ) (o : Own T) :
    (selectAll xs v.dims = none → viewTensor v xs m c (s, o) = .panic (s, o)) ∧
    ∀ sel t, selectAll xs v.dims = some sel → viewTensor v xs m c (s, o) = .ok () t →
      t.2.shape.dims = selDims sel ∧
      ∀ j i, pull sel j = some i → (tensorAt t.2 j).isSome ∧ tensorAt t.2 j = (v.index i).bind m := by
  obtain ⟨h1, h2⟩ := View.view_spec v hv xs hx hd
  constructor
  · intro h
    have : v.view xs = none := by
      cases hw : v.view xs with
      | none => rfl
      | some w => rw [h, hw] at h1; simp at h1
    unfold viewTensor
    rw [this]
    rfl
  · intro sel t hs ht
    cases hw : v.view xs with
    | none => rw [hs, hw] at h1; simp at h1
    | some w =>
      unfold viewTensor at ht
      rw [hw] at ht
      obtain ⟨g1, g2, -, g4, g5⟩ := h2 w sel hw hs
      have hmw : Within w m := by
        intro j p hj
        rw [g5, Option.bind_eq_some_iff] at hj
        obtain ⟨i, -, hi⟩ := hj
        exact hm i p hi
      obtain ⟨e1, e2⟩ := C61_copy w g1 (hp w hw) m hmw c hc hf s o t ht
      refine ⟨by rw [e1, ← g2], fun j i hj => ?_⟩
      have hvj : Valid w.dims j := by
        rw [← View.index_isSome w g1, g5, hj, Option.bind_some, View.index_isSome v hv]
        exact g4 j i hj
      obtain ⟨e3, e4⟩ := e2 j hvj
      refine ⟨e3, ?_⟩
      rw [e4, g5, hj, Option.bind_some]

/-- `array(..)` of an array: the same as `tensor(..)` but the elements are in an array on the stack. -/
theorem C61_sub_array_partial (v : View) (hv : v.map.WF) (xs : List DimIdx) (hx : v.dims.length = xs.length)
    (hd : ∀ d ∈ v.dims, d ≤ usizeMax) (hp : ∀ w, v.view xs = some w → Visitable w)
    (m : Int → Option T) (hm : Within v m) (c : T → M σ T) (hc : ∀ y, (c y).Tame) (hf : Faithful c)
    (s : σ) (o : Own T) :
    (selectAll xs v.dims = none → viewArray v xs m c (s, o) = .panic (s, o)) ∧
    ∀ sel t, selectAll xs v.dims = some sel → viewArray v xs m c (s, o) = .ok () t →
      t.2.shape.dims = selDims sel ∧ t.2.log = o.log ∧
      ∀ j i, pull sel j = some i → (tensorAt t.2 j).isSome ∧ tensorAt t.2 j = (v.index i).bind m := by
  obtain ⟨h1, h2⟩ := View.view_spec v hv xs hx hd
  constructor
  · intro h
    have : v.view xs = none := by
      cases hw : v.view xs with
      | none => rfl
      | some w => rw [h, hw] at h1; simp at h1
    unfold viewArray
    rw [this]
    rfl
  · intro sel t hs ht
    cases hw : v.view xs with
    | none => rw [hs, hw] at h1; simp at h1
    | some w =>
      unfold viewArray at ht
      rw [hw] at ht
      change toArray w m c (s, o) = _ at ht
      obtain ⟨g1, g2, -, g4, g5⟩ := h2 w sel hw hs
      have hmw : Within w m := by
        intro j p hj
        rw [g5, Option.bind_eq_some_iff] at hj
        obtain ⟨i, -, hi⟩ := hj
        exact hm i p hi
      have := C61_array_partial w g1 (hp w hw) m hmw c hc s o
      unfold M.Post at this
      rw [ht] at this
      obtain ⟨ys, e1, e2, e3, e4, -⟩ := this
      have hdw : t.2.shape.dims = w.dims := by rw [e3]
      refine ⟨by rw [hdw, ← g2], e4, fun j i hj => ?_⟩
      have hvj : Valid w.dims j := by
        rw [← View.index_isSome w g1, g5, hj, Option.bind_some, View.index_isSome v hv]
        exact g4 j i hj
      obtain ⟨p, e5, e6⟩ := copy_faithful hf e1 _ (rowMajor_lt hvj)
      rw [unrank_rowMajor hvj] at e5
      have e7 : tensorAt t.2 j = m p := by
        rw [tensorAt_eq e2 j (by rw [hdw]; exact hvj), hdw, e6]
      have e8 := hmw j p e5
      rw [g5, hj, Option.bind_some] at e5
      rw [e7, e5]
      exact ⟨e8, rfl⟩

/-- A column of a constant array, which has a constant shape again. -/
example : (match viewArray (whole ⟨constTy [2, 3], [2, 3]⟩) [.full, .int 1]
      (fun p => [10, 11, 12, 13, 14, 15][p.toNat]?) clone3 (3, noTensor) with
    | .ok _ t => some (t.2.shape, t.2.cells)
    | _ => none) = some (⟨constTy [2], [2]⟩, [some 11, some 14]) := by decide +kernel

/-- The code as it is: copying an empty view reads and writes out of bounds, so that it is undefined
behaviour if the view has no memory. -/
theorem C61_violated :
    ∃ v, Reach true (whole ⟨.static [.dyn, .dyn], [2, 3]⟩) v ∧ size v.dims = 0 ∧ Within v (fun _ => (none : Option Nat)) ∧
      toTensor v (fun _ => (none : Option Nat)) M.pure ((), noTensor) = .ub := by
  let v1 : View := ⟨0, .strided ⟨.static [.dyn, .dyn], [2, 0]⟩ [3, 1]⟩
  let v2 : View := ⟨0, .strided ⟨.static [.dyn, .dyn], [0, 2]⟩ [1, 3]⟩
  have hw : v2.map.WF := by decide
  refine ⟨v2, .call (v := v1) (.call .refl (.inr (by decide))
    (.view (xs := [.full, .range .unbounded (.excluded 0)]) rfl (by decide +kernel)))
    (.inr (by decide)) (.reorder (by decide)), by decide, ?_, by decide +kernel⟩
  intro j p hj
  have h1 := (View.index_isSome v2 hw j).1 (by rw [hj]; rfl)
  have h2 := rowMajor_lt h1
  have h3 : size v2.dims = 0 := by decide
  omega

/-- Copying a transposed view, with a clone that panics at its fourth call. -/
example : (swapped 2 3).map.WF ∧ Visitable (swapped 2 3) ∧
    toTensor (swapped 2 3) (fun p => [10, 11, 12, 13, 14, 15][p.toNat]?) clone3 (3, noTensor) =
      .ok () (9, ⟨[10, 13, 11, 14, 12, 15].map some, 6, ⟨.static [.dyn, .dyn], [3, 2]⟩, [], 100⟩) ∧
    (match toTensor (swapped 2 3) (fun p => [10, 11, 12, 13, 14, 15][p.toNat]?) clone3 (0, noTensor) with
      | .panic t => some (t.1, t.2.log)
      | _ => none) = some (2, [10, 13]) := by
  refine ⟨by decide, .inr (.inl (by decide)), by decide +kernel, by decide +kernel⟩

/-- `to_owned` and `clone_into` of a dense slice with constant dimensions. -/
example : (constTy [2, 2]).WF ∧ AllConst (constTy [2, 2]) ∧
    toOwned (whole ⟨constTy [2, 2], [2, 2]⟩) (fun p => [10, 11, 12, 13][p.toNat]?) clone3 (3, noTensor) =
      .ok () (7, ⟨[10, 11, 12, 13].map some, 4, ⟨constTy [2, 2], [2, 2]⟩, [], 100⟩) ∧
    cloneIntoArray (whole ⟨constTy [2, 2], [2, 2]⟩) (fun p => [10, 11, 12, 13][p.toNat]?) clone3
      ⟨1, .dense ⟨constTy [2, 2], [2, 2]⟩⟩ (3, [0, 1, 2, 3, 4, 5]) = .ok () (7, [0, 10, 11, 12, 13, 5]) := by
  decide +kernel

/-- A selection of rows and a column. -/
example : (match viewTensor (whole ⟨.static [.dyn, .dyn], [2, 3]⟩) [.full, .int 1]
      (fun p => [10, 11, 12, 13, 14, 15][p.toNat]?) clone3 (3, noTensor) with
    | .ok _ t => some (t.2.shape.dims, t.2.cells)
    | _ => none) = some ([2], [some 11, some 14]) := by decide +kernel

/-! ### C62 -/

/-- The owned type for a shape type (`Shape::Owned`, the result of `eval` and `to_owned`) is an array exactly if
all dimensions are constant, otherwise a tensor; and it has the same shape type. -/
theorem C62 (ty : ShapeTy) (h : ty.WF) : ty.owned = if AllConst ty then .array ty else .tensor ty :=
  owned_eq h

/-- `eval` gives the owned array with the shape of the expression and its items in row-major order. -/
theorem C62_eval_partial (e : Expr σ T) (hb : Built e) (hty : e.shape.ty.WF) (ht : TameRaw e) (hp : NoPhantomRows e)
    (s : σ) (o : Own T) :
    M.Post (eval e) (s, o)
      (fun _ t => ∃ ys, Ran (rawNth e) (size e.dims) s ys t.1 ∧ Holds t.2 ys ∧
        t.2.shape = e.shape ∧ t.2.log = o.log)
      (fun t => (¬ AllConst e.shape.ty ∧ o.limit < size e.dims ∧ t.1 = s ∧ t.2.log = o.log) ∨
        (BadFn e ∧ t.1 = s ∧ t.2.log = o.log) ∨
        ∃ k ys, Stopped (rawNth e) (size e.dims) s k ys t.1 ∧ t.2.log = o.log ++ ys) := by
  unfold eval
  rw [owned_eq hty]
  by_cases h : AllConst e.shape.ty
  · rw [if_pos h]
    refine (C31_array_exact e.shape.ty e hb ht hp s o).mono ?_ ?_
    · rintro - t ⟨-, ys, h1, h2, h3, h4, -⟩
      exact ⟨ys, h1, h2, h3, h4⟩
    · rintro t (⟨h1, -⟩ | ⟨-, ⟨h1, -, h2⟩ | h1⟩)
      · exact absurd (shape_wf (wf_of_built hb)) h1
      · exact .inr (.inl ⟨h1, h2⟩)
      · exact .inr (.inr h1)
  · rw [if_neg h]
    refine (C31_tensor_exact e hb ht hp s o).mono (fun _ _ h => h) ?_
    rintro t (⟨h1 | ⟨h1, -⟩, h2⟩ | h1)
    · exact .inl ⟨h, h1, h2⟩
    · exact .inr (.inl ⟨h1, h2⟩)
    · exact .inr (.inr h1)

example : (ShapeTy.static [.const 2, .const 3]).owned = .array (.static [.const 2, .const 3]) ∧
    (ShapeTy.static [.const 2, .dyn]).owned = .tensor (.static [.const 2, .dyn]) := by decide

example : eval (fromElem ⟨.static [.const 3], [3]⟩ (fun s => .ok s (s + 1)) : Expr Nat Nat) (7, noTensor) =
      .ok () (10, ⟨[7, 8, 9].map some, 3, ⟨.static [.const 3], [3]⟩, [], 100⟩) := by decide +kernel

/-- The repeat form of `tensor!`: the dimension written last is the first one of the tensor, and every element is
made by one evaluation of `f` (a clone of the value). -/
theorem C62_repeat (sizes : List Nat) (f : M σ T) (hf : f.Tame) (s : σ) (o : Own T) :
    M.Post (tensorRepeat sizes f) (s, o)
      (fun _ t => NoOverflow usizeMax sizes.reverse ∧ ∃ ys, Ran (fun _ => f) (size sizes.reverse) s ys t.1 ∧
        Holds t.2 ys ∧ t.2.shape.dims = sizes.reverse ∧ t.2.log = o.log)
      (fun t => (¬ NoOverflow usizeMax sizes.reverse ∧ t = (s, o)) ∨
        (o.limit < size sizes.reverse ∧ t.1 = s ∧ t.2.log = o.log) ∨
        ∃ k ys, Stopped (fun _ => f) (size sizes.reverse) s k ys t.1 ∧ t.2.log = o.log ++ ys) := by
  obtain ⟨⟨sh, h1, hw, -, h2⟩, -⟩ := C60 (.array sizes.reverse) (fun s h => by cases h)
  replace h2 : sh.dims = sizes.reverse := h2
  unfold tensorRepeat
  rw [h1]
  change M.Post (M.bind (M.lift (fromElemNew sh f)) fun e => tensorFromExpr e) (s, o) _ _
  by_cases hno : NoOverflow usizeMax sizes.reverse
  · have he : fromElemNew sh f = some (fromElem sh f) := by
      unfold fromElemNew
      rw [Shape.checkedLen_eq, h2, if_pos hno]
      rfl
    have hb : Built (fromElem sh f) := .fromElem hw he
    have hr : ∀ k, k < size (fromElem sh f).dims → rawNth (fromElem sh f) k = f := by
      intro k hk
      rw [rawNth_eq (wf_of_built hb) (by unfold Sound; simp [Regular]) hk]
      rfl
    rw [he]
    change M.Post (tensorFromExpr (fromElem sh f)) (s, o) _ _
    have hd : (fromElem sh f : Expr σ T).dims = sizes.reverse := h2
    have hs : (fromElem sh f : Expr σ T).shape = sh := rfl
    refine (C31_tensor_exact _ hb (fun n hn => by rw [hr n hn]; exact hf) (fun h => ?_) s o).mono ?_ ?_
    · have : (fromElem sh f : Expr σ T).outerRank = 0 := rfl
      rw [this]
      exact h
    · rintro - t ⟨ys, h3, h4, h5, h6⟩
      refine ⟨hno, ys, ?_, h4, by rw [h5, hs, h2], h6⟩
      rw [← hd]
      exact h3.congr hr
    · rintro t (⟨h3 | ⟨h3, -⟩, h4⟩ | ⟨k, ys, h3, h4⟩)
      · exact .inr (.inl ⟨hd ▸ h3, h4⟩)
      · exact h3.elim
      · refine .inr (.inr ⟨k, ys, ?_, h4⟩)
        rw [← hd]
        exact stopped_congr h3 hr
  · have he : fromElemNew sh f = none := by
      unfold fromElemNew
      rw [Shape.checkedLen_eq, h2, if_neg hno]
      rfl
    rw [he]
    exact .inl ⟨hno, rfl⟩

/-- `tensor![[x; 3]; 2]`. -/
example : (match tensorRepeat [3, 2] (fun s => .ok s (s + 1)) (7, noTensor) with
    | .ok _ t => some (t.1, t.2.shape.dims, t.2.cells)
    | _ => none) = some (13, [2, 3], [7, 8, 9, 10, 11, 12].map some) := by decide +kernel

/-! ### C63 -/

theorem default_const {ty : ShapeTy} (hc : AllConst ty) {dims : List Nat} (h : ty.Conforms dims) :
    Shape.default ty = ⟨ty, dims⟩ := by
  cases ty with
  | dynRank => exact hc.elim
  | static ds =>
    show (⟨.static ds, ds.map DimTy.default⟩ : Shape) = _
    congr 1
    induction ds generalizing dims with
    | nil => cases h; rfl
    | cons d ds ih =>
      cases h with
      | cons h1 h2 =>
        rw [List.map_cons, ih (fun x hx => hc x (List.mem_cons_of_mem _ hx)) h2]
        cases d with
        | dyn => exact absurd rfl (hc .dyn (by simp))
        | const n => rw [show DimTy.default (.const n) = n from rfl, show _ = n from h1]

theorem zst_iff {ty : ShapeTy} {l : Layout} : mappingZst ty l = true ↔
    AllConst ty ∧ (l = .dense ∨ ty = .static []) := by
  cases ty with
  | dynRank => simp [mappingZst, AllConst]
  | static ds => simp [mappingZst, AllConst, List.isEmpty_iff]

theorem zst_unit {v : View} (hv : v.map.WF) (h : mappingZst v.ty v.layout = true) :
    mappingUnit v.ty v.layout = v.map := by
  obtain ⟨h1, h2⟩ := zst_iff.1 h
  have hd := default_const h1 hv.1
  obtain ⟨p, m⟩ := v
  cases m with
  | dense s => show Mapping.dense (Shape.default s.ty) = _; exact congrArg _ hd
  | strided s st =>
    rcases h2 with h2 | h2
    · cases h2
    · have e : s.dims = [] := by
        have : s.ty.Conforms s.dims := hv.1
        rw [show s.ty = .static [] from h2] at this
        simpa using this
      have e2 : st = [] := List.length_eq_zero_iff.1 (by rw [← List.length_eq_zero_iff.2 e]; exact hv.2)
      show Mapping.strided (Shape.default s.ty) [] = _
      rw [e2]
      exact congrArg (Mapping.strided · []) hd

/-- A `&Slice` made from a view or a tensor, whose address is that of the elements if the mapping type has no size
and otherwise that of the descriptor, gives back the pointer and the mapping of the view. -/
theorem C63 (mem : List View) (i : Nat) (v : View) (hi : mem[i]? = some v) (hv : v.map.WF) :
    ∃ a, asSliceRef mem v.ty v.layout i = some a ∧ slicePtr mem v.ty v.layout a = some v.ptr ∧
      sliceMapping mem v.ty v.layout a = some v.map := by
  unfold asSliceRef slicePtr sliceMapping fromSliceRef
  rw [hi]
  cases h : mappingZst v.ty v.layout with
  | true => exact ⟨.data v.ptr, by simp, by simp, by simp [zst_unit hv h]⟩
  | false => exact ⟨.desc i, by simp, by simp [hi, check], by simp [hi, check]⟩

/-- The same for an `Array` at the position `p`; the reference can be made exactly if the number of elements
fits into `usize`. -/
theorem C63_array (mem : List View) (dims : List Nat) (p : Int) :
    ((arrayDeref (constTy dims) p).isSome ↔ NoOverflow usizeMax dims) ∧
    ∀ a, arrayDeref (constTy dims) p = some a → slicePtr mem (constTy dims) .dense a = some p ∧
      sliceMapping mem (constTy dims) .dense a = some (.dense ⟨constTy dims, dims⟩) := by
  have hc : AllConst (constTy dims) := by
    intro d hd
    obtain ⟨n, -, rfl⟩ := List.mem_map.1 hd
    simp
  have hz : mappingZst (constTy dims) .dense = true := zst_iff.2 ⟨hc, .inl rfl⟩
  have hs : Shape.default (constTy dims) = ⟨constTy dims, dims⟩ := by
    show (⟨_, _⟩ : Shape) = _
    congr 1
    rw [List.map_map]
    exact List.map_id'' (fun _ => rfl) _
  unfold arrayDeref
  rw [hs, Shape.checkedLen_eq]
  constructor
  · by_cases h : NoOverflow usizeMax dims
    · simp [h]
    · simp [h]
  · intro a ha
    by_cases h : NoOverflow usizeMax dims
    · rw [if_pos h] at ha
      injection ha with ha
      subst ha
      unfold slicePtr sliceMapping mappingUnit
      rw [if_pos hz, if_pos hz, hs]
      exact ⟨rfl, rfl⟩
    · rw [if_neg h] at ha; cases ha

/-- `AsRef<[[T; B]; A]>` of a dense slice with constant dimensions, however the reference was made: the nested array
has the elements of the slice. -/
theorem C63_as_ref (mem : List View) (i : Nat) (v : View) (hi : mem[i]? = some v) (hv : v.map.WF)
    (dims : List Nat) (hty : v.ty = constTy dims) (hl : v.map.isDense = true) (p : Nat) (hp : v.ptr = p)
    (m : List T) (hm : p + size dims ≤ m.length) :
    ∃ a x, asSliceRef mem v.ty v.layout i = some a ∧ sliceAsArray dims a m = some x ∧ HasDims dims x ∧
      ∀ j, Valid dims j → ∃ (q : Nat) (y : T), v.index j = some (q : Int) ∧ m[q]? = some y ∧
        nestedGet x j = some y := by
  have hd : v.dims = dims := by
    have : (constTy dims).Conforms v.dims := by rw [← hty]; exact hv.1
    clear hty hi hm hl hp
    generalize v.dims = ds at this
    induction dims generalizing ds with
    | nil => exact ShapeTy.conforms_nil.1 this
    | cons d dims ih =>
      cases ds with
      | nil => exact absurd this ShapeTy.not_conforms_cons_nil
      | cons x ds =>
        obtain ⟨h1, h2⟩ := ShapeTy.conforms_cons.1 this
        rw [ih _ h2, show x = d from h1]
  have hz : mappingZst v.ty v.layout = true := by
    refine zst_iff.2 ⟨?_, .inl (Mapping.isDense_iff.1 hl)⟩
    rw [hty]
    intro d hd
    obtain ⟨n, -, rfl⟩ := List.mem_map.1 hd
    simp
  obtain ⟨x, h1, h2, h3⟩ := (C50_view_back dims v hv hl p hp m (by rw [hd]; exact hm)).1 hd
  refine ⟨.data v.ptr, x, ?_, ?_, h2, h3⟩
  · unfold asSliceRef
    rw [hi, hz]
    rfl
  · unfold viewTryArray at h1
    rw [if_pos hd] at h1
    exact h1

example : asSliceRef [⟨5, .dense ⟨.static [.const 2], [2]⟩⟩, ⟨7, .dense ⟨.static [.dyn], [2]⟩⟩]
      (.static [.const 2]) .dense 0 = some (.data 5) ∧
    asSliceRef [⟨5, .dense ⟨.static [.const 2], [2]⟩⟩, ⟨7, .dense ⟨.static [.dyn], [2]⟩⟩]
      (.static [.dyn]) .dense 1 = some (.desc 1) ∧
    slicePtr [⟨5, .dense ⟨.static [.const 2], [2]⟩⟩, ⟨7, .dense ⟨.static [.dyn], [2]⟩⟩]
      (.static [.dyn]) .dense (.desc 1) = some 7 ∧
    arrayDeref (.static [.const 2]) 3 = some (.data 3) := by decide +kernel

example : sliceAsArray [2, 2] (.data 1) [0, 1, 2, 3, 4] = some (.arr [.arr [.elem 1, .elem 2], .arr [.elem 3, .elem 4]]) := by
  simp [sliceAsArray, Arr.unflat, List.range_succ]

/-! ### C64 -/

theorem post_manually {x : M (σ × Own T) Unit} {s : σ × Own T} {Q R} (h : M.Post x s Q R) :
    M.Post (manually x) s
      (fun _ t => ∃ log, Q () (t.1, { t.2 with log := log }) ∧ t.2.log = s.2.log)
      (fun t => ∃ log, R (t.1, { t.2 with log := log }) ∧ t.2.log = s.2.log) := by
  unfold M.Post manually at *
  cases hx : x s with
  | ok a t => rw [hx] at h; exact ⟨t.2.log, h, rfl⟩
  | panic t => rw [hx] at h; exact ⟨t.2.log, h, rfl⟩
  | ub => rw [hx] at h; exact h
  | abort => rw [hx] at h; exact h

/-- Cloning an owning expression that was not used yet: the copy has clones of all elements. A used expression
panics. Missing: when a clone panics, the clones made so far are lost (see `C64_violated`). -/
theorem C64_clone_partial (b : Own T) (xs : List T) (h : Holds b xs) (idx : Nat) (c : T → M σ T)
    (hc : ∀ y, (c y).Tame) (s : σ) (o : Own T) :
    M.Post (intoExprClone b idx c) (s, o)
      (fun _ t => idx = 0 ∧ ∃ ys, Ran (cloneStep xs c) xs.length s ys t.1 ∧ Holds t.2 ys ∧
        t.2.shape = b.shape ∧ t.2.log = o.log)
      (fun t => t.2.log = o.log ∧ ((idx ≠ 0 ∧ t = (s, o)) ∨ (idx = 0 ∧ o.limit < xs.length ∧ t.1 = s) ∨
        (idx = 0 ∧ ∃ k ys, Stopped (cloneStep xs c) xs.length s k ys t.1))) := by
  unfold intoExprClone
  by_cases hi : idx = 0
  · rw [show check _ = some () from if_pos hi]
    refine (post_manually (C52_clone b xs h c hc s o)).mono ?_ ?_
    · rintro - t ⟨log, ⟨ys, h1, h2, h3, -⟩, h4⟩
      exact ⟨hi, ys, h1, h2, h3, h4⟩
    · rintro t ⟨log, h1 | ⟨k, ys, h1, -⟩, h4⟩
      · exact ⟨h4, .inr (.inl ⟨hi, h1.1, h1.2.1⟩)⟩
      · exact ⟨h4, .inr (.inr ⟨hi, k, ys, h1⟩)⟩
  · rw [show check _ = none from if_neg hi]
    exact ⟨rfl, .inl ⟨hi, rfl⟩⟩

/-- `clone_from`: the target has clones of all elements of the source. Missing: its old elements are lost, which is
not undefined behaviour but a leak (see `C64_violated`). -/
theorem C64_clone_from_partial (b : Own T) (src : List T) (hb : Holds b src) (o : Own T) (xs : List T)
    (ho : Holds o xs) (hty : b.shape.ty = o.shape.ty) (idx idx' : Nat) (c : T → M σ T)
    (hc : ∀ y, (c y).Tame) (s : σ) :
    M.Post (intoExprCloneFrom idx b idx' c) (s, o)
      (fun _ t => idx = 0 ∧ idx' = 0 ∧ ∃ ys, Ran (cloneStep src c) src.length s ys t.1 ∧ Holds t.2 ys ∧
        t.2.shape = b.shape ∧ t.2.log = o.log)
      (fun t => t.2.log = o.log ∧ ((¬ (idx = 0 ∧ idx' = 0) ∧ t = (s, o)) ∨
        (idx = 0 ∧ idx' = 0 ∧ ∃ k ys owned, (Stopped (cloneStep src c) src.length s k ys t.1 ∨
          Ran (cloneStep src c) k s ys t.1) ∧ Holds t.2 owned ∧ (∃ lost, (owned ++ lost).Perm (xs ++ ys))))) := by
  unfold intoExprCloneFrom
  by_cases hi : idx = 0 ∧ idx' = 0
  · rw [show check _ = some () from if_pos hi]
    refine (post_manually (C52_clone_from b src hb o xs ho hty c hc s)).mono ?_ ?_
    · rintro - t ⟨log, ⟨ys, -, h1, h2, h3, -⟩, h4⟩
      exact ⟨hi.1, hi.2, ys, h1, h2, h3, h4⟩
    · rintro t ⟨log, ⟨k, ys, owned, lost, h1, h2, h3, -⟩, h4⟩
      exact ⟨h4, .inr ⟨hi.1, hi.2, k, ys, owned, h1, h3, lost, h2⟩⟩
  · rw [show check _ = none from if_neg hi]
    exact ⟨rfl, .inl ⟨hi, rfl⟩⟩

/-- The code as it is: `clone_from` of an owning expression never drops the old elements of the target, and a clone
that panics leaves the clones made before it undropped. -/
theorem C64_violated :
    (∃ (o b : Own Nat) (xs src : List Nat) (t : Unit × Own Nat), Holds o xs ∧ Holds b src ∧ xs = [1, 2, 3, 4] ∧
      b.shape.ty = o.shape.ty ∧
      intoExprCloneFrom 0 b 0 M.pure ((), o) = .ok () t ∧ Holds t.2 src ∧ t.2.log = o.log ∧
      ∀ x ∈ xs, x ∉ src) ∧
    (∃ (b : Own Nat) (src : List Nat) (t : Nat × Own Nat), Holds b src ∧
      Stopped (cloneStep src clone3) src.length 0 2 [5, 6] t.1 ∧
      intoExprClone b 0 clone3 (0, noTensor) = .panic t ∧ t.2.log = []) := by
  refine ⟨⟨tensor22, ⟨[some 5, some 6, some 7, some 8], 0, tensor22.shape, [], 100⟩, [1, 2, 3, 4], [5, 6, 7, 8],
    ((), ⟨[some 5, some 6, some 7, some 8], 4, tensor22.shape, [], 100⟩), ⟨by decide, by decide, by decide⟩,
    ⟨by decide, by decide, by decide⟩, rfl, rfl, by decide +kernel, ⟨by decide, by decide, by decide⟩, rfl, by decide⟩,
    ⟨spare22, [5, 6, 7, 8], (2, ⟨[none, none, none, none], 2, ⟨.dynRank, []⟩, [], 100⟩),
      ⟨by decide, by decide, [none], rfl⟩, ⟨by decide, 2, rfl, rfl⟩, by decide +kernel, rfl⟩⟩

theorem bind_ok.{u, v} {α : Type u} {β : Type v} {x : M σ α} {f : α → M σ β} {s t : σ} {b : β} (h : M.bind x f s = .ok b t) :
    ∃ a u, x s = .ok a u ∧ f a u = .ok b t := by
  unfold M.bind at h
  cases hx : x s with
  | ok a u => rw [hx] at h; exact ⟨a, u, rfl, h⟩
  | panic => rw [hx] at h; cases h
  | ub => rw [hx] at h; cases h
  | abort => rw [hx] at h; cases h

/-- How `next` changes the position in the row. -/
theorem next_index {α : Type} {it it' : Iter σ α} {x : Option α} {s s' : σ} (h : it.next s = .ok (x, it') s') :
    (x = none → it'.innerIndex = it.innerIndex) ∧ (x ≠ none → it'.innerIndex ≠ 0) := by
  unfold Iter.next at h
  by_cases hl : it.innerIndex = it.innerLimit
  · rw [if_pos hl] at h
    obtain ⟨q, s1, h1, h⟩ := bind_ok h
    cases hq : q.1 with
    | true =>
      rw [hq, if_pos rfl] at h
      obtain ⟨p, s2, -, h⟩ := bind_ok h
      cases h
      simp
    | false =>
      rw [hq] at h
      cases h
      cases hs : stepOuter it with
      | none => rw [hs] at h1; cases h1
      | some r =>
        rw [hs] at h1
        cases h1
        unfold stepOuter at hs
        simp only [Option.bind_eq_some_iff, Option.map_eq_some_iff] at hs
        obtain ⟨_, -, _, -, rfl⟩ := hs
        simp
  · rw [if_neg hl] at h
    obtain ⟨p, s2, -, h⟩ := bind_ok h
    cases h
    simp

/-- The debug output of an iterator, which shows the elements of the expression, panics as soon as an element was
handed out; so elements that were moved out are never shown. -/
theorem C64_debug {α : Type} (e : Expr σ α) (k : Nat) (s s' : σ) (xs : List (Option α)) (it : Iter σ α)
    (h : runNext k (Iter.new e) s = .ok (xs, it) s') : iterDebug it = some () ↔ ∀ x ∈ xs, x = none := by
  have key : ∀ k (it0 : Iter σ α) s xs it s', runNext k it0 s = .ok (xs, it) s' →
      (it.innerIndex = 0 ↔ it0.innerIndex = 0 ∧ ∀ x ∈ xs, x = none) := by
    intro k
    induction k with
    | zero =>
      intro it0 s xs it s' h
      cases h
      simp
    | succ k ih =>
      intro it0 s xs it s' h
      rw [runNext] at h
      obtain ⟨⟨x, it1⟩, s1, h1, h⟩ := bind_ok h
      obtain ⟨⟨ys, it2⟩, s2, h2, h⟩ := bind_ok h
      cases h
      rw [ih _ _ _ _ _ h2]
      have h3 := next_index h1
      cases x with
      | none => simp [h3.1 rfl]
      | some x => simp [h3.2 (by simp)]
  show check (it.innerIndex = 0) = some () ↔ _
  rw [check_eq_some, key k _ s xs it s' h]
  exact and_iff_right rfl

example : (match runNext 2 (Iter.new (view true (swapped 2 3) : Expr Unit Int)) () with
    | .ok r _ => some (r.1, iterDebug r.2)
    | _ => none) = some ([some 0, some 3], none) ∧
    iterDebug (Iter.new (view true (swapped 2 3) : Expr Unit Int)) = some () := by decide +kernel

end Props
