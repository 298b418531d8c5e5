import Verif.Lemmas.RawOps
import Verif.Lemmas.NextRaw
import Verif.Props.Compare
import Verif.Props.Assign
import Verif.Props.Tensor

/-!
Exact behaviour of iteration for all expressions, including those for which it is
wrong: this shows that the conditions in the partial theorems are not only sufficient but necessary.
-/

namespace Props
open Model Spec
open Model.Expr Model.Iter

variable {σ α τ T : Type}

/-! ### C19 -/

/-- C19, exactly, for all expressions: `fold` visits the multi-indices of `visited e`, that is, outer
dimensions of size 0 count as 1. The exception is `from_fn` with a dynamic rank if there is nothing to
visit in a row: then there is a panic right away. -/
theorem C19_exact (e : Expr σ α) (hb : Built e) (f : τ → α → M σ τ) (init : τ) :
    (¬ (BadFn e ∧ size (e.dims.drop e.outerRank) = 0) →
      e.fold init f = (allIdx (visited e)).zipIdx.foldlM
        (fun acc jn => M.bind (rawItem (e.dims.length - e.outerRank) e jn.2 jn.1) fun x => f acc x) init) ∧
    (BadFn e ∧ size (e.dims.drop e.outerRank) = 0 → e.fold init f = M.panic) :=
  ⟨fun h => fold_raw' (wf_of_built hb) (fun hf => Nat.pos_of_ne_zero fun h0 => h ⟨hf, h0⟩) f init,
    fun h => fold_bad_zero (wf_of_built hb) h.1 h.2 f init⟩

/-- So the right number of items is visited exactly under the condition of `C19_partial`. -/
theorem C19_exact_count (e : Expr σ α) : (allIdx (visited e)).length = size e.dims ↔
    (size e.dims = 0 → size (e.dims.drop e.outerRank) = 0) := by
  rw [length_allIdx, size_visited]
  rcases Nat.eq_zero_or_pos (size e.dims) with h0 | h0
  · have hr := rows_pos e
    simp only [h0, Nat.mul_eq_zero, true_implies]
    constructor
    · rintro (h | h)
      · omega
      · exact h
    · exact Or.inr
  · rw [size_split h0]
    exact ⟨fun _ h => by rw [size_split h0] at h0; omega, fun _ => rfl⟩

theorem outerRank_view (r : Bool) (v : View) : (view r v : Expr σ Int).outerRank =
    if v.map.isDense = true then 0 else v.dims.length - 1 := by
  unfold outerRank innerRank mapInnerRank
  by_cases hd : v.map.isDense = true
  · rw [if_pos hd, if_pos hd]
    by_cases h2 : v.map.shape.ty.rank? = some 0
    · rw [if_pos h2]
    · rw [if_neg h2]; exact Nat.sub_self _
  · rw [if_neg hd, if_neg hd]
    by_cases h2 : v.map.rank > 0
    · rw [if_pos h2]; rfl
    · rw [if_neg h2]
      change ¬ v.dims.length > 0 at h2
      show 0 = _
      omega

theorem visited_view (r : Bool) (v : View) : visited (view r v : Expr σ Int) = visitedDims v := by
  unfold visited visitedDims
  rw [outerRank_view]
  cases hl : v.layout with
  | dense =>
    rw [if_pos (Mapping.isDense_iff.2 hl)]
    simp; rfl
  | strided =>
    rw [if_neg (fun h => by rw [show v.layout = .dense from Mapping.isDense_iff.1 h] at hl; cases hl)]
    change (v.dims.take (v.dims.length - 1)).map _ ++ v.dims.drop (v.dims.length - 1) = _
    rw [List.dropLast_eq_take]
    congr 1
    rcases List.eq_nil_or_concat v.dims with h | ⟨l, d, h⟩
    · rw [h]; rfl
    · rw [h]; simp

/-- C19, exactly, for views: the addresses visited are those of the multi-indices of `visitedDims v`. -/
theorem C19_exact_view (v : View) (hv : v.map.WF) :
    ∃ st : List Int, st.length = v.dims.length ∧ (∀ k, v.map.stride k = st[k]?) ∧
      ∀ (r : Bool) (f : τ → Int → M σ τ) (init : τ), (view r v : Expr σ Int).fold init f =
        (allIdx (visitedDims v)).foldlM (fun acc j => f acc (v.ptr + dot st j)) init := by
  refine ⟨v.map.strides, hv.len, fun k => Mapping.stride_eq _ hv k, fun r f init => ?_⟩
  rw [(C19_exact _ (Built.view hv) f init).1 (fun h => by simpa [BadFn] using h.1), visited_view]
  have : (allIdx (visitedDims v)) = ((allIdx (visitedDims v)).zipIdx).map (·.1) := by simp
  conv_rhs => rw [this, List.foldlM_map]
  simp [rawItem]

theorem visitable_iff (v : View) : size (visitedDims v) = size v.dims ↔ Visitable v := by
  have h := C19_exact_count (σ := Unit) (view true v)
  rw [length_allIdx, visited_view, outerRank_view] at h
  change size (visitedDims v) = size v.dims ↔ (size v.dims = 0 → size (v.dims.drop _) = 0) at h
  rw [h]
  change (size v.dims = 0 → size (v.dims.drop _) = 0) ↔ _
  unfold Visitable
  by_cases hd : v.map.isDense = true
  · rw [if_pos hd]
    have : v.layout = .dense := Mapping.isDense_iff.1 hd
    simp [this]
  · rw [if_neg hd]
    have : v.layout ≠ .dense := fun h => hd (Mapping.isDense_iff.2 h)
    simp only [this, false_or]
    rcases List.eq_nil_or_concat v.dims with h | ⟨l, d, h⟩
    · rw [h]; simp
    · rw [h]
      simp [size_append, Nat.pos_iff_ne_zero]
      tauto

/-- C19, exactly: iteration over a view yields as many items as there are elements iff the view is
dense, or not empty, or the last dimension is 0. -/
theorem C19_exact_iff (v : View) (hv : v.map.WF) (r : Bool) (s : σ) :
    (view r v : Expr σ Int).fold 0 (fun n _ => M.pure (n + 1)) s = .ok (size v.dims) s ↔ Visitable v := by
  obtain ⟨st, -, -, h⟩ := C19_exact_view (σ := σ) (τ := Nat) v hv
  rw [h, ← visitable_iff, ← length_allIdx (visitedDims v)]
  have : ∀ (l : List (List Nat)) (n : Nat), l.foldlM (fun n _ => (M.pure (n + 1) : M σ Nat)) n =
      M.pure (n + l.length) := by
    intro l
    induction l with
    | nil => intro n; rfl
    | cons x l ih =>
      intro n
      simp only [List.foldlM_cons, M.bind_eq, M.pure_bind, ih, List.length_cons]
      rw [show n + 1 + l.length = n + (l.length + 1) by omega]
  rw [this]
  simp [M.pure]

/-- Views with and without phantom rows. -/
example : (whole ⟨.static [.dyn, .dyn, .dyn], [2, 0, 3]⟩).permute true
      ⟨.static [.const 0, .const 2, .const 1], [0, 2, 1]⟩ =
      some ⟨0, .strided ⟨.static [.dyn, .dyn, .dyn], [2, 3, 0]⟩ [0, 1, 3]⟩ ∧
    Visitable ⟨0, .strided ⟨.static [.dyn, .dyn, .dyn], [2, 3, 0]⟩ [0, 1, 3]⟩ ∧
    visitedDims (swapped 3 0) = [1, 3] :=
  ⟨by decide +kernel, Or.inr (Or.inr rfl), by decide⟩

/-! ### C20, C22 -/

private theorem le_size {l : List Nat} (hl : 0 < size l) {d : Nat} (h : d ∈ l) : d ≤ size l := by
  induction l with
  | nil => cases h
  | cons x l ih =>
    rw [size_cons] at hl ⊢
    have h1 := Nat.pos_of_mul_pos_right hl
    have h2 := Nat.pos_of_mul_pos_left hl
    rcases List.mem_cons.1 h with rfl | h
    · exact Nat.le_mul_of_pos_right _ h2
    · exact Nat.le_trans (ih h2 h) (Nat.le_mul_of_pos_left _ h1)

private theorem plain_view (r : Bool) (v : View) : Plain (view r v : Expr σ Int) ↔
    v.layout = .dense ∨ 0 < size v.dims ∨
      (v.dims.getLast? = some 0 ∧ ∀ d ∈ v.dims.dropLast, d ≤ 1) := by
  unfold Plain
  rw [outerRank_view]
  change 0 < size v.dims ∨ (size (v.dims.drop _) = 0 ∧ ∀ d ∈ v.dims.take _, d ≤ 1) ↔ _
  by_cases hd : v.map.isDense = true
  · rw [if_pos hd]
    have : v.layout = .dense := Mapping.isDense_iff.1 hd
    simp [this]; omega
  · rw [if_neg hd]
    have : v.layout ≠ .dense := fun h => hd (Mapping.isDense_iff.2 h)
    simp only [this, false_or, List.dropLast_eq_take]
    rcases List.eq_nil_or_concat v.dims with h | ⟨l, d, h⟩
    · rw [h]; simp
    · rw [h]; simp

/-- C20, exactly: the iterator of an empty view immediately returns `None` iff the view is dense, or its
last dimension is 0 and no other dimension exceeds 1. Otherwise it returns a phantom item. -/
theorem C20_exact (v : View) (hv : v.map.WF) (r : Bool) (h0 : size v.dims = 0) (s : σ) :
    ((∃ it, (Iter.new (view r v : Expr σ Int)).next s = .ok (none, it) s) ↔
      (v.layout = .dense ∨ (v.dims.getLast? = some 0 ∧ ∀ d ∈ v.dims.dropLast, d ≤ 1))) ∧
    ((∃ it, (Iter.new (view r v : Expr σ Int)).next s = .ok (none, it) s) ∨
      ∃ x it, (Iter.new (view r v : Expr σ Int)).next s = .ok (some x, it) s) := by
  have hw : (view r v : Expr σ Int).Wf := hv
  have hs : Sound (view r v : Expr σ Int) := by unfold Sound Regular; trivial
  have he : ¬ BadFn (view r v : Expr σ Int) := fun h => h.elim
  have hp : (v.layout = .dense ∨ (v.dims.getLast? = some 0 ∧ ∀ d ∈ v.dims.dropLast, d ≤ 1)) ↔
      Plain (view r v : Expr σ Int) := by
    rw [plain_view]; simp [h0]
  rw [hp]
  by_cases hpl : Plain (view r v : Expr σ Int)
  · obtain ⟨c, hc⟩ := next_iterN_end hw hpl
    rw [show size (view r v : Expr σ Int).dims = 0 from h0,
      show iterN (view r v : Expr σ Int) 0 = iterAt _ 0 0 0 from rfl, ← new_eq hw hs] at hc
    have hc' := congrFun hc s
    exact ⟨⟨fun _ => hpl, fun _ => ⟨_, hc'⟩⟩, Or.inl ⟨_, hc'⟩⟩
  · have key : ∃ x it, (Iter.new (view r v : Expr σ Int)).next = M.pure (some x, it) := by
      rw [new_eq hw hs]
      by_cases hr : 0 < row (view r v : Expr σ Int)
      · rw [next_raw_inner hw he (rows_pos _) hr]
        exact ⟨_, _, rfl⟩
      · have hr0 : row (view r v : Expr σ Int) = 0 := by omega
        have hrows : 0 + 1 < size (lims (view r v : Expr σ Int).dims (view r v : Expr σ Int).outerRank) := by
          by_contra hlt
          apply hpl
          refine Or.inr ⟨hr0, fun d hd => ?_⟩
          by_contra hd1
          have hpos := lims_pos (view r v : Expr σ Int).dims (view r v : Expr σ Int).outerRank
          have := le_size hpos (List.mem_map.2 ⟨d, hd, rfl⟩ : max d 1 ∈ lims _ _)
          omega
        have hstep := stepOuter_spec hw (q := 0) (c := 0) (n := 0) (k := 0) (by omega) (by
          intro h hl
          exfalso
          rw [outerRank_view] at h
          split at h
          · exact absurd h (by omega)
          · exact absurd h (by change ¬ (v.dims.length - 1 = v.dims.length); change 0 < v.dims.length at hl; omega))
        rw [if_pos hrows] at hstep
        unfold Iter.next
        rw [if_pos (show (iterAt (view r v : Expr σ Int) 0 0 0).innerIndex =
          (iterAt (view r v : Expr σ Int) 0 0 0).innerLimit from hr0.symm)]
        have hitr : ({ iterAt (view r v : Expr σ Int) 0 0 0 with innerIndex := 0 } : Iter σ Int) =
          iterAt (view r v : Expr σ Int) 0 0 0 := rfl
        rw [hitr] at hstep
        rw [hstep]
        exact ⟨_, _, rfl⟩
    obtain ⟨x, it, hx⟩ := key
    have hx := congrFun hx s
    refine ⟨⟨fun ⟨it', h⟩ => ?_, fun h => absurd h hpl⟩, Or.inr ⟨x, it, hx⟩⟩
    rw [hx] at h
    cases h

/-- C22, exactly, for all expressions: any number of calls of `next` followed by `fold` is the same as a single
`fold`, even where iteration yields the wrong items, unless the rows are empty and there is more than one. -/
theorem C22_exact (e : Expr σ α) (hb : Built e)
    (h : size (e.dims.drop e.outerRank) ≠ 0 ∨ ∀ d ∈ e.dims.take e.outerRank, d ≤ 1)
    (f : τ → α → M σ τ) (init : τ) (k : Nat) :
    driveThenFold f k (Iter.new e) init = e.fold init f :=
  driveThenFold_eq (wf_of_built hb) (h.imp Nat.pos_of_ne_zero rows_eq_one) f k init

/-- A view with phantom rows meets the condition. -/
example : (view true (swapped 3 0) : Expr Unit Int).outerRank = 1 ∧ (swapped 3 0).dims.drop 1 = [3] ∧
    driveThenFold (fun acc x => M.pure (acc ++ [x])) 2 (Iter.new (view true (swapped 3 0) : Expr Unit Int)) []
      () = .ok [0, 0, 0] () := ⟨rfl, rfl, rfl⟩

private theorem next_step {it it2 : Iter σ Int} {w : View} {r : Bool} (hl : it.innerIndex = it.innerLimit)
    (h : it.stepOuter = some (true, it2)) (he : it2.expr = view r w) :
    it.next = M.pure (some (w.ptr + w.map.innerStride * ((0 : Nat) : Int)), { it2 with innerIndex := 1 }) := by
  obtain ⟨e2, i2, l2, oi, ol⟩ := it2
  subst he
  unfold Iter.next
  rw [if_pos hl, h]
  rfl

private theorem next_past {w : View} {r : Bool} (k : Nat) : ∀ it : Iter σ Int, it.expr = view r w →
    it.innerLimit < it.innerIndex →
    ∃ (xs : List Int) (it' : Iter σ Int), runNext k it = M.pure (xs.map some, it') ∧ xs.length = k := by
  induction k with
  | zero => intro it _ _; exact ⟨[], it, rfl, rfl⟩
  | succ k ih =>
    intro it he hl
    obtain ⟨xs, it', h1, h2⟩ := ih { it with innerIndex := it.innerIndex + 1 } he (by show it.innerLimit < it.innerIndex + 1; omega)
    refine ⟨(w.ptr + w.map.innerStride * (it.innerIndex : Int)) :: xs, it', ?_, by simp [h2]⟩
    rw [runNext]
    unfold Iter.next
    rw [if_neg (by omega)]
    simp only [he, Expr.get, M.pure_bind]
    have hit : ({ it with expr := view r w, innerIndex := it.innerIndex + 1 } : Iter σ Int) =
        { it with innerIndex := it.innerIndex + 1 } := by rw [← he]
    rw [hit, h1]
    rfl

/-- C22, exactly, for views: in the remaining case `fold` yields nothing, but `next` yields an item on every
call and never ends. -/
theorem C22_exact_view (v : View) (hv : v.map.WF) (r : Bool) (hl : v.layout = .strided)
    (h0 : v.dims.getLast? = some 0) (h1 : ∃ d ∈ v.dims.dropLast, 1 < d) (k : Nat) :
    (∀ (f : τ → Int → M σ τ) (init : τ), (view r v : Expr σ Int).fold init f = M.pure init) ∧
    ∃ (xs : List Int) (it : Iter σ Int),
      runNext k (Iter.new (view r v : Expr σ Int)) = M.pure (xs.map some, it) ∧ xs.length = k := by
  have hw : (view r v : Expr σ Int).Wf := hv
  have hs : Sound (view r v : Expr σ Int) := by unfold Sound Regular; trivial
  have hnd : ¬ v.map.isDense = true := fun h => by
    rw [show v.layout = .dense from Mapping.isDense_iff.1 h] at hl; cases hl
  have hO : (view r v : Expr σ Int).outerRank = v.dims.length - 1 := by rw [outerRank_view, if_neg hnd]
  obtain ⟨l, hl'⟩ : ∃ l, v.dims = l ++ [0] := by
    rcases List.eq_nil_or_concat v.dims with h | ⟨l, d, h⟩
    · rw [h] at h0; cases h0
    · rw [h] at h0; simp at h0; exact ⟨l, by rw [h, h0]; simp⟩
  have hr0 : row (view r v : Expr σ Int) = 0 := by
    show size (v.dims.drop (view r v : Expr σ Int).outerRank) = 0
    rw [hO, hl']; simp
  refine ⟨fun f init => ?_, ?_⟩
  · obtain ⟨st, -, -, h⟩ := C19_exact_view (σ := σ) (τ := τ) v hv
    rw [h]
    have : allIdx (visitedDims v) = [] := by
      rw [← List.length_eq_zero_iff, length_allIdx, ← visited_view (σ := σ) r v, size_visited]
      exact Nat.mul_eq_zero.2 (Or.inr hr0)
    rw [this]; rfl
  · cases k with
    | zero => exact ⟨[], _, rfl, rfl⟩
    | succ k =>
      obtain ⟨d, hd, hd1⟩ := h1
      have hrows : 0 + 1 < size (lims (view r v : Expr σ Int).dims (view r v : Expr σ Int).outerRank) := by
        have hpos := lims_pos (view r v : Expr σ Int).dims (view r v : Expr σ Int).outerRank
        have := le_size hpos (List.mem_map.2 ⟨d, by rw [hO]; rw [List.dropLast_eq_take] at hd; exact hd, rfl⟩ :
          max d 1 ∈ lims _ _)
        omega
      have hstep := stepOuter_spec hw (q := 0) (c := 0) (n := 0) (k := 0) (by omega) (by
        intro h hl
        exfalso
        rw [hO] at h
        exact absurd h (by change ¬ (v.dims.length - 1 = v.dims.length); change 0 < v.dims.length at hl; omega))
      rw [if_pos hrows] at hstep
      obtain ⟨w, hw'⟩ : ∃ w, (iterAt (view r v : Expr σ Int) (0 + 1) 0 0).expr = view r w := ⟨_, rfl⟩
      obtain ⟨xs, it', h2, h3⟩ := next_past (σ := σ) (r := r) (w := w) k
        { iterAt (view r v : Expr σ Int) (0 + 1) 0 0 with innerIndex := 1 } hw' (by
          show row (view r v : Expr σ Int) < 1; omega)
      refine ⟨(w.ptr + w.map.innerStride * ((0 : Nat) : Int)) :: xs, it', ?_, by simp [h3]⟩
      rw [runNext, new_eq hw hs]
      have hn := next_step (it := iterAt (view r v : Expr σ Int) 0 0 0) (r := r) (w := w) hr0.symm hstep hw'
      rw [hn, M.pure_bind, h2]
      rfl

/-- Two empty rows: dimensions `[2, 0]`, from a 0 by 2 array. -/
example : (swapped 0 2).layout = .strided ∧ (swapped 0 2).dims = [2, 0] ∧ (swapped 0 2).map.WF :=
  ⟨rfl, rfl, by decide⟩

/-! ### C21 -/

/-- C21, exactly: a strided view with an outer dimension above 1 is not fused. After `None` the iterator
goes on with the second row. -/
theorem C21_exact (v : View) (hv : v.map.WF) (r : Bool) (h0 : 0 < size v.dims)
    (hl : v.layout = .strided) (ho : ∃ d ∈ v.dims.dropLast, 1 < d) :
    ∃ n j x it, v.dims.getLast? = some n ∧ (allIdx v.dims)[n]? = some j ∧ v.index j = some x ∧
      runNext (size v.dims + 2) (Iter.new (view r v : Expr σ Int)) =
        M.bind (firstItems (view r v) (size v.dims)) fun xs =>
          M.pure (xs.map some ++ [none, some x], it) := by
  have hw : (view r v : Expr σ Int).Wf := hv
  have hs : Sound (view r v : Expr σ Int) := by unfold Sound Regular; trivial
  have he : ¬ BadFn (view r v : Expr σ Int) := fun h => h.elim
  have hnd : ¬ v.map.isDense = true := fun h => by
    rw [show v.layout = .dense from Mapping.isDense_iff.1 h] at hl; cases hl
  have hO : (view r v : Expr σ Int).outerRank = v.dims.length - 1 := by
    rw [outerRank_view, if_neg hnd]
  have hpl : Plain (view r v : Expr σ Int) := Or.inl h0
  have hne : v.dims ≠ [] := by
    rintro h; rw [h] at ho; obtain ⟨d, hd, -⟩ := ho; cases hd
  obtain ⟨l, n, hln⟩ : ∃ l n, v.dims = l ++ [n] := by
    rcases List.eq_nil_or_concat v.dims with h | ⟨l, d, h⟩
    · exact absurd h hne
    · exact ⟨l, d, by rw [h]; simp⟩
  have hn : row (view r v : Expr σ Int) = n := by
    unfold row
    rw [hO]
    change size (v.dims.drop (v.dims.length - 1)) = n
    rw [hln]; simp
  have hrn : 0 < n := by rw [← hn]; exact row_pos h0
  have hrows : 0 + 1 < size (lims (view r v : Expr σ Int).dims (view r v : Expr σ Int).outerRank) := by
    obtain ⟨d, hd, hd1⟩ := ho
    have hpos := lims_pos (view r v : Expr σ Int).dims (view r v : Expr σ Int).outerRank
    have := le_size hpos (List.mem_map.2 ⟨d, by rw [hO]; rw [List.dropLast_eq_take] at hd; exact hd, rfl⟩ :
      max d 1 ∈ lims _ _)
    omega
  have hlt : n < size v.dims := by
    have := size_split (e := (view r v : Expr σ Int)) h0
    change size v.dims = _ at this
    rw [this, hn]
    calc n = 1 * n := by omega
      _ < rows (view r v : Expr σ Int) * n := Nat.mul_lt_mul_of_pos_right hrows hrn
  have hj : Valid v.dims (unrank v.dims n) := unrank_valid hlt
  obtain ⟨c, hc⟩ := next_iterN_end hw hpl
  have hlen : size (view r v : Expr σ Int).dims = size v.dims := rfl
  rw [hlen] at hc
  have hc0 : ∃ it, (ended (view r v : Expr σ Int) c (size v.dims)).next =
      M.pure (some (v.ptr + dot v.map.strides (unrank v.dims n)), it) := by
    have hstep := stepOuter_spec hw (q := 0) (c := c) (n := size v.dims)
      (k := row (view r v : Expr σ Int)) (by omega) (by
        intro h hl
        exfalso
        rw [hO] at h
        change v.dims.length - 1 = v.dims.length at h
        change 0 < v.dims.length at hl
        omega)
    rw [if_pos hrows] at hstep
    unfold Iter.next
    rw [if_pos (show (ended (view r v : Expr σ Int) c (size v.dims)).innerIndex =
      (ended (view r v : Expr σ Int) c (size v.dims)).innerLimit from rfl)]
    rw [show ended (view r v : Expr σ Int) c (size v.dims) =
      { iterAt (view r v) 0 c (size v.dims) with innerIndex := row (view r v : Expr σ Int) } from rfl, hstep]
    have hg := get_rawAt (n := size v.dims) hw he (q := 1) (c := 0) hrows (by omega)
    have hvis : visited (view r v : Expr σ Int) = v.dims := by
      rw [visited_eq, lims_eq (D := (view r v : Expr σ Int).dims) h0]; exact List.take_append_drop _ _
    rw [hn, hvis, Nat.one_mul, Nat.add_zero] at hg
    simp only [rawItem, M.pure_bind] at hg
    simp only [M.lift_some, M.pure_bind, if_true, Nat.zero_add]
    change ∃ it, M.bind ((adv (view r v : Expr σ Int).dims.length (unrank (lims (view r v : Expr σ Int).dims
      (view r v : Expr σ Int).outerRank) 1) 0 (size v.dims) (view r v)).get 0) _ = _
    rw [hg]
    exact ⟨_, rfl⟩
  obtain ⟨it, hit⟩ := hc0
  refine ⟨n, unrank v.dims n, v.ptr + dot v.map.strides (unrank v.dims n), it, by rw [hln]; simp, ?_, ?_, ?_⟩
  · rw [allIdx_eq_map_unrank, List.getElem?_map, List.getElem?_range hlt]; rfl
  · rw [View.index_eq v hv, if_pos hj]
  · rw [new_eq hw hs, show iterAt (view r v : Expr σ Int) 0 0 0 = iterN _ 0 from rfl, runNext_add,
      runNext_iterN hw hs _ _ (by rw [hlen]; omega), firstItems_eq _ (Nat.le_of_eq hlen.symm), Nat.zero_add]
    simp only [M.bind_assoc, M.pure_bind, runNext, hc, hit]

/-- `C21_violated` is an instance. -/
example : 0 < size (swapped 2 2).dims ∧ (swapped 2 2).layout = .strided ∧
    ∃ d ∈ (swapped 2 2).dims.dropLast, 1 < d := ⟨by decide, rfl, 2, by decide, by decide⟩

/-! ### C29, C44 -/

/-- C44, exactly: what is fed to the hasher for any view. -/
theorem C44_exact (v : View) (hv : v.map.WF) :
    ∃ st : List Int, st.length = v.dims.length ∧ (∀ k, v.map.stride k = st[k]?) ∧
      ∀ (size : Nat → M σ Unit) (elem : Int → M σ Unit),
        viewHash size elem v = M.bind (v.dims.foldlM (fun _ d => size d) ()) fun _ =>
          (allIdx (visitedDims v)).foldlM (fun _ j => elem (v.ptr + dot st j)) () := by
  obtain ⟨st, h1, h2, h3⟩ := C19_exact_view (σ := σ) (τ := Unit) v hv
  refine ⟨st, h1, h2, fun size elem => ?_⟩
  unfold viewHash Expr.forEach
  rw [h3]

/-! ### C31 -/

/-- C31, exactly: evaluating an expression with phantom rows writes outside of the allocation, unless
computing the first item panics. -/
theorem C31_exact (e : Expr σ T) (hb : Built e) (h0 : size e.dims = 0)
    (hp : size (e.dims.drop e.outerRank) ≠ 0) (s s' : σ) (o : Own T) (x : T)
    (hx : rawNth e 0 s = .ok x s') :
    tensorFromExpr e (s, o) = .ub := by
  have hlen : e.shape.len = 0 := by rw [Shape.len_eq]; exact h0
  have hfold : ∀ o' : Own T, o'.cells = [] →
      (e.up : Expr (σ × Own T) T).forEach (fun x => M.bind (M.up (M.pure x)) vecAppend) (s, o') = .ub := by
    intro o' ho'
    unfold Expr.forEach
    rw [fold_raw (wf_of_built (Expr.up_built hb)) (fun _ => by
      unfold row
      simp only [Expr.dims, up_shape, up_outerRank]
      exact Nat.pos_of_ne_zero hp), up_visited]
    have hpos : 0 < size (visited e) := by
      rw [size_visited]; exact Nat.mul_pos (rows_pos e) (Nat.pos_of_ne_zero hp)
    obtain ⟨n, hn⟩ : ∃ n, size (visited e) = n + 1 := ⟨_, (Nat.succ_pred_eq_of_pos hpos).symm⟩
    rw [hn, List.range_succ_eq_map, List.foldlM_cons]
    simp only [visitRaw, up_rawNth, M.bind_eq]
    simp [M.bind, M.up, hx, vecAppend, own, writeCell, ho', M.bind_eq, M.pure]
  unfold tensorFromExpr cloneIntoVec
  simp [M.bind_eq, M.bind, upd, own, M.lift, hlen, check, M.onPanic]
  have := hfold ⟨[], 0, e.shape, o.log, o.limit⟩ rfl
  simp only [M.up_pure, M.pure_bind] at this
  rw [this]

/-- A view with phantom rows, and a mapped one. -/
example : size (map (view true (swapped 3 0)) fun p => M.pure (p + 1) : Expr Unit Int).dims = 0 ∧
    size ((map (view true (swapped 3 0)) fun p => M.pure (p + 1) : Expr Unit Int).dims.drop 1) ≠ 0 ∧
    rawNth (map (view true (swapped 3 0)) fun p => M.pure (p + 1) : Expr Unit Int) 0 () =
      .ok 1 () := ⟨by decide, by decide, rfl⟩

/-! ### C26, C27, C28 -/

/-- C26, exactly, for a static rank: the function is called for the indices of a shape where all dimensions
but the last count as at least 1. So it is called wrongly iff the shape is empty and the last dimension
is not 0. -/
theorem C26_exact (s : Shape) (hs : s.WF) (hd : s.ty = .dynRank → s.dims = [])
    (g : List Nat → M σ α) {e} (he : fromFnNew s g = some e) (f : τ → α → M σ τ) (init : τ) :
    e.fold init f = (allIdx (s.dims.dropLast.map (fun d => max d 1) ++ s.dims.getLast?.toList)).foldlM
      (fun acc j => M.bind (g j) fun x => f acc x) init := by
  have hb := Built.fromFn hs he
  simp only [fromFnNew, Option.map_eq_some_iff] at he
  obtain ⟨_, _, rfl⟩ := he
  have hnb : ¬ BadFn (Expr.fromFn s (dimsDefault s.ty) g) := fun h => h.2 (hd h.1)
  rw [(C19_exact _ hb f init).1 (fun h => hnb h.1)]
  have hvis : visited (Expr.fromFn s (dimsDefault s.ty) g) =
      s.dims.dropLast.map (fun d => max d 1) ++ s.dims.getLast?.toList := by
    unfold visited
    have : (Expr.fromFn s (dimsDefault s.ty) g).outerRank = s.dims.length - 1 := by
      unfold outerRank innerRank
      by_cases h2 : s.dims.length > 0
      · rw [if_pos h2]; rfl
      · rw [if_neg h2]; change 0 = _; omega
    rw [this]
    change (s.dims.take _).map _ ++ s.dims.drop _ = _
    rw [List.dropLast_eq_take]
    congr 1
    rcases List.eq_nil_or_concat s.dims with h | ⟨l, d, h⟩
    · rw [h]; rfl
    · rw [h]; simp
  rw [hvis]
  have : ∀ l : List (List Nat), l = (l.zipIdx).map (·.1) := by simp
  conv_rhs => rw [this (allIdx _), List.foldlM_map]
  have hnb' : ¬ (s.ty = .dynRank ∧ s.dims ≠ []) := hnb
  simp only [rawItem, if_neg hnb']

example : ((fromFnNew ⟨.static [.dyn, .const 2], [0, 2]⟩ (fun j => (M.pure j : M Unit _))).map
      fun e => (e.fold [] (fun acc x => M.pure (acc ++ [x])) ())) =
    some (.ok [[0, 0], [0, 1]] ()) := by rfl

/-- C26, exactly, for a dynamic rank greater than 0: if the last dimension is not 0 the function is called
once, with an empty index, and then there is a panic. -/
theorem C26_exact_dyn (s : Shape) (ht : s.ty = .dynRank) (hl : ∃ d, s.dims.getLast? = some d ∧ 0 < d)
    (g : List Nat → M σ α) {e} (he : fromFnNew s g = some e) (f : τ → α → M σ τ) (init : τ) :
    e.fold init f = M.bind (g []) fun _ => M.panic := by
  simp only [fromFnNew, Option.map_eq_some_iff] at he
  obtain ⟨_, _, rfl⟩ := he
  obtain ⟨d, hl, hd⟩ := hl
  obtain ⟨l, hsd⟩ : ∃ l, s.dims = l ++ [d] := List.getLast?_eq_some_iff.1 hl
  have hlen : s.dims.length = l.length + 1 := by rw [hsd]; simp
  have ho : (Expr.fromFn s (dimsDefault s.ty) g).outerRank = l.length := by
    unfold outerRank innerRank
    rw [if_pos (by omega)]
    change s.dims.length - 1 = _
    omega
  unfold Expr.fold Iter.fold
  have hpos : 0 < (Iter.new (Expr.fromFn s (dimsDefault s.ty) g)).outerCount := by
    have hprod : ∀ (l : List Nat) (k : Nat), 0 < k → 0 < (l.map fun d => max d 1).foldl (· * ·) k := by
      intro l
      induction l with
      | nil => intro k hk; exact hk
      | cons x l ih =>
        intro k hk
        simp only [List.map_cons, List.foldl_cons]
        exact ih _ (Nat.mul_pos hk (by omega))
    exact hprod _ _ Nat.one_pos
  obtain ⟨n, hn⟩ := Nat.exists_eq_succ_of_ne_zero (Nat.ne_of_gt hpos)
  rw [hn]
  unfold foldLoop
  have hlim : (Iter.new (Expr.fromFn s (dimsDefault s.ty) g)).innerLimit = d := by
    unfold Iter.new
    simp only [ho]
    change (s.dims.drop _).foldl _ _ = _
    rw [hsd]; simp
  obtain ⟨k, rfl⟩ := Nat.exists_eq_succ_of_ne_zero (Nat.ne_of_gt hd)
  rw [hlim]
  change M.bind (innerLoop f (List.range' 0 (k + 1 - 0)) (Expr.fromFn s (dimsDefault s.ty) g) init) _ = _
  rw [Nat.sub_zero, List.range'_succ]
  simp only [innerLoop, Expr.get, M.bind_assoc]
  have hdd : dimsDefault s.ty = [] := by rw [ht]; rfl
  rw [hdd]
  congr 1
  funext x
  rw [if_pos (by omega)]
  rfl

/-- The hypothesis is met by any shape with elements. -/
example : ((fromFnNew ⟨.dynRank, [3, 2]⟩ (fun j => fun s => .ok j (s + 1))).map
      fun e => (e.fold 0 (fun acc _ => M.pure (acc + 1)) (0 : Nat) : Res Nat Nat)) =
    some (.panic 1) := by rfl

/-- C27, exactly: if the size condition fails (which is only possible for a view without elements) there is
a panic right away. -/
theorem C27_exact (v : View) (hv : v.map.WF) (r : Bool) (a : Axis) {e : Expr σ View}
    (he : axisNew r v a = some e) {p : Nat} (hp : axisPos a v.dims.length = some p)
    (h0 : 0 < v.dims.getD p 0) (ho : ¬ NoOverflow usizeMax (v.dims.eraseIdx p))
    (f : τ → View → M σ τ) (init : τ) : e.fold init f = M.panic := by
  simp only [axisNew, Option.map_eq_some_iff] at he
  obtain ⟨m, hm, rfl⟩ := he
  obtain ⟨p', hp1, hp2, hmd, -, -, -⟩ := axis_dims hv hm
  have : p' = p := by rw [hp1] at hp; exact Option.some.inj hp
  subst this
  have hd : (Expr.axis r v a m 0 : Expr σ View).dims = [v.dims.getD p' 0] := hmd
  have hor : (Expr.axis r v a m 0 : Expr σ View).outerRank = 0 := by
    change (Expr.axis r v a m 0 : Expr σ View).dims.length - 1 = 0
    rw [hd]; rfl
  generalize hD : v.dims.getD p' 0 = D at *
  obtain ⟨k, rfl⟩ := Nat.exists_eq_succ_of_ne_zero (Nat.ne_of_gt h0)
  have hget : ∀ i, (Expr.axis r v a m 0 : Expr σ View).get i = M.panic := by
    intro i
    simp only [Expr.get]
    rw [Axis.removeMap_eq a _ hv, show axisPos a v.map.dims.length = some p' from hp1]
    simp only [Option.bind_eq_bind, Option.bind_some, Shape.checkedLen_eq]
    have hne : ¬ NoOverflow usizeMax (Mapping.mk (a.remove v.map.shape.ty) (v.map.dims.eraseIdx p')
        (v.map.strides.eraseIdx p') (a.split v.map.shape.ty v.map.layout)).shape.dims := by
      change ¬ NoOverflow usizeMax (Mapping.mk _ _ _ _).dims
      rw [Mapping.mk_dims]; exact ho
    rw [if_neg hne]
    rfl
  unfold Expr.fold Iter.fold Iter.outerCount
  have hnew : Iter.new (Expr.axis r v a m 0 : Expr σ View) =
      ⟨Expr.axis r v a m 0, 0, k + 1, [], []⟩ := by
    unfold Iter.new
    simp [hor, hd]
  rw [hnew]
  simp only [List.take_nil, List.map_nil, List.foldl_nil]
  unfold foldLoop
  simp only [Nat.sub_zero, List.range'_succ, innerLoop, hget]
  rfl

example : axisPos (.const 0) [1, 2 ^ 40, 2 ^ 40, 0].length = some 0 ∧
    ¬ NoOverflow usizeMax ([1, 2 ^ 40, 2 ^ 40, 0].eraseIdx 0) ∧
    (axisNew true ⟨0, .strided ⟨.static [.dyn, .dyn, .dyn, .dyn], [1, 2 ^ 40, 2 ^ 40, 0]⟩
      [0, 0, 1, 2 ^ 40]⟩ (.const 0) : Option (Expr Unit View)).isSome :=
  ⟨rfl, fun h => absurd (h 2 (by decide)) (by decide +kernel), by rfl⟩

/-- C28, exactly: only the position in the inner loop is used to find a lane; the other coordinates are
taken as 0. -/
theorem C28_exact (v : View) (hv : v.map.WF) (r : Bool) (a : Axis) {e : Expr σ View}
    (he : lanesNew r v a = some e) {p : Nat} (hp : axisPos a v.dims.length = some p)
    (h0 : 0 < size (v.dims.eraseIdx p)) (f : τ → View → M σ τ) (init : τ) :
    e.fold init f = (allIdx (v.dims.eraseIdx p)).foldlM (fun acc j =>
      M.bind (orUb (laneAt v a (List.replicate e.outerRank 0 ++ j.drop e.outerRank))) fun w => f acc w) init := by
  simp only [lanesNew, Option.bind_eq_some_iff, Option.map_eq_some_iff] at he
  obtain ⟨m, hm, _, _, rfl⟩ := he
  obtain ⟨p', hp1, hp2, hmd, -, -⟩ := lanes_dims hv hm
  have : p' = p := by rw [hp1] at hp; exact Option.some.inj hp
  subst this
  have hd : (Expr.lanes r v a m 0 : Expr σ View).dims = v.dims.eraseIdx p' := hmd
  rw [fold_lanes hv hm (by rw [hd]; exact h0), hmd]
  have : allIdx (v.dims.eraseIdx p') = (List.range (size (v.dims.eraseIdx p'))).map (unrank (v.dims.eraseIdx p')) := by
    have := zipIdx_allIdx (v.dims.eraseIdx p')
    have h2 := congrArg (List.map (·.1)) this
    simpa [Function.comp_def] using h2
  rw [this, List.foldlM_map]

/-- The lanes along the last axis of a 2 by 2 by 2 array: the outer rank is 1, and the first coordinate of
the lane is lost. -/
example : ((lanesNew true (whole ⟨.static [.dyn, .dyn, .dyn], [2, 2, 2]⟩) (.const 2)).map fun e =>
      (e.outerRank, (e.fold [] (fun acc w => M.pure (acc ++ [w.index [0]])) () : Res Unit _))) =
    some (1, .ok [some 0, some 2, some 0, some 2] ()) := by decide +kernel

end Props
