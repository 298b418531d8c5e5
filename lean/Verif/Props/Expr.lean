import Verif.Lemmas.Zip
import Verif.Spec.Reach

/-! Iteration and expressions: C19 to C28. -/

namespace Props
open Spec Model Model.Iter Model.Expr

variable {σ α β τ : Type}

/-- A view of a two-dimensional array with rows and columns exchanged (`reorder`), used for
concrete cases. -/
def swapped (r c : Nat) : View := ⟨0, .strided ⟨.static [.dyn, .dyn], [c, r]⟩ [1, (c : Int)]⟩

/-! ### C19 -/

/-- `fold` (and so `for_each` and everything built on it) visits the items of all valid
multi-indices once, in row-major order. Missing (see `C19_violated`): empty expressions with a zero
outer dimension; excluded by `Sound`: dynamic-rank `from_fn` and stepped lanes (C26, C28). -/
theorem C19_partial (e : Expr σ α) (hb : Built e) (hs : Sound e)
    (hp : size e.dims = 0 → size (e.dims.drop e.outerRank) = 0) (f : τ → α → M σ τ) (init : τ) :
    e.fold init f = foldItems e f init := fold_eq hb hs hp f init

/-- The iterator yields the items in the same order and then returns `None`. -/
theorem C19_next_partial (e : Expr σ α) (hb : Built e) (hs : Sound e) (hp : Plain e) :
    ∃ it, runNext (size e.dims + 1) (Iter.new e) =
      M.bind (firstItems e (size e.dims)) fun xs => M.pure (xs.map some ++ [none], it) := by
  have hw := wf_of_built hb
  obtain ⟨c, hc⟩ := next_iterN_end hw hp
  refine ⟨ended e c (size e.dims), ?_⟩
  rw [new_eq hw hs, show iterAt e 0 0 0 = iterN e 0 from rfl, runNext_add,
    runNext_iterN hw hs _ _ (by omega), firstItems_eq e (le_refl _), Nat.zero_add]
  simp only [M.bind_assoc, M.pure_bind, runNext, hc]

/-- The items of a view are the elements at its valid indices: each exactly once. -/
theorem C19_view (v : View) (hv : v.map.WF) (r : Bool)
    (hp : 0 < size v.dims ∨ v.layout = .dense) (f : τ → Int → M σ τ) (init : τ) :
    (Expr.view r v : Expr σ Int).fold init f =
      (allIdx v.dims).foldlM (fun acc j => M.bind (orUb (v.index j)) fun x => f acc x) init := by
  have hp' : size (Expr.view r v : Expr σ Int).dims = 0 →
      size ((Expr.view r v : Expr σ Int).dims.drop (Expr.view r v : Expr σ Int).outerRank) = 0 := by
    intro h0
    rcases hp with h | h
    · exact absurd h0 (Nat.ne_of_gt h)
    · have hd : v.map.isDense = true := Mapping.isDense_iff.2 h
      have : (Expr.view r v : Expr σ Int).outerRank = 0 := by
        unfold outerRank innerRank mapInnerRank
        rw [if_pos hd]
        by_cases h2 : v.map.shape.ty.rank? = some 0
        · rw [if_pos h2]
        · rw [if_neg h2]; exact Nat.sub_self _
      rw [this]; exact h0
  rw [C19_partial _ (Built.view hv) (by unfold Sound Regular; trivial) hp']
  unfold foldItems
  have : (allIdx v.dims) = ((allIdx v.dims).zipIdx).map (·.1) := by simp
  conv_rhs => rw [this, List.foldlM_map]
  rfl

/-- For a dense array: the storage in order. -/
theorem C19_dense (s : Shape) (hs : s.WF) (r : Bool) (f : τ → Int → M σ τ) (init : τ) :
    (Expr.view r (whole s) : Expr σ Int).fold init f =
      (List.range (size s.dims)).foldlM (fun acc (n : Nat) => f acc (n : Int)) init := by
  have hw : (whole s).map.WF := Mapping.wf_dense.2 hs
  rw [C19_view _ hw r (Or.inr rfl)]
  change (allIdx s.dims).foldlM _ _ = _
  rw [allIdx_eq_map_unrank, List.foldlM_map]
  have : ∀ (l : List Nat) (acc : τ), (∀ n ∈ l, n < size s.dims) →
      l.foldlM (fun acc j => M.bind (orUb ((whole s).index (unrank s.dims j))) fun x => f acc x) acc =
      l.foldlM (fun acc (n : Nat) => f acc (n : Int)) acc := by
    intro l
    induction l with
    | nil => intros; rfl
    | cons n l ih =>
      intro acc h
      have hn := h n (by simp)
      simp only [List.foldlM_cons]
      have hi : (whole s).index (unrank s.dims n) = some (n : Int) := by
        rw [View.index_eq _ hw, if_pos (show Valid (whole s).dims (unrank s.dims n) from unrank_valid hn)]
        change some (0 + dot (denseStrides s.dims) (unrank s.dims n)) = _
        rw [dot_denseStrides (by simp), rowMajor_unrank hn, zero_add]
      rw [hi]
      simp only [orUb, M.pure_bind, M.bind_eq]
      congr 1
      funext acc'
      exact ih acc' (fun m hm => h m (by simp [hm]))
  exact this _ _ (by simp)

/-- The code as it is: a view with dimensions `[0, 3]` (a 3 by 0 array, reordered) has no element
but iteration yields three, outside of the array. -/
theorem C19_violated : (whole ⟨.static [.dyn, .dyn], [3, 0]⟩).reorder = some (swapped 3 0) ∧
    (swapped 3 0).map.WF ∧ size (swapped 3 0).dims = 0 ∧
    (Expr.view true (swapped 3 0) : Expr Unit Int).fold []
      (fun acc x => M.pure (acc ++ [x])) () = .ok [0, 0, 0] () := by
  refine ⟨by decide, by decide, by decide, by rfl⟩

/-- A strided view, broadcast and mapped. -/
example : Sound (Expr.view true (swapped 2 3) : Expr Unit Int) ∧
    Plain (Expr.view true (swapped 2 3) : Expr Unit Int) ∧
    (Expr.view true (swapped 2 3) : Expr Unit Int).fold [] (fun acc x => M.pure (acc ++ [x])) () =
      .ok [0, 3, 1, 4, 2, 5] () := ⟨trivial, Or.inl (by decide), by rfl⟩

/-! ### C20 -/

/-- After `k` items the size hint is the number of remaining items (which the iterator yields by
`C19_next_partial`). Missing: empty expressions with an outer dimension greater than 1 or a non-empty inner
loop, and the state after `None`. -/
theorem C20_partial (e : Expr σ α) (hb : Built e) (hs : Sound e) (hp : Plain e) (k : Nat)
    (hk : k ≤ size e.dims) :
    ∃ it, runNext k (Iter.new e) =
        M.bind (firstItems e k) (fun xs => M.pure (xs.map some, it)) ∧
      it.sizeHint = some (size e.dims - k) := by
  have hw := wf_of_built hb
  refine ⟨iterN e k, ?_, sizeHint_iterN hp hk⟩
  rw [new_eq hw hs, show iterAt e 0 0 0 = iterN e 0 from rfl,
    runNext_iterN hw hs _ _ (by omega), firstItems_eq e hk, Nat.zero_add]

/-- The code as it is: the hint is 0 although three items follow, and after the first of them
computing the hint subtracts below zero. -/
theorem C20_violated :
    (Iter.new (Expr.view true (swapped 3 0) : Expr Unit Int)).sizeHint = some 0 ∧
    (M.bind (Iter.next (Iter.new (Expr.view true (swapped 3 0) : Expr Unit Int)))
      fun p => M.pure (p.1, p.2.sizeHint)) () = .ok (some 0, none) () := by
  refine ⟨by decide, by rfl⟩

example : Plain (Expr.view true (swapped 2 3) : Expr Unit Int) ∧
    (M.bind (runNext 2 (Iter.new (Expr.view true (swapped 2 3) : Expr Unit Int)))
      fun p => M.pure (p.1, p.2.sizeHint)) () = .ok ([some 0, some 3], some 4) () :=
  ⟨Or.inl (by decide), by rfl⟩

/-! ### C21 -/

/-- After the last item `next` returns `None` for ever, provided that no outer dimension exceeds
one (always the case for dense arrays and for rank 1). -/
theorem C21_partial (e : Expr σ α) (hb : Built e) (hs : Sound e) (hp : Plain e)
    (ho : ∀ d ∈ e.dims.take e.outerRank, d ≤ 1) (m : Nat) :
    ∃ it, runNext (size e.dims + (1 + m)) (Iter.new e) =
      M.bind (firstItems e (size e.dims)) fun xs =>
        M.pure (xs.map some ++ List.replicate (1 + m) none, it) := by
  have hw := wf_of_built hb
  obtain ⟨c, hc⟩ := next_iterN_end hw hp
  obtain ⟨it, hi⟩ := runNext_ended hw ho (size e.dims) m c
  refine ⟨it, ?_⟩
  rw [new_eq hw hs, show iterAt e 0 0 0 = iterN e 0 from rfl, runNext_add,
    runNext_iterN hw hs _ _ (by omega), firstItems_eq e (le_refl _), Nat.zero_add, Nat.add_comm 1 m]
  simp only [M.bind_assoc, M.pure_bind, runNext, hc, hi, List.replicate_succ]

/-- The code as it is: the iterator of a 2 by 2 strided view starts again after `None`. -/
theorem C21_violated : (whole ⟨.static [.dyn, .dyn], [2, 2]⟩).reorder = some (swapped 2 2) ∧
    (M.bind (runNext 6 (Iter.new (Expr.view true (swapped 2 2) : Expr Unit Int)))
      fun p => M.pure p.1) () = .ok [some 0, some 2, some 1, some 3, none, some 1] () := by
  refine ⟨by decide, by rfl⟩

example : (∀ d ∈ (Expr.view true (swapped 2 1) : Expr Unit Int).dims.take
      (Expr.view true (swapped 2 1) : Expr Unit Int).outerRank, d ≤ 1) ∧
    (M.bind (runNext 4 (Iter.new (Expr.view true (swapped 2 1) : Expr Unit Int)))
      fun p => M.pure p.1) () = .ok [some 0, some 1, none, none] () :=
  ⟨by decide, by rfl⟩

/-! ### C22 -/

/-- Taking `k` items with `next` and folding the rest is the same as folding everything.
Missing: the empty expressions excluded by `Plain` (for views `C20_exact` shows that they are wrong). -/
theorem C22_partial (e : Expr σ α) (hb : Built e) (hs : Sound e) (hp : Plain e)
    (f : τ → α → M σ τ) (init : τ) (k : Nat) (hk : k ≤ size e.dims) :
    (M.bind (driveNext f k (Iter.new e) init) fun p => p.2.fold p.1 f) = e.fold init f := by
  have hw := wf_of_built hb
  rw [fold_eq hb hs (noPhantom hp), foldItems_eq, new_eq hw hs,
    show iterAt e 0 0 0 = iterN e 0 from rfl, driveNext_iterN hw hs f k 0 init (by omega), Nat.zero_add]
  simp only [M.bind_assoc, M.pure_bind]
  have : List.range (size e.dims) = List.range' 0 k ++ List.range' k (size e.dims - k) := by
    rw [List.range_eq_range']
    have := List.range'_append_1 (s := 0) (m := k) (n := size e.dims - k)
    rw [Nat.zero_add] at this
    rw [this, Nat.add_sub_cancel' hk]
  rw [this, List.foldlM_append]
  simp only [M.bind_eq]
  congr 1
  funext acc
  exact fold_iterN hw hs (noPhantom hp) f acc hk

/-- The code as it is: for a view with dimensions `[2, 0]`, `fold` yields nothing but `next` yields
an item. -/
theorem C22_violated : (whole ⟨.static [.dyn, .dyn], [0, 2]⟩).reorder = some (swapped 0 2) ∧
    (Expr.view true (swapped 0 2) : Expr Unit Int).fold 0 (fun acc _ => M.pure (acc + 1)) () =
      .ok (0 : Nat) () ∧
    (M.bind (Iter.next (Iter.new (Expr.view true (swapped 0 2) : Expr Unit Int)))
      fun p => M.pure p.1) () = .ok (some 1) () := by
  refine ⟨by decide, by rfl, by rfl⟩

example : (M.bind (driveNext (fun acc x => M.pure (acc ++ [x])) 3
      (Iter.new (Expr.view true (swapped 2 3) : Expr Unit Int)) [])
      fun p => p.2.fold p.1 fun acc x => M.pure (acc ++ [x])) () = .ok [0, 3, 1, 4, 2, 5] () := by rfl

/-! ### C23, and C18 for zip -/

/-- `zip` panics exactly if the shared trailing dimensions differ or a non-repeatable operand has
the smaller rank; otherwise the result has the dimensions of the operand with the larger rank, and
they conform to the static result type. -/
theorem C23 (a : Expr σ α) (b : Expr σ β) (ha : Built a) (hb : Built b) :
    (zipNew a b = none ↔
      (∃ k, k < a.dims.length ∧ k < b.dims.length ∧ a.dims.reverse[k]? ≠ b.dims.reverse[k]?) ∨
      (a.repeatable = false ∧ a.dims.length < b.dims.length) ∨
      (b.repeatable = false ∧ b.dims.length < a.dims.length)) ∧
    ∀ e, zipNew a b = some e →
      e.dims = (if a.dims.length < b.dims.length then b.dims else a.dims) ∧ e.shape.WF ∧
      e.shape.ty = zipTy a.shape.ty b.shape.ty := by
  have wa := shape_wf (wf_of_built ha)
  have wb := shape_wf (wf_of_built hb)
  unfold zipNew
  rw [zipShape_eq wa wb]
  constructor
  · rw [Option.map_eq_none_iff, ite_eq_right_iff]
    simp only [reduceCtorEq, imp_false]
    constructor
    · intro h
      by_cases h1 : ∀ k, k < a.dims.length → k < b.dims.length →
          a.dims.reverse[k]? = b.dims.reverse[k]?
      · right
        by_cases h2 : a.repeatable = true ∨ b.dims.length ≤ a.dims.length
        · right
          have h3 : ¬ (b.repeatable = true ∨ a.dims.length ≤ b.dims.length) := fun h3 => h ⟨h1, h2, h3⟩
          rw [not_or, Bool.not_eq_true, Nat.not_le] at h3
          exact h3
        · left
          rw [not_or, Bool.not_eq_true, Nat.not_le] at h2
          exact h2
      · left
        simp only [not_forall] at h1
        obtain ⟨k, h1, h2, h3⟩ := h1
        exact ⟨k, h1, h2, h3⟩
    · rintro h ⟨h1, h2, h3⟩
      rcases h with ⟨k, h4, h5, h6⟩ | ⟨h4, h5⟩ | ⟨h4, h5⟩
      · exact h6 (h1 k h4 h5)
      · rw [h4] at h2
        simp only [Bool.false_eq_true, false_or] at h2
        omega
      · rw [h4] at h3
        simp only [Bool.false_eq_true, false_or] at h3
        omega
  · intro e he
    rw [Option.map_eq_some_iff] at he
    obtain ⟨s, hs, rfl⟩ := he
    rw [Option.ite_none_right_eq_some] at hs
    obtain ⟨hc, hs⟩ := hs
    injection hs with hs
    subst hs
    exact ⟨rfl, zipTy_conforms wa wb hc.1, rfl⟩

/-- The constant dimensions of both operand types survive: if a trailing dimension of either
operand is constant then so is the one of the result (checked on the shapes that can exist). -/
example : zipTy (.static [.dyn, .const 3]) (.static [.dyn]) = .static [.dyn, .const 3] ∧
    zipTy (.static [.const 3]) (.static [.dyn, .dyn]) = .static [.dyn, .const 3] ∧
    (zipNew (.view true (swapped 2 3) : Expr Unit Int)
      (.view true (whole ⟨.static [.const 2], [2]⟩))).isSome ∧
    (zipNew (.view true (swapped 2 3) : Expr Unit Int)
      (.view false (whole ⟨.static [.const 2], [2]⟩))).isNone ∧
    (zipNew (.view true (swapped 2 3) : Expr Unit Int)
      (.view true (whole ⟨.static [.const 3], [3]⟩))).isNone := by
  refine ⟨by decide, by decide, by decide, by decide, by decide⟩

/-! ### C24 -/

/-- The item of a zip at `j` pairs the items of the operands at the trailing parts of `j`.
Missing: the cases excluded in C19. -/
theorem C24_partial (a : Expr σ α) (b : Expr σ β) (ha : Built a) (hb : Built b) {e}
    (he : zipNew a b = some e) (hs : Sound e)
    (hp : size e.dims = 0 → size (e.dims.drop e.outerRank) = 0)
    (f : τ → α × β → M σ τ) (init : τ) :
    e.fold init f = (allIdx e.dims).zipIdx.foldlM (fun acc jn =>
      M.bind (item a jn.2 (jn.1.drop (e.dims.length - a.dims.length))) fun x =>
        M.bind (item b jn.2 (jn.1.drop (e.dims.length - b.dims.length))) fun y =>
          f acc (x, y)) init := by
  rw [C19_partial e (Built.zip ha hb he) hs hp]
  unfold zipNew at he
  rw [Option.map_eq_some_iff] at he
  obtain ⟨s, hs, rfl⟩ := he
  unfold foldItems
  congr 1
  funext acc jn
  simp only [item, M.bind_assoc, M.pure_bind]
  rfl

/-- Zip of two views: the pairs of elements. -/
theorem C24_views (v w : View) (hv : v.map.WF) (hw : w.map.WF) {r r' : Bool} {e : Expr σ (Int × Int)}
    (he : zipNew (.view r v) (.view r' w) = some e) (hp : 0 < size e.dims)
    (f : τ → Int × Int → M σ τ) (init : τ) :
    e.fold init f = (allIdx e.dims).foldlM (fun acc j =>
      M.bind (orUb (v.index (j.drop (e.dims.length - v.dims.length)))) fun x =>
        M.bind (orUb (w.index (j.drop (e.dims.length - w.dims.length)))) fun y =>
          f acc (x, y)) init := by
  have hs : Sound e := by
    unfold zipNew at he
    rw [Option.map_eq_some_iff] at he
    obtain ⟨s, hs, rfl⟩ := he
    exact ⟨trivial, trivial⟩
  rw [C24_partial _ _ (.view hv) (.view hw) he hs (fun h => absurd h (Nat.ne_of_gt hp))]
  have : allIdx e.dims = ((allIdx e.dims).zipIdx).map (·.1) := by simp
  conv_rhs => rw [this, List.foldlM_map]
  rfl

/-- A strided 3 by 2 view with a vector of length 2. -/
example : ((zipNew (.view true (swapped 2 3) : Expr Unit Int)
      (.view true (whole ⟨.static [.const 2], [2]⟩))).map fun e =>
      (e.fold [] (fun acc x => M.pure (acc ++ [x])) ())) =
    some (.ok [(0, 0), (3, 1), (1, 0), (4, 1), (2, 0), (5, 1)] ()) := by rfl

/-! ### C25 -/

/-- `map` (and `cloned`, `copied`, whose closure clones) applies the closure once per element, in
row-major order. The closure may have any effect on the world. -/
theorem C25_map_partial (e : Expr σ α) (g : α → M σ β) (hb : Built e) (hs : Sound e)
    (hp : size e.dims = 0 → size (e.dims.drop e.outerRank) = 0) (f : τ → β → M σ τ) (init : τ) :
    (Expr.map e g).fold init f = (allIdx e.dims).zipIdx.foldlM (fun acc jn =>
      M.bind (item e jn.2 jn.1) fun x => M.bind (g x) fun y => f acc y) init := by
  rw [C19_partial (Expr.map e g) (Built.map hb) hs hp]
  unfold foldItems
  congr 1
  funext acc jn
  simp only [item, M.bind_assoc]

/-- `enumerate` pairs the `k`-th item with `k`. -/
theorem C25_enumerate_partial (e : Expr σ α) (hb : Built e) (hs : Sound e)
    (hp : size e.dims = 0 → size (e.dims.drop e.outerRank) = 0)
    (f : τ → Nat × α → M σ τ) (init : τ) :
    (enumerateNew e).fold init f = (allIdx e.dims).zipIdx.foldlM (fun acc jn =>
      M.bind (item e jn.2 jn.1) fun x => f acc (rowMajor e.dims jn.1, x)) init := by
  rw [C19_partial (enumerateNew e) (Built.enumerate hb) hs hp]
  unfold foldItems
  change (allIdx e.dims).zipIdx.foldlM _ init = _
  rw [zipIdx_allIdx, List.foldlM_map, List.foldlM_map]
  have : ∀ (l : List Nat) (acc : τ), (∀ n ∈ l, n < size e.dims) →
      l.foldlM (fun acc n => M.bind (item (enumerateNew e) n (unrank e.dims n)) fun x => f acc x) acc =
      l.foldlM (fun acc n => M.bind (item e n (unrank e.dims n)) fun x =>
        f acc (rowMajor e.dims (unrank e.dims n), x)) acc := by
    intro l
    induction l with
    | nil => intros; rfl
    | cons n l ih =>
      intro acc h
      simp only [List.foldlM_cons]
      rw [rowMajor_unrank (h n (by simp))]
      have ih' := fun acc' => ih acc' (fun m hm => h m (by simp [hm]))
      simp only [enumerateNew, item, M.bind_assoc, M.pure_bind, M.bind_eq] at ih' ⊢
      congr 1
      funext x
      congr 1
      funext acc'
      exact ih' acc'
  exact this _ _ (by simp)

/-- A closure with state: it counts its calls. -/
example : (enumerateNew (Expr.map (.view true (swapped 2 2) : Expr Nat Int)
      (fun x s => .ok (x * 10) (s + 1)))).fold [] (fun acc x => M.pure (acc ++ [x])) 0 =
    .ok [(0, 0), (1, 20), (2, 10), (3, 30)] 4 := by rfl

/-! ### C26 -/

/-- `from_fn` with a static rank calls the function once for every valid index, in row-major order.
Missing: shapes of dynamic rank, where the code panics (`C26_violated`), and the array-building
part, which is C31. -/
theorem C26_partial (s : Shape) (hs : s.WF) (hd : s.ty = .dynRank → s.dims = [])
    (g : List Nat → M σ α) {e} (he : fromFnNew s g = some e) (hp : 0 < size s.dims ∨ s.dims.length ≤ 1)
    (f : τ → α → M σ τ) (init : τ) :
    e.fold init f = (allIdx s.dims).foldlM (fun acc j => M.bind (g j) fun x => f acc x) init := by
  have hb := Built.fromFn hs he
  simp only [fromFnNew, Option.map_eq_some_iff] at he
  obtain ⟨_, _, rfl⟩ := he
  rw [C19_partial _ hb hd]
  · unfold foldItems
    have : allIdx s.dims = ((allIdx s.dims).zipIdx).map (·.1) := by simp
    conv_rhs => rw [this, List.foldlM_map]
    rfl
  · intro h0
    rcases hp with h | h
    · exact absurd h0 (Nat.ne_of_gt h)
    · have : (Expr.fromFn s (dimsDefault s.ty) g).outerRank = 0 := by
        unfold outerRank innerRank
        by_cases h2 : s.dims.length > 0
        · rw [if_pos h2]; change s.dims.length - 1 = 0; omega
        · rw [if_neg h2]
      rw [this]; exact h0

/-- The code as it is: `from_fn` with a dynamic-rank shape of rank 1 panics after the first call. -/
theorem C26_violated : ((fromFnNew ⟨.dynRank, [2]⟩ (fun _ => fun s => .ok 7 (s + 1))).map
      fun e => (e.fold 0 (fun acc (x : Nat) => M.pure (acc + x)) (0 : Nat))) =
    some (.panic 1) := by rfl

example : ((fromFnNew ⟨.static [.dyn, .const 2], [2, 2]⟩ (fun j => (M.pure j : M Unit _))).map
      fun e => (e.fold [] (fun acc x => M.pure (acc ++ [x])) ())) =
    some (.ok [[0, 0], [0, 1], [1, 0], [1, 1]] ()) := by rfl

/-! ### C27 -/

/-- `axis_expr` yields the subarrays in order, provided that the size of the subarrays does not
overflow (always so if the view has elements). -/
theorem C27_partial (v : View) (hv : v.map.WF) (r : Bool) (a : Axis) {e : Expr σ View}
    (he : axisNew r v a = some e)
    (ho : ∀ p, axisPos a v.dims.length = some p → 0 < v.dims.getD p 0 →
      NoOverflow usizeMax (v.dims.eraseIdx p)) (f : τ → View → M σ τ) (init : τ) :
    ∃ p, axisPos a v.dims.length = some p ∧
      e.fold init f = (List.range (v.dims.getD p 0)).foldlM (fun acc i =>
        M.bind (orUb (v.axisAt a i)) fun w => f acc w) init := by
  have hb := Built.axis hv he
  simp only [axisNew, Option.map_eq_some_iff] at he
  obtain ⟨m, hm, rfl⟩ := he
  obtain ⟨p, hp1, hp2, hmd, -, -, -⟩ := axis_dims hv hm
  refine ⟨p, hp1, ?_⟩
  have hd : (Expr.axis r v a m 0 : Expr σ View).dims = [v.dims.getD p 0] := hmd
  rw [C19_partial _ hb ho]
  · rw [foldItems_eq, hd]
    simp only [size_cons, size_nil, Nat.mul_one]
    congr 1
    funext acc n
    simp only [visit, hd, unrank, size_nil, Nat.div_one, item]
    rfl
  · intro h0
    have : (Expr.axis r v a m 0 : Expr σ View).outerRank = 0 := by
      change (Expr.axis r v a m 0 : Expr σ View).dims.length - 1 = 0
      rw [hd]; rfl
    rw [this]; exact h0

/-- For a view with elements the size condition holds. -/
theorem C27_size (ds : List Nat) (h0 : 0 < size ds) (h : size ds ≤ usizeMax) (p : Nat) :
    NoOverflow usizeMax (ds.eraseIdx p) := by
  have hpos := size_pos_iff.1 h0
  have key : ∀ l l' : List Nat, l.Sublist l' → (∀ d ∈ l', 0 < d) → size l ≤ size l' := by
    intro l l' hs
    induction hs with
    | slnil => intro _; exact le_refl _
    | @cons l l' d _ ih =>
      intro hp
      rw [size_cons]
      exact le_trans (ih fun x hx => hp x (by simp [hx])) (Nat.le_mul_of_pos_left _ (hp d (by simp)))
    | @cons_cons l l' d _ ih =>
      intro hp
      rw [size_cons, size_cons]
      exact Nat.mul_le_mul_left _ (ih fun x hx => hp x (by simp [hx]))
  intro k _
  exact le_trans (key _ _ ((List.take_sublist _ _).trans (List.eraseIdx_sublist _ _)) hpos) h

/-- The code as it is: with no elements and huge dimensions `axis_expr` panics where `axis_at`
succeeds. The view is an empty 1 by 2^40 by 0 by 2^40 array with its last two axes exchanged. -/
theorem C27_violated :
    let v : View := ⟨0, .strided ⟨.static [.dyn, .dyn, .dyn, .dyn], [1, 2 ^ 40, 2 ^ 40, 0]⟩
      [0, 0, 1, 2 ^ 40]⟩
    (whole ⟨.static [.dyn, .dyn, .dyn, .dyn], [1, 2 ^ 40, 0, 2 ^ 40]⟩).permute true
      ⟨.static [.const 0, .const 1, .const 3, .const 2], [0, 1, 3, 2]⟩ = some v ∧
    (v.axisAt (.const 0) 0).isSome ∧
    ((axisNew true v (.const 0)).map fun e =>
      (e.fold 0 (fun acc _ => M.pure (acc + 1)) () : Res Unit Nat)) = some (.panic ()) := by
  refine ⟨by decide +kernel, by decide +kernel, by decide +kernel⟩

example : ((axisNew true (swapped 2 3) (.const 1)).map fun e =>
      (e.fold [] (fun acc w => M.pure (acc ++ [w.index [2]])) () : Res Unit _)) =
    some (.ok [some 2, some 5] ()) := by decide +kernel

/-! ### C28 -/

/-- The lane at position `j` holds the elements of the view at `j` with the axis coordinate
inserted. -/
theorem C28_lane (v : View) (hv : v.map.WF) (a : Axis) (p : Nat)
    (hp : axisPos a v.dims.length = some p) (j : List Nat) (hj : Valid (v.dims.eraseIdx p) j) :
    ∃ w, laneAt v a j = some w ∧ w.dims = [v.dims.getD p 0] ∧
      ∀ i, w.index [i] = v.index (j.insertIdx p i) := by
  have hlt : p < v.dims.length := Axis.index_lt ((axisIndex_eq a _).trans hp)
  cases hm : a.get v.map with
  | none =>
    rw [Axis.get_eq a _ hv, show axisPos a v.map.dims.length = some p from hp] at hm
    simp at hm
  | some m =>
    obtain ⟨p', hp1, hp2, hmd, hms, -, hmw⟩ := axis_dims hv hm
    have : p' = p := by rw [hp1] at hp; exact Option.some.inj hp
    subst this
    have hgd : v.dims.getD p' 0 = v.dims[p'] := by
      rw [List.getD_eq_getElem?_getD, List.getElem?_eq_getElem hlt]; rfl
    have hJl : p' ≤ j.length := by
      rw [hj.length, List.length_eraseIdx, if_pos hlt]; omega
    have hidx : ∀ (base : Int) i, (View.mk base m).index [i] =
        if i < v.dims.getD p' 0 then some (base + v.map.strides.getD p' 0 * (i : Int)) else none := by
      intro base i
      rw [View.index_eq _ hmw]
      change (if Valid m.dims [i] then some (base + dot m.strides [i]) else none) = _
      rw [hmd, hms]
      simp
    have hv_idx : ∀ i, v.index (j.insertIdx p' i) = if i < v.dims.getD p' 0 then
        some (v.ptr + (v.map.strides.getD p' 0 * (i : Int) + dot (v.map.strides.eraseIdx p') j))
        else none := by
      intro i
      rw [View.index_eq v hv]
      have : Valid v.dims (j.insertIdx p' i) ↔ i < v.dims.getD p' 0 := by
        rw [valid_insertIdx hlt, hgd]; simp [hj]
      simp only [this]
      have hsl : p' < v.map.strides.length := by rw [hv.len]; exact hlt
      rw [dot_insertIdx hsl hJl, List.getD_eq_getElem?_getD (l := v.map.strides),
        List.getElem?_eq_getElem hsl]
      rfl
    unfold laneAt
    simp only [hp1, hm, Option.bind_eq_bind, Option.bind_some, Option.pure_def]
    by_cases h0 : v.dims.getD p' 0 = 0
    · rw [if_pos h0]
      refine ⟨_, rfl, hmd, ?_⟩
      intro i
      rw [hidx, hv_idx, h0]; simp
    · rw [if_neg h0, hv_idx 0, if_pos (by omega), Option.bind_some]
      refine ⟨_, rfl, hmd, ?_⟩
      intro i
      rw [hidx, hv_idx]
      split
      · congr 1; push_cast; ring
      · rfl

/-- Different lanes share no element, if distinct indices of the view address distinct elements
(C05). -/
theorem C28_disjoint (v : View) (hv : v.map.WF) (a : Axis) (p : Nat)
    (hp : axisPos a v.dims.length = some p)
    (hinj : ∀ i j, Valid v.dims i → Valid v.dims j → v.index i = v.index j → i = j)
    (j j' : List Nat) (hj : Valid (v.dims.eraseIdx p) j) (hj' : Valid (v.dims.eraseIdx p) j')
    (hne : j ≠ j') (w w' : View) (hw : laneAt v a j = some w) (hw' : laneAt v a j' = some w')
    (i i' : Nat) (x : Int) (h : w.index [i] = some x) : w'.index [i'] ≠ some x := by
  intro h'
  have hlt : p < v.dims.length := Axis.index_lt ((axisIndex_eq a _).trans hp)
  obtain ⟨w1, e1, -, e2⟩ := C28_lane v hv a p hp j hj
  obtain ⟨w2, e3, -, e4⟩ := C28_lane v hv a p hp j' hj'
  rw [hw] at e1; rw [hw'] at e3
  injection e1 with e1; injection e3 with e3
  subst e1; subst e3
  rw [e2] at h; rw [e4] at h'
  have v1 : Valid v.dims (j.insertIdx p i) := (View.index_isSome v hv _).1 (by rw [h]; rfl)
  have v2 : Valid v.dims (j'.insertIdx p i') := (View.index_isSome v hv _).1 (by rw [h']; rfl)
  have := hinj _ _ v1 v2 (h.trans h'.symm)
  have hl : ∀ {l : List Nat}, Valid (v.dims.eraseIdx p) l → p ≤ l.length := by
    intro l hl
    rw [hl.length, List.length_eraseIdx, if_pos hlt]; omega
  have h3 := congrArg (fun l => l.eraseIdx p) this
  simp only [List.eraseIdx_insertIdx_self] at h3
  exact hne h3

/-- `lanes` yields the lanes in row-major order of the other dimensions, provided that the other
dimensions form a single inner loop (a dense layout or at most one dimension). Missing: the
remaining cases, where the code repeats lanes (`C28_violated`). -/
theorem C28_partial (v : View) (hv : v.map.WF) (r : Bool) (a : Axis) {e : Expr σ View}
    (he : lanesNew r v a = some e) (ho : e.outerRank = 0) (f : τ → View → M σ τ) (init : τ) :
    ∃ p, axisPos a v.dims.length = some p ∧
      e.fold init f = (allIdx (v.dims.eraseIdx p)).foldlM (fun acc j =>
        M.bind (orUb (laneAt v a j)) fun w => f acc w) init := by
  have hb := Built.lanes hv he
  simp only [lanesNew, Option.bind_eq_some_iff, Option.map_eq_some_iff] at he
  obtain ⟨m, hm, _, _, rfl⟩ := he
  obtain ⟨p, hp1, hp2, hmd, -, -⟩ := lanes_dims hv hm
  refine ⟨p, hp1, ?_⟩
  have hd : (Expr.lanes r v a m 0 : Expr σ View).dims = v.dims.eraseIdx p := hmd
  rw [C19_partial _ hb (by unfold Sound Regular; rw [ho]; exact Nat.zero_le _)
    (by rw [ho]; intro h; exact h)]
  unfold foldItems
  rw [hd]
  have : allIdx (v.dims.eraseIdx p) = ((allIdx (v.dims.eraseIdx p)).zipIdx).map (·.1) := by simp
  conv_rhs => rw [this, List.foldlM_map]
  rfl

/-- The code as it is: the lanes along the last axis of a 2 by 2 by 2 array are the first two lanes,
twice. In particular `lanes_mut` hands out the same elements twice. -/
theorem C28_violated :
    ((lanesNew false (whole ⟨.static [.dyn, .dyn, .dyn], [2, 2, 2]⟩) .rows).map fun e =>
      (e.fold [] (fun acc w => M.pure (acc ++ [(w.index [0], w.index [1])])) () : Res Unit _)) =
    some (.ok [(some 0, some 1), (some 2, some 3), (some 0, some 1), (some 2, some 3)] ()) := by
  decide +kernel

example : ((lanesNew true (whole ⟨.static [.dyn, .dyn], [2, 3]⟩) .rows).map fun e =>
      ((e.outerRank, e.fold [] (fun acc w => M.pure (acc ++ [(w.index [0], w.index [2])])) ()) :
        Nat × Res Unit _)) =
    some (0, .ok [(some 0, some 2), (some 3, some 5)] ()) := by
  decide +kernel

end Props
