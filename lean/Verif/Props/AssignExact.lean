import Verif.Props.Exact

/-! What `fill`, `assign` and `op=` do for all views, also for those for which they are wrong: C29 and C30. -/

namespace Props
open Model Spec
open Model.Expr Model.Iter

variable {σ α T : Type}

/-- `fill_with` calls the closure and writes the result once for each multi-index that is visited, where outer
dimensions of size 0 count as 1 if the view is strided. -/
theorem C29_fill_exact (v : View) (hv : v.map.WF) :
    ∃ st : List Int, st.length = v.dims.length ∧ (∀ k, v.map.stride k = st[k]?) ∧
      ∀ f : M σ T, fillWith v f = (allIdx (visitedDims v)).foldlM
        (fun _ j => M.bind (M.up f) fun x => writeMem (v.ptr + dot st j) x) () := by
  obtain ⟨st, h1, h2, h3⟩ := C19_exact_view (σ := σ × List T) (τ := Unit) v hv
  refine ⟨st, h1, h2, fun f => ?_⟩
  unfold fillWith Expr.forEach
  rw [h3]

theorem fill_leaves {ps : List Int} {x : T} {s : σ} {m : List T} {t : σ × List T}
    (h : ps.foldlM (fun (_ : Unit) p => M.bind (M.up (M.pure x)) fun x => writeMem p x) () (s, m) = .ok () t)
    (hx : x ∈ m ∨ ps ≠ []) : x ∈ t.2 := by
  induction ps generalizing s m with
  | nil =>
    cases h
    simpa using hx
  | cons p ps ih =>
    rw [List.foldlM_cons] at h
    simp only [M.bind_eq, M.bind, M.up, M.pure, writeMem] at h
    by_cases hp : 0 ≤ p ∧ p.toNat < m.length
    · rw [if_pos hp] at h
      exact ih h (.inl (List.mem_iff_getElem.2 ⟨p.toNat, by simpa using hp.2, by simp⟩))
    · rw [if_neg hp] at h
      cases h

/-- So filling an empty view leaves the memory alone exactly if there are no phantom rows. -/
theorem C29_fill_iff (v : View) (hv : v.map.WF) (h0 : size v.dims = 0) (x : T) (s : σ) (m : List T)
    (hx : x ∉ m) : fillWith v (M.pure x) (s, m) = .ok () (s, m) ↔ Visitable v := by
  obtain ⟨st, -, -, h⟩ := C29_fill_exact (σ := σ) (T := T) v hv
  rw [h, ← visitable_iff, h0, ← length_allIdx, List.length_eq_zero_iff]
  constructor
  · intro he
    by_contra hne
    have := fill_leaves (ps := (allIdx (visitedDims v)).map fun j => v.ptr + dot st j) (x := x) (s := s) (m := m)
      (t := (s, m)) (by rw [List.foldlM_map]; exact he) (.inr (by simpa using hne))
    exact hx this
  · intro he
    rw [he]
    rfl

example : let v : View := ⟨0, .strided ⟨.dynRank, [0, 2]⟩ [3, 1]⟩
    v.map.WF ∧ size v.dims = 0 ∧ fillWith v (M.pure 9 : M Unit Nat) ((), [1, 2, 3]) = .ok () ((), [9, 9, 3]) ∧
    fillWith (⟨0, .strided ⟨.dynRank, [2, 0]⟩ [3, 1]⟩ : View) (M.pure 9 : M Unit Nat) ((), [1, 2, 3]) =
      .ok () ((), [1, 2, 3]) := by decide +kernel

/-- `assign` panics if the shapes do not fit. Otherwise it computes and writes one item for each multi-index visited
by the zipped expression, with the items and positions found there; unless there is a `from_fn` of a dynamic rank
and the rows are empty, when it panics. -/
theorem C29_assign_exact (v : View) (hv : v.map.WF) (e : Expr σ α) (hb : Built e) (c : α → M σ T) :
    (¬ CanCast e v.dims → assign v e c = M.panic) ∧
    ∀ z : Expr (σ × List T) (Int × α), zipNew (view false v) e.up = some z →
      (BadFn z ∧ size (z.dims.drop z.outerRank) = 0 → assign v e c = M.panic) ∧
      (¬ (BadFn z ∧ size (z.dims.drop z.outerRank) = 0) → assign v e c =
        (allIdx (visited z)).zipIdx.foldlM (fun _ jn =>
          M.bind (rawItem (z.dims.length - z.outerRank) z jn.2 jn.1) fun py =>
            M.bind (M.up (c py.2)) fun x => writeMem py.1 x) ()) := by
  constructor
  · intro h
    have h1 := up_zipNew (ρ := List T) (view false v) e
    have h2 : zipNew (view false v) e = none := by
      rw [← Option.not_isSome_iff_eq_none, zipNew_view_isSome hv hb]; exact h
    rw [h2] at h1
    unfold assign
    change zipNew (view false v) e.up = none at h1
    rw [h1]
    rfl
  · intro z hz
    have hbz : Built z := .zip (.view hv) (up_built hb) hz
    obtain ⟨h1, h2⟩ := C19_exact (τ := Unit) z hbz (fun _ py => M.bind (M.up (c py.2)) fun x => writeMem py.1 x) ()
    unfold assign Expr.forEach
    rw [hz]
    show (_ → M.bind (M.pure z) _ = _) ∧ (_ → M.bind (M.pure z) _ = _)
    rw [M.pure_bind]
    exact ⟨h2, h1⟩

/-- Assigning an array with rows to an empty view overwrites an element. -/
example : let v : View := ⟨0, .strided ⟨.dynRank, [0, 1]⟩ [3, 1]⟩
    let e : Expr Unit Int := view true (whole ⟨.dynRank, [1]⟩)
    v.map.WF ∧ Built e ∧ CanCast e v.dims ∧
    assign v e (fun p => M.pure (p.toNat + 9)) ((), [1, 2, 3]) = .ok () ((), [9, 2, 3]) :=
  ⟨by decide, .view (by decide), by unfold CanCast; decide +kernel, by decide +kernel⟩

/-- `v op= e` panics if the shapes do not fit. Otherwise it updates one element for each multi-index visited by the
zipped expression; unless there is a `from_fn` of a dynamic rank and the rows are empty, when it panics. -/
theorem C30_assign_exact (v : View) (hv : v.map.WF) (e : Expr σ α) (hb : Built e) (g : T → α → M σ T) :
    (¬ CanCast e v.dims → opAssign v e g = M.panic) ∧
    ∀ z : Expr (σ × List T) (Int × α), zipNew (view false v) e.up = some z →
      (BadFn z ∧ size (z.dims.drop z.outerRank) = 0 → opAssign v e g = M.panic) ∧
      (¬ (BadFn z ∧ size (z.dims.drop z.outerRank) = 0) → opAssign v e g =
        (allIdx (visited z)).zipIdx.foldlM (fun _ jn =>
          M.bind (rawItem (z.dims.length - z.outerRank) z jn.2 jn.1) fun py =>
            M.bind (readMem py.1) fun x => M.bind (M.up (g x py.2)) fun x' => writeMem py.1 x') ()) := by
  constructor
  · intro h
    have h1 := up_zipNew (ρ := List T) (view false v) e
    have h2 : zipNew (view false v) e = none := by
      rw [← Option.not_isSome_iff_eq_none, zipNew_view_isSome hv hb]; exact h
    rw [h2] at h1
    unfold opAssign
    change zipNew (view false v) e.up = none at h1
    rw [h1]
    rfl
  · intro z hz
    have hbz : Built z := .zip (.view hv) (up_built hb) hz
    obtain ⟨h1, h2⟩ := C19_exact (τ := Unit) z hbz (fun _ py => M.bind (readMem py.1) fun x =>
      M.bind (M.up (g x py.2)) fun x' => writeMem py.1 x') ()
    unfold opAssign Expr.forEach
    rw [hz]
    show (_ → M.bind (M.pure z) _ = _) ∧ (_ → M.bind (M.pure z) _ = _)
    rw [M.pure_bind]
    exact ⟨h2, h1⟩

/-- Adding a vector to an empty view changes an element. -/
example : let v : View := ⟨0, .strided ⟨.dynRank, [0, 1]⟩ [3, 1]⟩
    let e : Expr Unit Int := view true (whole ⟨.dynRank, [1]⟩)
    v.map.WF ∧ Built e ∧ CanCast e v.dims ∧
    opAssign v e (fun x p => M.pure (x + p.toNat + 10)) ((), [1, 2, 3]) = .ok () ((), [11, 2, 3]) :=
  ⟨by decide, .view (by decide), by unfold CanCast; decide +kernel, by decide +kernel⟩

end Props
