import Verif.Props.Slice
import Verif.Props.Ops

/-! C31, C30, C61 and C62, exactly: what evaluation and copying do for expressions with phantom rows (B2). -/

namespace Props
open Model Spec
open Model.Expr Model.Iter

variable {σ T α β : Type}

/-- The first step of a loop decides if it does not succeed. -/
theorem forEach_first {e : Expr σ α} (hb : Built e) (h0 : size (e.dims.drop e.outerRank) ≠ 0)
    {ρ : Type} (f : α → M (σ × ρ) Unit) (s : σ) (o : ρ) :
    (∀ x s', rawNth e 0 s = .ok x s' → f x (s', o) = .ub → e.up.forEach f (s, o) = .ub) ∧
    (rawNth e 0 s = .ub → e.up.forEach f (s, o) = .ub) ∧
    ∀ s', rawNth e 0 s = .panic s' → e.up.forEach f (s, o) = .panic (s', o) := by
  unfold Expr.forEach
  rw [fold_raw (wf_of_built (Expr.up_built hb)) (fun _ => by
    unfold row
    simp only [Expr.dims, up_shape, up_outerRank]
    exact Nat.pos_of_ne_zero h0), up_visited]
  have hpos : 0 < size (visited e) := by
    rw [size_visited]; exact Nat.mul_pos (rows_pos e) (Nat.pos_of_ne_zero h0)
  obtain ⟨n, hn⟩ : ∃ n, size (visited e) = n + 1 := ⟨_, (Nat.succ_pred_eq_of_pos hpos).symm⟩
  rw [hn, List.range_succ_eq_map, List.foldlM_cons]
  simp only [visitRaw, up_rawNth, M.bind_eq]
  refine ⟨?_, ?_, ?_⟩
  · intro x s' hx hf
    simp [M.bind, M.up, hx, hf]
  · intro hx
    simp [M.bind, M.up, hx]
  · intro s' hx
    simp [M.bind, M.up, hx]

/-- C31, exactly, for expressions with phantom rows: evaluating one into a `Tensor` or an `Array` is undefined behaviour,
unless computing the first item panics; then no element is dropped. -/
theorem C31_phantom_exact (e : Expr σ T) (hb : Built e) (h0 : size e.dims = 0)
    (hp : size (e.dims.drop e.outerRank) ≠ 0) (ty : ShapeTy) (hc : ty.Conforms e.dims) (s : σ) (o : Own T) :
    ((∃ x s', rawNth e 0 s = .ok x s') ∨ rawNth e 0 s = .ub →
      tensorFromExpr e (s, o) = .ub ∧ arrayFromExpr ty e (s, o) = .ub) ∧
    ∀ s', rawNth e 0 s = .panic s' → (∃ t, tensorFromExpr e (s, o) = .panic (s', t) ∧ t.log = o.log) ∧
      ∃ t, arrayFromExpr ty e (s, o) = .panic (s', t) ∧ t.log = o.log := by
  have hlen : e.shape.len = 0 := by rw [Shape.len_eq]; exact h0
  have hfd : Shape.fromDims ty e.dims = some ⟨ty, e.dims⟩ := by rw [Shape.fromDims_eq, if_pos hc]
  have hlen' : (⟨ty, e.dims⟩ : Shape).len = 0 := by rw [Shape.len_eq]; exact h0
  have happ : ∀ (x : T) (s' : σ) (o' : Own T), o'.cells = [] → vecAppend x (s', o') = .ub := by
    intro x s' o' ho'
    simp [vecAppend, own, writeCell, ho', M.bind_eq, M.bind]
  have k1 := forEach_first hb hp (fun x => M.bind (M.up (M.pure x)) vecAppend) s
    (⟨[], 0, e.shape, o.log, o.limit⟩ : Own T)
  have k2 := forEach_first hb hp vecAppend s (⟨[], 0, ⟨ty, e.dims⟩, o.log, o.limit⟩ : Own T)
  simp only [M.up_pure, M.pure_bind] at k1
  refine ⟨?_, ?_⟩
  · intro h
    have h1 : e.up.forEach vecAppend (s, (⟨[], 0, e.shape, o.log, o.limit⟩ : Own T)) = .ub := by
      rcases h with ⟨x, s', h⟩ | h
      · exact k1.1 x s' h (happ _ _ _ rfl)
      · exact k1.2.1 h
    have h2 : e.up.forEach vecAppend (s, (⟨[], 0, ⟨ty, e.dims⟩, o.log, o.limit⟩ : Own T)) = .ub := by
      rcases h with ⟨x, s', h⟩ | h
      · exact k2.1 x s' h (happ _ _ _ rfl)
      · exact k2.2.1 h
    constructor
    · unfold tensorFromExpr cloneIntoVec
      simp [M.bind_eq, M.bind, upd, own, M.lift, hlen, check, M.onPanic]
      rw [h1]
    · unfold arrayFromExpr
      simp [M.bind_eq, M.bind, upd, M.lift, hfd, hlen', M.onPanic, M.pure, h2]
  · intro s' h
    have h1 := k1.2.2 s' h
    have h2 := k2.2.2 s' h
    constructor
    · unfold tensorFromExpr cloneIntoVec
      simp [M.bind_eq, M.bind, upd, own, M.lift, hlen, check, M.onPanic]
      rw [h1]
      simp [dropCells]
    · unfold arrayFromExpr
      simp [M.bind_eq, M.bind, upd, own, M.lift, hfd, hlen', M.onPanic, M.pure, h2, dropCells]

/-- The transposed array of the dimensions 3 and 0. -/
example : Built (view true (swapped 3 0) : Expr Unit Int) ∧ size (swapped 3 0).dims = 0 ∧
    size ((swapped 3 0).dims.drop (view true (swapped 3 0) : Expr Unit Int).outerRank) ≠ 0 ∧
    (ShapeTy.static [.const 0, .const 3]).Conforms (swapped 3 0).dims ∧
    rawNth (view true (swapped 3 0) : Expr Unit Int) 0 () = .ok 0 () :=
  ⟨.view (by decide), by decide, by decide, by decide, rfl⟩

/-- C62, exactly: the same for `eval`. -/
theorem C62_eval_exact (e : Expr σ T) (hb : Built e) (hty : e.shape.ty.WF) (h0 : size e.dims = 0)
    (hp : size (e.dims.drop e.outerRank) ≠ 0) (s : σ) (o : Own T) :
    ((∃ x s', rawNth e 0 s = .ok x s') ∨ rawNth e 0 s = .ub → eval e (s, o) = .ub) ∧
    ∀ s', rawNth e 0 s = .panic s' → ∃ t, eval e (s, o) = .panic (s', t) ∧ t.log = o.log := by
  have k := C31_phantom_exact e hb h0 hp e.shape.ty (shape_wf (wf_of_built hb)) s o
  unfold eval
  rw [C62 _ hty]
  split
  · exact ⟨fun h => (k.1 h).2, fun s' h => (k.2 s' h).2⟩
  · exact ⟨fun h => (k.1 h).1, fun s' h => (k.2 s' h).1⟩

/-- The first item of an iteration over a view is the element at its start, whether it exists or not. -/
theorem rawNth_copy_zero (v : View) (m : Int → Option T) (c : T → M σ T) :
    rawNth (clonedView v m c) 0 = cloneAt m c v.ptr := by
  show M.bind (M.pure (v.ptr + dot v.map.strides (unrank _ 0))) (cloneAt m c) = _
  rw [M.pure_bind, unrank_zero, dot_zeros]
  simp

/-- C61, exactly: copying a view that has phantom rows clones what is found at the start of the view, even though this
is not an element of the view, and then it is undefined behaviour unless this panics. -/
theorem C61_exact (v : View) (hv : v.map.WF) (hp : ¬ Visitable v) (m : Int → Option T) (c : T → M σ T)
    (hc : ∀ x s, ∃ y s', c x s = .ok y s') (s : σ) (o : Own T) :
    toTensor v m c (s, o) = .ub ∧ toVec v m c (s, o) = .ub ∧ toArray v m c (s, o) = .ub := by
  have hb : Built (clonedView v m c) := .map (.view hv)
  have hnp : ¬ NoPhantomRows (clonedView v m c) := fun h => hp ((visitable_iff v).1 (by
    have k := C19_exact_count (σ := σ) (view true v)
    rw [length_allIdx, visited_view] at k
    exact k.2 h))
  unfold NoPhantomRows at hnp
  push Not at hnp
  have k := (C31_phantom_exact (clonedView v m c) hb hnp.1 hnp.2 v.ty hv.1 s o).1 (by
    rw [rawNth_copy_zero v]
    unfold cloneAt
    cases m v.ptr with
    | none => exact .inr rfl
    | some x => obtain ⟨y, s', h⟩ := hc x s; exact .inl ⟨y, s', h⟩)
  refine ⟨k.1, ?_, k.2⟩
  unfold toVec
  rw [M.bind, show toTensor v m c (s, o) = .ub from k.1]

/-- So copying a view, with a clone that cannot fail, is without undefined behaviour iff the view has no phantom rows. -/
theorem C61_iff (v : View) (hv : v.map.WF) (m : Int → Option T) (hm : Within v m) (c : T → M σ T)
    (hc : ∀ x s, ∃ y s', c x s = .ok y s') (s : σ) (o : Own T) :
    (toTensor v m c (s, o) ≠ .ub ↔ Visitable v) ∧ (toVec v m c (s, o) ≠ .ub ↔ Visitable v) ∧
      (toArray v m c (s, o) ≠ .ub ↔ Visitable v) := by
  have ht : ∀ y, (c y).Tame := fun y s => by obtain ⟨z, s', h⟩ := hc y s; unfold M.Post; rw [h]; trivial
  have hne : ∀ {x : M (σ × Own T) Unit} {t Q R}, M.Post x t Q R → x t ≠ .ub := by
    intro x t Q R h he
    unfold M.Post at h
    rw [he] at h
    exact h
  refine ⟨⟨fun h => ?_, fun h => hne (C61_tensor_partial v hv h m hm c ht s o)⟩,
    ⟨fun h => ?_, fun h => hne (C61_vec_partial v hv h m hm c ht s o)⟩,
    ⟨fun h => ?_, fun h => hne (C61_array_partial v hv h m hm c ht s o)⟩⟩
  · by_contra hp; exact h (C61_exact v hv hp m c hc s o).1
  · by_contra hp; exact h (C61_exact v hv hp m c hc s o).2.1
  · by_contra hp; exact h (C61_exact v hv hp m c hc s o).2.2

/-- The transposed array of the dimensions 3 and 0 has phantom rows, the one of 0 and 3 does not. -/
example : (swapped 3 0).map.WF ∧ ¬ Visitable (swapped 3 0) ∧ (swapped 0 3).map.WF ∧ Visitable (swapped 0 3) ∧
    Within (swapped 0 3) (fun _ => (none : Option Nat)) := by
  refine ⟨by decide, by unfold Visitable; decide, by decide, by unfold Visitable; decide, ?_⟩
  intro j p h
  have hj := (View.index_isSome (swapped 0 3) (by decide) j).1 (by rw [h]; rfl)
  exact absurd hj.size_pos (by decide)

/-- C30, exactly, for lazy operands with phantom rows: the operator is undefined behaviour unless computing the first
item panics. -/
theorem C30_phantom_exact (limit : Nat) (op : T → T → M σ T) (a b : Expr σ T) (ha : Built a) (hb : Built b)
    {z} (hz : zipNew b a = some z) (h0 : size z.dims = 0) (hp : size (z.dims.drop z.outerRank) ≠ 0) (s : σ)
    {y x : T} {s' : σ} (hx : rawNth z 0 s = .ok (y, x) s') (hop : (∃ r t, op x y s' = .ok r t) ∨ op x y s' = .ub) :
    binOp limit op (.expr a) (.expr b) s = .ub := by
  have k := (C31_phantom_exact (map z fun p => op p.2 p.1) (.map (.zip hb ha hz)) h0 hp z.shape.ty
    (shape_wf (wf_of_built (.zip hb ha hz))) s (ownOf limit z.shape [])).1 (by
      have : rawNth (map z fun p => op p.2 p.1) 0 s = op x y s' := by
        show M.bind (rawNth z 0) _ s = _
        rw [M.bind, hx]
      rw [this]; exact hop)
  show M.bind (M.lift (zipNew b a)) _ s = _
  rw [hz]
  simp only [M.lift_some, M.pure_bind]
  simp only [runOwn, M.bind, M.scope, k.1]

/-- The sum of two empty views. -/
example : ((zipNew (view true (swapped 3 0)) (view true (swapped 3 0)) : Option (Expr Unit (Int × Int))).map fun z =>
    (size z.dims, size (z.dims.drop z.outerRank))) = some (0, 3) := by decide +kernel

/-- C40, exactly, for an empty tensor combined with an operand such that there are phantom rows: an element that does not
exist is taken out of the tensor, unless the operand panics. -/
theorem C40_phantom_exact (s s' : σ) (o : Own T) (ho : o.shape.WF) (hn : ∀ c ∈ o.cells, c = none) (e : Expr σ β)
    (hb : Built e) (f : T → β → M σ T) {z} (hz : zipNew (view false (whole o.shape)) e = some z)
    (hp : size (z.dims.drop z.outerRank) ≠ 0) {x : Int × β} (hx : rawNth z 0 s = .ok x s') :
    zipWith e f (s, o) = .ub := by
  have hwf : (whole o.shape).map.WF := Mapping.wf_dense.2 ho
  have hbz : Built z := .zip (.view hwf) hb hz
  have hraw : rawNth (z.up : Expr (σ × Own T) (Int × β)) 0 (s, o) = .ok x (s', o) := by
    rw [up_rawNth]; simp only [M.up, hx]
  have k := (forEach_first (Expr.up_built hbz) (by
    simp only [Expr.dims, up_shape, up_outerRank]; exact hp) (zipStep f) (s, o) 0).1 x (s', o) hraw (by
      have htake : (takeCell x.1.toNat : M (σ × Own T) T) (s', o) = .ub := by
        unfold takeCell
        split
        · rename_i y h
          have := hn _ (List.mem_of_getElem? h)
          cases this
        · rfl
      simp only [zipStep, M.bind, M.up, htake])
  unfold zipWith
  change M.bind (M.scope 0 (M.onPanic (M.bind (M.lift (zipNew _ _)) _) _)) _ (s, o) = _
  rw [show (Expr.view false ⟨0, .dense o.shape⟩ : Expr ((σ × Own T) × Nat) Int) =
    ((view false (whole o.shape) : Expr σ Int).up : Expr (σ × Own T) Int).up from rfl, up_zipNew, up_zipNew, hz]
  simp only [Option.map_some, M.lift_some, M.pure, M.bind, M.scope, M.onPanic, k]

/-- An empty tensor of the dimensions 0 and 3, and an empty view. -/
example : ((zipNew (view false (whole ⟨.static [.dyn, .dyn], [0, 3]⟩)) (view true (swapped 3 0)) :
    Option (Expr Unit (Int × Int))).map fun z => size (z.dims.drop z.outerRank)) = some 3 := by decide +kernel

end Props
