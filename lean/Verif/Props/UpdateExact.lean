import Verif.Props.AssignExact
import Verif.Props.OwnedExact
import Verif.Props.Update

/-! C79, exactly: what is changed in place for any view and expression, also for those with phantom rows (B2). -/

namespace Props
open Spec Model Model.Iter Model.Expr

variable {σ α β T : Type}

/-- C79, exactly, for any view: the elements are changed at the multi-indices of dimensions in which outer dimensions of
size 0 of a strided view count as 1. -/
theorem C79_each_exact (v : View) (hv : v.map.WF) :
    ∃ st : List Int, st.length = v.dims.length ∧ (∀ k, v.map.stride k = st[k]?) ∧
      (∀ u : M (σ × T) Unit, update v u =
        (allIdx (visitedDims v)).foldlM (fun _ j => updMem (v.ptr + dot st j) u) ()) ∧
      ∀ (bad : T → Bool) (f : M σ T), fillDrop bad v f = (allIdx (visitedDims v)).foldlM
        (fun _ j => updMem (v.ptr + dot st j) (M.bind (M.up (M.up f)) (overwrite bad))) () := by
  obtain ⟨st, h1, h2, h3⟩ := C19_exact_view (σ := σ × List T) (τ := Unit) v hv
  obtain ⟨st', h1', h2', h3'⟩ := C19_exact_view (σ := (σ × List T) × List T) (τ := Unit) v hv
  have hst : st' = st := List.ext_getElem? fun k => by rw [← h2, ← h2']
  subst hst
  refine ⟨st', h1, h2, fun u => ?_, fun bad f => ?_⟩
  · unfold update Expr.forEach
    rw [h3]
  · unfold fillDrop update Expr.forEach
    rw [h3']

/-- C79_each_exact: for the empty view of `C79_violated` two elements are changed. -/
example : visitedDims gap = [1, 2] ∧ size gap.dims = 0 ∧
    update gap (fun s => .ok () (s.1, s.2 + 10) : M (Unit × Nat) Unit) ((), [1, 2, 3, 4]) =
      .ok () ((), [11, 2, 13, 4]) := ⟨by decide, by decide, rfl⟩

/-- C79, exactly, for any view and expression: nothing is changed if the shapes do not fit, or if there is a `from_fn` of
a dynamic rank and the rows are empty, and there is a panic. Otherwise one element is changed for each multi-index
visited by the zipped expression. -/
theorem C79_update_exact (v : View) (hv : v.map.WF) (e : Expr σ β) (hb : Built e) (u : β → M (σ × T) Unit) :
    (¬ CanCast e v.dims → ∀ s, (updateE v e u s).result = .panic s) ∧
    ∀ z : Expr (σ × List T) (Int × β), zipNew (view false v) e.up = some z →
      (BadFn z ∧ size (z.dims.drop z.outerRank) = 0 → ∀ s, (updateE v e u s).result = .panic s) ∧
      (¬ (BadFn z ∧ size (z.dims.drop z.outerRank) = 0) → ∀ s, (updateE v e u s).result =
        (allIdx (visited z)).zipIdx.foldlM (fun _ jn =>
          M.bind (rawItem (z.dims.length - z.outerRank) z jn.2 jn.1) fun py => updMem py.1 (u py.2)) () s) := by
  constructor
  · intro h s
    have h1 := up_zipNew (ρ := List T) (view false v) e
    have h2 : zipNew (view false v) e = none := by
      rw [← Option.not_isSome_iff_eq_none, zipNew_view_isSome hv hb]; exact h
    rw [h2] at h1
    unfold updateE
    change zipNew (view false v) e.up = none at h1
    rw [h1]
    rfl
  · intro z hz
    have hbz : Built z := .zip (.view hv) (up_built hb) hz
    obtain ⟨h1, h2⟩ := C19_exact (τ := Unit) z hbz (fun _ py => updMem py.1 (u py.2)) ()
    have hr : ∀ s, (updateE v e u s).result = z.forEach (fun py => updMem py.1 (u py.2)) s := fun s => by
      unfold updateE
      rw [hz]
      exact forEachE_result z _ s
    refine ⟨fun h s => ?_, fun h s => ?_⟩
    · rw [hr]
      exact congrFun (h2 h) s
    · rw [hr]
      exact congrFun (h1 h) s

/-- C79_update_exact: adding a row to an empty view changes an element. -/
example : let v : View := ⟨0, .strided ⟨.dynRank, [0, 1]⟩ [3, 1]⟩
    let e : Expr Unit Int := view true (whole ⟨.dynRank, [1]⟩)
    v.map.WF ∧ Built e ∧ CanCast e v.dims ∧
    (updateE v e (fun p s => .ok () (s.1, s.2 + p.toNat + 9)) ((), [1, 2, 3])).result = .ok () ((), [10, 2, 3]) :=
  ⟨by decide, .view (by decide), by unfold CanCast; decide +kernel, by decide +kernel⟩

/-- C79, exactly, for operands that own arrays: if the combined expression has phantom rows and no function panics, then
the operation is undefined behaviour. -/
theorem C79_owned_exact (v : View) (hv : v.map.WF) (e : Expr σ β) (hb : Built e) (ht : TameClosures e)
    (hq : Silent e) (hm : e.owned ≠ []) (u : β → M (σ × T) Unit) (z : Expr σ (Int × β))
    (hz : zipNew (view false v) e = some z) (h0 : size z.dims = 0) (hp : size (z.dims.drop z.outerRank) ≠ 0)
    (s : σ) (m : List T) : updateE v e u (s, m) = .ub := by
  refine result_ub ?_
  have hbz : Built z := .zip (.view hv) hb hz
  have hup := up_zipNew (ρ := List T) (view false v : Expr σ Int) e
  rw [hz] at hup
  unfold updateE
  rw [show zipNew (view false v) e.up = some z.up from hup]
  change (z.up.forEachE _ _).result = _
  rw [forEachE_result]
  refine (forEach_first hbz hp _ s m).2.1 ?_
  have hz' := hz
  simp only [zipNew, Option.map_eq_some_iff] at hz'
  obtain ⟨sh, -, rfl⟩ := hz'
  exact rawNth_used hbz ⟨trivial, ht⟩ ⟨trivial, hq⟩ (by simpa [owned] using hm) h0 hp s

/-- C79_owned_exact: the operand of `C79_violated`. -/
example : gap.map.WF ∧ Built emptied ∧ Silent emptied ∧ emptied.owned ≠ [] ∧
    ∃ z, zipNew (view false gap) emptied = some z ∧ size z.dims = 0 ∧ size (z.dims.drop z.outerRank) ≠ 0 :=
  ⟨by decide, .intoExpr (by decide) rfl, trivial, by decide, _, rfl, by decide, by decide⟩

end Props
