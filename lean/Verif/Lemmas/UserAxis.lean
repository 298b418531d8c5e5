import Verif.Lemmas.Post
import Verif.Lemmas.ViewOps
import Verif.Spec.UserAxis

/-!
Axes defined outside of the crate.
-/

namespace Model
open Spec

variable {σ ρ : Type}

/-- Removing a dimension of any mapping, with any types for the result. -/
theorem View.sub_parts {v : View} (h : v.map.WF) {p i : Nat} {ty : ShapeTy} {L : Layout} {m : Mapping}
    (hm : v.map.removeDim p ty L = some m) (hi : i < v.dims.getD p 0) (c : Int)
    (hc : ¬size (v.dims.eraseIdx p) = 0 → c = v.map.strides.getD p 0 * (i : Int)) :
    p < v.dims.length ∧ SubView v p i ⟨v.ptr + c, m⟩ := by
  rw [Mapping.removeDim_eq _ h] at hm
  split at hm
  swap
  · simp at hm
  rename_i hcond
  obtain ⟨hlt, hcf, hd⟩ := hcond
  have hlt : p < v.dims.length := hlt
  injection hm with hm
  subst hm
  have hi' : i < v.dims[p] := by simpa [hlt] using hi
  have hl : (v.map.strides.eraseIdx p).length = (v.map.dims.eraseIdx p).length := by
    rw [List.length_eraseIdx, List.length_eraseIdx, h.len]
  have hd : L = .dense → v.map.strides.eraseIdx p = denseStrides (v.map.dims.eraseIdx p) := fun e => by
    obtain ⟨h1, rfl⟩ := hd e
    rw [Mapping.strides_of_dense h1]
    cases v.map.dims <;> simp [denseStrides]
  refine ⟨hlt, Mapping.mk_wf hcf hl, Mapping.mk_dims .., fun j => ?_⟩
  rw [View.index_mk hcf hl hd, View.index_eq v h]
  show (if Valid (v.dims.eraseIdx p) j then _ else _) = _
  by_cases hj : Valid (v.dims.eraseIdx p) j
  · have hne : size (v.dims.eraseIdx p) ≠ 0 := by have := hj.size_pos; omega
    have hlen : p ≤ j.length := by
      rw [hj.length, List.length_eraseIdx, if_pos hlt]; omega
    rw [if_pos hj, if_pos ((valid_insertIdx hlt).2 ⟨hi', hj⟩), hc hne,
      dot_insertIdx (by rw [h.len]; exact hlt) hlen]
    have hs : p < v.map.strides.length := by rw [h.len]; exact hlt
    simp [hs]; ring
  · rw [if_neg hj, if_neg (fun hh => hj ((valid_insertIdx hlt).1 hh).2)]

/-- Resizing a dimension of any mapping, with any types for the result. -/
theorem View.halves_parts {v : View} (h : v.map.WF) {p mid : Nat} {ty : ShapeTy} {L : Layout} {m1 m2 : Mapping}
    (hi : mid ≤ v.dims.getD p 0) (h1 : v.map.resizeDim p mid ty L = some m1)
    (h2 : v.map.resizeDim p (v.dims.getD p 0 - mid) ty L = some m2) (c : Int)
    (hc : ¬m2.isEmpty = true → c = v.map.strides.getD p 0 * (mid : Int)) :
    p < v.dims.length ∧ Halves v p mid ⟨v.ptr, m1⟩ ⟨v.ptr + c, m2⟩ := by
  rw [Mapping.resizeDim_eq _ h] at h1 h2
  split at h1
  swap
  · simp at h1
  rename_i c1
  split at h2
  swap
  · simp at h2
  rename_i c2
  obtain ⟨hlt, hc1, hd⟩ := c1
  obtain ⟨-, hc2, -⟩ := c2
  have hlt : p < v.dims.length := hlt
  injection h1 with h1
  injection h2 with h2
  subst h1 h2
  have hg : v.dims.getD p 0 = v.dims[p] := by simp [hlt]
  have hi' : mid ≤ v.dims[p] := hg ▸ hi
  have hl : ∀ n, (v.map.strides).length = (v.map.dims.set p n).length := fun n => by
    rw [List.length_set, h.len]
  have hd : ∀ n, L = .dense → v.map.strides = denseStrides (v.map.dims.set p n) := fun n e => by
    obtain ⟨h1, rfl⟩ := hd e
    rw [Mapping.strides_of_dense h1]
    cases v.map.dims <;> simp [denseStrides]
  refine ⟨hlt, Mapping.mk_wf hc1 (hl _), Mapping.mk_wf hc2 (hl _), Mapping.mk_dims .., Mapping.mk_dims ..,
    fun j => ?_, fun j => ?_⟩
  · rw [View.index_mk hc1 (hl _) (hd _), View.index_eq v h]
    show (if Valid (v.dims.set p mid) j then _ else _) = _
    simp only [valid_set_le hlt hi']
    by_cases h1 : Valid v.dims j <;> by_cases h2 : j.getD p 0 < mid <;> simp [h1]
  · rw [View.index_mk hc2 (hl _) (hd _), View.index_eq v h]
    show (if Valid (v.dims.set p (v.dims.getD p 0 - mid)) j then _ else _) = _
    simp only [valid_modify hlt hi', hg]
    by_cases hj : Valid (v.dims.set p (v.dims[p] - mid)) j
    · rw [if_pos hj, if_pos hj, hc (by
          rw [Mapping.isEmpty_iff, Mapping.mk_dims]
          show ¬size (v.dims.set p (v.dims.getD p 0 - mid)) = 0
          rw [hg]
          have := hj.size_pos; omega),
        dot_modify (by rw [h.len]; exact hlt) (by rw [hj.length]; simpa using hlt)]
      have hs : p < v.map.strides.length := by rw [h.len]; exact hlt
      simp [hs]; ring
    · rw [if_neg hj, if_neg hj]

namespace UserAxis

theorem ran {α β : Type} {x : M σ α} {f : α → M σ β} {w w' : σ} {a : α} (h : x w = .ok a w') :
    M.bind x f w = f a w' := by
  unfold M.bind; rw [h]

section
variable {a : UserAxis σ} {v : View} {p : Nat} (h : SafeAxis a) (hs : SteadyAxis a v.dims.length p)
include h hs

theorem post_index (w : σ) : M.Post (a.index v.map.rank) w (fun q _ => q = p) fun _ => True := by
  have := h v.map.rank w
  unfold M.Post at this ⊢
  cases e : a.index v.map.rank w with
  | ok q w' => exact hs _ _ _ e
  | panic w' => trivial
  | ub => rw [e] at this; exact this
  | abort => rw [e] at this; exact this

theorem post_removeMap (w : σ) : M.Post (a.removeMap v.map) w
    (fun m _ => v.map.removeDim p (a.remove v.map.shape.ty) (a.split v.map.shape.ty v.map.layout) = some m)
    fun _ => True := by
  refine (post_index h hs w).bind ?_
  intro q w hq
  rw [hq]
  exact M.post_lift (fun _ e => e) fun _ => trivial

theorem post_resizeMap (n : Nat) (w : σ) : M.Post (a.resizeMap v.map n) w
    (fun m _ => v.map.resizeDim p n (a.resizeTy v.map.shape.ty) (a.split v.map.shape.ty v.map.layout) = some m)
    fun _ => True := by
  refine (post_index h hs w).bind ?_
  intro q w hq
  rw [hq]
  exact M.post_lift (fun _ e => e) fun _ => trivial

theorem post_axisAt (hv : v.map.WF) (i : Nat) (w : σ) : M.Post (a.axisAt v i) w
    (fun v' _ => p < v.dims.length ∧ i < v.dims.getD p 0 ∧ SubView v p i v') fun _ => True := by
  refine (post_index h hs w).bind ?_
  intro q w hq
  rw [hq]
  refine M.post_bind (M.post_lift (fun n en => ?_) fun _ => trivial)
  refine M.post_bind (M.post_lift (fun _ ei => ?_) fun _ => trivial)
  have hn : v.dims.getD p 0 = n := by
    rw [Mapping.dim_eq] at en
    rw [List.getD_eq_getElem?_getD]
    show v.map.dims[p]?.getD 0 = n
    rw [en]; rfl
  have hi : i < v.dims.getD p 0 := by
    rw [hn]
    by_contra hc
    rw [show check (i < n) = none from if_neg hc] at ei
    simp at ei
  refine (post_removeMap h hs w).bind fun m w em => (post_index h hs w).bind ?_
  intro q w hq
  rw [hq]
  refine M.post_bind (M.post_lift (fun t et => ?_) fun _ => trivial)
  have ht : v.map.strides.getD p 0 = t := by
    rw [Mapping.stride_eq _ hv] at et
    rw [List.getD_eq_getElem?_getD, et]; rfl
  have hm : m.dims = v.dims.eraseIdx p := by
    rw [Mapping.removeDim_eq _ hv] at em
    split at em
    · injection em with em; rw [← em]; exact Mapping.mk_dims ..
    · simp at em
  have := View.sub_parts hv em hi (if m.isEmpty then 0 else t * (i : Int)) (fun hne => by
    rw [if_neg (by rw [Mapping.isEmpty_iff, hm]; exact hne), ht])
  exact ⟨this.1, hi, this.2⟩

theorem post_splitAxisAt (hv : v.map.WF) (mid : Nat) (w : σ) : M.Post (a.splitAxisAt v mid) w
    (fun q _ => p < v.dims.length ∧ mid ≤ v.dims.getD p 0 ∧ Halves v p mid q.1 q.2) fun _ => True := by
  refine (post_index h hs w).bind ?_
  intro q w hq
  rw [hq]
  refine M.post_bind (M.post_lift (fun n en => ?_) fun _ => trivial)
  refine M.post_bind (M.post_lift (fun _ ei => ?_) fun _ => trivial)
  have hn : v.dims.getD p 0 = n := by
    rw [Mapping.dim_eq] at en
    rw [List.getD_eq_getElem?_getD]
    show v.map.dims[p]?.getD 0 = n
    rw [en]; rfl
  have hi : mid ≤ v.dims.getD p 0 := by
    rw [hn]
    by_contra hc
    rw [show check (mid ≤ n) = none from if_neg hc] at ei
    simp at ei
  refine (post_resizeMap h hs _ w).bind fun m1 w e1 => (post_resizeMap h hs _ w).bind fun m2 w e2 => ?_
  refine M.post_bind (M.post_lift (fun t et => ?_) fun _ => trivial)
  have ht : v.map.strides.getD p 0 = t := by
    rw [Mapping.stride_eq _ hv] at et
    rw [List.getD_eq_getElem?_getD, et]; rfl
  have := View.halves_parts hv hi e1 (by rw [hn]; exact e2) (if m2.isEmpty then 0 else t * (mid : Int)) (fun hne => by
    rw [if_neg hne, ht])
  exact ⟨this.1, hi, this.2⟩

/-- `Axis::get` for any types. -/
theorem post_getMap (hv : v.map.WF) (w : σ) : M.Post (a.getMap v.map) w
    (fun m _ => p < v.dims.length ∧ m.shape = ⟨.static [a.dim v.map.shape.ty], [v.dims.getD p 0]⟩ ∧
      m.innerStride = v.map.strides.getD p 0) fun _ => True := by
  refine (post_index h hs w).bind ?_
  intro q w hq
  rw [hq]
  refine M.post_bind (M.post_lift (fun n en => ?_) fun _ => trivial)
  refine M.post_bind (M.post_lift (fun t et => ?_) fun _ => trivial)
  rw [Mapping.dim_eq] at en
  have hlt : p < v.dims.length := (List.getElem?_eq_some_iff.1 en).1
  have hn : v.dims.getD p 0 = n := by
    rw [List.getD_eq_getElem?_getD]
    show v.map.dims[p]?.getD 0 = n
    rw [en]; rfl
  have ht : v.map.strides.getD p 0 = t := by
    rw [Mapping.stride_eq _ hv] at et
    rw [List.getD_eq_getElem?_getD, et]; rfl
  refine M.post_lift (fun m em => ?_) fun _ => trivial
  rw [Mapping.prependDim_eq _ (Mapping.wf_dense.2 (by constructor))] at em
  split at em
  swap
  · simp at em
  rename_i hc
  injection em with em
  subst em
  rw [hn, ht]
  refine ⟨hlt, Mapping.mk_shape .., ?_⟩
  cases hL : a.keep v.map.shape.ty v.map.layout with
  | dense => rw [(hc.2 hL).2]; rfl
  | strided => rfl

/-- One item of the expression. -/
theorem post_item (hv : v.map.WF) {m : Mapping} (hm : m.innerStride = v.map.strides.getD p 0) {i : Nat}
    (hi : i < v.dims.getD p 0) (w : σ) (r : ρ) : M.Post (a.item v m i) ((w, r), (0 : Int))
    (fun x t => SubView v p i x ∧ t.1.2 = r ∧ t.2 = 0) fun t => t.1.2 = r := by
  unfold item
  refine M.Post.bind (P := fun m' t => v.map.removeDim p (a.remove v.map.shape.ty)
      (a.split v.map.shape.ty v.map.layout) = some m' ∧ t.1.2 = r ∧ t.2 = 0) ?_ ?_
  · exact M.post_up (M.post_up ((post_removeMap h hs w).mono (fun _ _ e => ⟨e, rfl, rfl⟩) fun _ _ => rfl))
  · rintro m' t ⟨em, e1, e2⟩
    have hd : m'.dims = v.dims.eraseIdx p := by
      rw [Mapping.removeDim_eq _ hv] at em
      split at em
      · injection em with em; rw [← em]; exact Mapping.mk_dims ..
      · simp at em
    refine ⟨(View.sub_parts hv em hi _ fun hne => ?_).2, e1, e2⟩
    rw [if_neg (by rw [Mapping.len_eq, hd]; exact hne), hm, Int.zero_add]

/-- Handing out the items from `k` on. -/
theorem post_innerLoop (hv : v.map.WF) {m : Mapping} (hm : m.innerStride = v.map.strides.getD p 0)
    {f : View → M (σ × ρ) Unit} (I : Nat → ρ → Prop)
    (hf : ∀ i x w r, i < v.dims.getD p 0 → SubView v p i x → I i r →
      M.Post (f x) (w, r) (fun _ t => I (i + 1) t.2) fun t => ∃ n, n ≤ v.dims.getD p 0 ∧ I n t.2) :
    ∀ (n k : Nat) (w : σ) (r : ρ), k + n = v.dims.getD p 0 → I k r →
    M.Post ((a.expr v m).innerLoop (fun _ x => M.up (f x)) (List.range' k n) ()) ((w, r), (0 : Int))
      (fun _ t => I (v.dims.getD p 0) t.1.2 ∧ t.2 = 0) fun t => ∃ n, n ≤ v.dims.getD p 0 ∧ I n t.1.2 := by
  intro n
  induction n with
  | zero =>
    intro k w r hk hI
    rw [show k = v.dims.getD p 0 by omega] at hI
    exact ⟨hI, rfl⟩
  | succ n ih =>
    intro k w r hk hI
    rw [List.range'_succ]
    refine M.Post.bind ((post_item h hs hv hm (i := k) (by omega) w r).mono (fun _ _ q => q) ?_) ?_
    · intro t e
      exact ⟨k, by omega, e ▸ hI⟩
    · rintro x ⟨⟨w, r'⟩, c⟩ ⟨hx, e1, e2⟩
      have e1 : r' = r := e1
      have e2 : c = 0 := e2
      subst e1 e2
      refine M.Post.bind (P := fun _ t => I (k + 1) t.1.2 ∧ t.2 = 0)
        (M.post_up ((hf k x w r' (by omega) hx hI).mono (fun _ _ q => ⟨q, rfl⟩) fun _ q => q)) ?_
      rintro _ ⟨⟨w, r⟩, c⟩ ⟨e1, e2⟩
      have e2 : c = 0 := e2
      subst e2
      exact ih (k + 1) w r (by omega) e1

theorem post_forEach (hv : v.map.WF) {f : View → M (σ × ρ) Unit} (I : Nat → ρ → Prop)
    (hf : ∀ i x w r, i < v.dims.getD p 0 → SubView v p i x → I i r →
      M.Post (f x) (w, r) (fun _ t => I (i + 1) t.2) fun t => ∃ n, n ≤ v.dims.getD p 0 ∧ I n t.2)
    (w : σ) (r : ρ) (h0 : I 0 r) :
    M.Post (a.forEach v f) (w, r) (fun _ t => p < v.dims.length ∧ I (v.dims.getD p 0) t.2)
      fun t => ∃ n, n ≤ v.dims.getD p 0 ∧ I n t.2 := by
  refine M.Post.bind (P := fun m t => (p < v.dims.length ∧
      m.shape = ⟨.static [a.dim v.map.shape.ty], [v.dims.getD p 0]⟩ ∧ m.innerStride = v.map.strides.getD p 0) ∧
      t.2 = r) (M.post_up ((post_getMap h hs hv w).mono (fun _ _ q => ⟨q, rfl⟩)
        fun _ _ => ⟨0, by omega, h0⟩)) ?_
  rintro m ⟨w, r'⟩ ⟨⟨hlt, hsh, hm⟩, e⟩
  have e : r' = r := e
  subst e
  refine M.Post.bind (P := fun _ t => I (v.dims.getD p 0) t.2) (M.post_scope ?_) fun _ _ q => ⟨hlt, q⟩
  have hr : ∀ t, (a.expr (ρ := ρ) v m).rank t = .ok 1 t := fun t => by
    show M.bind (M.pure m.shape) _ t = _
    rw [hsh]; rfl
  have ho : ∀ t, (a.expr (ρ := ρ) v m).outerRank t = .ok 0 t := fun t => by
    unfold UserExpr.outerRank
    exact (ran (hr t)).trans rfl
  have hit : (a.expr (ρ := ρ) v m).iter ((w, r'), 0) = .ok ⟨0, v.dims.getD p 0, [0], [0]⟩ ((w, r'), 0) := by
    unfold UserExpr.iter
    refine (ran (ho _)).trans ?_
    show M.bind (M.pure m.shape) _ _ = _
    rw [hsh]
    refine (ran (show M.pure _ _ = .ok _ _ from rfl)).trans ?_
    refine (ran (show M.lift (check (0 ≤ 1)) _ = .ok () _ from rfl)).trans ?_
    show Res.ok _ _ = _
    congr 1
    simp [expr, UserExpr.defaultDims]
  show M.Post (M.bind (a.expr v m).iter _) _ _ _
  refine M.post_bind ?_
  unfold M.Post
  rw [hit]
  show M.Post ((a.expr v m).foldLoop _ 1 ⟨0, v.dims.getD p 0, [0], [0]⟩ ()) ((w, r'), 0) _ _
  refine M.Post.bind (post_innerLoop h hs hv hm I hf (v.dims.getD p 0) 0 w r' (by omega) h0) ?_
  rintro _ t ⟨hI, -⟩
  have hst : (a.expr (ρ := ρ) v m).stepOuter [0] [0] t = .ok (false, [0]) (t.1, 0) := by
    unfold UserExpr.stepOuter
    refine (ran (ho _)).trans ((ran (hr _)).trans ?_)
    rw [if_pos (by decide)]
    refine (ran (hr _)).trans ?_
    rfl
  refine M.post_bind ?_
  unfold M.Post
  dsimp only
  rw [hst]
  exact hI

end

theorem lift_bind {α β : Type} (o : Option α) (f : α → Option β) :
    (M.lift (o >>= f) : M σ β) = M.bind (M.lift o) fun x => M.lift (f x) := by
  cases o <;> rfl

/-- The axes of the crate are axes in this sense. -/
theorem axisAt_ofAxis (a : Axis) (v : View) (i : Nat) : (ofAxis (σ := σ) a).axisAt v i = M.lift (v.axisAt a i) := by
  have hr : (ofAxis (σ := σ) a).removeMap v.map = M.lift (a.removeMap v.map) := by
    unfold Axis.removeMap; rw [lift_bind]; rfl
  unfold axisAt View.axisAt
  rw [hr]
  cases hp : a.index v.map.rank with
  | none =>
    show M.bind (M.lift (a.index v.map.rank)) _ = _
    rw [hp]; rfl
  | some p =>
    have hi : (ofAxis (σ := σ) a).index v.map.rank = M.lift (some p) := by rw [← hp]; rfl
    rw [hi]
    show M.bind (M.lift (v.map.dim p)) _ = M.lift (v.map.dim p >>= _)
    rw [lift_bind]; congr 1; funext n
    rw [lift_bind]; congr 1; funext _
    rw [lift_bind]; congr 1; funext m
    show M.bind (M.lift (v.map.stride p)) _ = M.lift (v.map.stride p >>= _)
    rw [lift_bind]; rfl

theorem splitAxisAt_ofAxis (a : Axis) (v : View) (mid : Nat) :
    (ofAxis (σ := σ) a).splitAxisAt v mid = M.lift (v.splitAxisAt a mid) := by
  have hr : ∀ n, (ofAxis (σ := σ) a).resizeMap v.map n = M.lift (a.resizeMap v.map n) := fun n => by
    unfold Axis.resizeMap; rw [lift_bind]; rfl
  unfold splitAxisAt View.splitAxisAt
  rw [lift_bind]
  show M.bind (M.lift (a.index v.map.rank)) _ = _
  congr 1; funext p
  rw [lift_bind]
  show M.bind _ _ = _
  congr 1; funext n
  rw [lift_bind]
  show M.bind _ _ = _
  congr 1; funext _
  rw [hr, hr, lift_bind]
  show M.bind _ _ = _
  congr 1; funext m1
  rw [lift_bind]
  show M.bind _ _ = _
  congr 1; funext m2
  rw [lift_bind]
  rfl

end UserAxis
end Model
