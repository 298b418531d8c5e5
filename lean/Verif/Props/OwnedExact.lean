import Verif.Lemmas.ResumeEnd
import Verif.Props.Resume
import Verif.Props.Owned
import Verif.Props.CopyExact

/-!
C73 and C75, exactly, for empty expressions that yield items (B2): whenever elements are moved out of an owned
array, then iteration reads beyond its end.
-/

namespace Props
open Model Spec
open Model.Expr Model.Iter

variable {σ α β T : Type}

/-- The first item of an empty expression with owned arrays. -/
theorem rawNth_used {e : Expr σ α} (hb : Built e) (ht : TameClosures e) (hq : Silent e) (hm : e.owned ≠ [])
    (h0 : size e.dims = 0) (hp : size (e.dims.drop e.outerRank) ≠ 0) (s : σ) : rawNth e 0 s = .ub := by
  have hw := wf_of_built hb
  have hnb := resumes_notBad (resumes_of_silent hq)
  have hg := congrFun (get_rawAt (n := 0) hw hnb (q := 0) (c := 0) (rows_pos e) (Nat.pos_of_ne_zero hp)) s
  rw [← getE_erase, getE_used (later_adv hw hnb (Nat.le_refl _) (by
        rw [length_unrank, length_lims (outerRank_le e)]; exact outerRank_le e))
      (tame_adv ht) (silent_adv hq) (by rw [owned_adv_map]; simpa using hm) (by
        intro p hpm
        rw [owned_adv_map] at hpm
        obtain ⟨p', hp', rfl⟩ := List.mem_map.1 hpm
        have := (owned_size hw.wfs).1 p' hp'
        exact Nat.le_of_eq (by rw [this, h0]))] at hg
  rw [Nat.zero_mul, Nat.add_zero] at hg
  unfold rawNth
  simp only [Out.erase, M.bind] at hg
  cases hx : rawItem (e.dims.length - e.outerRank) e 0 (unrank (visited e) 0) s with
  | ub => rfl
  | ok x t => rw [hx] at hg; simp [M.pure] at hg
  | panic t => rw [hx] at hg; simp at hg
  | abort => rw [hx] at hg; simp at hg

theorem result_ub {S : Type 1} {r : Out σ α S} (h : r.result = .ub) : r = .ub := by
  cases r <;> simp_all [Out.result]

/-! ### C73 -/

/-- C73, exactly: if an expression with an owned array is empty, but its inner dimensions are not, and no function
panics, then the first call of `next` and `fold` are undefined behaviour, in all cases. -/
theorem C73_phantom_exact (e : Expr σ α) (hb : Built e) (ht : TameClosures e) (hq : Silent e) (hm : e.owned ≠ [])
    (h0 : size e.dims = 0) (hp : size (e.dims.drop e.outerRank) ≠ 0) (s : σ) :
    (Iter.new e).nextE s = .ub ∧
    ∀ {τ : Type} (init : τ) (f : τ → α → M σ τ), (Iter.new e).foldE init f s = .ub := by
  have hw := wf_of_built hb
  have hlen : ∀ p ∈ e.owned, p.2 ≤ p.1 := fun p hpm => by
    have := (owned_size hw.wfs).1 p hpm
    omega
  refine ⟨?_, fun init f => result_ub ?_⟩
  · have hu := getE_used hw.wfs ht hq hm hlen 0 s
    unfold nextE
    have hne : ¬ (Iter.new e).innerIndex = (Iter.new e).innerLimit := by
      rw [innerLimit_new]
      exact fun h => hp h.symm
    rw [if_neg hne]
    unfold takeE
    rw [show (Iter.new e).innerIndex = 0 from rfl, show (Iter.new e).expr = e from rfl, hu]
    rfl
  · rw [(C73_model (τ := _) e (Iter.new e) s).2.2]
    change e.fold init f s = _
    rw [fold_raw hw (fun _ => Nat.pos_of_ne_zero hp)]
    have hpos : 0 < size (visited e) := by
      rw [size_visited]; exact Nat.mul_pos (rows_pos e) (Nat.pos_of_ne_zero hp)
    obtain ⟨n, hn⟩ : ∃ n, size (visited e) = n + 1 := ⟨_, (Nat.succ_pred_eq_of_pos hpos).symm⟩
    rw [hn, List.range_succ_eq_map, List.foldlM_cons]
    simp only [visitRaw, M.bind_eq, M.bind, rawNth_used hb ht hq hm h0 hp s]

/-- An empty strided view combined with an empty owned array, as in `C73_violated`. It meets the conditions. -/
def emptyPair : Expr Unit (Int × Nat) := .zip (.view true gap) emptied ⟨.static [.dyn, .dyn], [0, 2]⟩

example : Built emptyPair ∧ TameClosures emptyPair ∧ Silent emptyPair ∧ emptyPair.owned ≠ [] ∧
    size emptyPair.dims = 0 ∧ size (emptyPair.dims.drop emptyPair.outerRank) ≠ 0 :=
  ⟨.zip (a := .view true gap) (b := emptied) (.view (by decide)) (.intoExpr (by decide) rfl) rfl,
    ⟨trivial, trivial⟩, ⟨trivial, trivial⟩, by decide, by decide, by decide⟩

/-! ### C75 -/

/-- C75, exactly: if an expression with an owned array is empty, but its inner dimensions are not, and no function
panics, then evaluating it is undefined behaviour. -/
theorem C75_phantom_exact (e : Expr σ T) (hb : Built e) (ht : TameClosures e) (hq : Silent e) (hm : e.owned ≠ [])
    (h0 : size e.dims = 0) (hp : size (e.dims.drop e.outerRank) ≠ 0) (s : σ) (o : Own T) :
    tensorFromExprE e (s, o) = .ub ∧ ∀ ty : ShapeTy, ty.Conforms e.dims → arrayFromExprE ty e (s, o) = .ub := by
  have hu := rawNth_used hb ht hq hm h0 hp s
  have hc := C75_model e e (fun x => M.pure x) (fun x _ => M.pure x) (⟨0, .dense ⟨.dynRank, []⟩⟩ : View)
  refine ⟨result_ub ?_, fun ty hty => result_ub ?_⟩
  · rw [(hc e.shape.ty).2.2.1]
    exact ((C31_phantom_exact e hb h0 hp e.shape.ty (shape_wf (wf_of_built hb)) s o).1 (.inr hu)).1
  · rw [(hc ty).2.2.2.1]
    exact ((C31_phantom_exact e hb h0 hp ty hty s o).1 (.inr hu)).2

/-- C75_phantom_exact: the expression above. -/
example : tensorFromExprE emptyPair ((), ⟨[], 0, ⟨.static [.dyn, .dyn], [0, 0]⟩, [], 100⟩) = .ub ∧
    (ShapeTy.static [.const 0, .const 2]).Conforms emptyPair.dims := ⟨rfl, by decide⟩

/-- The same for an operand `e` of assignment to a view `v`, compound assignment, and `zip_with`, if the combined
expression has phantom rows. -/
theorem C75_operand_exact (e : Expr σ β) (hb : Built e) (ht : TameClosures e) (hq : Silent e) (hm : e.owned ≠ []) :
    (∀ (v : View) (z : Expr σ (Int × β)) (c : β → M σ T) (g : T → β → M σ T) (s : σ) (m : List T), v.map.WF →
      zipNew (view false v) e = some z → size z.dims = 0 → size (z.dims.drop z.outerRank) ≠ 0 →
      assignE v e c (s, m) = .ub ∧ opAssignE v e g (s, m) = .ub) ∧
    ∀ (o : Own T) (z : Expr σ (Int × β)) (f : T → β → M σ T) (s : σ), o.shape.WF →
      zipNew (view false (whole o.shape)) e = some z → size z.dims = 0 → size (z.dims.drop z.outerRank) ≠ 0 →
      zipWithE e f (s, o) = .ub := by
  have hzip : ∀ (v : View) (z : Expr σ (Int × β)), v.map.WF → zipNew (view false v) e = some z →
      size z.dims = 0 → size (z.dims.drop z.outerRank) ≠ 0 → Built z ∧ ∀ s, rawNth z 0 s = .ub := by
    intro v z hv hz h0 hp
    have hbz : Built z := .zip (.view hv) hb hz
    refine ⟨hbz, fun s => ?_⟩
    have hz' := hz
    simp only [zipNew, Option.map_eq_some_iff] at hz'
    obtain ⟨sh, -, rfl⟩ := hz'
    exact rawNth_used hbz ⟨trivial, ht⟩ ⟨trivial, hq⟩ (by simpa [owned] using hm) h0 hp s
  refine ⟨fun v z c g s m hv hz h0 hp => ?_, fun o z f s ho hz h0 hp => result_ub ?_⟩
  · obtain ⟨hbz, hu⟩ := hzip v z hv hz h0 hp
    have hup := up_zipNew (ρ := List T) (view false v : Expr σ Int) e
    rw [hz] at hup
    have hc := C75_model (T := T) e (fromElem ⟨.dynRank, []⟩ M.panic) c g v .dynRank
    refine ⟨result_ub ?_, result_ub ?_⟩
    · rw [hc.2.2.2.2.2.2.1]
      unfold assign
      rw [show zipNew (view false v) e.up = some z.up from hup, M.lift_some, M.pure_bind]
      exact (forEach_first hbz hp _ s m).2.1 (hu s)
    · rw [hc.2.2.2.2.2.2.2]
      unfold opAssign
      rw [show zipNew (view false v) e.up = some z.up from hup, M.lift_some, M.pure_bind]
      exact (forEach_first hbz hp _ s m).2.1 (hu s)
  · obtain ⟨hbz, hu⟩ := hzip (whole o.shape) z (Mapping.wf_dense.2 ho) hz h0 hp
    have hc := C75_model (T := T) e (fromElem ⟨.dynRank, []⟩ M.panic) (fun _ => M.panic) f (whole o.shape) .dynRank
    rw [hc.2.2.2.2.2.1]
    have h1 := up_zipNew (ρ := Own T) (view false (whole o.shape) : Expr σ Int) e
    rw [hz] at h1
    have h2 := up_zipNew (ρ := Nat) (view false (whole o.shape) : Expr (σ × Own T) Int) e.up
    rw [show zipNew (view false (whole o.shape)) e.up = some z.up from h1] at h2
    have hfe := (forEach_first (e := z.up) (ρ := Nat) (up_built hbz) (by
      simp only [Expr.dims, up_shape, up_outerRank]; exact hp) (zipStep f) (s, o) 0).2.1 (by
        rw [up_rawNth]; simp [M.up, hu s])
    unfold zipWith
    have h3 : zipNew (view false ⟨0, .dense o.shape⟩) e.up.up = some z.up.up := h2
    simp only [M.bind, own, h3, M.lift, M.pure, M.scope, M.onPanic, hfe]

/-- C75_operand_exact: assignment to an empty strided view, and `zip_with` for an empty tensor. -/
example : Silent emptied ∧ emptied.owned ≠ [] ∧
    (∃ z, zipNew (view false gap) emptied = some z ∧ size z.dims = 0 ∧ size (z.dims.drop z.outerRank) ≠ 0) ∧
    ∃ z, zipNew (view false (whole ⟨.static [.dyn, .dyn], [0, 2]⟩)) emptyPair = some z ∧ size z.dims = 0 ∧
      size (z.dims.drop z.outerRank) ≠ 0 :=
  ⟨trivial, by decide, ⟨_, rfl, by decide, by decide⟩, ⟨_, rfl, by decide, by decide⟩⟩

end Props
