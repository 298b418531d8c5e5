import Verif.Lemmas.MachineSimFold

/-! Iteration with 64-bit integers over expressions without elements. -/

namespace Model
open Spec
namespace Machine
variable {σ α : Type}
open Expr (Later Wfs)

theorem later_resetDim {checks : Bool} {e e' : Expr σ α} {i n : Nat} (h : resetDim checks e i n = some e') :
    Later e e' := by
  induction e generalizing i with
  | view r v =>
    obtain ⟨w, hw, rfl⟩ := Option.map_eq_some_iff.1 h
    simp only [viewReset, Option.bind_eq_bind, Option.bind_eq_some_iff] at hw
    obtain ⟨s, -, t, -, c, -, hc⟩ := hw
    obtain rfl := Option.some.inj hc
    exact ⟨rfl, rfl, rfl, id, Iff.rfl, id⟩
  | axis r v a m off => cases h; exact ⟨rfl, rfl, rfl, id, Iff.rfl, id⟩
  | lanes r v a m off =>
    obtain ⟨o, -, rfl⟩ := Option.map_eq_some_iff.1 h
    exact ⟨rfl, rfl, rfl, id, Iff.rfl, id⟩
  | fill f => cases h; exact .refl _
  | fromElem s f => cases h; exact .refl _
  | fromFn s idx f =>
    simp only [resetDim] at h
    split at h
    · cases h; exact .fromFn (List.length_set ..)
    · simp at h
  | intoExpr s buf idx => cases h; exact .refl _
  | map e f ih =>
    obtain ⟨e₁, h1, rfl⟩ := Option.map_eq_some_iff.1 h
    exact (ih h1).map
  | enumerate e k ih =>
    obtain ⟨e₁, h1, rfl⟩ := Option.map_eq_some_iff.1 h
    exact (ih h1).enumerate
  | zip a b s iha ihb =>
    obtain ⟨a₁, h1, h⟩ := Option.bind_eq_some_iff.1 h
    obtain ⟨b₁, h2, rfl⟩ := Option.map_eq_some_iff.1 h
    refine Later.zip ?_ ?_
    · split at h1
      · exact iha h1
      · cases h1; exact .refl _
    · split at h2
      · exact ihb h2
      · cases h2; exact .refl _

theorem later_stepDim {checks : Bool} {e e' : Expr σ α} {i : Nat} (h : stepDim checks e i = some e') :
    Later e e' := by
  induction e generalizing i with
  | view r v =>
    obtain ⟨s, -, rfl⟩ := Option.map_eq_some_iff.1 h
    exact ⟨rfl, rfl, rfl, id, Iff.rfl, id⟩
  | axis r v a m off =>
    obtain ⟨o, -, rfl⟩ := Option.map_eq_some_iff.1 h
    exact ⟨rfl, rfl, rfl, id, Iff.rfl, id⟩
  | lanes r v a m off =>
    obtain ⟨s, -, h⟩ := Option.bind_eq_some_iff.1 h
    obtain ⟨o, -, rfl⟩ := Option.map_eq_some_iff.1 h
    exact ⟨rfl, rfl, rfl, id, Iff.rfl, id⟩
  | fill f => cases h; exact .refl _
  | fromElem s f => cases h; exact .refl _
  | fromFn s idx f =>
    simp only [stepDim, fromFnStep] at h
    split at h
    · obtain ⟨k, -, h⟩ := Option.bind_eq_some_iff.1 h
      obtain ⟨k', -, rfl⟩ := Option.map_eq_some_iff.1 h
      exact .fromFn (List.length_set ..)
    · cases h; exact .refl _
  | intoExpr s buf idx => cases h; exact .refl _
  | map e f ih =>
    obtain ⟨e₁, h1, rfl⟩ := Option.map_eq_some_iff.1 h
    exact (ih h1).map
  | enumerate e k ih =>
    obtain ⟨e₁, h1, rfl⟩ := Option.map_eq_some_iff.1 h
    exact (ih h1).enumerate
  | zip a b s iha ihb =>
    obtain ⟨a₁, h1, h⟩ := Option.bind_eq_some_iff.1 h
    obtain ⟨b₁, h2, rfl⟩ := Option.map_eq_some_iff.1 h
    refine Later.zip ?_ ?_
    · split at h1
      · exact iha h1
      · cases h1; exact .refl _
    · split at h2
      · exact ihb h2
      · cases h2; exact .refl _

theorem resetDim_none {checks : Bool} {e : Expr σ α} (hw : e.Wfs) (hb : ¬ BadFn e) {i : Nat} (hi : i < e.dims.length)
    {n : Nat} (h : resetDim checks e i n = none) : checks = true := by
  induction e generalizing i with
  | view r v =>
    rcases bind_none (Option.map_eq_none_iff.1 h) with h | ⟨s, -, h⟩
    · exact stride_none hw hi h
    · rcases bind_none h with h | ⟨t, -, h⟩
      · exact retI_none h
      · rcases bind_none h with h | ⟨t, -, h⟩
        · exact retI_none h
        · cases h
  | axis r v a m off => cases h
  | lanes r v a m off =>
    obtain ⟨p, -, -, -, -, hm⟩ := Expr.lanes_dims hw.1 hw.2
    rcases bind_none (Option.map_eq_none_iff.1 h) with h | ⟨s, -, h⟩
    · exact stride_none hm hi h
    · rcases bind_none h with h | ⟨t, -, h⟩
      · exact retI_none h
      · exact retI_none h
  | fill f => cases h
  | fromElem s f => cases h
  | fromFn s idx f =>
    have hi' : i < s.dims.length := hi
    have : i < idx.length := by
      rw [Expr.fromFn_length hw hb (fun h => by rw [h] at hi'; simp at hi')]
      exact hi'
    simp only [resetDim, if_pos this] at h
    cases h
  | intoExpr s buf idx => cases h
  | map e f ih => exact ih hw hb hi (Option.map_eq_none_iff.1 h)
  | enumerate e k ih => exact ih hw hb hi (Option.map_eq_none_iff.1 h)
  | zip a b s iha ihb =>
    obtain ⟨wa, wb, hz⟩ := hw
    replace hi : i < s.dims.length := hi
    rcases bind_none h with h | ⟨a', -, h⟩
    · split at h
      · exact iha wa (fun h => hb (Or.inl h)) (show a.rank - (s.dims.length - i) < a.rank by omega) h
      · cases h
    · replace h := Option.map_eq_none_iff.1 h
      split at h
      · exact ihb wb (fun h => hb (Or.inr h)) (show b.rank - (s.dims.length - i) < b.rank by omega) h
      · cases h

theorem stepDim_none {checks : Bool} {e : Expr σ α} (hw : e.Wfs) (hb : ¬ BadFn e) {i : Nat} (hi : i < e.dims.length)
    (h : stepDim checks e i = none) : checks = true := by
  induction e generalizing i with
  | view r v => exact stride_none hw hi (Option.map_eq_none_iff.1 h)
  | axis r v a m off => exact retI_none (Option.map_eq_none_iff.1 h)
  | lanes r v a m off =>
    obtain ⟨p, -, -, -, -, hm⟩ := Expr.lanes_dims hw.1 hw.2
    rcases bind_none h with h | ⟨s, -, h⟩
    · exact stride_none hm hi h
    · exact retI_none (Option.map_eq_none_iff.1 h)
  | fill f => cases h
  | fromElem s f => cases h
  | fromFn s idx f =>
    have hi' : i < s.dims.length := hi
    have : i < idx.length := by
      rw [Expr.fromFn_length hw hb (fun h => by rw [h] at hi'; simp at hi')]
      exact hi'
    simp only [stepDim, fromFnStep] at h
    split at h
    · rcases bind_none h with h | ⟨k, -, h⟩
      · rw [List.getElem?_eq_getElem this] at h; cases h
      · exact retU_none (Option.map_eq_none_iff.1 h)
    · cases h
  | intoExpr s buf idx => cases h
  | map e f ih => exact ih hw hb hi (Option.map_eq_none_iff.1 h)
  | enumerate e k ih => exact ih hw hb hi (Option.map_eq_none_iff.1 h)
  | zip a b s iha ihb =>
    obtain ⟨wa, wb, hz⟩ := hw
    replace hi : i < s.dims.length := hi
    rcases bind_none h with h | ⟨a', -, h⟩
    · split at h
      · exact iha wa (fun h => hb (Or.inl h)) (show a.rank - (s.dims.length - i) < a.rank by omega) h
      · cases h
    · replace h := Option.map_eq_none_iff.1 h
      split at h
      · exact ihb wb (fun h => hb (Or.inr h)) (show b.rank - (s.dims.length - i) < b.rank by omega) h
      · cases h

theorem resetDim_bad {checks : Bool} {e : Expr σ α} (hw : e.Wfs) (hb : BadFn e) (n : Nat) :
    resetDim checks e (e.dims.length - 1) n = none := by
  induction e with
  | fromFn s idx f =>
    obtain ⟨-, hl⟩ := hw
    obtain ⟨h1, h2⟩ := hb
    rw [h1] at hl
    replace hl : idx.length = 0 := hl
    simp only [resetDim]
    rw [if_neg (by omega)]
  | map e f ih => exact Option.map_eq_none_iff.2 (ih hw hb)
  | enumerate e c ih => exact Option.map_eq_none_iff.2 (ih hw hb)
  | zip a b s iha ihb =>
    obtain ⟨wa, wb, hz⟩ := hw
    obtain ⟨-, sa, sb, -, -⟩ := Expr.zipShape_spec hz
    have la : a.dims.length ≤ s.dims.length := by
      have := congrArg List.length sa; rw [List.length_drop] at this; omega
    have lb : b.dims.length ≤ s.dims.length := by
      have := congrArg List.length sb; rw [List.length_drop] at this; omega
    have hd : (Expr.zip a b s : Expr σ _).dims = s.dims := rfl
    rw [hd]
    simp only [resetDim]
    rcases hb with hb | hb
    · have h1 := (Expr.resetDimE_bad wa hb n).1
      rw [show s.dims.length - (s.dims.length - 1) = 1 by omega, if_pos (show 1 ≤ a.rank from h1),
        show a.rank - 1 = a.dims.length - 1 from rfl, iha wa hb]
      rfl
    · have h1 := (Expr.resetDimE_bad wb hb n).1
      rw [show s.dims.length - (s.dims.length - 1) = 1 by omega]
      generalize (if 1 ≤ a.rank then resetDim checks a (a.rank - 1) n else some a) = p
      rw [if_pos (show 1 ≤ b.rank from h1), show b.rank - 1 = b.dims.length - 1 from rfl, ihb wb hb]
      cases p <;> rfl
  | _ => exact hb.elim

section
variable {checks : Bool}
open Iter

theorem stepLoop_idx {limit : List Nat} {n : Nat} {e : Expr σ α} {oi : List Nat} {r}
    (ho : ∀ x ∈ oi, x + 1 ≤ usizeMax) (h : stepLoop checks limit n e oi = some r) :
    stepIdx limit n oi = (some r.1, r.2.2) ∧ Later e r.2.1 := by
  induction n generalizing e oi with
  | zero =>
    simp only [stepLoop, Option.some.injEq] at h
    subst h
    exact ⟨rfl, .refl _⟩
  | succ i ih =>
    unfold stepLoop at h
    unfold stepIdx
    simp only [Option.bind_eq_some_iff] at h
    obtain ⟨x, hx, x', hx', l, hl, h⟩ := h
    rw [retU_fit (ho x (List.mem_of_getElem? hx))] at hx'
    obtain rfl := Option.some.inj hx'
    simp only [hx, hl]
    split at h
    · simp only [Option.map_eq_some_iff] at h
      obtain ⟨e', he, rfl⟩ := h
      rw [if_pos (by assumption)]
      exact ⟨rfl, later_stepDim he⟩
    · simp only [Option.bind_eq_some_iff] at h
      obtain ⟨e', he, h⟩ := h
      rw [if_neg (by assumption)]
      have := ih (e := e') (oi := oi.set i 0) (fun y hy => by
        rcases List.mem_or_eq_of_mem_set hy with hy | rfl
        · exact ho y hy
        · unfold usizeMax; omega) h
      exact ⟨this.1, (later_resetDim he).trans this.2⟩

theorem stepLoop_none {limit : List Nat} {n : Nat} {e : Expr σ α} {oi : List Nat} (hw : e.Wfs) (hb : ¬ BadFn e)
    (hn : n ≤ e.dims.length) (ho : ∀ x ∈ oi, x + 1 ≤ usizeMax) (hi : (stepIdx limit n oi).1 ≠ none)
    (h : stepLoop checks limit n e oi = none) : checks = true := by
  induction n generalizing e oi with
  | zero => cases h
  | succ i ih =>
    unfold stepLoop at h
    unfold stepIdx at hi
    rcases Option.eq_none_or_eq_some oi[i]? with h1 | ⟨x, h1⟩
    · simp [h1] at hi
    rcases Option.eq_none_or_eq_some limit[i]? with h2 | ⟨l, h2⟩
    · simp [h2] at hi
    simp only [h1, h2, Option.bind_some, retU_fit (ho x (List.mem_of_getElem? h1))] at h hi
    split at h
    · exact stepDim_none hw hb (by omega) (Option.map_eq_none_iff.1 h)
    · rename_i hlt
      rw [if_neg hlt] at hi
      rcases bind_none h with h | ⟨e', he, h⟩
      · exact resetDim_none hw hb (by omega) h
      · have hl := later_resetDim he
        refine ih (hl.wfs hw) (fun h => hb (hl.bad.1 h)) (by unfold Expr.dims; rw [hl.shape]; exact Nat.le_of_succ_le hn)
          (fun y hy => ?_) hi h
        rcases List.mem_or_eq_of_mem_set hy with hy | rfl
        · exact ho y hy
        · unfold usizeMax; omega

variable {e : Expr σ α} (hw : e.Wf) (hr : Iter.row e = 0) (hu : Usize e.dims)
include hr

theorem outer_lt : e.outerRank < e.dims.length := by
  by_contra h
  unfold Iter.row at hr
  rw [List.drop_eq_nil_of_le (by omega)] at hr
  simp at hr

include hu in
omit hr in
theorem index_usize {q c : Nat} {it : Iter σ α} (h : At e q c it) : ∀ x ∈ it.outerIndex, x + 1 ≤ usizeMax := by
  intro x hx
  rw [h.index] at hx
  unfold rowIndex at hx
  split at hx
  · rw [List.mem_append] at hx
    rcases hx with hx | hx
    · have hv : Valid (lims e.dims e.outerRank) (unrank (lims e.dims e.outerRank) q) := unrank_valid h.hq
      obtain ⟨i, hi, rfl⟩ := List.getElem_of_mem hx
      have hi' : i < (lims e.dims e.outerRank).length := by rw [← hv.length]; exact hi
      have h1 := List.Forall₂.get hv hi hi'
      simp only [List.get_eq_getElem] at h1
      have h2 : (lims e.dims e.outerRank)[i] ≤ usizeMax := by
        unfold lims at hi' ⊢
        rw [List.getElem_map]
        have := hu _ (List.mem_of_mem_take (List.getElem_mem (l := e.dims.take e.outerRank) (n := i) (by simpa using hi')))
        have : 1 ≤ usizeMax := by unfold usizeMax; omega
        omega
      omega
    · rw [List.eq_of_mem_replicate hx]; unfold usizeMax; omega
  · simp at hx

include hw hu

/-- `step_outer` in an expression whose rows are empty. -/
theorem stepOuter_empty {q : Nat} {it it' : Iter σ α} (h : At e q 0 it) (h' : At e q 0 it') :
    SimO checks (fun a b => a.1 = b.1 ∧ a.1 = decide (q + 1 < rows e) ∧
      (q + 1 < rows e → At e (q + 1) 0 a.2 ∧ At e (q + 1) 0 b.2)) (stepOuter checks it') it.stepOuter := by
  have hlt := outer_lt hr
  have hrk : it.expr.rank = e.dims.length := by unfold Expr.rank; rw [h.later.shape]
  have hrk' : it'.expr.rank = e.dims.length := by unfold Expr.rank; rw [h'.later.shape]
  by_cases hb : BadFn e
  · refine Or.inr (Or.inl ⟨?_, ?_⟩)
    · unfold stepOuter
      simp only
      rw [h'.later.outerRank, hrk', if_pos hlt]
      have := resetDim_bad (checks := checks) (h'.later.wfs hw.wfs) (h'.later.bad.2 hb) 0
      rw [show it'.expr.dims.length = e.dims.length from hrk'] at this
      rw [this]
      rfl
    · unfold Iter.stepOuter
      simp only
      rw [h.later.outerRank, hrk, if_pos hlt]
      have := (Expr.resetDimE_bad (h.later.wfs hw.wfs) (h.later.bad.2 hb) 0).2
      rw [show it.expr.dims.length = e.dims.length from hrk] at this
      rw [Expr.resetDimE_eq, this]
      rfl
  · -- the unbounded step
    obtain ⟨h4, h5⟩ := stepOuterE_index hw hb h
    obtain ⟨hl, -, h1, h2, h3⟩ := stepOuterE_later it
    rw [stepOuterE_eq, h4]
    simp only [Option.map_some]
    have hwl := h'.later.wfs hw.wfs
    have hbl : ¬ BadFn it'.expr := fun hb' => hb (h'.later.bad.1 hb')
    have hidx := stepIdx_at hw h'
    refine SimO.total (fun hn => ?_) ?_
    · unfold stepOuter at hn
      simp only at hn
      rw [h'.later.outerRank, hrk', if_pos hlt] at hn
      rcases bind_none hn with hn | ⟨e₁, he, hn⟩
      · exact resetDim_none hwl hbl (show _ < it'.expr.rank by rw [hrk']; omega) hn
      · have hl := later_resetDim he
        exact stepLoop_none (hl.wfs hwl) (fun h => hbl (hl.bad.1 h))
          (by unfold Expr.dims; rw [hl.shape, h'.later.shape]; exact outerRank_le e) (index_usize hu h')
          (by rw [hidx]; simp) (Option.map_eq_none_iff.1 hn)
    · intro a ha
      unfold stepOuter at ha
      simp only at ha
      rw [h'.later.outerRank, hrk', if_pos hlt] at ha
      obtain ⟨e₁, he, ha⟩ := Option.bind_eq_some_iff.1 ha
      obtain ⟨r, hr', rfl⟩ := Option.map_eq_some_iff.1 ha
      obtain ⟨h6, h7⟩ := stepLoop_idx (index_usize hu h') hr'
      rw [hidx] at h6
      simp only [Prod.mk.injEq, Option.some.injEq] at h6
      refine ⟨h6.1.symm, h6.1.symm, fun hq => ⟨?_, ?_⟩⟩
      · rw [if_pos hq] at h6
        exact ⟨h'.later.trans ((later_resetDim he).trans h7), h'.inner, h'.limit, h'.olimit, h6.2.symm, hq, h'.hc⟩
      · rw [if_pos hq] at h5
        exact ⟨h.later.trans hl, h1.trans h.inner, h2.trans h.limit, h3.trans h.olimit, h5, hq, h.hc⟩

theorem foldLoop_empty {τ : Type} (f : τ → α → M σ τ) (acc : τ) : ∀ (fuel q : Nat) (it it' : Iter σ α),
    At e q 0 it → At e q 0 it' →
    SimM checks Eq (foldLoop checks f fuel it' acc) (Iter.foldLoop f fuel it acc) := by
  intro fuel
  induction fuel with
  | zero => intro q it it' _ _; exact SimM.refl _
  | succ fuel ih =>
    intro q it it' h h'
    unfold foldLoop Iter.foldLoop
    have e1 : it.innerLimit - it.innerIndex = 0 := by rw [h.limit, hr]; omega
    have e2 : it'.innerLimit - it'.innerIndex = 0 := by rw [h'.limit, hr]; omega
    rw [e1, e2]
    simp only [List.range'_zero, innerLoop, Iter.innerLoop, M.pure_bind]
    refine SimM.bind (SimM.lift (stepOuter_empty hw hr hu h h')) ?_
    rintro a b ⟨h1, h2, h3⟩
    rw [← h1, h2]
    by_cases hq : q + 1 < rows e
    · simp only [hq, decide_true, if_true]
      obtain ⟨h4, h5⟩ := h3 hq
      exact ih (q + 1) _ _ ⟨h5.later, rfl, h5.limit, h5.olimit, h5.index, hq, Nat.zero_le _⟩
        ⟨h4.later, rfl, h4.limit, h4.olimit, h4.index, hq, Nat.zero_le _⟩
    · simp only [hq, decide_false]
      exact SimM.refl _

theorem fold_empty {τ : Type} (f : τ → α → M σ τ) (acc : τ) {q : Nat} {it it' : Iter σ α}
    (h : At e q 0 it) (h' : At e q 0 it') : SimM checks Eq (fold checks it' acc f) (it.fold acc f) := by
  unfold fold Iter.fold
  rw [outerCount_at h, outerCount_at h']
  exact foldLoop_empty hw hr hu f acc _ q it it' h h'

omit hw hu in
theorem iterNew_empty : SimO checks (fun a b => At e 0 0 a ∧ b = Iter.new e) (iterNew checks e) (some (Iter.new e)) := by
  refine SimO.total (fun hn => product_none (Option.map_eq_none_iff.1 hn)) ?_
  intro a ha
  obtain ⟨n, hn, rfl⟩ := Option.map_eq_some_iff.1 ha
  obtain rfl := product_zero hr hn
  refine ⟨?_, rfl⟩
  have := at_new e
  exact ⟨.refl _, rfl, hr.symm, rfl, this.index, this.hq, Nat.zero_le _⟩

theorem next_empty (h1 : rows e = 1) {it it' : Iter σ α} (h : At e 0 0 it) (h' : At e 0 0 it') :
    SimM checks (fun a b => a.1 = none ∧ b.1 = none) (next checks it') it.next := by
  unfold next Iter.next
  rw [if_pos (by rw [h'.inner, h'.limit, hr]), if_pos (by rw [h.inner, h.limit, hr])]
  refine SimM.bind (SimM.lift (stepOuter_empty hw hr hu h h')) ?_
  rintro a b ⟨h2, h3, -⟩
  rw [← h2, h3, h1]
  exact SimM.pure ⟨rfl, rfl⟩

end
end Machine
end Model
