import Verif.Lemmas.Pointer

/-! Exactly which pointers are formed while iterating. -/

namespace Model
open Spec

namespace Iter
variable {σ α : Type}
open Expr

theorem occurs_rows {e : Expr σ α} (hw : e.Wf) (hb : ¬ BadFn e) (hr : 0 < row e) {it : Iter σ α} (h : Occurs e it) :
    ∃ q c, q < rows e ∧ c ≤ row e ∧ it = iterAt e q c (q * row e + c) := by
  have hstep : ∀ q c n it', q < rows e → c ≤ row e →
      (iterAt e q c n).innerIndex = (iterAt e q c n).innerLimit →
      (iterAt e q c n).stepOuter = some (true, it') →
      q + 1 < rows e ∧ it' = { iterAt e (q + 1) 0 n with innerIndex := c } := by
    intro q c n it' hq hc he hs
    have hcr : c = row e := he
    have := stepOuter_spec hw (q := q) (c := c) (n := n) (k := c) hq (by
      intro h _; left; rw [hcr]; unfold row; rw [h]; simp)
    rw [show ({ iterAt e q c n with innerIndex := c } : Iter σ α) = iterAt e q c n from rfl, hs] at this
    by_cases hl : q + 1 < size (lims e.dims e.outerRank)
    · rw [if_pos hl] at this
      simp only [Option.some.injEq, Prod.mk.injEq, true_and] at this
      exact ⟨hl, this⟩
    · rw [if_neg hl] at this; simp at this
  induction h with
  | new =>
    refine ⟨0, 0, rows_pos e, Nat.zero_le _, ?_⟩
    rw [Nat.zero_mul]
    exact new_eq_of (adv_init_raw hw hb (outerRank_le e) (le_refl _))
  | @get it x e' s t ho hlt hg ih =>
    obtain ⟨q, c, hq, hc, rfl⟩ := ih
    have hc' : c < row e := lt_of_le_of_ne hc hlt
    change (adv _ _ c _ e).get c s = _ at hg
    rw [get_rawAt hw hb hq hc'] at hg
    refine ⟨q, c + 1, hq, hc', ?_⟩
    unfold M.bind at hg
    split at hg
    · simp only [M.pure, Res.ok.injEq, Prod.mk.injEq] at hg
      obtain ⟨⟨-, rfl⟩, -⟩ := hg
      rfl
    all_goals simp at hg
  | @step it it' ho he hs ih =>
    obtain ⟨q, c, hq, hc, rfl⟩ := ih
    obtain ⟨hq', rfl⟩ := hstep q c _ it' hq hc he hs
    have hcr : c = row e := he
    refine ⟨q + 1, 0, hq', Nat.zero_le _, ?_⟩
    rw [hcr, Nat.add_mul, Nat.one_mul, Nat.add_zero]
    rfl
  | @stepGet it it' x e' s t ho he hs hg ih =>
    obtain ⟨q, c, hq, hc, rfl⟩ := ih
    obtain ⟨hq', rfl⟩ := hstep q c _ it' hq hc he hs
    have hcr : c = row e := he
    change (adv _ _ 0 _ e).get 0 s = _ at hg
    rw [get_rawAt hw hb hq' hr] at hg
    refine ⟨q + 1, 1, hq', hr, ?_⟩
    unfold M.bind at hg
    split at hg
    · simp only [M.pure, Res.ok.injEq, Prod.mk.injEq] at hg
      obtain ⟨⟨-, rfl⟩, -⟩ := hg
      rw [hcr, Nat.add_mul, Nat.one_mul]
      rfl
    all_goals simp at hg

theorem outerRank_lt {e : Expr σ α} (hr : row e = 0) : e.outerRank < e.dims.length := by
  by_contra h
  unfold row at hr
  rw [List.drop_eq_nil_of_le (by omega)] at hr
  simp at hr

/-- With empty rows, states at the end of a row are those of the odometer. -/
theorem occurs_emptyRows {e : Expr σ α} (hw : e.Wf) (hb : ¬ BadFn e) (hr : row e = 0) {it : Iter σ α} (h : Occurs e it) :
    (∃ q, q < rows e ∧ it = iterAt e q 0 0) ∨ (it.innerLimit = 0 ∧ it.innerIndex ≠ 0) := by
  have hlt := outerRank_lt hr
  have hstep : ∀ q it', q < rows e → (iterAt e q 0 0).stepOuter = some (true, it') →
      q + 1 < rows e ∧ it' = iterAt e (q + 1) 0 0 := by
    intro q it' hq hs
    have := stepOuter_spec hw (q := q) (c := 0) (n := 0) (k := 0) hq (by intro h; omega)
    rw [show ({ iterAt e q 0 0 with innerIndex := 0 } : Iter σ α) = iterAt e q 0 0 from rfl, hs] at this
    by_cases hl : q + 1 < size (lims e.dims e.outerRank)
    · rw [if_pos hl] at this
      simp only [Option.some.injEq, Prod.mk.injEq, true_and] at this
      exact ⟨hl, this⟩
    · rw [if_neg hl] at this; simp at this
  have hlim : ∀ q c n, (iterAt e q c n).innerLimit = 0 := fun _ _ _ => hr
  induction h with
  | new => exact .inl ⟨0, rows_pos e, new_eq_of (adv_init_raw hw hb (outerRank_le e) (le_refl _))⟩
  | @get it x e' s t ho hne hg ih =>
    rcases ih with ⟨q, hq, rfl⟩ | ⟨h1, h2⟩
    · exact absurd hr.symm hne
    · exact .inr ⟨h1, Nat.succ_ne_zero _⟩
  | @step it it' ho he hs ih =>
    rcases ih with ⟨q, hq, rfl⟩ | ⟨h1, h2⟩
    · obtain ⟨hq', rfl⟩ := hstep q it' hq hs
      exact .inl ⟨q + 1, hq', rfl⟩
    · rw [h1] at he; exact absurd he h2
  | @stepGet it it' x e' s t ho he hs hg ih =>
    rcases ih with ⟨q, hq, rfl⟩ | ⟨h1, h2⟩
    · obtain ⟨hq', rfl⟩ := hstep q it' hq hs
      exact .inr ⟨hr, Nat.one_ne_zero⟩
    · rw [h1] at he; exact absurd he h2

theorem occurs_iterAt_empty {e : Expr σ α} (hw : e.Wf) (hb : ¬ BadFn e) (hr : row e = 0) (q : Nat) (hq : q < rows e) :
    Occurs e (iterAt e q 0 0) := by
  have hlt := outerRank_lt hr
  induction q with
  | zero =>
    rw [← new_eq_of (adv_init_raw hw hb (outerRank_le e) (le_refl _))]
    exact .new
  | succ q ih =>
    have hs := stepOuter_spec hw (q := q) (c := 0) (n := 0) (k := 0) (by unfold rows at hq; omega) (by intro h; omega)
    rw [if_pos (show q + 1 < size (lims e.dims e.outerRank) from hq)] at hs
    exact .step (ih (by omega)) hr.symm hs

theorem leaves_adv (R : Nat) (pos : List Nat) (c n : Nat) (e : Expr σ α) :
    leaves (adv R pos c n e) =
      (leaves e).map fun v => ⟨v.ptr + dot v.map.strides (pos.drop (R - v.dims.length)), v.map⟩ := by
  induction e with
  | view r v => rfl
  | map e f ih => exact ih
  | enumerate e k ih => exact ih
  | zip a b s iha ihb => show leaves _ ++ leaves _ = _; rw [iha, ihb]; exact (List.map_append ..).symm
  | _ => rfl

/-- No move of `BadFn` expressions succeeds at the end of a row. -/
theorem moves_bad {e : Expr σ α} (hw : e.Wf) (hb : BadFn e) {it : Iter σ α} (h : Occurs e it)
    (hend : it.innerIndex = it.innerLimit) {m : Move σ α} (hm : m ∈ moves it) {e' : Expr σ α}
    (he : m.after = some e') : False := by
  obtain rfl := occurs_bad hw hb h
  have hr : row e = 0 := by rw [← innerLimit_new]; exact hend.symm
  have hlt := outerRank_lt hr
  unfold moves at hm
  change m ∈ if e.outerRank < e.dims.length then Move.reset e (e.dims.length - 1) 0 ::
    restMoves (Iter.new e) (e.resetDim (e.dims.length - 1) 0) else _ at hm
  have hn := (reset_bad hw hb 0).2
  rw [if_pos hlt, hn, List.mem_cons] at hm
  rcases hm with rfl | hm
  · rw [show (Move.reset e (e.dims.length - 1) 0).after = e.resetDim (e.dims.length - 1) 0 from rfl, hn] at he
    simp at he
  · simp [restMoves] at hm

/-- Moves lead to positions of the outer loop. -/
theorem moves_only {e : Expr σ α} (hw : e.Wf) {it : Iter σ α} (h : Occurs e it)
    (hend : it.innerIndex = it.innerLimit) {m : Move σ α} (hm : m ∈ moves it) {e' : Expr σ α}
    (he : m.after = some e') : ∃ pos, Valid (lims e.dims e.outerRank) pos ∧
      leaves e' = (leaves e).map fun v => ⟨v.ptr + dot v.map.strides (pos.drop (e.dims.length - v.dims.length)), v.map⟩ := by
  by_cases hb : BadFn e
  · exact (moves_bad hw hb h hend hm he).elim
  · have key : ∃ q c n, q < rows e ∧ c = row e ∧ it = iterAt e q c n := by
      rcases Nat.eq_zero_or_pos (row e) with hr | hr
      · rcases occurs_emptyRows hw hb hr h with ⟨q, hq, rfl⟩ | ⟨h1, h2⟩
        · exact ⟨q, 0, 0, hq, hr.symm, rfl⟩
        · rw [h1] at hend; exact absurd hend h2
      · obtain ⟨q, c, hq, hc, rfl⟩ := occurs_rows hw hb hr h
        exact ⟨q, c, _, hq, hend, rfl⟩
    obtain ⟨q, c, n, hq, hcr, rfl⟩ := key
    obtain ⟨⟨e'', h1, pos, c', n', hv, rfl⟩, -⟩ := moves_here hw (k := c) (n := n) hq (by
      intro h _; left; rw [hcr]; unfold row; rw [h]; simp) m hm
    rw [he] at h1
    obtain rfl := Option.some.inj h1
    exact ⟨pos, hv, leaves_adv ..⟩

/-- With empty rows all positions of the outer loop occur. -/
theorem moves_all {e : Expr σ α} (hw : e.Wf) (hb : ¬ BadFn e) (hr : row e = 0) {pos : List Nat}
    (hv : Valid (lims e.dims e.outerRank) pos) : ∃ it m e', Occurs e it ∧ it.innerIndex = it.innerLimit ∧ m ∈ moves it ∧
      m.after = some e' ∧
      leaves e' = (leaves e).map fun v => ⟨v.ptr + dot v.map.strides (pos.drop (e.dims.length - v.dims.length)), v.map⟩ := by
  have hlt := outerRank_lt hr
  have hO := outerRank_le e
  obtain ⟨q, hq, rfl⟩ : ∃ q, q < rows e ∧ unrank (lims e.dims e.outerRank) q = pos :=
    ⟨rowMajor (lims e.dims e.outerRank) pos, rowMajor_lt hv, unrank_rowMajor hv⟩
  have hul : (unrank (lims e.dims e.outerRank) q).length = e.outerRank := by
    rw [length_unrank, length_lims hO]
  have hreset := reset_adv (n := 0) hw (fit_self e) hO hul (i := e.dims.length - 1) (c := 0) (by omega)
  have hset : (unrank (lims e.dims e.outerRank) q).set (e.dims.length - 1) 0 =
      unrank (lims e.dims e.outerRank) q := List.set_eq_of_length_le (by omega)
  have hget : (unrank (lims e.dims e.outerRank) q).getD (e.dims.length - 1) 0 = 0 := by
    rw [List.getD_eq_getElem?_getD, List.getElem?_eq_none (by omega)]; rfl
  rw [Nat.sub_self, if_pos (Nat.zero_le _), Nat.sub_zero, hset, hget] at hreset
  refine ⟨iterAt e q 0 0, .reset (iterAt e q 0 0).expr ((iterAt e q 0 0).expr.rank - 1) 0,
    adv e.dims.length (unrank (lims e.dims e.outerRank) q) 0 0 e, occurs_iterAt_empty hw hb hr q hq, hr.symm, ?_, ?_,
    leaves_adv ..⟩
  · unfold moves
    have ho : (iterAt e q 0 0).expr.outerRank = e.outerRank := adv_outerRank ..
    have hrk : (iterAt e q 0 0).expr.rank = e.dims.length := by
      show (adv _ _ _ _ e).rank = _
      unfold rank dims
      rw [adv_shape]
    rw [if_pos (by omega)]
    exact List.mem_cons_self
  · have hrk : (iterAt e q 0 0).expr.rank = e.dims.length := by
      show (adv _ _ _ _ e).rank = _
      unfold rank dims
      rw [adv_shape]
    show (iterAt e q 0 0).expr.resetDim ((iterAt e q 0 0).expr.rank - 1) 0 = _
    rw [hrk]
    exact hreset

end Iter
end Model
