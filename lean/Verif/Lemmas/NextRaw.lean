import Verif.Lemmas.Phantom

/-! `next` and `fold` for expressions that are not well-behaved. -/

namespace Model
open Spec

namespace Iter
variable {σ α τ : Type}
open Expr

theorem foldLoop_gen_at {e : Expr σ α} (hw : e.Wf) {G : Nat → M σ α}
    (hG : ∀ q c, q < rows e → c < row e →
      (adv e.dims.length (unrank (lims e.dims e.outerRank) q) c (q * row e + c) e).get c =
        M.bind (G (q * row e + c)) fun x =>
          M.pure (x, adv e.dims.length (unrank (lims e.dims e.outerRank) q) (c + 1) (q * row e + c + 1) e))
    (f : τ → α → M σ τ) (fuel q c : Nat) (acc : τ) (hq : q < rows e) (hc : c ≤ row e)
    (hfu : rows e - q ≤ fuel) :
    foldLoop f fuel (iterAt e q c (q * row e + c)) acc =
      (List.range' (q * row e + c) ((rows e - q) * row e - c)).foldlM
        (fun acc n => M.bind (G n) (f acc)) acc := by
  obtain ⟨fuel, rfl⟩ := Nat.exists_eq_succ_of_ne_zero (show fuel ≠ 0 by omega)
  have hin := innerLoop_gen hG f hq (row e - c) c acc (by omega)
  rw [show c + (row e - c) = row e by omega,
    show q * row e + c + (row e - c) = q * row e + row e by omega] at hin
  unfold foldLoop
  change M.bind (innerLoop f (List.range' c (row e - c)) _ acc) _ = _
  rw [show (iterAt e q c (q * row e + c)).expr =
    adv e.dims.length (unrank (lims e.dims e.outerRank) q) c (q * row e + c) e from rfl, hin]
  simp only [M.bind_assoc, M.pure_bind]
  have hstep := stepOuter_spec hw (q := q) (c := row e) (n := q * row e + row e) (k := c) hq (by
    intro h _
    left; unfold row; rw [h]; simp)
  have hitr : ({ iterAt e q c (q * row e + c) with
      expr := adv e.dims.length (unrank (lims e.dims e.outerRank) q) (row e) (q * row e + row e) e } :
        Iter σ α) = { iterAt e q (row e) (q * row e + row e) with innerIndex := c } := rfl
  rw [hitr, hstep]
  have hk : (rows e - q) * row e - c = (row e - c) + (rows e - (q + 1)) * row e := by
    have : rows e - q = (rows e - (q + 1)) + 1 := by omega
    rw [this, Nat.add_mul, Nat.one_mul]; omega
  rw [hk, ← List.range'_append_1, List.foldlM_append]
  simp only [M.bind_eq]
  congr 1
  funext acc'
  by_cases hl : q + 1 < size (lims e.dims e.outerRank)
  · rw [if_pos hl]
    simp only [M.lift_some, M.pure_bind, if_true]
    have hih := foldLoop_gen hw hG f fuel (q + 1) acc' hl (by omega)
    rw [Nat.add_mul, Nat.one_mul] at hih
    rw [show q * row e + c + (row e - c) = q * row e + row e by omega]
    exact hih
  · rw [if_neg hl]
    have : rows e - (q + 1) = 0 := by unfold rows; omega
    simp [this]

theorem iterN_parts_raw {e : Expr σ α} (hr : 0 < row e) {n : Nat} (hn : n ≤ rows e * row e) :
    ∃ q c, iterN e n = iterAt e q c (q * row e + c) ∧ q * row e + c = n ∧ q < rows e ∧ c ≤ row e := by
  unfold iterN
  by_cases h : n = 0
  · subst h
    exact ⟨0, 0, by rw [if_pos rfl]; simp, by simp, rows_pos e, Nat.zero_le _⟩
  · rw [if_neg h]
    have hm := Nat.mod_lt (n - 1) hr
    have hd : (n - 1) / row e * row e + ((n - 1) % row e + 1) = n := by
      have := Nat.div_add_mod' (n - 1) (row e); omega
    refine ⟨(n - 1) / row e, (n - 1) % row e + 1, by rw [hd], hd, ?_, by omega⟩
    rw [Nat.div_lt_iff_lt_mul hr]; omega

theorem fold_iterN_raw {e : Expr σ α} (hw : e.Wf) (hb : ¬ BadFn e) (hr : 0 < row e)
    (f : τ → α → M σ τ) (acc : τ) {n : Nat} (hn : n ≤ rows e * row e) :
    (iterN e n).fold acc f = (List.range' n (rows e * row e - n)).foldlM (visitRaw e f) acc := by
  obtain ⟨q, c, h1, h2, h3, h4⟩ := iterN_parts_raw hr hn
  unfold fold
  rw [h1, outerCount_iterAt, foldLoop_gen_at hw (G := fun n => rawNth e n)
    (fun q c hq hc => get_rawAt hw hb hq hc) f _ q c acc h3 h4 (Nat.sub_le _ _), h2,
    show (rows e - q) * row e - c = rows e * row e - n by
      rw [Nat.mul_sub_right_distrib, Nat.sub_sub, h2]]
  rfl

theorem next_iterN_raw {e : Expr σ α} (hw : e.Wf) (hb : ¬ BadFn e) (hr : 0 < row e) {n : Nat}
    (hn : n < rows e * row e) :
    (iterN e n).next = M.bind (rawNth e n) fun x => M.pure (some x, iterN e (n + 1)) := by
  obtain ⟨q, c, h1, h2, h3, h4⟩ := iterN_parts_raw (e := e) hr (n := n) (by omega)
  rw [h1]
  by_cases hc : c < row e
  · rw [next_raw_inner hw hb h3 hc, h2]
    have := iterN_of (e := e) (q := q) (c := c + 1) (by omega) (by omega)
    rw [show q * row e + (c + 1) = n + 1 by omega] at this
    rw [this]
    rfl
  · have hce : c = row e := by omega
    subst hce
    have hq : q + 1 < rows e := by
      by_contra h
      have : rows e = q + 1 := by omega
      rw [this, Nat.add_mul, Nat.one_mul] at hn
      omega
    have hn' : (q + 1) * row e = n := by rw [Nat.add_mul, Nat.one_mul]; exact h2
    have hstep := stepOuter_spec hw (q := q) (c := row e) (n := q * row e + row e) (k := row e)
      (by unfold rows at hq; omega) (by intro h _; left; unfold row; rw [h]; simp)
    rw [if_pos (show q + 1 < size (lims e.dims e.outerRank) from hq)] at hstep
    have hitr : ({ iterAt e q (row e) (q * row e + row e) with innerIndex := row e } : Iter σ α) =
      iterAt e q (row e) (q * row e + row e) := rfl
    rw [hitr] at hstep
    have hin := next_raw_inner (n := (q + 1) * row e) hw hb hq (c := 0) hr
    unfold next at hin ⊢
    rw [if_pos (show (iterAt e q (row e) (q * row e + row e)).innerIndex =
      (iterAt e q (row e) (q * row e + row e)).innerLimit from rfl), hstep]
    rw [if_neg (show ¬ (iterAt e (q + 1) 0 ((q + 1) * row e)).innerIndex =
      (iterAt e (q + 1) 0 ((q + 1) * row e)).innerLimit from Nat.ne_of_lt hr)] at hin
    simp only [M.lift_some, M.pure_bind, if_true]
    rw [Nat.add_zero, hn'] at hin
    have hit : ({ iterAt e (q + 1) 0 (q * row e + row e) with innerIndex := 0 } : Iter σ α) =
      iterAt e (q + 1) 0 n := by rw [h2]; rfl
    have h1' := iterN_of (e := e) (q := q + 1) (c := 1) (by omega) (by omega)
    rw [hn'] at h1'
    rw [h1', h2]
    exact hin

theorem next_iterN_raw_end {e : Expr σ α} (hw : e.Wf) (hr : 0 < row e) :
    ∃ it, (iterN e (rows e * row e)).next = M.pure (none, it) := by
  have hro := rows_pos e
  have hsz : rows e * row e = (rows e - 1) * row e + row e := by
    rw [Nat.mul_sub_right_distrib, Nat.one_mul]
    have : row e ≤ rows e * row e := Nat.le_mul_of_pos_left _ hro
    omega
  have := iterN_of (e := e) (q := rows e - 1) (c := row e) hr (le_refl _)
  rw [← hsz] at this
  rw [this, next_end hw (by omega)]
  exact ⟨_, rfl⟩

theorem driveThenFold_iterN {e : Expr σ α} (hw : e.Wf) (hb : ¬ BadFn e) (hr : 0 < row e)
    (f : τ → α → M σ τ) : ∀ (k n : Nat) (acc : τ), n ≤ rows e * row e →
    driveThenFold f k (iterN e n) acc = (List.range' n (rows e * row e - n)).foldlM (visitRaw e f) acc := by
  intro k
  induction k with
  | zero => intro n acc hn; exact fold_iterN_raw hw hb hr f acc hn
  | succ k ih =>
    intro n acc hn
    rw [driveThenFold]
    by_cases hlt : n < rows e * row e
    · rw [next_iterN_raw hw hb hr hlt, show rows e * row e - n = (rows e * row e - (n + 1)) + 1 by omega,
        List.range'_succ, List.foldlM_cons]
      simp only [M.bind_assoc, M.pure_bind, visitRaw, M.bind_eq]
      congr 1
      funext x
      congr 1
      funext acc'
      exact ih (n + 1) acc' hlt
    · obtain rfl : n = rows e * row e := by omega
      obtain ⟨it, hit⟩ := next_iterN_raw_end hw hr
      rw [hit, Nat.sub_self]
      rfl

/-- Calling `next` and then `fold` is the same as `fold`, unless there are several rows without items. -/
theorem driveThenFold_eq {e : Expr σ α} (hw : e.Wf) (hr : 0 < row e ∨ rows e = 1)
    (f : τ → α → M σ τ) (k : Nat) (acc : τ) :
    driveThenFold f k (Iter.new e) acc = e.fold acc f := by
  cases k with
  | zero => rfl
  | succ k =>
    by_cases hb : BadFn e
    · rcases Nat.eq_zero_or_pos (row e) with h0 | h0
      · rw [fold_bad_zero hw hb h0, driveThenFold]
        have hnone : stepOuter (Iter.new e) = none := by
          unfold stepOuter
          have hlt : e.outerRank < e.dims.length := by
            by_contra h
            unfold row at h0
            rw [List.drop_eq_nil_of_le (by omega)] at h0
            simp at h0
          change (if e.outerRank < e.dims.length then e.resetDim (e.dims.length - 1) 0 else some e).bind _ = none
          rw [if_pos hlt, (reset_bad hw hb 0).2]
          rfl
        unfold next
        rw [if_pos (show (Iter.new e).innerIndex = (Iter.new e).innerLimit by
          rw [innerLimit_new, h0]; rfl), hnone]
        rfl
      · rw [fold_bad hw hb h0, driveThenFold]
        have hv : 0 < size (visited e) := by
          rw [size_visited]; exact Nat.mul_pos (rows_pos e) h0
        obtain ⟨N, hN⟩ : ∃ N, size (visited e) = N + 1 := ⟨_, (Nat.succ_pred_eq_of_pos hv).symm⟩
        have hz : rawNth e 0 = rawItem (e.dims.length - e.outerRank) e 0 (List.replicate e.dims.length 0) := by
          unfold rawNth
          rw [visited_eq, unrank_zero, List.length_append, length_lims (outerRank_le e), List.length_drop,
            Nat.add_sub_cancel' (outerRank_le e)]
        rw [hN, List.range_succ_eq_map, List.foldlM_cons]
        have hg := get_bad hw hb (fit_self e) (outerRank_le e) h0 (fun x => M.pure (x, e))
        rw [← hz] at hg
        have hbad : NeverOk (rawNth e 0) := rawItem_bad hb _ _
        unfold next
        rw [if_neg (show ¬ (Iter.new e).innerIndex = (Iter.new e).innerLimit by
          rw [innerLimit_new]; exact Nat.ne_of_lt h0)]
        change M.bind (M.bind (e.get 0) _) _ = _
        rw [hg]
        simp only [M.bind_assoc, visitRaw, M.bind_eq]
        exact hbad.bind_eq _ _
    · have hnew := new_eq_of (adv_init_raw hw hb (outerRank_le e) (le_refl _))
      rcases Nat.eq_zero_or_pos (row e) with h0 | h0
      · have h1 : rows e = 1 := hr.resolve_left (by omega)
        rw [fold_raw hw (fun h => absurd h hb), size_visited]
        change _ = (List.range (rows e * row e)).foldlM (visitRaw e f) acc
        rw [h0, Nat.mul_zero, driveThenFold, hnew]
        have := next_end (e := e) (q := 0) (n := 0) hw (by omega)
        rw [h0] at this
        rw [this]
        rfl
      · rw [hnew, show iterAt e 0 0 0 = iterN e 0 from rfl, driveThenFold_iterN hw hb h0 f _ _ _ (by omega),
          fold_raw hw (fun h => absurd h hb), size_visited, Nat.sub_zero, ← List.range_eq_range']

end Iter
end Model
