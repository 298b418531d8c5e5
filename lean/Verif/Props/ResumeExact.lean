import Verif.Lemmas.ResumeEnd
import Verif.Props.Resume

/-!
What happens after the end of an expression with several rows (B3), for all expressions: this shows that the
condition on the outer dimensions in C21_partial and C73_called_partial is necessary.
-/

namespace Props
open Model Spec
open Model.Expr Model.Iter

variable {σ α : Type}

/-! ### C21 -/

/-- C21, exactly, for all expressions with more than one row: after `None` comes the item of the second row, as
if it were the item number `size e.dims`. (If there are owned arrays then this reads beyond their ends.) -/
theorem C21_rows_exact (e : Expr σ α) (hb : Built e) (hs : Sound e) (h0 : 0 < size e.dims)
    (hi : e.outerRank < e.dims.length) (ho : ∃ d ∈ e.dims.take e.outerRank, 1 < d) :
    ∃ j it, (allIdx e.dims)[size (e.dims.drop e.outerRank)]? = some j ∧
      runNext (size e.dims + 2) (Iter.new e) =
        M.bind (firstItems e (size e.dims)) fun xs =>
          M.bind (rawItem (e.dims.length - e.outerRank) e (size e.dims) j) fun x =>
            M.pure (xs.map some ++ [none, some x], it) := by
  have hw := wf_of_built hb
  have h1 := one_lt_rows ho
  have hr := row_pos h0
  have hlt : row e < size e.dims := by
    rw [size_split h0]
    calc row e = 1 * row e := by omega
      _ < rows e * row e := Nat.mul_lt_mul_of_pos_right h1 hr
  obtain ⟨c, hc⟩ := next_iterN_end hw (Or.inl h0)
  have hn := next_ended_row hw (notBad_of_regular hs) hi h0 h1 c (size e.dims)
  refine ⟨unrank e.dims (row e), iterAt e 1 1 (size e.dims + 1), ?_, ?_⟩
  · change (allIdx e.dims)[row e]? = _
    rw [allIdx_eq_map_unrank, List.getElem?_map, List.getElem?_range hlt]; rfl
  · rw [new_eq hw hs, show iterAt e 0 0 0 = iterN _ 0 from rfl, runNext_add,
      runNext_iterN hw hs _ _ (by omega), firstItems_eq _ (Nat.le_refl _), Nat.zero_add]
    simp only [M.bind_assoc, M.pure_bind, runNext, hc, hn]

/-- C21_rows_exact: a strided view with an enumeration. -/
example : Built (Expr.enumerateNew (.view true evens) : Expr Unit (Nat × Int)) ∧
    Sound (Expr.enumerateNew (.view true evens) : Expr Unit (Nat × Int)) ∧
    (M.bind (runNext 6 (Iter.new (Expr.enumerateNew (.view true evens) : Expr Unit (Nat × Int))))
      fun p => M.pure p.1) () = .ok [some (0, 0), some (1, 2), some (2, 4), some (3, 6), none, some (4, 4)] () :=
  ⟨.enumerate (.view (by decide)), trivial, rfl⟩

/-! ### C73 -/

/-- C73, exactly: if elements are moved out of an owned array in an expression with more than one row, and no
function panics, then the call of `next` after `None` is undefined behaviour, in all cases. -/
theorem C73_called_exact (e : Expr σ α) (hb : Built e) (hs : Sound e) (h0 : 0 < size e.dims)
    (hi : e.outerRank < e.dims.length) (ho : ∃ d ∈ e.dims.take e.outerRank, 1 < d)
    (ht : TameClosures e) (hq : Silent e) (hm : e.owned ≠ []) :
    (∀ it it' s t, After e (size e.dims) it → it.nextE s = .ok none it' t → ∀ u, it'.nextE u = .ub) ∧
    ∀ s, ∃ it it' t, After e (size e.dims) it ∧ it.nextE s = .ok none it' t := by
  have hw := wf_of_built hb
  have hp : Plain e := Or.inl h0
  have hr := resumes_of_silent hq
  refine ⟨fun it it' s t ha hn u => ?_, fun s => ?_⟩
  · obtain ⟨-, rfl⟩ := after_iterN hw hs hp hr ha
    obtain ⟨c, hc⟩ := next_iterN_end hw hp
    have h2 := nextE_erase (iterN e (size e.dims)) s
    rw [hn, hc] at h2
    simp only [Out.erase, M.pure, Res.ok.injEq, Prod.mk.injEq] at h2
    obtain ⟨⟨-, rfl⟩, -⟩ := h2
    rw [nextE_ended_row hw hi (one_lt_rows ho)]
    have hu := getE_used (e := (iterAt e 1 0 (size e.dims)).expr)
      (later_adv hw (notBad_of_regular hs) (Nat.le_refl _) (by
        rw [length_unrank, length_lims (outerRank_le e)]; exact outerRank_le e))
      (tame_adv ht) (silent_adv hq) (by
        change (adv _ _ _ _ e).owned ≠ []
        rw [owned_adv_map]; simpa using hm) (by
        intro p hpm
        change p ∈ (adv _ _ _ _ e).owned at hpm
        rw [owned_adv_map] at hpm
        obtain ⟨p', hp', rfl⟩ := List.mem_map.1 hpm
        exact Nat.le_of_eq ((owned_size hw.wfs).1 p' hp')) 0 u
    unfold takeE
    rw [show (iterAt e 1 0 (size e.dims)).innerIndex = 0 from rfl, hu]
    rfl
  · have hall : ∀ n, n ≤ size e.dims → ∃ it, After e n it := by
      intro n
      induction n with
      | zero => exact fun _ => ⟨_, .new⟩
      | succ n ih =>
        intro hn
        obtain ⟨it, ha⟩ := ih (by omega)
        have h1 := (C73_next e hb hp ht n it ha).2.2 s
        have h3 := (C74_partial e hb hs hp hr n it ha).2.1 (by omega)
        have h2 := nextE_erase it s
        cases hx : it.nextE s with
        | ok x it' t =>
          cases x with
          | some x => exact ⟨it', .item ha hx⟩
          | none =>
            exfalso
            rw [hx] at h2
            have h4 := congrFun h3 s
            simp only [M.bind, ← h2, Out.erase, M.pure] at h4
            split at h4 <;> simp at h4
        | panic it' t => exact ⟨it', .panic ha hx⟩
        | ub => rw [hx] at h1; exact h1.elim
        | abort => rw [hx] at h1; exact h1.elim
    obtain ⟨it, ha⟩ := hall _ (Nat.le_refl _)
    obtain ⟨-, rfl⟩ := after_iterN hw hs hp hr ha
    obtain ⟨it', h⟩ := nextE_iterN_end hw hp s
    exact ⟨_, it', s, ha, h⟩

/-- C73_called_exact: the expression of `C73_violated` is an instance. -/
example : Sound strided ∧ 0 < size strided.dims ∧ strided.outerRank < strided.dims.length ∧
    (∃ d ∈ strided.dims.take strided.outerRank, 1 < d) ∧ TameClosures strided ∧ Silent strided ∧
    strided.owned ≠ [] :=
  ⟨⟨trivial, trivial⟩, by decide, by decide, ⟨2, by decide, by decide⟩, ⟨trivial, trivial⟩, ⟨trivial, trivial⟩,
    by decide⟩

end Props
