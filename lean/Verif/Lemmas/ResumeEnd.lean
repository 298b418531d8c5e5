import Verif.Lemmas.ResumeNext
import Verif.Lemmas.NextRaw

/-! What `next` does after the end of an expression with several rows. -/

namespace Model
open Spec

variable {σ α : Type}

namespace Expr

theorem resumes_of_silent {e : Expr σ α} (h : Silent e) : Resumes e := by
  induction e with
  | fromFn s idx f =>
    by_cases hs : s.dims = []
    · exact Or.inl hs
    · exact Or.inr ⟨fun ht => hs (h.1 ht), h.2⟩
  | map e f ih => exact ih h.1
  | enumerate e k ih => exact ih h
  | zip a b s iha ihb => exact ⟨iha h.1, ihb h.2, Or.inl h.1⟩
  | _ => trivial

/-- Reading on when all owned arrays are used up. -/
theorem getE_used {e : Expr σ α} (hw : e.Wfs) (hc : TameClosures e) (hs : Silent e) (ho : e.owned ≠ [])
    (hu : ∀ p ∈ e.owned, p.2 ≤ p.1) (i : Nat) (t : σ) : e.getE i t = .ub := by
  induction e generalizing t with
  | intoExpr s buf idx =>
    have : buf.length ≤ idx := hu (idx, buf.length) (by simp [owned])
    simp only [getE]
    rw [List.getElem?_eq_none this]
  | map e f ih => simp only [getE, ih hw hc.1 hs.1 ho hu t, Out.andThen]
  | enumerate e c ih => simp only [getE, ih hw hc hs ho hu t, Out.andThen]
  | zip a b s iha ihb =>
    by_cases ha : a.owned = []
    · have hb : b.owned ≠ [] := fun hb => ho (by simp [owned, ha, hb])
      have h1 := clean_getE hc.1 (e := a) (by simp [ha]) i t
      have h2 := fun e' t' => silent_getE (e := a) hw.1 hs.1 (i := i) (s := t) (t := t') (e' := e')
      cases hg : a.getE i t with
      | ok x a' t' =>
        simp only [getE, hg, Out.andThen]
        rw [ihb hw.2.1 hc.2 hs.2 hb (fun p hp => hu p (List.mem_append_right _ hp))]
      | panic a' t' => exact (h2 _ _ hg).elim
      | ub => rw [hg] at h1; exact h1.elim
      | abort => rw [hg] at h1; exact h1.elim
    · simp only [getE, iha hw.1 hc.1 hs.1 ha (fun p hp => hu p (List.mem_append_left _ hp)) t, Out.andThen]
  | _ => exact (ho rfl).elim

theorem owned_adv_map (R : Nat) (pos : List Nat) (c n : Nat) (e : Expr σ α) :
    (adv R pos c n e).owned = e.owned.map fun p => (n, p.2) := by
  induction e <;> simp_all [adv, owned]

theorem tame_adv {R : Nat} {p : List Nat} {c n : Nat} {e : Expr σ α} (h : TameClosures e) :
    TameClosures (adv R p c n e) := by
  induction e with
  | map e f ih => exact ⟨ih h.1, h.2⟩
  | enumerate e k ih => exact ih h
  | zip a b s iha ihb => exact ⟨iha h.1, ihb h.2⟩
  | _ => exact h

end Expr

namespace Iter
open Expr

theorem le_size {l : List Nat} (hl : 0 < size l) {d : Nat} (h : d ∈ l) : d ≤ size l := by
  induction l with
  | nil => cases h
  | cons x l ih =>
    rw [size_cons] at hl ⊢
    have hx := Nat.pos_of_mul_pos_right hl
    have hy := Nat.pos_of_mul_pos_left hl
    rcases List.mem_cons.1 h with rfl | h
    · exact Nat.le_mul_of_pos_right _ (by omega)
    · exact le_trans (ih (by omega) h) (Nat.le_mul_of_pos_left _ (by omega))

theorem one_lt_rows {e : Expr σ α} (ho : ∃ d ∈ e.dims.take e.outerRank, 1 < d) : 1 < rows e := by
  obtain ⟨d, hd, hd1⟩ := ho
  have hpos := lims_pos e.dims e.outerRank
  have := le_size hpos (List.mem_map.2 ⟨d, hd, rfl⟩ : max d 1 ∈ lims _ _)
  unfold rows
  omega

/-- After the end the second row comes next. -/
theorem step_ended {e : Expr σ α} (hw : e.Wf) (hi : e.outerRank < e.dims.length) (h1 : 1 < rows e) (c n : Nat) :
    (ended e c n).stepOuter = some (true, { iterAt e 1 0 n with innerIndex := row e }) := by
  have hstep := stepOuter_spec hw (q := 0) (c := c) (n := n) (k := row e) (by unfold rows at h1; omega)
    (fun h _ => by omega)
  rw [if_pos (show 0 + 1 < size (lims e.dims e.outerRank) from h1)] at hstep
  exact hstep

theorem next_ended_row {e : Expr σ α} (hw : e.Wf) (he : ¬ BadFn e) (hi : e.outerRank < e.dims.length)
    (h0 : 0 < size e.dims) (h1 : 1 < rows e) (c n : Nat) :
    (ended e c n).next = M.bind (rawItem (e.dims.length - e.outerRank) e n (unrank e.dims (row e))) fun x =>
      M.pure (some x, iterAt e 1 1 (n + 1)) := by
  unfold Iter.next
  rw [if_pos (show (ended e c n).innerIndex = (ended e c n).innerLimit from rfl), step_ended hw hi h1]
  have hg := get_rawAt (n := n) hw he (q := 1) (c := 0) h1 (row_pos h0)
  have hvis : visited e = e.dims := by
    rw [visited_eq, lims_eq (D := e.dims) h0]; exact List.take_append_drop _ _
  rw [hvis, Nat.one_mul, Nat.add_zero] at hg
  simp only [M.lift_some, M.pure_bind, if_true]
  change M.bind ((adv e.dims.length (unrank (lims e.dims e.outerRank) 1) 0 n e).get 0) _ = _
  rw [hg]
  simp only [M.bind_assoc, M.pure_bind]
  rfl

theorem nextE_ended_row {e : Expr σ α} (hw : e.Wf) (hi : e.outerRank < e.dims.length) (h1 : 1 < rows e)
    (c n : Nat) (s : σ) : (ended e c n).nextE s = takeE (iterAt e 1 0 n) s := by
  have hstep := step_ended hw hi h1 c n
  rw [stepOuterE_eq] at hstep
  unfold nextE
  rw [if_pos (show (ended e c n).innerIndex = (ended e c n).innerLimit from rfl)]
  rcases hso : (ended e c n).stepOuterE with ⟨b, it'⟩
  rw [hso] at hstep
  simp only [Option.map_eq_some_iff, Prod.mk.injEq] at hstep
  obtain ⟨b', rfl, rfl, rfl⟩ := hstep
  rfl

end Iter
end Model
