import Verif.Model.MachineHint
import Verif.Lemmas.MachineIter

/-! The size hint of iterators with 64-bit integers. -/

namespace Model
open Spec
namespace Machine
variable {σ α : Type}

theorem hintLoop_eq {checks : Bool} {ls is : List Nat} (hv : Valid ls is) :
    ∀ len : Nat, 0 < len → len * size ls ≤ usizeMax →
      hintLoop checks len ls is = Iter.hintLoop len ls is := by
  induction hv with
  | nil => intro len _ _; rfl
  | @cons i l is ls h1 h2 ih =>
    intro len hlen hle
    rw [size_cons, ← Nat.mul_assoc] at hle
    have hpos : 0 < size ls := Nat.lt_of_le_of_lt (Nat.zero_le _) (rowMajor_lt h2)
    have hl : len * l ≤ usizeMax := le_trans (Nat.le_mul_of_pos_right _ hpos) hle
    have hil : i < len * l := lt_of_lt_of_le h1 (Nat.le_mul_of_pos_left _ hlen)
    have hrest : (len * l - i) * size ls ≤ usizeMax :=
      le_trans (Nat.mul_le_mul_right _ (Nat.sub_le _ _)) hle
    simp only [hintLoop, Iter.hintLoop, retU_fit hl, subU, if_pos (Nat.le_of_lt hil),
      Option.bind_eq_bind, Option.bind_some]
    exact ih _ (by omega) hrest

/-- The hint depends on the counters only. -/
theorem sizeHint_eq {checks : Bool} {it : Iter σ α} {ls is : List Nat} (hv : Valid ls is)
    (h1 : it.outerLimit.take it.expr.outerRank = ls) (h2 : it.outerIndex.take it.expr.outerRank = is)
    (h3 : it.innerIndex ≤ it.innerLimit) (h4 : 0 < it.innerLimit)
    (h5 : size ls * it.innerLimit ≤ usizeMax) :
    sizeHint checks it = it.sizeHint ∧ it.sizeHint = some ((size ls - rowMajor ls is) * it.innerLimit - it.innerIndex) := by
  obtain ⟨e1, e2⟩ := Iter.hintLoop_spec hv 1 (by omega)
  rw [Nat.one_mul] at e1 e2
  have hs : size ls ≤ usizeMax := le_trans (Nat.le_mul_of_pos_right _ h4) h5
  have e3 : hintLoop checks 1 ls is = some (size ls - rowMajor ls is) := by
    rw [hintLoop_eq hv 1 (by omega) (by omega), e1]
  have e4 : it.innerIndex ≤ (size ls - rowMajor ls is) * it.innerLimit :=
    le_trans h3 (Nat.le_mul_of_pos_left _ (by omega))
  have e5 : (size ls - rowMajor ls is) * it.innerLimit ≤ usizeMax :=
    le_trans (Nat.mul_le_mul_right _ (Nat.sub_le _ _)) h5
  unfold sizeHint Iter.sizeHint
  simp only [h1, h2, e1, e3, Option.bind_eq_bind, Option.bind_some, retU_fit e5, subU, if_pos e4, check,
    Option.pure_def, and_self]

theorem sizeHint_iterAt_eq {checks : Bool} {e : Expr σ α} (hs : 0 < size e.dims) (hu : size e.dims ≤ usizeMax)
    {it : Iter σ α} {q c : Nat} (hq : q < Iter.rows e) (hc : c ≤ Iter.row e)
    (ho : it.expr.outerRank = e.outerRank) (hi : it.innerIndex = c) (hl : it.innerLimit = Iter.row e)
    (hoi : it.outerIndex = (Iter.iterAt e q c 0).outerIndex) (hol : it.outerLimit = (Iter.iterAt e q c 0).outerLimit) :
    sizeHint checks it = it.sizeHint ∧ it.sizeHint = some (size e.dims - (q * Iter.row e + c)) := by
  have hO := Iter.outerRank_le e
  have hlen : (unrank (Iter.lims e.dims e.outerRank) q).length = e.outerRank := by
    rw [length_unrank, Iter.length_lims hO]
  have hrow : 0 < Iter.row e := by
    rw [Iter.size_split hs] at hs
    exact Nat.pos_of_mul_pos_left hs
  have hv := unrank_valid hq
  have h1 : it.outerLimit.take it.expr.outerRank = Iter.lims e.dims e.outerRank := by
    rw [ho, hol, Iter.lims_eq hs]
    simp only [Iter.iterAt]
    by_cases h : e.outerRank > 0
    · rw [if_pos h]
    · rw [if_neg h, show e.outerRank = 0 by omega]; simp
  have h2 : it.outerIndex.take it.expr.outerRank = unrank (Iter.lims e.dims e.outerRank) q := by
    rw [ho, hoi]
    simp only [Iter.iterAt]
    by_cases h : e.outerRank > 0
    · rw [if_pos h, List.take_append_of_le_length (by omega), List.take_of_length_le (by omega)]
    · rw [if_neg h, List.take_nil]
      exact (List.eq_nil_of_length_eq_zero (by omega)).symm
  have h5 : size (Iter.lims e.dims e.outerRank) * it.innerLimit ≤ usizeMax := by
    rw [hl]; change Iter.rows e * Iter.row e ≤ _; rw [← Iter.size_split hs]; exact hu
  obtain ⟨e1, e2⟩ := sizeHint_eq (checks := checks) hv h1 h2 (by omega) (by omega) h5
  refine ⟨e1, e2.trans ?_⟩
  rw [rowMajor_unrank hq, hl, hi, Iter.size_split hs, Nat.sub_add_eq, ← Nat.mul_sub_right_distrib]
  rfl

end Machine
end Model
