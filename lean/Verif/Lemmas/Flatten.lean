import Verif.Lemmas.ViewOps

/-! When the strided reshape to a single dimension succeeds. -/

namespace Model
open Spec
namespace Mapping

/-- Adjacent dimensions continue each other, except where all dimensions up to the end or from the start
have size one. -/
def Chain (n : Nat) : List Nat → List Int → Prop
  | _ :: e :: ds, s :: t :: st =>
    (1 < size (e :: ds) → size (e :: ds) < n → s = t * (e : Int)) ∧ Chain n (e :: ds) (t :: st)
  | _, _ => True

theorem flatLoop (n : Nat) (hn : 0 < n) (ds : List Nat) (st : List Int) (hl : st.length = ds.length)
    (hd : size ds ∣ n) :
    (reshapeLoop ds st [n]).oldLen = size ds ∧
    ((reshapeLoop ds st [n]).valid = true ↔ Chain n ds st) ∧
    (size ds < n → (reshapeLoop ds st [n]).newLen = 1 ∧ (reshapeLoop ds st [n]).rem = [n]) ∧
    (size ds = n → (reshapeLoop ds st [n]).newLen = n ∧
      ((reshapeLoop ds st [n]).rem = [] ∨ n = 1 ∧ (reshapeLoop ds st [n]).rem = [1])) ∧
    (∀ d ds' s st', ds = d :: ds' → st = s :: st' → (reshapeLoop ds st [n]).valid = true →
        (reshapeLoop ds st [n]).oldStride = s * (d : Int)) := by
  induction ds generalizing st with
  | nil =>
    cases st with
    | cons => simp at hl
    | nil =>
      simp [reshapeInit, Chain]
      intro h
      exact ⟨h, h.symm⟩
  | cons d ds ih =>
    cases st with
    | nil => simp at hl
    | cons s st =>
      simp only [List.length_cons, Nat.add_right_cancel_iff] at hl
      rw [size_cons] at hd
      obtain ⟨i1, i2, i3, i4, i5⟩ := ih st hl (Dvd.dvd.trans (Dvd.intro_left d rfl) hd)
      have hpos : 0 < d * size ds := Nat.pos_of_dvd_of_pos hd hn
      have hdp : 0 < d := Nat.pos_of_mul_pos_right hpos
      have hsp : 0 < size ds := Nat.pos_of_mul_pos_left hpos
      have hle : d * size ds ≤ n := Nat.le_of_dvd hn hd
      have hle2 : size ds ≤ d * size ds := Nat.le_mul_of_pos_left _ hdp
      rw [reshapeLoop_cons, size_cons]
      -- the check made in this step
      have hchk : (reshapeLoop ds st [n]).oldLen = (reshapeLoop ds st [n]).newLen ↔
          ¬ (1 < size ds ∧ size ds < n) := by
        rw [i1]
        rcases Nat.lt_or_ge (size ds) n with h | h
        · rw [(i3 h).1]; omega
        · rw [(i4 (by omega)).1]; omega
      have hval : (reshapeStep (reshapeLoop ds st [n]) d s).valid = true ↔
          (reshapeLoop ds st [n]).valid = true ∧
          (1 < size ds → size ds < n → (reshapeLoop ds st [n]).oldStride = s) := by
        unfold reshapeStep
        by_cases hc : (reshapeLoop ds st [n]).oldLen = (reshapeLoop ds st [n]).newLen
        · simp only [hc, if_true]
          have := hchk.1 hc
          constructor
          · exact fun h => ⟨h, fun a b => absurd ⟨a, b⟩ this⟩
          · exact fun h => h.1
        · simp only [hc, if_false, Bool.and_eq_true, beq_iff_eq]
          have := Classical.not_not.1 (fun h => hc (hchk.2 h))
          exact ⟨fun h => ⟨h.1, fun _ _ => h.2⟩, fun h => ⟨h.1, h.2 this.1 this.2⟩⟩
      have hlen : (reshapeStep (reshapeLoop ds st [n]) d s).oldLen = d * size ds := by
        show (reshapeLoop ds st [n]).oldLen * d = _
        rw [i1, Nat.mul_comm]
      refine ⟨hlen, ?_, ?_, ?_, ?_⟩
      · rw [hval, i2]
        cases ds with
        | nil =>
          cases st with
          | cons => simp at hl
          | nil => simp [Chain]
        | cons e ds =>
          cases st with
          | nil => simp at hl
          | cons t st =>
            show _ ↔ _ ∧ _
            constructor
            · rintro ⟨h1, h2⟩
              refine ⟨fun a b => ?_, h1⟩
              rw [← h2 a b]
              exact i5 e ds t st rfl rfl (i2.2 h1)
            · rintro ⟨h1, h2⟩
              refine ⟨h2, fun a b => ?_⟩
              rw [h1 a b]
              exact i5 e ds t st rfl rfl (i2.2 h2)
      · intro h
        obtain ⟨e1, e2⟩ := i3 (by omega)
        simp only [reshapeStep, e1, e2, addRegion, i1]
        rw [Nat.mul_comm (size ds) d, if_pos (by omega)]
        simp
      · intro h
        rcases Nat.lt_or_ge (size ds) n with h' | h'
        · obtain ⟨e1, e2⟩ := i3 h'
          simp only [reshapeStep, e1, e2, addRegion, i1]
          rw [Nat.mul_comm (size ds) d, if_neg (by omega)]
          simp
        · obtain ⟨e1, e2⟩ := i4 (by omega)
          rcases e2 with e2 | ⟨e3, e2⟩
          · simp [reshapeStep, e1, e2, addRegion]
          · subst e3
            simp only [reshapeStep, e1, e2, addRegion, i1]
            rw [Nat.mul_comm (size ds) d, if_neg (by omega)]
            simp
      · rintro d' ds' s' st' ⟨⟩ ⟨⟩ hv
        obtain ⟨h1, h2⟩ := hval.1 hv
        unfold reshapeStep
        by_cases hc : (reshapeLoop ds st [n]).oldLen = (reshapeLoop ds st [n]).newLen
        · simp only [hc, if_true]
        · simp only [hc, if_false]
          have := Classical.not_not.1 (fun h => hc (hchk.2 h))
          rw [h2 this.1 this.2]

theorem chain_iff (n : Nat) (ds : List Nat) (st : List Int) (hl : st.length = ds.length) :
    Chain n ds st ↔ ∀ i, 1 < size (ds.drop (i + 1)) → size (ds.drop (i + 1)) < n →
      st.getD i 0 = st.getD (i + 1) 0 * (ds.getD (i + 1) 0 : Int) := by
  induction ds generalizing st with
  | nil => simp [Chain]
  | cons d ds ih =>
    cases st with
    | nil => simp at hl
    | cons s st =>
      simp only [List.length_cons, Nat.add_right_cancel_iff] at hl
      cases ds with
      | nil => simp [Chain]
      | cons e ds =>
        cases st with
        | nil => simp at hl
        | cons t st =>
          unfold Chain
          rw [ih (t :: st) hl]
          constructor
          · rintro ⟨h1, h2⟩ i a b
            cases i with
            | zero => exact h1 a b
            | succ i => exact h2 i a b
          · exact fun h => ⟨fun a b => h 0 a b, fun i a b => h (i + 1) a b⟩

/-- The strided reshape to one dimension succeeds exactly if adjacent dimensions continue each other. -/
theorem flatStrides_isSome (ds : List Nat) (st : List Int) (hl : st.length = ds.length) :
    (reshapeStrides ds st [size ds]).isSome ↔ size ds = 0 ∨
      ∀ i, 1 < size (ds.drop (i + 1)) → size (ds.drop (i + 1)) < size ds →
        st.getD i 0 = st.getD (i + 1) 0 * (ds.getD (i + 1) 0 : Int) := by
  have hlen := reshape_finalLen ds st [size ds]
  simp only [reshapeStrides] at hlen ⊢
  rw [← chain_iff _ _ _ hl]
  simp only [size_cons, size_nil, Nat.mul_one] at hlen
  by_cases h0 : size ds = 0
  · rw [check_pos (Or.inl (by rw [hlen, h0]))]
    simp [h0]
  · obtain ⟨-, h2, -⟩ := flatLoop (size ds) (by omega) ds st hl (dvd_refl _)
    rw [← h2, hlen]
    by_cases hv : (reshapeLoop ds st [size ds]).valid = true
    · rw [check_pos (Or.inr hv)]
      simp [hv]
    · rw [check_neg (by rintro (h | h); exact h0 h; exact hv h)]
      simp [h0, hv]

end Mapping
end Model
