import Verif.Spec.Reshape
import Verif.Lemmas.Shape

namespace Spec

theorem NoOverflow.size_le {B dims} (h : NoOverflow B dims) : size dims ≤ B := by
  simpa using h dims.length (le_refl _)

theorem noOverflow_nil {B} : NoOverflow B [] ↔ 1 ≤ B := by simp [NoOverflow]

end Spec

namespace Model
open Spec
namespace Shape

theorem checkedLen_aux (dims : List Nat) (acc : Nat) :
    dims.foldlM (fun acc x => if acc * x ≤ usizeMax then some (acc * x) else none) acc
      = if ∀ k < dims.length, acc * size (dims.take (k+1)) ≤ usizeMax
        then some (acc * size dims) else none := by
  induction dims generalizing acc with
  | nil => simp
  | cons d ds ih =>
    rw [List.foldlM_cons]
    by_cases h : acc * d ≤ usizeMax
    · simp only [h, if_true, Option.bind_eq_bind, Option.bind_some, ih]
      have e : (∀ k < ds.length, acc * d * size (List.take (k+1) ds) ≤ usizeMax) ↔
          ∀ k < (d :: ds).length, acc * size (List.take (k+1) (d :: ds)) ≤ usizeMax := by
        constructor
        · intro hk k hlt
          cases k with
          | zero => simpa using h
          | succ k =>
            have := hk k (by simpa using hlt)
            simpa [Nat.mul_assoc] using this
        · intro hk k hlt
          have := hk (k+1) (by simpa using hlt)
          simpa [Nat.mul_assoc] using this
      by_cases hh : ∀ k < ds.length, acc * d * size (List.take (k+1) ds) ≤ usizeMax
      · rw [if_pos hh, if_pos (e.1 hh)]; simp [Nat.mul_assoc]
      · rw [if_neg hh, if_neg (fun h' => hh (e.2 h'))]
    · rw [if_neg h, if_neg]
      · rfl
      · intro hk
        have := hk 0 (by simp)
        simp at this; omega

theorem checkedLen_eq (s : Shape) :
    s.checkedLen = if NoOverflow usizeMax s.dims then some (size s.dims) else none := by
  unfold checkedLen
  rw [checkedLen_aux]
  have e : (∀ k < s.dims.length, 1 * size (s.dims.take (k+1)) ≤ usizeMax) ↔
      NoOverflow usizeMax s.dims := by
    constructor
    · intro h k hk
      cases k with
      | zero => simp [usizeMax]
      | succ k => simpa using h k (by omega)
    · intro h k hk; simpa using h (k+1) (by omega)
  by_cases h : NoOverflow usizeMax s.dims
  · rw [if_pos h, if_pos (e.2 h)]; simp
  · rw [if_neg h, if_neg (fun h' => h (e.1 h'))]

/-- The loop without a further placeholder. -/
theorem inferAux_none (dims : List Nat) (j : Nat) (pre : List Nat) (o : Option Nat)
    (h : usizeMax ∉ dims) :
    (dims.zipIdx j).foldlM
      (fun (acc : List Nat × Option Nat) (x : Nat × Nat) =>
        if x.1 = usizeMax then
          if acc.2.isNone then some (acc.1 ++ [1], some x.2) else none
        else some (acc.1 ++ [x.1], acc.2)) (pre, o) = some (pre ++ dims, o) := by
  induction dims generalizing j pre with
  | nil => simp
  | cons d ds ih =>
    simp at h
    rw [List.zipIdx_cons, List.foldlM_cons]
    simp only [if_neg (Ne.symm h.1)]
    simp only [Option.bind_eq_bind, Option.bind_some]
    rw [ih _ _ h.2]; simp

/-- The loop after a placeholder has been seen. -/
theorem inferAux_some (dims : List Nat) (j : Nat) (pre : List Nat) (i : Nat)
    (h : usizeMax ∈ dims) :
    (dims.zipIdx j).foldlM
      (fun (acc : List Nat × Option Nat) (x : Nat × Nat) =>
        if x.1 = usizeMax then
          if acc.2.isNone then some (acc.1 ++ [1], some x.2) else none
        else some (acc.1 ++ [x.1], acc.2)) (pre, some i) = none := by
  induction dims generalizing j pre with
  | nil => simp at h
  | cons d ds ih =>
    rw [List.zipIdx_cons, List.foldlM_cons]
    by_cases hd : d = usizeMax
    · simp [hd]
    · simp only [if_neg hd]
      simp only [Option.bind_eq_bind, Option.bind_some]
      apply ih
      simpa [Ne.symm hd] using h

theorem inferLoop_none {dims : List Nat} (h : usizeMax ∉ dims) :
    inferLoop dims = some (dims, none) := by
  unfold inferLoop; rw [inferAux_none _ _ _ _ h]; simp

theorem inferLoop_split (a b : List Nat) (ha : usizeMax ∉ a) :
    inferLoop (a ++ usizeMax :: b) =
      if usizeMax ∈ b then none else some (a ++ 1 :: b, some a.length) := by
  unfold inferLoop
  rw [List.zipIdx_append, List.foldlM_append, inferAux_none _ _ _ _ ha]
  simp only [Option.bind_eq_bind, Option.bind_some, List.zipIdx_cons, List.foldlM_cons, if_true,
    Option.isNone_none]
  split
  · rename_i h; rw [inferAux_some _ _ _ _ h]
  · rename_i h; rw [inferAux_none _ _ _ _ h]; simp

theorem split_first {l : List Nat} {x : Nat} (h : x ∈ l) :
    ∃ a b, l = a ++ x :: b ∧ x ∉ a := by
  induction l with
  | nil => simp at h
  | cons y l ih =>
    by_cases hy : x = y
    · exact ⟨[], l, by simp [hy], by simp⟩
    · obtain ⟨a, b, rfl, h2⟩ := ih (by simpa [hy] using h)
      exact ⟨y :: a, b, by simp, by simp [hy, h2]⟩

theorem reshape_none_eq (s ns : Shape) (hw : ns.WF) (h : usizeMax ∉ ns.dims) :
    s.reshape ns = if NoOverflow usizeMax ns.dims ∧ size ns.dims = size s.dims
      then some ns else none := by
  unfold reshape
  rw [inferLoop_none h]
  have : ns.withMutDims (fun _ => some ns.dims) = some ns := by
    rw [withMutDims_eq]; simp; exact hw
  simp only [Option.bind_eq_bind, Option.bind_some, this, checkedLen_eq, len_eq]
  by_cases h1 : NoOverflow usizeMax ns.dims
  · simp only [h1, if_true, Option.bind_some, true_and]
    show (check _ >>= _) = _
    rw [check_bind]; rfl
  · simp [h1]

theorem reshape_infer_eq (s ns : Shape) (a b : List Nat)
    (he : ns.dims = a ++ usizeMax :: b) (ha : usizeMax ∉ a) (hb : usizeMax ∉ b) :
    s.reshape ns = if ns.ty.Conforms (a ++ 1 :: b) ∧ NoOverflow usizeMax (a ++ 1 :: b) ∧
        size (a ++ b) ≠ 0 ∧ size s.dims % size (a ++ b) = 0 ∧
        ns.ty.Conforms (a ++ (size s.dims / size (a ++ b)) :: b)
      then some ⟨ns.ty, a ++ (size s.dims / size (a ++ b)) :: b⟩ else none := by
  unfold reshape
  rw [he, inferLoop_split a b ha, if_neg hb]
  simp only [Option.bind_eq_bind, Option.bind_some, len_eq, withMutDims_eq]
  by_cases h0 : ns.ty.Conforms (a ++ 1 :: b)
  swap
  · simp [h0]
  simp only [h0, if_true, Option.bind_some, checkedLen_eq, true_and]
  by_cases h1 : NoOverflow usizeMax (a ++ 1 :: b)
  swap
  · simp [h1]
  have hs : size (a ++ 1 :: b) = size (a ++ b) := by simp [size_append]
  simp only [h1, if_true, Option.bind_some, true_and, hs]
  show (check _ >>= _) = _
  rw [check_bind]
  by_cases h2 : size (a ++ b) ≠ 0 ∧ size s.dims % size (a ++ b) = 0
  · rw [if_pos h2]
    have e1 : (a ++ 1 :: b).set a.length (size s.dims / size (a ++ b))
        = a ++ (size s.dims / size (a ++ b)) :: b := by simp
    simp only [e1, h2, true_and, ne_eq, not_false_eq_true]
  · rw [if_neg h2, if_neg]
    rintro ⟨h3, h4, _⟩; exact h2 ⟨h3, h4⟩

/-- Two placeholders are rejected. -/
theorem reshape_many (s ns : Shape) (a b : List Nat)
    (he : ns.dims = a ++ usizeMax :: b) (ha : usizeMax ∉ a) (hb : usizeMax ∈ b) :
    s.reshape ns = none := by
  unfold reshape
  rw [he, inferLoop_split a b ha, if_pos hb]; rfl

end Shape
end Model
