import Verif.Lemmas.ViewOps
import Verif.Lemmas.AxisMap
import Verif.Lemmas.Overflow

/-! List and index lemmas for nested iteration. -/

namespace Spec

theorem drop_modify {α} (l : List α) (i k : Nat) (f : α → α) :
    (l.modify i f).drop k = if k ≤ i then (l.drop k).modify (i - k) f else l.drop k := by
  apply List.ext_getElem?
  intro n
  split
  · rename_i h
    simp only [List.getElem?_drop, List.getElem?_modify]
    have : (i = k + n) = (i - k = n) := by apply propext; omega
    simp only [this]
  · rename_i h
    simp only [List.getElem?_drop, List.getElem?_modify]
    have : ¬ (i = k + n) := by omega
    simp [this]

theorem drop_set {α} (l : List α) (i k : Nat) (x : α) :
    (l.set i x).drop k = if k ≤ i then (l.drop k).set (i - k) x else l.drop k := by
  apply List.ext_getElem?
  intro n
  split
  · rename_i h
    simp only [List.getElem?_drop, List.getElem?_set, List.length_drop]
    by_cases e : i = k + n
    · have e' : i - k = n := by omega
      rw [if_pos e, if_pos e']
      have : (i < l.length) = (i - k < l.length - k) := by apply propext; omega
      simp only [this]
    · rw [if_neg e, if_neg (by omega)]
  · rename_i h
    simp only [List.getElem?_drop, List.getElem?_set]
    rw [if_neg (by omega)]

theorem drop_append_le {α} (l r : List α) {k : Nat} (h : k ≤ l.length) :
    (l ++ r).drop k = l.drop k ++ r := by
  rw [List.drop_append, Nat.sub_eq_zero_of_le h, List.drop_zero]

theorem rowMajor_append {A B p u : List Nat} (h : p.length = A.length) :
    rowMajor (A ++ B) (p ++ u) = rowMajor A p * size B + rowMajor B u := by
  induction A generalizing p with
  | nil =>
    have : p = [] := by simpa using h
    subst this; simp [rowMajor]
  | cons d A ih =>
    cases p with
    | nil => simp at h
    | cons i p =>
      simp only [List.cons_append, rowMajor, size_append, ih (by simpa using h)]
      rw [Nat.add_mul, Nat.mul_assoc, Nat.add_assoc]

theorem valid_append {A B p u : List Nat} (h : p.length = A.length) :
    Valid (A ++ B) (p ++ u) ↔ Valid A p ∧ Valid B u := by
  induction A generalizing p with
  | nil =>
    have : p = [] := by simpa using h
    subst this; simp
  | cons d A ih =>
    cases p with
    | nil => simp at h
    | cons i p => simp [ih (by simpa using h), and_assoc]

theorem Valid.drop {D j : List Nat} (h : Valid D j) (k : Nat) : Valid (D.drop k) (j.drop k) := by
  unfold Valid at *
  induction h generalizing k with
  | nil => simp
  | cons h1 h2 ih =>
    cases k with
    | zero => simp [h1, h2]
    | succ k => simpa using ih k

theorem unrank_zero (D : List Nat) : unrank D 0 = List.replicate D.length 0 := by
  induction D with
  | nil => rfl
  | cons d D ih => simp [unrank, ih, List.replicate_succ]

/-- Rows of the iteration: item `c` of row `q` is item `q * size B + c`. -/
theorem unrank_block {A B : List Nat} {q c : Nat} (hq : q < size A) (hc : c < size B) :
    q * size B + c < size (A ++ B) ∧
    unrank (A ++ B) (q * size B + c) = unrank A q ++ unrank B c := by
  have hlt : q * size B + c < size (A ++ B) := by
    rw [size_append]
    calc q * size B + c < q * size B + size B := by omega
      _ = (q + 1) * size B := by ring
      _ ≤ _ := Nat.mul_le_mul_right _ hq
  refine ⟨hlt, ?_⟩
  rw [unrank_append _ _ _ hlt]
  have e1 : (q * size B + c) / size B = q := by
    rw [Nat.add_comm, Nat.add_mul_div_right _ _ (by omega), Nat.div_eq_of_lt hc, Nat.zero_add]
  have e2 : (q * size B + c) % size B = c := by
    rw [Nat.add_comm, Nat.add_mul_mod_self_right, Nat.mod_eq_of_lt hc]
  rw [e1, e2]

end Spec
