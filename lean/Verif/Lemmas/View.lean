import Verif.Spec.View
import Verif.Lemmas.Types
import Verif.Lemmas.MappingOps
import Verif.Lemmas.Reshape
import Verif.Lemmas.ShapeReshape

namespace Spec
open Model

theorem stepFilter_pos (a n s : Nat) (hs : 0 < s) :
    (List.range' a n).filter (fun x => (x - a) % s = 0)
      = (List.range ((n + s - 1) / s)).map (fun j => a + j * s) := by
  induction n with
  | zero => simp; omega
  | succ n ih =>
    rw [List.range'_concat, List.filter_append, ih]
    have e : a + 1 * n - a = n := by omega
    by_cases h : n % s = 0
    · obtain ⟨q, rfl⟩ := Nat.dvd_of_mod_eq_zero h
      have h1 : (s * q + s - 1) / s = q := by
        have : s * q + s - 1 = (s - 1) + s * q := by omega
        rw [this, Nat.add_mul_div_left _ _ hs, Nat.div_eq_of_lt (by omega)]; omega
      have h2 : (s * q + 1 + s - 1) / s = q + 1 := by
        have : s * q + 1 + s - 1 = s * (q+1) := by rw [Nat.mul_add]; omega
        rw [this, Nat.mul_div_cancel_left _ hs]
      rw [h1, h2, List.range_succ, List.map_append]
      simp [Nat.mul_comm]
    · have h1 : (n + 1 + s - 1) / s = (n + s - 1) / s := by
        have hpos : 0 < n % s := by omega
        have hlt := Nat.mod_lt n hs
        have hd := Nat.div_add_mod n s
        have e1 : n + 1 + s - 1 = (n % s) + s * (n / s + 1) := by rw [Nat.mul_add]; omega
        have e2 : n + s - 1 = (n % s - 1) + s * (n / s + 1) := by rw [Nat.mul_add]; omega
        rw [e1, e2, Nat.add_mul_div_left _ _ hs, Nat.add_mul_div_left _ _ hs,
          Nat.div_eq_of_lt (show n % s < s by omega), Nat.div_eq_of_lt (show n % s - 1 < s by omega)]
      rw [h1]
      simp [h]

theorem stepFilter_neg (a n s : Nat) (hs : 0 < s) :
    ((List.range' a n).filter (fun x => (a + n - 1 - x) % s = 0)).reverse
      = (List.range ((n + s - 1) / s)).map (fun j => a + n - 1 - j * s) := by
  induction n generalizing a with
  | zero => simp; omega
  | succ n ih =>
    rw [List.range'_succ, List.filter_cons]
    have e : a + (n + 1) - 1 - a = n := by omega
    have e2 : (fun x => decide ((a + (n + 1) - 1 - x) % s = 0)) = (fun x => decide ((a + 1 + n - 1 - x) % s = 0)) := by
      funext x; congr 2; congr 1; omega
    have e3 : ∀ j, a + (n+1) - 1 - j * s = a + 1 + n - 1 - j * s := fun j => by omega
    simp only [e, e3]
    rw [e2]
    by_cases h : n % s = 0
    · obtain ⟨q, rfl⟩ := Nat.dvd_of_mod_eq_zero h
      have h1 : (s * q + s - 1) / s = q := by
        have : s * q + s - 1 = (s - 1) + s * q := by omega
        rw [this, Nat.add_mul_div_left _ _ hs, Nat.div_eq_of_lt (by omega)]; omega
      have h2 : (s * q + 1 + s - 1) / s = q + 1 := by
        have : s * q + 1 + s - 1 = s * (q+1) := by rw [Nat.mul_add]; omega
        rw [this, Nat.mul_div_cancel_left _ hs]
      have ih' := ih (a + 1)
      rw [h1] at ih'
      simp only [h, decide_true, if_true, List.reverse_cons]
      rw [ih', h2, List.range_succ, List.map_append]
      simp [Nat.mul_comm]
    · have h1 : (n + 1 + s - 1) / s = (n + s - 1) / s := by
        have hpos : 0 < n % s := by omega
        have hlt := Nat.mod_lt n hs
        have hd := Nat.div_add_mod n s
        have e1 : n + 1 + s - 1 = (n % s) + s * (n / s + 1) := by rw [Nat.mul_add]; omega
        have e2 : n + s - 1 = (n % s - 1) + s * (n / s + 1) := by rw [Nat.mul_add]; omega
        rw [e1, e2, Nat.add_mul_div_left _ _ hs, Nat.add_mul_div_left _ _ hs,
          Nat.div_eq_of_lt (show n % s < s by omega), Nat.div_eq_of_lt (show n % s - 1 < s by omega)]
      rw [h1]
      simp only [h, decide_false, Bool.false_eq_true, if_false]
      exact ih _

/-- Selected coordinates of a stepped range as an arithmetic progression. -/
theorem stepCoords_eq {a b : Nat} {s : Int} (hab : a ≤ b) (hs : s ≠ 0) :
    stepCoords a b s = (List.range ((b - a + s.natAbs - 1) / s.natAbs)).map fun j =>
      if 0 < s then a + j * s.natAbs else b - 1 - j * s.natAbs := by
  have hn : 0 < s.natAbs := by omega
  unfold stepCoords
  split
  · rw [stepFilter_pos a (b - a) s.natAbs hn]
  · have := stepFilter_neg a (b - a) s.natAbs hn
    have e : a + (b - a) = b := by omega
    rw [e] at this
    exact this

theorem step_last {n s j : Nat} (hs : 0 < s) (hj : j < (n + s - 1) / s) : j * s < n := by
  have h1 : (j + 1) * s ≤ n + s - 1 := by
    have := Nat.div_mul_le_self (n + s - 1) s
    have h2 : (j+1) * s ≤ (n + s - 1) / s * s := Nat.mul_le_mul_right _ hj
    omega
  rw [Nat.add_mul] at h1; omega

end Spec

namespace Model
open Spec

theorem axisIndex_eq (a : Axis) (r : Nat) : a.index r = axisPos a r := by
  cases a <;> simp only [Axis.index, axisPos]
  · by_cases h : 2 ≤ r
    · rw [if_pos (by omega), if_pos h]; congr 1
    · rw [if_neg (by omega), if_neg h]
  · by_cases h : 1 ≤ r
    · rw [if_pos (by omega), if_pos h]; congr 1
    · rw [if_neg (by omega), if_neg h]

theorem rangeNorm_eq {a b : Bnd} {d : Nat} (hd : d ≤ usizeMax) :
    rangeNorm a b d = if lo a ≤ hi d b ∧ hi d b ≤ d then some (lo a, hi d b) else none := by
  unfold rangeNorm
  have key : ∀ x y : Nat, ((do check (x ≤ y); check (y ≤ d); pure (x, y)) : Option (Nat × Nat))
      = if x ≤ y ∧ y ≤ d then some (x, y) else none := by
    intro x y
    rw [check_bind, check_bind]
    by_cases h1 : x ≤ y <;> by_cases h2 : y ≤ d <;> simp [h1, h2]
  cases b with
  | included m =>
    cases a with
    | included n =>
      by_cases h : m + 1 ≤ usizeMax
      · simp only [lo, hi, if_pos h]; exact key n (m + 1)
      · rw [if_neg (show ¬ (lo (.included n) ≤ hi d (.included m) ∧ hi d (.included m) ≤ d) by simp only [lo, hi]; omega)]; simp only [if_neg h]; rfl
    | excluded n =>
      by_cases h : m + 1 ≤ usizeMax
      · by_cases h' : n + 1 ≤ usizeMax
        · simp only [lo, hi, if_pos h, if_pos h']; exact key (n + 1) (m + 1)
        · rw [if_neg (show ¬ (lo (.excluded n) ≤ hi d (.included m) ∧ hi d (.included m) ≤ d) by simp only [lo, hi]; omega)]; simp only [if_neg h']; rfl
      · by_cases h' : n + 1 ≤ usizeMax
        · rw [if_neg (show ¬ (lo (.excluded n) ≤ hi d (.included m) ∧ hi d (.included m) ≤ d) by simp only [lo, hi]; omega)]; simp only [if_neg h, if_pos h']; rfl
        · rw [if_neg (show ¬ (lo (.excluded n) ≤ hi d (.included m) ∧ hi d (.included m) ≤ d) by simp only [lo, hi]; omega)]; simp only [if_neg h']; rfl
    | unbounded =>
      by_cases h : m + 1 ≤ usizeMax
      · simp only [lo, hi, if_pos h]; exact key 0 (m + 1)
      · rw [if_neg (show ¬ (lo (.unbounded) ≤ hi d (.included m) ∧ hi d (.included m) ≤ d) by simp only [lo, hi]; omega)]; simp only [if_neg h]; rfl
  | excluded m =>
    cases a with
    | included n => exact key n m
    | excluded n =>
      by_cases h' : n + 1 ≤ usizeMax
      · simp only [lo, hi, if_pos h']; exact key (n + 1) m
      · rw [if_neg (show ¬ (lo (.excluded n) ≤ hi d (.excluded m) ∧ hi d (.excluded m) ≤ d) by simp only [lo, hi]; omega)]; simp only [if_neg h']; rfl
    | unbounded => exact key 0 m
  | unbounded =>
    cases a with
    | included n => exact key n d
    | excluded n =>
      by_cases h' : n + 1 ≤ usizeMax
      · simp only [lo, hi, if_pos h']; exact key (n + 1) d
      · rw [if_neg (show ¬ (lo (.excluded n) ≤ hi d (.unbounded) ∧ hi d (.unbounded) ≤ d) by simp only [lo, hi]; omega)]; simp only [if_neg h']; rfl
    | unbounded => exact key 0 d

end Model
