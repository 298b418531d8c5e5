import Verif.Spec.Index
import Mathlib.Tactic.Ring
import Mathlib.Tactic.Linarith
import Mathlib.Data.List.Nodup

namespace Spec

@[simp] theorem size_nil : size [] = 1 := rfl
@[simp] theorem size_cons (d ds) : size (d :: ds) = d * size ds := by simp [size]
theorem size_append (a b) : size (a ++ b) = size a * size b := by simp [size]
theorem size_reverse (a) : size a.reverse = size a := by simp [size, List.prod_reverse]

@[simp] theorem valid_nil : Valid [] [] := List.Forall₂.nil
@[simp] theorem valid_nil_iff {idx} : Valid [] idx ↔ idx = [] := by
  cases idx <;> simp [Valid]
@[simp] theorem valid_cons {d ds i is} : Valid (d :: ds) (i :: is) ↔ i < d ∧ Valid ds is := by
  simp [Valid]
@[simp] theorem not_valid_cons_nil {d ds} : ¬ Valid (d :: ds) [] := by simp [Valid]

theorem Valid.length {ds is} (h : Valid ds is) : is.length = ds.length := List.Forall₂.length_eq h

theorem valid_cons' {d ds idx} : Valid (d :: ds) idx ↔ ∃ i is, idx = i :: is ∧ i < d ∧ Valid ds is := by
  cases idx with
  | nil => simp
  | cons i is => simp

theorem Valid.size_pos {ds is} (h : Valid ds is) : 0 < size ds := by
  induction ds generalizing is with
  | nil => simp
  | cons d ds ih =>
    obtain ⟨i, is, rfl, hi, h⟩ := valid_cons'.1 h
    have := ih h
    simp; exact ⟨by omega, this⟩

theorem valid_iff {ds is : List Nat} :
    Valid ds is ↔ is.length = ds.length ∧ ∀ i (h : i < is.length) (h' : i < ds.length), is[i] < ds[i] := by
  unfold Valid
  rw [List.forall₂_iff_get]
  simp [List.get_eq_getElem]

theorem size_pos_iff {ds} : 0 < size ds ↔ ∀ d ∈ ds, 0 < d := by
  induction ds with
  | nil => simp
  | cons d ds ih => simp [ih]

theorem size_eq_zero_iff {ds} : size ds = 0 ↔ 0 ∈ ds := by
  induction ds with
  | nil => simp
  | cons d ds ih => simp [ih, eq_comm]

theorem valid_zeros {ds} (h : 0 < size ds) : Valid ds (List.replicate ds.length 0) := by
  induction ds with
  | nil => simp
  | cons d ds ih =>
    simp at h
    simp only [List.length_cons, List.replicate_succ, valid_cons]
    exact ⟨by omega, ih (by omega)⟩

theorem rowMajor_lt {ds is} (h : Valid ds is) : rowMajor ds is < size ds := by
  induction ds generalizing is with
  | nil => simp at h; subst h; simp [rowMajor]
  | cons d ds ih =>
    obtain ⟨i, is, rfl, hi, h⟩ := valid_cons'.1 h
    have := ih h
    simp only [rowMajor, size_cons]
    calc i * size ds + rowMajor ds is < i * size ds + size ds := by omega
      _ = (i + 1) * size ds := by ring
      _ ≤ d * size ds := Nat.mul_le_mul_right _ hi

@[simp] theorem length_unrank (ds k) : (unrank ds k).length = ds.length := by
  induction ds generalizing k with
  | nil => rfl
  | cons d ds ih => simp [unrank, ih]

theorem unrank_valid {ds k} (h : k < size ds) : Valid ds (unrank ds k) := by
  induction ds generalizing k with
  | nil => simp [unrank]
  | cons d ds ih =>
    simp only [size_cons] at h
    have hp : 0 < size ds := by
      rcases Nat.eq_zero_or_pos (size ds) with h0 | h0
      · simp [h0] at h
      · exact h0
    simp only [unrank, valid_cons]
    exact ⟨(Nat.div_lt_iff_lt_mul hp).2 h, ih (Nat.mod_lt _ hp)⟩

theorem rowMajor_unrank {ds k} (h : k < size ds) : rowMajor ds (unrank ds k) = k := by
  induction ds generalizing k with
  | nil => simp at h; simp [rowMajor, h]
  | cons d ds ih =>
    simp only [size_cons] at h
    have hp : 0 < size ds := by
      rcases Nat.eq_zero_or_pos (size ds) with h0 | h0
      · simp [h0] at h
      · exact h0
    simp only [unrank, rowMajor, ih (Nat.mod_lt _ hp)]
    rw [Nat.mul_comm]; exact Nat.div_add_mod _ _

theorem unrank_rowMajor {ds is} (h : Valid ds is) : unrank ds (rowMajor ds is) = is := by
  induction ds generalizing is with
  | nil => simp at h; subst h; rfl
  | cons d ds ih =>
    obtain ⟨i, is, rfl, hi, h⟩ := valid_cons'.1 h
    have hlt := rowMajor_lt h
    simp only [rowMajor, unrank]
    have h1 : (i * size ds + rowMajor ds is) / size ds = i := by
      rw [Nat.mul_comm, Nat.mul_add_div (by omega), Nat.div_eq_of_lt hlt]; omega
    have h2 : (i * size ds + rowMajor ds is) % size ds = rowMajor ds is := by
      rw [Nat.mul_comm, Nat.mul_add_mod, Nat.mod_eq_of_lt hlt]
    rw [h1, h2, ih h]

theorem rowMajor_inj {ds is js} (h : Valid ds is) (h' : Valid ds js)
    (e : rowMajor ds is = rowMajor ds js) : is = js := by
  rw [← unrank_rowMajor h, e, unrank_rowMajor h']

theorem mem_allIdx {ds is} : is ∈ allIdx ds ↔ Valid ds is := by
  induction ds generalizing is with
  | nil => simp [allIdx]
  | cons d ds ih =>
    simp only [allIdx, List.mem_flatMap, List.mem_range, List.mem_map, valid_cons', ih]
    constructor
    · rintro ⟨i, hi, js, hjs, rfl⟩; exact ⟨i, js, rfl, hi, hjs⟩
    · rintro ⟨i, js, rfl, hi, hjs⟩; exact ⟨i, hi, js, hjs, rfl⟩

theorem length_allIdx (ds) : (allIdx ds).length = size ds := by
  induction ds with
  | nil => rfl
  | cons d ds ih =>
    simp only [allIdx, size_cons, List.length_flatMap, List.length_map, ih]
    simp

theorem allIdx_nodup (ds) : (allIdx ds).Nodup := by
  induction ds with
  | nil => simp [allIdx]
  | cons d ds ih =>
    simp only [allIdx]
    rw [List.nodup_flatMap]
    refine ⟨fun i _ => ih.map (fun _ _ h => by simpa using h), ?_⟩
    refine List.Pairwise.imp ?_ List.nodup_range
    intro a b hab x hx hy
    simp only [List.mem_map] at hx hy
    obtain ⟨_, _, rfl⟩ := hx
    obtain ⟨_, _, h⟩ := hy
    simp at h; exact hab h.1.symm

/-- The lexicographic list is the list of unranked positions. -/
theorem allIdx_eq_map_unrank (ds) : allIdx ds = (List.range (size ds)).map (unrank ds) := by
  induction ds with
  | nil => rfl
  | cons d ds ih =>
    simp only [allIdx, size_cons, ih]
    rcases Nat.eq_zero_or_pos (size ds) with h0 | hp
    · simp [h0]
    induction d with
    | zero => simp
    | succ d ihd =>
      rw [List.range_succ, List.flatMap_append, ihd, Nat.succ_mul, List.range_add, List.map_append]
      congr 1
      simp only [List.flatMap_cons, List.flatMap_nil, List.append_nil, List.map_map]
      apply List.map_congr_left
      intro k hk
      simp only [List.mem_range] at hk
      simp only [Function.comp, unrank]
      rw [Nat.mul_comm d, Nat.mul_add_div hp, Nat.div_eq_of_lt hk, Nat.mul_add_mod,
        Nat.mod_eq_of_lt hk]
      simp

theorem dot_nil_left (is) : dot [] is = 0 := by simp [dot]
theorem dot_nil_right (ss) : dot ss [] = 0 := by cases ss <;> simp [dot]
@[simp] theorem dot_nil_nil : dot [] [] = 0 := rfl
@[simp] theorem dot_cons (s ss i is) : dot (s :: ss) (i :: is) = s * (i:Int) + dot ss is := rfl

theorem dot_append {a b : List Int} {x y : List Nat} (h : a.length = x.length) :
    dot (a ++ b) (x ++ y) = dot a x + dot b y := by
  induction a generalizing x with
  | nil => cases x with
    | nil => simp
    | cons _ _ => simp at h
  | cons s a ih => cases x with
    | nil => simp at h
    | cons i x =>
      simp at h
      simp [ih h]; ring

end Spec
