import Verif.Lemmas.ViewOps
import Verif.Lemmas.Reach

/-! Indexing and view operations: C01, C02, C03, C06-C11, C15, C16. -/

namespace Props
open Spec Model

/-- A strided view used in the examples: dims [2,3], strides [6,-2], starting at position 4. -/
def exV : View := ⟨4, .strided ⟨.static [.dyn, .const 3], [2, 3]⟩ [6, -2]⟩

/-- A dense view used in the examples. -/
def exD : View := ⟨0, .dense ⟨.static [.dyn, .const 3], [2, 3]⟩⟩

/-- A rank-3 dynamic-rank view used in the examples. -/
def exR : View := ⟨0, .dense ⟨.dynRank, [2, 3, 4]⟩⟩

example : exV.map.WF ∧ exD.map.WF ∧ exR.map.WF := by decide

/-! ### C01 -/

/-- Checked access succeeds exactly for index lists of the right length with every coordinate below
its dimension; the element is at the base position plus the sum of index times stride. -/
theorem C01 (v : View) (h : v.map.WF) :
    ∃ st : List Int, st.length = v.dims.length ∧ (∀ k, v.map.stride k = st[k]?) ∧
      ∀ idx, v.index idx =
        if idx.length = v.dims.length ∧
            (∀ k (h1 : k < idx.length) (h2 : k < v.dims.length), idx[k] < v.dims[k])
        then some (v.ptr + dot st idx) else none := by
  refine ⟨v.map.strides, h.len, fun k => Mapping.stride_eq _ h k, fun idx => ?_⟩
  rw [View.index_eq v h]
  exact if_congr valid_iff rfl rfl

example : exV.index [1, 2] = some 6 ∧ exV.index [1, 3] = none ∧ exV.index [1] = none ∧
    exV.index [0, 0, 0] = none := by decide

/-! ### C02 -/

/-- Row-major storage: the `k`-th multi-index in lexicographic order is stored at position `k`, and
this is a bijection between the valid multi-indices and the positions below the length. -/
theorem C02 (s : Shape) (hs : s.WF) :
    (allIdx s.dims).length = size s.dims ∧
    (∀ (k : Nat) i, (allIdx s.dims)[k]? = some i → (whole s).index i = some (k : Int)) ∧
    (∀ i, Valid s.dims i → ∃ k < size s.dims, (whole s).index i = some (k : Int) ∧
      (allIdx s.dims)[k]? = some i) ∧
    (∀ k < size s.dims, ∃ i, Valid s.dims i ∧ (whole s).index i = some (k : Int)) ∧
    (∀ i j, Valid s.dims i → Valid s.dims j → (whole s).index i = (whole s).index j → i = j) := by
  have hall : ∀ k < size s.dims, (allIdx s.dims)[k]? = some (unrank s.dims k) := fun k hk => by
    rw [allIdx_eq_map_unrank]; simp [hk]
  refine ⟨by rw [allIdx_eq_map_unrank]; simp, fun k i e => ?_, fun i hi => ?_, fun k hk => ?_, fun i j hi hj e => ?_⟩
  · have hk : k < size s.dims := by
      have := (List.getElem?_eq_some_iff.1 e).1; rw [allIdx_eq_map_unrank] at this; simpa using this
    rw [hall k hk] at e
    obtain rfl : unrank s.dims k = i := by simpa using e
    rw [View.index_whole hs, if_pos (unrank_valid hk), rowMajor_unrank hk]
  · refine ⟨rowMajor s.dims i, rowMajor_lt hi, ?_, ?_⟩
    · rw [View.index_whole hs, if_pos hi]
    · rw [hall _ (rowMajor_lt hi), unrank_rowMajor hi]
  · exact ⟨unrank s.dims k, unrank_valid hk, by
      rw [View.index_whole hs, if_pos (unrank_valid hk), rowMajor_unrank hk]⟩
  · rw [View.index_whole hs, View.index_whole hs, if_pos hi, if_pos hj] at e
    exact rowMajor_inj hi hj (by simpa using e)

example : (⟨.static [.dyn, .const 3], [2, 3]⟩ : Shape).WF ∧
    allIdx [2, 3] = [[0,0],[0,1],[0,2],[1,0],[1,1],[1,2]] ∧
    (whole ⟨.static [.dyn, .const 3], [2, 3]⟩).index [1, 1] = some 4 := by decide

/-! ### C03 -/

/-- Linear indexing addresses the `k`-th multi-index in row-major order, and fails exactly for
`k ≥ len`. -/
theorem C03 (v : View) (h : v.map.WF) (k : Nat) :
    v.linIndex k = ((allIdx v.dims)[k]?).bind v.index ∧
    ((v.linIndex k).isSome ↔ k < size v.dims) := by
  rw [View.linIndex_index v h, allIdx_eq_map_unrank]
  by_cases hk : k < size v.dims
  · simp [hk, View.index_isSome v h, unrank_valid hk]
  · simp [hk]

example : exV.linIndex 4 = some 8 ∧ exV.index [1, 1] = some 8 ∧ exV.linIndex 6 = none := by decide

/-! ### C06 -/

/-- `view` fails exactly when some argument is out of bounds; otherwise the result has the selected
dimensions and its elements are the selected ones. -/
theorem C06 (v : View) (h : v.map.WF) (hu : Usize v.dims) (xs : List DimIdx)
    (hx : v.dims.length = xs.length) :
    ((v.view xs).isSome ↔ (selectAll xs v.dims).isSome) ∧
    ∀ v' sel, v.view xs = some v' → selectAll xs v.dims = some sel →
      v'.dims = selDims sel ∧ ∀ j, v'.index j = (pull sel j).bind v.index := by
  obtain ⟨h1, h2⟩ := View.view_spec v h xs hx hu
  refine ⟨h1, fun v' sel hv hs => ?_⟩
  obtain ⟨_, a, _, _, b⟩ := h2 v' sel hv hs
  exact ⟨a, b⟩

/-- Which arguments of `view` are out of bounds. -/
theorem C06_args (x : DimIdx) (d : Nat) :
    (select x d).isSome ↔ match x with
      | .int i => i < d
      | .full => True
      | .range a b => lo a ≤ hi d b ∧ hi d b ≤ d
      | .step a b s => lo a ≤ hi d b ∧ hi d b ≤ d ∧ s ≠ 0 := by
  cases x <;> simp [select]

example : exV.dims.length = 2 ∧ Usize exV.dims ∧
    ((exV.view [.range (.included 1) .unbounded, .int 2]).bind fun v' => v'.index [0]) = some 6 ∧
    exV.view [.int 2, .full] = none := by
  refine ⟨rfl, ?_, by decide, by decide⟩
  intro d hd
  have : d = 2 ∨ d = 3 := by simpa using (show d ∈ [2, 3] from hd)
  rcases this with rfl | rfl <;> simp [usizeMax]

/-! ### C07 -/

/-- A stepped range argument keeps its axis with `ceil(len/|s|)` coordinates: for `s > 0` these are
`start, start+s, ..`, for `s < 0` they are `end-1, end-1-|s|, ..`; all lie inside the range and every
coordinate of the range at that spacing is selected. -/
theorem C07 (xs : List DimIdx) (ds : List Nat) (sel : List Sel) (h : selectAll xs ds = some sel)
    (p d : Nat) (a b : Bnd) (s : Int) (hp : xs[p]? = some (.step a b s)) (hd : ds[p]? = some d) :
    ∃ l : List Nat, sel[p]? = some (.keep l) ∧
      l.length = (hi d b - lo a + s.natAbs - 1) / s.natAbs ∧
      (∀ j (hj : j < l.length), lo a ≤ l[j] ∧ l[j] < hi d b ∧ hi d b ≤ d ∧
        (l[j] : Int) = (if 0 < s then (lo a : Int) + j * s else (hi d b : Int) - 1 + j * s)) ∧
      ∀ x, x ∈ l ↔ lo a ≤ x ∧ x < hi d b ∧
        (s ∣ (x : Int) - (if 0 < s then (lo a : Int) else (hi d b : Int) - 1)) := by
  have hsel : ∃ l, select (.step a b s) d = some (.keep l) ∧ sel[p]? = some (.keep l) := by
    induction xs generalizing ds sel p with
    | nil => simp at hp
    | cons x xs ih =>
      cases ds with
      | nil => simp at hd
      | cons d' ds =>
        simp only [selectAll, Option.bind_eq_bind, Option.bind_eq_some_iff] at h
        obtain ⟨s', hs', ss, hss, e⟩ := h
        simp at e; subst e
        cases p with
        | zero =>
          simp at hp hd; subst hp; subst hd
          refine ⟨stepCoords (lo a) (hi d' b) s, ?_, ?_⟩
          · simp only [select] at hs' ⊢
            split at hs'
            · rw [if_pos (by assumption)]
            · simp at hs'
          · simp only [select] at hs'
            split at hs'
            · simp at hs'; simp [hs']
            · simp at hs'
        | succ p => simpa using ih ds ss hss p hp hd
  obtain ⟨l, hl, hsp⟩ := hsel
  refine ⟨l, hsp, ?_⟩
  simp only [select] at hl
  split at hl
  swap
  · simp at hl
  rename_i hc
  obtain ⟨h1, h2, h3⟩ := hc
  simp at hl
  have hl' := stepCoords_eq (s := s) h1 h3
  rw [hl] at hl'
  have hpos : 0 < s.natAbs := by omega
  have hlen : l.length = (hi d b - lo a + s.natAbs - 1) / s.natAbs := by rw [hl']; simp
  refine ⟨hlen, fun j hj => ?_, fun x => ?_⟩
  · have hj' : j * s.natAbs < hi d b - lo a := step_last hpos (hlen ▸ hj)
    have hg : l[j] = if 0 < s then lo a + j * s.natAbs else hi d b - 1 - j * s.natAbs := by
      simp only [hl', List.getElem_map, List.getElem_range]
    rw [hg]
    have hn : (s.natAbs : Int) = if 0 < s then s else -s := by split <;> omega
    split
    · rename_i hs
      rw [if_pos hs] at hn
      refine ⟨by omega, by omega, h2, ?_⟩
      rw [Int.natCast_add, Int.natCast_mul, hn]
    · rename_i hs
      rw [if_neg hs] at hn
      refine ⟨by omega, by omega, h2, ?_⟩
      have : ((hi d b - 1 - j * s.natAbs : Nat) : Int) = (hi d b : Int) - 1 - ((j * s.natAbs : Nat) : Int) := by
        omega
      rw [this, Int.natCast_mul, hn, Int.mul_neg]; omega
  · have hmem : x ∈ stepCoords (lo a) (hi d b) s ↔ lo a ≤ x ∧ x < hi d b ∧
        (if 0 < s then (x - lo a) % s.natAbs = 0 else (hi d b - 1 - x) % s.natAbs = 0) := by
      unfold stepCoords
      split
      · simp [List.mem_filter, List.mem_range'_1]
        constructor
        · rintro ⟨⟨q1, q2⟩, q3⟩; exact ⟨q1, by omega, q3⟩
        · rintro ⟨q1, q2, q3⟩; exact ⟨⟨q1, by omega⟩, q3⟩
      · simp [List.mem_filter, List.mem_range'_1]
        constructor
        · rintro ⟨⟨q1, q2⟩, q3⟩; exact ⟨q1, by omega, q3⟩
        · rintro ⟨q1, q2, q3⟩; exact ⟨⟨q1, by omega⟩, q3⟩
    rw [← hl, hmem]
    refine and_congr_right fun q1 => and_congr_right fun q2 => ?_
    split
    · rw [← Nat.dvd_iff_mod_eq_zero, ← Int.natCast_dvd_natCast, Int.natAbs_dvd,
        show ((x - lo a : Nat) : Int) = (x : Int) - lo a by omega]
    · rw [← Nat.dvd_iff_mod_eq_zero, ← Int.natCast_dvd_natCast, Int.natAbs_dvd,
        show ((hi d b - 1 - x : Nat) : Int) = -((x : Int) - ((hi d b : Int) - 1)) by omega, Int.dvd_neg]

example : selectAll [.step (.included 1) (.excluded 8) (-3), .full] [9, 2] =
    some [.keep [7, 4, 1], .keep [0, 1]] := by decide

/-! ### C08 -/

/-- `axis_at` fails exactly when the axis does not exist or the index is not below the dimension;
otherwise the axis is removed and its coordinate fixed. -/
theorem C08 (v : View) (h : v.map.WF) (a : Axis) (i : Nat) :
    ((v.axisAt a i).isSome ↔
      ∃ p d, axisPos a v.dims.length = some p ∧ v.dims[p]? = some d ∧ i < d) ∧
    ∀ v', v.axisAt a i = some v' → ∃ p, axisPos a v.dims.length = some p ∧
      v'.dims = v.dims.eraseIdx p ∧ ∀ j, v'.index j = v.index (j.insertIdx p i) := by
  constructor
  · rw [View.axisAt_isSome v h]
    constructor
    · rintro ⟨p, hp, hi⟩
      have hlt := Axis.index_lt (by rw [axisIndex_eq]; exact hp)
      exact ⟨p, v.dims[p], hp, List.getElem?_eq_getElem hlt, by simpa [hlt] using hi⟩
    · rintro ⟨p, d, hp, hd, hi⟩
      exact ⟨p, hp, by simpa [hd] using hi⟩
  · intro v' hv
    obtain ⟨p, hp, _, _, _, hd, _, hidx⟩ := View.axisAt_parts h hv
    exact ⟨p, hp, hd, hidx⟩

/-- `at` is `axis_at` along the first axis. -/
theorem C08_at (v : View) (h : v.map.WF) (i : Nat) :
    ((v.at' i).isSome ↔ ∃ d ds, v.dims = d :: ds ∧ i < d) ∧
    ∀ v', v.at' i = some v' → v'.dims = v.dims.tail ∧ ∀ j, v'.index j = v.index (i :: j) := by
  obtain ⟨h1, h2⟩ := C08 v h (.const 0) i
  constructor
  · rw [View.at', h1]
    cases hd : v.dims with
    | nil => simp [axisPos]
    | cons d ds => simp [axisPos]
  · intro v' hv
    obtain ⟨p, hp, hd, hidx⟩ := h2 v' hv
    have : p = 0 := by
      simp only [axisPos] at hp
      split at hp
      · simp at hp; omega
      · simp at hp
    subst this
    exact ⟨by rw [hd]; simp, fun j => by rw [hidx]; simp⟩

example : ((exR.axisAt .cols 2).map fun v' => (v'.dims, v'.index [1, 3])) =
    some ([2, 4], exR.index [1, 2, 3]) ∧ exR.axisAt .rows 4 = none ∧ exR.axisAt (.dyn 3) 0 = none := by
  decide

/-! ### C09 -/

/-- `split_axis_at` fails exactly when the axis does not exist or the split point exceeds the
dimension; the two parts hold the elements before and from the split point. -/
theorem C09 (v : View) (h : v.map.WF) (a : Axis) (mid : Nat) :
    ((v.splitAxisAt a mid).isSome ↔
      ∃ p d, axisPos a v.dims.length = some p ∧ v.dims[p]? = some d ∧ mid ≤ d) ∧
    ∀ v₁ v₂, v.splitAxisAt a mid = some (v₁, v₂) → ∃ p, axisPos a v.dims.length = some p ∧
      v₁.dims = v.dims.set p mid ∧ v₂.dims = v.dims.set p (v.dims.getD p 0 - mid) ∧
      (∀ j, v₁.index j = if j.getD p 0 < mid then v.index j else none) ∧
      (∀ j, v₂.index j = v.index (j.modify p (· + mid))) ∧
      ∀ i, Valid v.dims i →
        (i.getD p 0 < mid ∧ v₁.index i = v.index i) ∨
        (mid ≤ i.getD p 0 ∧ v₂.index (i.modify p (· - mid)) = v.index i) := by
  constructor
  · rw [View.splitAxisAt_isSome v h]
    constructor
    · rintro ⟨p, hp, hi⟩
      have hlt := Axis.index_lt (by rw [axisIndex_eq]; exact hp)
      exact ⟨p, v.dims[p], hp, List.getElem?_eq_getElem hlt, by simpa [hlt] using hi⟩
    · rintro ⟨p, d, hp, hd, hi⟩
      exact ⟨p, hp, by simpa [hd] using hi⟩
  · intro v₁ v₂ hv
    obtain ⟨p, hp, hlt, hm, _, _, hd1, hd2, _, _, hi1, hi2⟩ := View.splitAxisAt_parts h hv
    refine ⟨p, hp, hd1, hd2, hi1, hi2, fun i hi => ?_⟩
    by_cases hc : i.getD p 0 < mid
    · left; exact ⟨hc, by rw [hi1, if_pos hc]⟩
    · right
      refine ⟨by omega, ?_⟩
      rw [hi2]
      congr 1
      apply List.ext_getElem?
      intro k
      simp only [List.getElem?_modify]
      by_cases hk : p = k
      · subst hk
        have hpl : p < i.length := by rw [hi.length]; exact hlt
        simp only [if_true, List.getElem?_eq_getElem hpl, Option.map_some]
        have hc' : mid ≤ i[p] := by simpa [hpl] using hc
        have : i[p] - mid + mid = i[p] := by omega
        simp [this]
      · simp [hk]

/-- The two parts of a split never share an element (for every view obtained by safe calls). -/
theorem C09_disjoint (s : Shape) (hs : s.WF) (hu : Usize s.dims) (hn : size s.dims ≤ usizeMax)
    (checks : Bool) (v : View) (hr : Reach checks (whole s) v) (a : Axis) (mid : Nat) (v₁ v₂ : View)
    (hv : v.splitAxisAt a mid = some (v₁, v₂)) (j j' : List Nat) (hj : Valid v₁.dims j)
    (hj' : Valid v₂.dims j') : v₁.index j ≠ v₂.index j' := by
  have hg := View.good_reach (View.inv_whole hs hu hn) hr
  obtain ⟨p, _, hlt, hm, hw1, hw2, hd1, hd2, _, _, hi1, hi2⟩ := View.splitAxisAt_parts hg.1 hv
  have hgd : v.dims.getD p 0 = v.dims[p] := by simp [hlt]
  rw [hgd] at hm hd2
  rw [hd1, valid_set_le hlt hm] at hj
  rw [hd2, ← valid_modify hlt hm] at hj'
  rw [hi1, hi2, if_pos hj.2]
  intro e
  obtain ⟨pb, h1, h2⟩ := hg.2.2
  rw [(h1 _ hj.1).2, (h1 _ hj').2, View.index_whole hs, View.index_whole hs,
    if_pos (show Valid s.dims _ from (h1 _ hj.1).1), if_pos (show Valid s.dims _ from (h1 _ hj').1)] at e
  have e' := h2 _ _ hj.1 hj' (rowMajor_inj (h1 _ hj.1).1 (h1 _ hj').1 (Int.ofNat.inj (Option.some.inj e)))
  have hc := hj.2
  rw [e'] at hc
  have hpl : p < j'.length := by
    have := hj'.length; rw [List.length_modify] at this; omega
  simp [hpl] at hc

/-- `split_at` is `split_axis_at` along the first axis. -/
theorem C09_at (v : View) (h : v.map.WF) (mid : Nat) :
    ((v.splitAt mid).isSome ↔ ∃ d ds, v.dims = d :: ds ∧ mid ≤ d) ∧
    ∀ v₁ v₂, v.splitAt mid = some (v₁, v₂) → ∃ d ds, v.dims = d :: ds ∧
      v₁.dims = mid :: ds ∧ v₂.dims = (d - mid) :: ds ∧
      (∀ i j, v₁.index (i :: j) = if i < mid then v.index (i :: j) else none) ∧
      ∀ i j, v₂.index (i :: j) = v.index ((i + mid) :: j) := by
  obtain ⟨h1, h2⟩ := C09 v h (.const 0) mid
  constructor
  · rw [View.splitAt, h1]
    cases hd : v.dims with
    | nil => simp [axisPos]
    | cons d ds => simp [axisPos]
  · intro v₁ v₂ hv
    obtain ⟨p, hp, hd1, hd2, hi1, hi2, -⟩ := h2 v₁ v₂ hv
    have hp0 : p = 0 := by
      simp only [axisPos] at hp
      split at hp
      · exact (Option.some.inj hp).symm
      · cases hp
    subst hp0
    cases hd : v.dims with
    | nil => rw [hd] at hp; simp [axisPos] at hp
    | cons d ds =>
      rw [hd] at hd1 hd2
      exact ⟨d, ds, rfl, by simpa using hd1, by simpa using hd2, fun i j => by simpa using hi1 (i :: j),
        fun i j => by simpa using hi2 (i :: j)⟩

example : ((exR.splitAxisAt .cols 1).map fun p => (p.1.dims, p.2.dims, p.2.index [1, 1, 3])) =
    some ([2, 1, 4], [2, 2, 4], exR.index [1, 2, 3]) ∧ exR.splitAxisAt .cols 4 = none ∧
    ((exR.splitAt 1).map fun p => (p.1.dims, p.2.dims, p.2.index [0, 2, 3])) =
      some ([1, 3, 4], [1, 3, 4], exR.index [1, 2, 3]) := by decide

/-! ### C10 -/

/-- `permute` accepts exactly the permutations (ranks below 64); the result's dimensions and
elements are permuted accordingly. -/
theorem C10 (v : View) (h : v.map.WF) (hr : v.dims.length < 64) (checks : Bool) (perm : Shape)
    (hp : perm.WF) :
    ((v.permute checks perm).isSome ↔ perm.dims.Perm (List.range v.dims.length)) ∧
    ∀ v', v.permute checks perm = some v' →
      v'.dims = (perm.dims.map fun c => v.dims.getD c 0) ∧
      (∀ i, i.length = v.dims.length →
        v'.index (perm.dims.map fun c => i.getD c 0) = v.index i) ∧
      ∀ j, j.length = v.dims.length →
        ∃ i : List Nat, i.length = v.dims.length ∧ j = perm.dims.map fun c => i.getD c 0 := by
  refine ⟨View.permute_isSome v h hp hr, fun v' hv => ?_⟩
  obtain ⟨h1, _, h3, _, h5⟩ := View.permute_parts h (.inr hr) hv
  refine ⟨h3, h5, fun j hj => ?_⟩
  obtain ⟨i, hi, e⟩ := View.gather_surj h1 hj
  exact ⟨i, hi, e.symm⟩

/-- Permuting with the inverse permutation restores dimensions and elements. -/
theorem C10_inverse (v v' v'' : View) (h : v.map.WF) (hr : v.dims.length < 64) (checks : Bool)
    (p q : Shape) (hinv : ∀ k < v.dims.length, p.dims.getD (q.dims.getD k 0) 0 = k)
    (h1 : v.permute checks p = some v') (h2 : v'.permute checks q = some v'') :
    v''.dims = v.dims ∧ ∀ i, v''.index i = v.index i := by
  obtain ⟨a1, a2, a3, _, a5⟩ := View.permute_parts h (.inr hr) h1
  have hlp : p.dims.length = v.dims.length := by simpa using a1.length_eq
  have hl' : v'.dims.length = v.dims.length := by rw [a3]; simp [hlp]
  obtain ⟨b1, b2, b3, _, b5⟩ := View.permute_parts a2 (.inr (by rw [hl']; exact hr)) h2
  have hlq : q.dims.length = v.dims.length := by rw [← hl']; simpa using b1.length_eq
  have key : ∀ l : List Nat, l.length = v.dims.length →
      (q.dims.map fun c => (p.dims.map fun c => l.getD c 0).getD c 0) = l := fun l hl => by
    apply List.ext_getElem
    · simp [hlq, hl]
    · intro k k1 k2
      simp at k1
      have hk := hinv k (by omega)
      rw [List.getD_eq_getElem?_getD (l := q.dims), List.getElem?_eq_getElem k1, Option.getD_some] at hk
      have hq : q.dims[k] < p.dims.length := by
        have := b1.mem_iff.1 (List.getElem_mem k1); simp at this; rw [a3] at this; simpa using this
      have hk' : p.dims[q.dims[k]] = k := by
        rw [List.getD_eq_getElem?_getD, List.getElem?_eq_getElem hq, Option.getD_some] at hk; exact hk
      simp only [List.getElem_map, List.getD_eq_getElem?_getD, List.getElem?_map,
        List.getElem?_eq_getElem hq, Option.map_some, Option.getD_some, hk',
        List.getElem?_eq_getElem k2]
  have hd : v''.dims = v.dims := by rw [b3, a3]; exact key _ rfl
  refine ⟨hd, fun i => ?_⟩
  by_cases hi : i.length = v.dims.length
  · have e := b5 (p.dims.map fun c => i.getD c 0) (by simp [hlp, hl'])
    rw [key i hi, a5 i hi] at e; exact e
  · rw [View.index_eq v h, View.index_eq v'' b2,
      if_neg (show ¬ Valid v.dims i from fun hv => hi hv.length),
      if_neg (show ¬ Valid v''.dims i from fun hv => hi (by rw [hv.length, hd]))]

example : ((exR.permute false ⟨.dynRank, [2, 0, 1]⟩).map fun v' => (v'.dims, v'.index [3, 1, 2])) =
    some ([4, 2, 3], exR.index [1, 2, 3]) ∧ exR.permute false ⟨.dynRank, [0, 0, 1]⟩ = none ∧
    ((exR.permute true ⟨.dynRank, [2, 0, 1]⟩).bind fun v' =>
      v'.permute true ⟨.dynRank, [1, 2, 0]⟩).map (·.dims) = some [2, 3, 4] := by decide

/-! ### C11 -/

/-- `reorder` never fails and reverses shape and indices. -/
theorem C11 (v : View) (h : v.map.WF) :
    ∃ v', v.reorder = some v' ∧ v'.dims = v.dims.reverse ∧
      (∀ j, v'.index j = v.index j.reverse) ∧
      ∃ v'', v'.reorder = some v'' ∧ v''.dims = v.dims ∧ ∀ j, v''.index j = v.index j := by
  obtain ⟨v', hv⟩ := Option.isSome_iff_exists.1 (View.reorder_isSome v h)
  obtain ⟨a1, a2, _, a4⟩ := View.reorder_parts h hv
  obtain ⟨v'', hv'⟩ := Option.isSome_iff_exists.1 (View.reorder_isSome v' a1)
  obtain ⟨_, b2, _, b4⟩ := View.reorder_parts a1 hv'
  refine ⟨v', hv, a2, a4, v'', hv', by rw [b2, a2, List.reverse_reverse], fun j => ?_⟩
  rw [b4, a4, List.reverse_reverse]

example : (exV.reorder.map fun v' => (v'.dims, v'.index [2, 1])) = some ([3, 2], some 6) := by decide

/-! ### C15 -/

/-- Diagonals. -/
theorem C15 (v : View) (h : v.map.WF) (k : Int) :
    ((v.diag k).isSome ↔ ∃ r c : Nat, v.dims = [r, c] ∧ k ≤ c ∧ -k ≤ r) ∧
    ∀ v' r c, v.diag k = some v' → v.dims = [r, c] →
      (0 ≤ k → v'.dims = [min r (c - k.toNat)] ∧ ∀ i, v'.index [i] = v.index [i, i + k.toNat]) ∧
      (k < 0 → v'.dims = [min c (r - (-k).toNat)] ∧ ∀ i, v'.index [i] = v.index [i + (-k).toNat, i]) := by
  obtain ⟨h1, h2⟩ := View.diag_spec v h k
  refine ⟨h1, fun v' r c hv hrc => ?_⟩
  obtain ⟨r', c', hrc', _, _, hd, hi⟩ := h2 v' hv
  rw [hrc] at hrc'
  simp at hrc'
  obtain ⟨rfl, rfl⟩ := hrc'
  constructor
  · intro hk
    have e : (-k).toNat = 0 := by omega
    rw [e] at hd hi
    exact ⟨hd, hi⟩
  · intro hk
    have e : k.toNat = 0 := by omega
    rw [e] at hd hi
    exact ⟨by rw [hd, min_comm]; rfl, hi⟩

example : ((exV.diag 1).map fun v' => (v'.dims, v'.index [1])) = some ([2], exV.index [1, 2]) ∧
    ((exV.diag (-1)).map fun v' => (v'.dims, v'.index [0])) = some ([1], exV.index [1, 0]) ∧
    exV.diag 4 = none ∧ exR.diag 0 = none := by decide

/-! ### C16 -/

/-- Rows and columns, for arrays without a dimension equal to `usize::MAX`. -/
theorem C16 (v : View) (h : v.map.WF) (i : Nat) (hd : ∀ d ∈ v.dims, d < usizeMax)
    (ho : NoOverflow usizeMax v.dims) :
    ((v.row i).isSome ↔ ∃ r c : Nat, v.dims = [r, c] ∧ i < r) ∧
    (∀ v', v.row i = some v' → ∃ r c : Nat, v.dims = [r, c] ∧
      v'.dims = [c] ∧ ∀ j, v'.index j = v.index (i :: j)) ∧
    ((v.col i).isSome ↔ ∃ r c : Nat, v.dims = [r, c] ∧ i < c) ∧
    (∀ v', v.col i = some v' → ∃ r c : Nat, v.dims = [r, c] ∧
      v'.dims = [r] ∧ ∀ j, v'.index j = v.index (j ++ [i])) := by
  obtain ⟨a1, a2⟩ := View.row_spec v h i hd ho
  obtain ⟨b1, b2⟩ := View.col_spec v h i hd ho
  refine ⟨a1, fun v' hv => ?_, b1, fun v' hv => ?_⟩
  · obtain ⟨r, c, e, _, e1, e2⟩ := a2 v' hv; exact ⟨r, c, e, e1, e2⟩
  · obtain ⟨r, c, e, _, e1, e2⟩ := b2 v' hv; exact ⟨r, c, e, e1, e2⟩

/-- The exclusion in `C16` is needed: in an empty array with a dimension `usize::MAX` a valid column
index panics. -/
theorem C16_placeholder_dimension :
    ∃ v : View, v.map.WF ∧ NoOverflow usizeMax v.dims ∧ v.dims = [0, usizeMax] ∧ 1 < usizeMax ∧
      v.col 1 = none :=
  ⟨⟨0, .dense ⟨.static [.dyn, .dyn], [0, usizeMax]⟩⟩, by decide, by decide +kernel, rfl, by decide,
    by decide +kernel⟩

example : ((exV.row 1).map fun v' => (v'.dims, v'.index [2])) = some ([3], exV.index [1, 2]) ∧
    ((exV.col 2).map fun v' => (v'.dims, v'.index [1])) = some ([2], exV.index [1, 2]) ∧
    exV.row 2 = none ∧ exR.row 0 = none := by decide

end Props
