import Verif.Lemmas.Reach
import Verif.Lemmas.Overflow

/-! Histories of view operations: C04, C05, C49, C51. -/

namespace Props
open Spec Model

/-! ### C04, C05 -/

/-- Every valid index of a view reached by safe calls addresses an element of the original array,
and every other index is rejected. -/
theorem C04 (s : Shape) (hs : s.WF) (hu : Usize s.dims) (hn : size s.dims ≤ usizeMax)
    (checks : Bool) (v : View) (hr : Reach checks (whole s) v) (i : List Nat) :
    (Valid v.dims i → ∃ p : Nat, p < size s.dims ∧ v.index i = some (p : Int)) ∧
    (¬ Valid v.dims i → v.index i = none) := by
  have hg := View.good_reach (View.inv_whole hs hu hn) hr
  obtain ⟨f, h1, _⟩ := hg.2.2
  constructor
  · intro hi
    refine ⟨rowMajor s.dims (f i), rowMajor_lt (h1 i hi).1, ?_⟩
    rw [(h1 i hi).2, View.index_whole hs, if_pos (show Valid s.dims _ from (h1 i hi).1)]
  · intro hi
    have := View.index_isSome v hg.1 i
    cases e : v.index i with
    | none => rfl
    | some p => exact absurd (this.1 (by rw [e]; rfl)) hi

/-- Distinct valid indices of a view reached by safe calls address distinct elements. -/
theorem C05 (s : Shape) (hs : s.WF) (hu : Usize s.dims) (hn : size s.dims ≤ usizeMax)
    (checks : Bool) (v : View) (hr : Reach checks (whole s) v) (i j : List Nat)
    (hi : Valid v.dims i) (hj : Valid v.dims j) (e : v.index i = v.index j) : i = j := by
  have hg := View.good_reach (View.inv_whole hs hu hn) hr
  obtain ⟨f, h1, h2⟩ := hg.2.2
  rw [(h1 i hi).2, (h1 j hj).2, View.index_whole hs, View.index_whole hs,
    if_pos (show Valid s.dims _ from (h1 i hi).1), if_pos (show Valid s.dims _ from (h1 j hj).1)] at e
  exact h2 i j hi hj (rowMajor_inj (h1 i hi).1 (h1 j hj).1 (Int.ofNat.inj (Option.some.inj e)))

/-- A history: permute, take a stepped view, reshape. -/
example : ∃ v, Reach false (whole ⟨.static [.dyn, .const 6], [4, 6]⟩) v ∧ v.dims = [3, 3, 1] ∧
    Valid v.dims [1, 2, 0] ∧ v.index [1, 2, 0] = some 21 := by
  let v1 : View := ⟨0, .strided ⟨.static [.const 6, .dyn], [6, 4]⟩ [1, 6]⟩
  let v2 : View := ⟨11, .strided ⟨.static [.dyn, .dyn], [3, 3]⟩ [-2, 6]⟩
  let v3 : View := ⟨11, .strided ⟨.dynRank, [3, 3, 1]⟩ [-2, 6, 6]⟩
  refine ⟨v3, ?_, rfl, by decide, by decide⟩
  refine .call (v := v2) (.call (v := v1) (.call .refl (.inr (by decide))
    (.permute (perm := ⟨.static [.const 1, .const 0], [1, 0]⟩) (by decide) (by decide)))
    (.inr (by decide))
    (.view (xs := [.step .unbounded .unbounded (-2), .range (.included 1) .unbounded]) rfl
      (by decide +kernel))) (.inr (by decide))
    (.reshape (ns := ⟨.dynRank, [3, 3, 1]⟩) (by decide) ?_ (by decide +kernel))
  intro d hd
  have : d = 3 ∨ d = 1 := by simpa using hd
  rcases this with rfl | rfl <;> simp [usizeMax]

/-! ### C49 -/

theorem size_drop_le {ds : List Nat} (h : 0 < size ds) (t : Nat) : size (ds.drop t) ≤ size ds := by
  have e : size ds = size (ds.take t) * size (ds.drop t) := by
    rw [← size_append, List.take_append_drop]
  rw [e]
  exact Nat.le_mul_of_pos_left _ (Nat.pos_of_ne_zero fun e0 => by rw [e, e0] at h; simp at h)

theorem dvd_size {ds : List Nat} {d : Nat} (hd : d ∈ ds) : d ∣ size ds := by
  obtain ⟨a, b, rfl⟩ := List.append_of_mem hd
  rw [size_append]
  exact Nat.dvd_trans (Nat.dvd_mul_right d (size b)) (Nat.dvd_mul_left _ _)

theorem dim_le_size {ds : List Nat} (h : 0 < size ds) {d : Nat} (hd : d ∈ ds) : d ≤ size ds :=
  Nat.le_of_dvd h (dvd_size hd)

/-- For every reachable view of an array with at most `isize::MAX` elements, computing the offset of
a valid index, with every intermediate product, sum and cast checked against `isize`/`usize`, never
overflows and gives the mathematical result. -/
theorem C49 (s : Shape) (hs : s.WF) (hu : Usize s.dims) (hn : size s.dims < 9223372036854775808)
    (checks : Bool) (v : View) (hr : Reach checks (whole s) v) :
    (∀ i, Valid v.dims i → ∃ o, v.map.offsetChk i = some o ∧ v.index i = some (v.ptr + o)) ∧
    (∀ k, k < size v.dims → ∃ o, v.map.linearOffsetChk k = some o ∧ v.linIndex k = some (v.ptr + o)) := by
  have hg := View.good_reach (View.inv_whole hs hu (by unfold usizeMax; omega)) hr
  have hle : size v.dims ≤ size s.dims := hg.2.2.size_le
  obtain ⟨f, h1, _⟩ := hg.2.2
  have hwf := hg.1
  have hpos : ∀ i, Valid v.dims i → 0 < size v.dims := fun i hi => Nat.lt_of_le_of_lt (Nat.zero_le _) (rowMajor_lt hi)
  have hrange : ∀ i, Valid v.dims i →
      0 ≤ v.ptr + dot v.map.strides i ∧ v.ptr + dot v.map.strides i < size s.dims := fun i hi => by
    have e := (h1 i hi).2
    rw [View.index_eq v hwf, if_pos hi, View.index_whole hs,
      if_pos (show Valid s.dims _ from (h1 i hi).1)] at e
    have := rowMajor_lt (show Valid s.dims _ from (h1 i hi).1)
    injection e with e
    omega
  have hzero : 0 < size v.dims → 0 ≤ v.ptr ∧ v.ptr < size s.dims := fun hp => by
    have hv : Valid v.dims (List.replicate v.dims.length 0) := by
      rw [valid_iff]
      refine ⟨by simp, fun k k1 k2 => ?_⟩
      have : v.dims[k] ≠ 0 := fun e0 => by
        have := dvd_size (List.getElem_mem k2)
        rw [e0, Nat.zero_dvd] at this
        exact absurd this (Nat.pos_iff_ne_zero.1 hp)
      simp; omega
    have := hrange _ hv
    rw [dot_zeros] at this
    omega
  have hb : ∀ i, Valid v.map.dims i →
      -(size s.dims : Int) < dot v.map.strides i ∧ dot v.map.strides i < size s.dims := fun i hi => by
    have a := hrange i hi
    have b := hzero (hpos i hi)
    omega
  have hN : ((size s.dims : Nat) : Int) < 9223372036854775808 := by omega
  constructor
  · intro i hi
    have hp := hpos i hi
    refine ⟨dot v.map.strides i, ?_, by rw [View.index_eq v hwf, if_pos hi]⟩
    rw [Mapping.offsetChk_eq v.map hwf (size s.dims) hN hb
      (fun _ t => (size_drop_le hp t).trans hle) (fun d hd => (dim_le_size hp hd).trans hle) hi,
      Mapping.offset_eq _ _ (by rw [hi.length, hwf.len])]
  · intro k hk
    have hp : 0 < size v.dims := by omega
    refine ⟨lin v.dims v.map.strides k, ?_, by rw [View.linIndex_eq v hwf, if_pos hk]⟩
    rw [Mapping.linearOffsetChk_eq v.map hwf (size s.dims) hN hb hle
      (fun d hd => (dim_le_size hp hd).trans hle) hk, Mapping.linearOffset_eq _ hwf k hk]

/-- The bound matters: with a stride of `2^62` the same computation overflows. -/
example : (Mapping.strided ⟨.dynRank, [3]⟩ [4611686018427387904]).offsetChk [2] = none ∧
    (Mapping.strided ⟨.dynRank, [3]⟩ [4611686018427387904]).offsetChk [1] = some 4611686018427387904 := by
  decide

example : ∃ v, Reach true (whole ⟨.dynRank, [3, 4]⟩) v ∧ v.map.layout = .strided ∧
    v.map.offsetChk [3, 2] = some 11 :=
  ⟨⟨0, .strided ⟨.dynRank, [4, 3]⟩ [1, 4]⟩, .call .refl (.inl rfl) (.reorder (by decide)), rfl, by decide⟩

/-! ### C51 -/

/-- `permute` rejects every argument that is not a permutation: in builds with overflow checks for
every rank. Missing: builds without overflow checks and rank 65 or more, where it is false (see
`C51_violated`); rank 64 panics for every argument. -/
theorem C51_partial (v v' : View) (h : v.map.WF) (checks : Bool) (perm : Shape)
    (hr : checks = true ∨ v.dims.length < 64) (hv : v.permute checks perm = some v') :
    perm.dims.Perm (List.range v.dims.length) :=
  (View.permute_parts h hr hv).1

/-- Without overflow checks the bit mask test wraps for rank 65: 65 zeros are accepted as a
"permutation" of the axes of an array of 2 elements, and the result has a valid index that addresses
a position outside of the array. -/
theorem C51_violated :
    ∃ (s perm : Shape) (v' : View) (i : List Nat), s.WF ∧ perm.WF ∧ Usize s.dims ∧ size s.dims = 2 ∧
      (whole s).permute false perm = some v' ∧
      ¬ perm.dims.Perm (List.range (whole s).dims.length) ∧
      Valid v'.dims i ∧ v'.index i = some 2 := by
  refine ⟨⟨.dynRank, 2 :: List.replicate 64 1⟩, ⟨.dynRank, List.replicate 65 0⟩,
    ⟨0, .strided ⟨.dynRank, List.replicate 65 2⟩ (1 :: List.replicate 63 0 ++ [1])⟩,
    1 :: List.replicate 63 0 ++ [1], trivial, trivial, ?_, by decide, by decide +kernel, ?_,
    by decide +kernel, by decide +kernel⟩
  · intro d hd
    simp at hd
    rcases hd with rfl | rfl <;> simp [usizeMax]
  · intro hp
    have : (List.range 65).Nodup := List.nodup_range
    have := hp.nodup_iff.2 this
    exact absurd this (by decide +kernel)

end Props
