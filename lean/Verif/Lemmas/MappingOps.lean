import Verif.Lemmas.Mapping
import Mathlib.Data.List.Perm.Subperm
import Mathlib.Data.Nat.Bitwise
import Mathlib.Data.List.Induction

namespace Model
open Spec
namespace Mapping

/-- Mapping with a given layout, shape and strides. -/
def mk (ty : ShapeTy) (dims : List Nat) (st : List Int) : Layout → Mapping
  | .dense => dense ⟨ty, dims⟩
  | .strided => strided ⟨ty, dims⟩ st

@[simp] theorem mk_shape (ty dims st L) : (mk ty dims st L).shape = ⟨ty, dims⟩ := by cases L <;> rfl
@[simp] theorem mk_dims (ty dims st L) : (mk ty dims st L).dims = dims := by cases L <;> rfl
@[simp] theorem mk_layout (ty dims st L) : (mk ty dims st L).layout = L := by cases L <;> rfl

theorem mk_strides {ty dims st L} (h : L = .dense → st = denseStrides dims) :
    (mk ty dims st L).strides = st := by
  cases L
  · simp [mk, strides, h]
  · rfl

theorem mk_wf {ty dims st L} (hc : ty.Conforms dims) (hl : st.length = dims.length) :
    (mk ty dims st L).WF := by
  cases L
  · exact wf_dense.2 hc
  · exact ⟨hc, hl⟩

theorem isDense_iff {m : Mapping} : m.isDense = true ↔ m.layout = .dense := by
  cases m <;> simp [isDense, layout]

theorem strides_of_dense {m : Mapping} (h : m.layout = .dense) : m.strides = denseStrides m.dims := by
  cases m with
  | dense s => rfl
  | strided s st => simp [layout] at h

theorem denseStrides_append (a b : List Nat) :
    denseStrides (a ++ b) = (denseStrides a).map (· * (size b : Int)) ++ denseStrides b := by
  induction a with
  | nil => simp [denseStrides]
  | cons d a ih => simp [denseStrides, ih, size_append]

theorem contigLoop_iff (ds : List Nat) (st : List Int) (h : st.length = ds.length) (k : Int) :
    contigLoop (ds.zip st).reverse k = true ↔ st = (denseStrides ds).map (· * k) := by
  induction ds using List.reverseRecOn generalizing st k with
  | nil => cases st <;> simp_all [contigLoop, denseStrides]
  | append_singleton ds d ih =>
    obtain ⟨st, s, rfl⟩ : ∃ st' s, st = st' ++ [s] := by
      have : st ≠ [] := by rintro rfl; simp at h
      exact ⟨st.dropLast, st.getLast this, (List.dropLast_append_getLast this).symm⟩
    simp at h
    rw [List.zip_append h.symm]
    simp only [List.zip_cons_cons, List.zip_nil_left, List.reverse_append, List.reverse_cons,
      List.reverse_nil, List.nil_append, List.cons_append, contigLoop]
    by_cases hs : s = k
    · subst hs
      simp only [ne_eq, not_true_eq_false, if_false]
      rw [ih st h, denseStrides_append]
      simp only [List.map_append, List.map_map, denseStrides, size_cons, size_nil, mul_one,
        List.map_cons, List.map_nil]
      constructor
      · intro h'
        rw [h']
        congr 1
        · apply List.map_congr_left; intro a _; simp [Function.comp]; ring
        · simp
      · intro h'
        have := (List.append_inj' h' rfl).1
        rw [this]; apply List.map_congr_left; intro a _; simp [Function.comp]; ring
    · simp only [ne_eq, hs, not_false_eq_true, if_true]
      constructor
      · intro h'; simp at h'
      · intro h'
        exfalso
        rw [denseStrides_append] at h'
        simp only [List.map_append, denseStrides, size_nil, List.map_cons, List.map_nil] at h'
        have := (List.append_inj' h' rfl).2
        simp at this; exact hs this

theorem isContiguous_iff {m : Mapping} (h : m.WF) :
    m.isContiguous = true ↔ m.strides = denseStrides m.dims := by
  cases m with
  | dense s => simp [isContiguous, strides]
  | strided s st =>
    have := contigLoop_iff s.dims st h.2 1
    simpa [isContiguous, strides] using this

theorem remap_eq (m : Mapping) (h : m.WF) (ty : ShapeTy) (L : Layout) :
    m.remap ty L = if ty.Conforms m.dims ∧ (L = .dense → m.isContiguous = true)
      then some (mk ty m.dims m.strides L) else none := by
  cases L with
  | dense =>
    unfold remap; dsimp only; rw [check_bind, Shape.fromDims_eq]
    by_cases h1 : m.isContiguous = true <;> by_cases h2 : ty.Conforms m.dims <;> simp [h1, h2, mk]
  | strided =>
    unfold remap
    dsimp only
    by_cases h2 : ty.Conforms m.dims
    · rw [dimsNew_of_conforms h2]
      simp only [Option.bind_eq_bind, Option.bind_some]
      rw [storeStrides_id _ _ (by simp [h.len]), Shape.fromDims_eq]
      simp [h2, mk]
    · rw [Shape.fromDims_eq]; simp [h2]

theorem prependDim_eq (m : Mapping) (h : m.WF) (n : Nat) (s : Int) (ty : ShapeTy) (L : Layout) :
    m.prependDim n s ty L =
      if ty.Conforms (n :: m.dims) ∧ (L = .dense → m.layout = .dense ∧ s = size m.dims)
      then some (mk ty (n :: m.dims) (s :: m.strides) L) else none := by
  cases L with
  | dense =>
    unfold prependDim; dsimp only; rw [check_bind, check_bind, Shape.prependDim_eq]
    by_cases h1 : m.isDense = true <;> by_cases h2 : ty.Conforms (n :: m.dims)
      <;> by_cases h3 : s = (m.len : Int)
      <;> simp [h1, h2, h3, mk, ← isDense_iff, ← len_eq]
  | strided =>
    unfold prependDim
    dsimp only
    rw [Shape.prependDim_eq]
    by_cases h2 : ty.Conforms (n :: m.dims)
    · rw [show m.rank + 1 = (n :: m.dims).length from rfl, dimsNew_of_conforms h2]
      simp only [Option.bind_eq_bind, Option.bind_some, List.length_cons, List.replicate_succ, setM,
        Nat.zero_lt_succ, if_true, List.set_cons_zero]
      rw [storeStrides_succ _ _ _ (by simp [h.len])]
      simp [h2, mk]
    · simp [h2]

theorem removeDim_eq (m : Mapping) (h : m.WF) (i : Nat) (ty : ShapeTy) (L : Layout) :
    m.removeDim i ty L =
      if i < m.dims.length ∧ ty.Conforms (m.dims.eraseIdx i) ∧ (L = .dense → m.layout = .dense ∧ i = 0)
      then some (mk ty (m.dims.eraseIdx i) (m.strides.eraseIdx i) L) else none := by
  cases L with
  | dense =>
    unfold removeDim; dsimp only; rw [check_bind, check_bind, Shape.removeDim_eq]
    by_cases h1 : m.isDense = true <;> by_cases h2 : ty.Conforms (m.dims.eraseIdx i)
      <;> by_cases h3 : i = 0 <;> by_cases h4 : i < m.dims.length
      <;> simp [h1, h2, h3, h4, mk, ← isDense_iff]
    all_goals (subst h3; simp_all)
  | strided =>
    unfold removeDim
    dsimp only
    rw [check_bind, Shape.removeDim_eq]
    by_cases h1 : i < m.dims.length
    · have hr : m.rank - 1 = (m.dims.eraseIdx i).length := by rw [List.length_eraseIdx]; simp [h1]
      by_cases h2 : ty.Conforms (m.dims.eraseIdx i)
      · rw [hr, dimsNew_of_conforms h2]
        simp only [Option.bind_eq_bind, Option.bind_some]
        rw [storeStrides_erase _ _ _ (by rw [h.len]; exact h1) (by rw [h.len]; simp [hr])]
        simp [h1, h2, mk]
      · simp [h2]
    · simp [h1]

theorem resizeDim_eq (m : Mapping) (h : m.WF) (i n : Nat) (ty : ShapeTy) (L : Layout) :
    m.resizeDim i n ty L =
      if i < m.dims.length ∧ ty.Conforms (m.dims.set i n) ∧ (L = .dense → m.layout = .dense ∧ i = 0)
      then some (mk ty (m.dims.set i n) m.strides L) else none := by
  cases L with
  | dense =>
    unfold resizeDim; dsimp only; rw [check_bind, check_bind, Shape.resizeDim_eq]
    by_cases h1 : m.isDense = true <;> by_cases h2 : ty.Conforms (m.dims.set i n)
      <;> by_cases h3 : i = 0 <;> by_cases h4 : i < m.dims.length
      <;> simp [h1, h2, h3, h4, mk, ← isDense_iff]
    all_goals (subst h3; simp_all)
  | strided =>
    unfold resizeDim
    dsimp only
    rw [Shape.resizeDim_eq]
    by_cases h1 : i < m.dims.length
    · have hr : m.rank = (m.dims.set i n).length := by simp
      by_cases h2 : ty.Conforms (m.dims.set i n)
      · have hdn := dimsNew_of_conforms h2
        rw [← hr] at hdn
        rw [hdn]
        simp only [Option.bind_eq_bind, Option.bind_some]
        rw [storeStrides_id _ _ (by simp [h.len])]
        simp [h1, h2, mk]
      · simp [h2]
    · simp [h1]

theorem reorder_eq (m : Mapping) (h : m.WF) (L : Layout) :
    m.reorder L =
      if m.shape.ty.reverse.Conforms m.dims.reverse ∧ (L = .dense → m.layout = .dense ∧ m.dims.length < 2)
      then some (mk m.shape.ty.reverse m.dims.reverse m.strides.reverse L) else none := by
  cases L with
  | dense =>
    unfold reorder; dsimp only; rw [check_bind, Shape.reverse_eq]
    by_cases h1 : m.isDense = true <;> by_cases h2 : m.shape.ty.reverse.Conforms m.dims.reverse
      <;> by_cases h3 : m.dims.length < 2 <;> simp [h1, h2, h3, mk, ← isDense_iff]
  | strided =>
    unfold reorder
    dsimp only
    rw [Shape.reverse_eq]
    by_cases h2 : m.shape.ty.reverse.Conforms m.dims.reverse
    · have hr : m.rank = (m.dims.reverse).length := by simp
      have hdn := dimsNew_of_conforms h2
      rw [← hr] at hdn
      rw [hdn]
      simp only [Option.bind_eq_bind, Option.bind_some]
      rw [storeStrides_reverse _ _ (by simp [h.len]) _ (by simp [h.len])]
      simp [h2, mk]
    · simp [h2]

/-! ### Permutations -/

theorem mask_testBit (perm : List Nat) (acc j : Nat) (hp : ∀ p ∈ perm, p < 64) :
    (perm.foldl (fun acc p => acc ||| (1 <<< (p % 64))) acc).testBit j
      = (acc.testBit j || decide (j ∈ perm)) := by
  induction perm generalizing acc with
  | nil => simp
  | cons p perm ih =>
    rw [List.foldl_cons, ih _ (fun q hq => hp q (List.mem_cons_of_mem _ hq))]
    have : p % 64 = p := Nat.mod_eq_of_lt (hp p (List.mem_cons_self ..))
    rw [this, Nat.testBit_or, Nat.one_shiftLeft, Nat.testBit_two_pow]
    by_cases h : p = j
    · subst h; simp
    · simp [h, Ne.symm h]

theorem permMask_target (r : Nat) (h : r < 64) :
    usizeMax - (usizeMax <<< (r % 64)) % 2 ^ 64 = 2 ^ r - 1 := by
  rw [Nat.mod_eq_of_lt h, Nat.shiftLeft_eq]
  have h1 : 2 ^ r ≤ 2 ^ 64 := Nat.pow_le_pow_right (by omega) (by omega)
  have h0 : 0 < 2 ^ r := Nat.two_pow_pos r
  have : usizeMax * 2 ^ r = (2^64 - 2 ^ r) + (2 ^ r - 1) * 2 ^ 64 := by
    unfold usizeMax
    generalize 2 ^ r = x at *
    omega
  rw [this, Nat.add_mul_mod_self_right, Nat.mod_eq_of_lt (by omega)]
  unfold usizeMax
  omega

theorem permMaskOk_iff {checks : Bool} {r : Nat} {perm : List Nat} (hr : r < 64) (hp : ∀ p ∈ perm, p < r) :
    permMaskOk checks r perm = true ↔ ∀ j < r, j ∈ perm := by
  unfold permMaskOk
  simp only [permMask_target r hr, hr, decide_true, Bool.or_true, Bool.true_and, beq_iff_eq]
  constructor
  · intro h j hj
    have := mask_testBit perm 0 j (fun p hh => by have := hp p hh; omega)
    rw [h, Nat.testBit_two_pow_sub_one] at this
    simpa [hj] using this.symm
  · intro h
    apply Nat.eq_of_testBit_eq
    intro j
    rw [mask_testBit perm 0 j (fun p hh => by have := hp p hh; omega), Nat.testBit_two_pow_sub_one]
    simp
    constructor
    · exact hp j
    · exact h j

/-- Valid permutations of `0..r`. -/
theorem perm_iff {r : Nat} {perm : List Nat} :
    (perm.length = r ∧ (∀ p ∈ perm, p < r) ∧ ∀ j < r, j ∈ perm) ↔ perm.Perm (List.range r) := by
  constructor
  · rintro ⟨hl, h1, h2⟩
    have : (List.range r).Subperm perm :=
      List.subperm_of_subset List.nodup_range (fun j hj => h2 j (List.mem_range.1 hj))
    exact (this.perm_of_length_le (by simp [hl])).symm
  · intro h
    refine ⟨by simpa using h.length_eq, fun p hp => List.mem_range.1 (h.mem_iff.1 hp),
      fun j hj => h.mem_iff.2 (List.mem_range.2 hj)⟩

theorem invLoop (perm : List Nat) (k : Nat) (init : List Nat)
    (hp : ∀ p ∈ perm, p < init.length) (hn : perm.Nodup) :
    ∃ r, (perm.zipIdx k).foldlM (fun acc x => setM acc x.1 x.2) init = some r ∧
      r.length = init.length ∧
      (∀ i (h : i < perm.length), r[perm[i]]? = some (k + i)) ∧ ∀ j, j ∉ perm → r[j]? = init[j]? := by
  induction perm generalizing k init with
  | nil => exact ⟨init, rfl, rfl, by simp, by simp⟩
  | cons p perm ih =>
    have hp0 := hp p (List.mem_cons_self ..)
    rw [List.nodup_cons] at hn
    obtain ⟨r, h1, h2, h3, h4⟩ := ih (k+1) (init.set p k)
      (fun q hq => by simpa using hp q (List.mem_cons_of_mem _ hq)) hn.2
    refine ⟨r, ?_, by simpa using h2, ?_, ?_⟩
    · rw [List.zipIdx_cons, List.foldlM_cons]
      simp only [setM, hp0, if_true]
      exact h1
    · intro i hi
      cases i with
      | zero => simp only [List.getElem_cons_zero]; rw [h4 p hn.1]; simp [hp0]
      | succ i => simp only [List.getElem_cons_succ]; rw [h3 i (by simpa using hi)]; congr 1; omega
    · intro j hj
      simp only [List.mem_cons, not_or] at hj
      rw [h4 j hj.2]; simp [Ne.symm hj.1]

theorem mapM_dim (m : Mapping) (perm : List Nat) (hp : ∀ p ∈ perm, p < m.dims.length) :
    perm.mapM (fun p => m.dim p) = some (perm.map fun p => m.dims.getD p 0) := by
  induction perm with
  | nil => rfl
  | cons p perm ih =>
    rw [List.mapM_cons, ih (fun q hq => hp q (List.mem_cons_of_mem _ hq))]
    have := hp p (List.mem_cons_self ..)
    simp [List.getElem?_eq_getElem this]

theorem permute_strided_eq (m : Mapping) (h : m.WF) (checks : Bool) (perm : List Nat) (ty : ShapeTy)
    (hr : m.dims.length < 64) :
    m.permute checks perm ty .strided =
      if perm.Perm (List.range m.dims.length) ∧ ty.Conforms (perm.map fun p => m.dims.getD p 0)
      then some (strided ⟨ty, perm.map fun p => m.dims.getD p 0⟩ (perm.map fun p => m.strides.getD p 0))
      else none := by
  unfold permute
  dsimp only
  by_cases h1 : perm.length = m.rank
  swap
  · have : ¬ perm.Perm (List.range m.dims.length) := fun hh => h1 (by simpa using hh.length_eq)
    rw [check_neg h1]; simp [this]
  rw [check_pos h1]
  by_cases h2 : ∀ p ∈ perm, p < m.rank
  swap
  · have : ¬ perm.Perm (List.range m.dims.length) := fun hh => h2 (perm_iff.2 hh).2.1
    rw [check_neg h2]; simp [this]
  rw [check_pos h2]
  by_cases h3 : permMaskOk checks m.rank perm = true
  swap
  · have : ¬ perm.Perm (List.range m.dims.length) := fun hh =>
      h3 ((permMaskOk_iff hr h2).2 (perm_iff.2 hh).2.2)
    rw [check_neg h3]; simp [this]
  rw [check_pos h3]
  have hperm : perm.Perm (List.range m.dims.length) :=
    perm_iff.1 ⟨h1, h2, (permMaskOk_iff hr h2).1 h3⟩
  have hnd : perm.Nodup := hperm.nodup_iff.2 List.nodup_range
  have hdl : (perm.map fun p => m.dims.getD p 0).length = m.rank := by simp [h1]
  by_cases hc : ty.Conforms (perm.map fun p => m.dims.getD p 0)
  · obtain ⟨s, hs⟩ := Shape.new_of_conforms hc
    rw [hdl] at hs
    obtain ⟨hs1, hs2⟩ := Shape.new_eq_some hs
    have hdn := dimsNew_of_conforms hc
    rw [hdl] at hdn
    obtain ⟨inv, hi1, hi2, hi3, hi4⟩ := invLoop perm 0 s.dims (by rw [hs2]; exact h2) hnd
    rw [hs, hdn]
    simp only [Option.bind_eq_bind, Option.bind_some]
    rw [hi1]
    simp only [Option.bind_some]
    have hinv : ∀ i, i < m.dims.length → ∃ j, ∃ hj : j < perm.length, perm[j] = i ∧ inv[i]? = some j := by
      intro i hi
      have : i ∈ perm := hperm.mem_iff.2 (List.mem_range.2 hi)
      obtain ⟨j, hj, e⟩ := List.getElem_of_mem this
      refine ⟨j, hj, e, ?_⟩
      have := hi3 j hj
      rw [e] at this; simpa using this
    have hst : storeStrides m.forEachStride (fun i => inv[i]?) (List.replicate m.rank 0)
        = some (perm.map fun p => m.strides.getD p 0) := by
      apply storeStrides_eq
      · simp [h1]
      · intro i hi j hj
        obtain ⟨j', hj', _, e⟩ := hinv i (by rw [← h.len]; exact hi)
        rw [e] at hj; simp at hj ⊢; omega
      · intro i hi i' hi' j hj hj'
        obtain ⟨a, ha, ea, ea'⟩ := hinv i (by rw [← h.len]; exact hi)
        obtain ⟨b, hb, eb, eb'⟩ := hinv i' (by rw [← h.len]; exact hi')
        rw [ea'] at hj; rw [eb'] at hj'
        simp at hj hj'; subst hj; subst hj'; rw [← ea, ← eb]
      · intro j hj
        left
        have hj' : j < perm.length := by simpa using hj
        have hlt : perm[j] < m.strides.length := by rw [h.len]; exact h2 _ (List.getElem_mem _)
        refine ⟨perm[j], hlt, ?_, ?_⟩
        · have := hi3 j hj'; simpa using this
        · rw [List.getElem?_eq_getElem hlt, List.getElem?_eq_getElem hj]; simp [List.getD, hlt]
    rw [hst]
    simp only [Option.bind_some]
    rw [mapM_dim m perm h2]
    simp only [Option.bind_some]
    rw [Shape.withMutDims_eq, hs1, if_pos ⟨hperm, hc⟩]
    simp only [Option.bind_some]
    rw [if_pos hc]
    rfl
  · rw [if_neg (fun hh => hc hh.2)]
    cases hs : Shape.new ty m.rank with
    | none => rfl
    | some s =>
      obtain ⟨hs1, hs2⟩ := Shape.new_eq_some hs
      cases hdn : dimsNew ty m.rank with
      | none => rfl
      | some st =>
        simp only [Option.bind_eq_bind, Option.bind_some]
        cases hA : List.foldlM (fun acc (x : Nat × Nat) => setM acc x.1 x.2) s.dims perm.zipIdx with
        | none => rfl
        | some inv =>
          simp only [Option.bind_some]
          cases hB : storeStrides m.forEachStride (fun i => inv[i]?) st with
          | none => rfl
          | some st' =>
            simp only [Option.bind_some, mapM_dim m perm h2, Shape.withMutDims_eq, hs1, hc, if_false,
              Option.bind_none]

/-- With overflow checks only ranks below 64 pass. -/
theorem permute_strided_checked {m m' : Mapping} {perm : List Nat} {ty : ShapeTy}
    (h : m.permute true perm ty .strided = some m') : m.dims.length < 64 := by
  unfold permute at h
  dsimp only at h
  rw [check_bind] at h; split at h
  swap
  · simp at h
  rw [check_bind] at h; split at h
  swap
  · simp at h
  rw [check_bind] at h; split at h
  swap
  · simp at h
  rename_i h3
  simp [permMaskOk] at h3
  exact h3.1

theorem permute_dense_eq (m : Mapping) (h : m.WF) (checks : Bool) (perm : List Nat) (ty : ShapeTy) :
    m.permute checks perm ty .dense =
      if perm = List.range m.dims.length ∧ ty.Conforms m.dims ∧ m.isContiguous = true
      then some (dense ⟨ty, m.dims⟩) else none := by
  unfold permute
  dsimp only
  rw [check_bind, check_bind, remap_eq m h]
  have key : (perm.length = m.rank ∧ ∀ x ∈ perm.zipIdx, x.1 = x.2) ↔ perm = List.range m.dims.length := by
    constructor
    · rintro ⟨h1, h2⟩
      apply List.ext_getElem
      · simp [h1]
      · intro i hi _
        have := h2 (perm[i], i) (by rw [List.mem_zipIdx_iff_getElem?]; simp [hi])
        simpa using this
    · intro e
      refine ⟨by simp [e], ?_⟩
      rintro ⟨a, b⟩ hx
      rw [List.mem_zipIdx_iff_getElem?, e] at hx
      rw [List.getElem?_eq_some_iff] at hx
      obtain ⟨_, hx⟩ := hx
      simpa using hx.symm
  by_cases h1 : perm = List.range m.dims.length
  · obtain ⟨ha, hb⟩ := key.2 h1
    rw [if_pos ha, if_pos hb]
    by_cases h2 : ty.Conforms m.dims <;> by_cases h3 : m.isContiguous = true <;> simp [h1, h2, h3, mk]
  · rw [if_neg (fun hh : _ ∧ _ => h1 hh.1)]
    by_cases ha : perm.length = m.rank
    · rw [if_pos ha, if_neg (fun hb => h1 (key.1 ⟨ha, hb⟩))]
    · rw [if_neg ha]

end Mapping
end Model
