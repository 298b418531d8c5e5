import Verif.Model.Mapping
import Verif.Lemmas.Shape

namespace Spec

/-- Row-major strides of a dense array. -/
def denseStrides : List Nat → List Int
  | [] => []
  | _ :: ds => (size ds : Int) :: denseStrides ds

@[simp] theorem length_denseStrides (ds) : (denseStrides ds).length = ds.length := by
  induction ds with
  | nil => rfl
  | cons d ds ih => simp [denseStrides, ih]

theorem dot_denseStrides {ds is} (h : is.length = ds.length) :
    dot (denseStrides ds) is = (rowMajor ds is : Int) := by
  induction ds generalizing is with
  | nil => cases is <;> simp_all [denseStrides, rowMajor]
  | cons d ds ih =>
    cases is with
    | nil => simp at h
    | cons i is =>
      simp at h
      simp only [denseStrides, dot_cons, ih h, rowMajor]
      push_cast; ring

end Spec

namespace Model
open Spec

namespace Mapping

/-- Strides of a mapping, as a list. -/
def strides : Mapping → List Int
  | dense s => denseStrides s.dims
  | strided _ st => st

/-- Mappings that can exist at run time. -/
def WF (m : Mapping) : Prop := m.shape.WF ∧ m.strides.length = m.dims.length

instance decidableWF (m : Mapping) : Decidable m.WF := by unfold WF; infer_instance

theorem WF.len {m : Mapping} (h : m.WF) : m.strides.length = m.dims.length := h.2

theorem rank_eq (m : Mapping) : m.rank = m.dims.length := rfl
theorem len_eq (m : Mapping) : m.len = size m.dims := Shape.len_eq _
theorem isEmpty_iff {m : Mapping} : m.isEmpty = true ↔ size m.dims = 0 := Shape.isEmpty_iff
@[simp] theorem dim_eq (m : Mapping) (i) : m.dim i = m.dims[i]? := rfl

theorem wf_dense {s : Shape} : (dense s).WF ↔ s.WF := by
  simp [WF, strides, dims, shape]

theorem getElem?_denseStrides (ds : List Nat) (i) :
    (denseStrides ds)[i]? = if i < ds.length then some (size (ds.drop (i+1)) : Int) else none := by
  induction ds generalizing i with
  | nil => simp [denseStrides]
  | cons d ds ih =>
    cases i with
    | zero => simp [denseStrides]
    | succ i => simp [denseStrides, ih]

theorem stride_eq (m : Mapping) (h : m.WF) (i) : m.stride i = m.strides[i]? := by
  cases m with
  | dense s =>
    unfold stride
    rw [check_bind]
    simp only [strides, getElem?_denseStrides]
    split
    · simp [size, List.prod_eq_foldl]
    · rfl
  | strided s st =>
    unfold stride
    rw [check_bind]
    simp only [strides]
    have := h.2
    simp only [strides] at this
    split
    · rfl
    · rename_i hh
      rw [List.getElem?_eq_none]; exact Nat.le_trans (Nat.le_of_eq this) (Nat.not_lt.1 hh)

theorem denseCalls_aux (ds : List Nat) (k : Nat) :
    (ds.zipIdx k).foldr (fun x (acc : List (Nat × Int) × Nat) =>
      (acc.1 ++ [(x.2, (acc.2 : Int))], acc.2 * x.1)) ([], 1)
    = (((denseStrides ds).zipIdx k).map (fun x => (x.2, x.1))|>.reverse, size ds) := by
  induction ds generalizing k with
  | nil => rfl
  | cons d ds ih =>
    simp only [List.zipIdx_cons, List.foldr_cons, ih, denseStrides, List.map_cons,
      List.reverse_cons, size_cons]
    rw [Nat.mul_comm]

theorem forEachStride_perm (m : Mapping) :
    m.forEachStride = (m.strides.zipIdx.map fun x => (x.2, x.1)) ∨
    m.forEachStride = (m.strides.zipIdx.map fun x => (x.2, x.1)).reverse := by
  cases m with
  | dense s => right; simp only [forEachStride, denseCalls, denseCalls_aux, strides]
  | strided s st => left; rfl

theorem mem_forEachStride {m : Mapping} {i s} :
    (i, s) ∈ m.forEachStride ↔ m.strides[i]? = some s := by
  have : ∀ l : List Int, (i, s) ∈ (l.zipIdx.map fun x => (x.2, x.1)) ↔ l[i]? = some s := by
    intro l
    simp only [List.mem_map, Prod.mk.injEq, Prod.exists]
    constructor
    · rintro ⟨a, b, h, rfl, rfl⟩
      have := List.mem_zipIdx_iff_getElem?.1 h
      simpa using this
    · intro h
      exact ⟨s, i, List.mem_zipIdx_iff_getElem?.2 h, rfl, rfl⟩
  rcases forEachStride_perm m with h | h <;> rw [h]
  · exact this _
  · rw [List.mem_reverse]; exact this _

theorem storeStrides_spec (calls : List (Nat × Int)) (target : Nat → Option Nat) (init : List Int)
    (hr : ∀ c ∈ calls, ∀ j, target c.1 = some j → j < init.length) :
    ∃ r, storeStrides calls target init = some r ∧ r.length = init.length ∧
      (∀ c ∈ calls, ∀ j, target c.1 = some j → (∀ c' ∈ calls, target c'.1 = some j → c' = c) →
        r[j]? = some c.2) ∧
      (∀ j, (∀ c ∈ calls, target c.1 ≠ some j) → r[j]? = init[j]?) := by
  induction calls generalizing init with
  | nil => exact ⟨init, rfl, rfl, by simp, by simp⟩
  | cons c calls ih =>
    unfold storeStrides
    rw [List.foldlM_cons]
    cases ht : target c.1 with
    | none =>
      obtain ⟨r, h1, h2, h3, h4⟩ := ih init (fun c hc => hr c (List.mem_cons_of_mem _ hc))
      refine ⟨r, h1, h2, ?_, ?_⟩
      · intro c' hc' j hj huniq
        rcases List.mem_cons.1 hc' with rfl | hc'
        · rw [ht] at hj; simp at hj
        · exact h3 c' hc' j hj (fun c'' h'' => huniq c'' (List.mem_cons_of_mem _ h''))
      · intro j hj; exact h4 j (fun c' hc' => hj c' (List.mem_cons_of_mem _ hc'))
    | some j0 =>
      have hj0 := hr c (List.mem_cons_self ..) j0 ht
      simp only [setM, hj0, if_true]
      obtain ⟨r, h1, h2, h3, h4⟩ := ih (init.set j0 c.2)
        (fun c hc j hj => by simpa using hr c (List.mem_cons_of_mem _ hc) j hj)
      refine ⟨r, h1, by simpa using h2, ?_, ?_⟩
      · intro c' hc' j hj huniq
        by_cases hin : ∃ c'' ∈ calls, target c''.1 = some j
        · obtain ⟨c'', hc'', ht''⟩ := hin
          have e := huniq c'' (List.mem_cons_of_mem _ hc'') ht''
          subst e
          exact h3 c'' hc'' j hj (fun d hd => huniq d (List.mem_cons_of_mem _ hd))
        · have hnone : ∀ c'' ∈ calls, target c''.1 ≠ some j := by
            intro c'' h'' e; exact hin ⟨c'', h'', e⟩
          rcases List.mem_cons.1 hc' with rfl | hc'
          · rw [ht] at hj; cases hj
            rw [h4 _ hnone]; simp [hj0]
          · exact absurd hj (hnone c' hc')
      · intro j hj
        rw [h4 j (fun c' hc' => hj c' (List.mem_cons_of_mem _ hc'))]
        have : j0 ≠ j := by rintro rfl; exact hj c (List.mem_cons_self ..) ht
        simp [this]

/-- Storing all strides with an injective placement. -/
theorem storeStrides_eq (m : Mapping) (target : Nat → Option Nat) (init r : List Int)
    (hlen : r.length = init.length)
    (hr : ∀ i < m.strides.length, ∀ j, target i = some j → j < init.length)
    (hinj : ∀ i < m.strides.length, ∀ i' < m.strides.length, ∀ j,
      target i = some j → target i' = some j → i = i')
    (hsurj : ∀ j < r.length, (∃ i, i < m.strides.length ∧ target i = some j ∧ m.strides[i]? = r[j]?)
      ∨ ((∀ i < m.strides.length, target i ≠ some j) ∧ init[j]? = r[j]?)) :
    storeStrides m.forEachStride target init = some r := by
  have hlt : ∀ c ∈ m.forEachStride, c.1 < m.strides.length := by
    intro c hc
    have := mem_forEachStride.1 (show (c.1, c.2) ∈ _ from hc)
    by_contra h
    rw [List.getElem?_eq_none (by omega)] at this; simp at this
  obtain ⟨r', h1, h2, h3, h4⟩ := storeStrides_spec m.forEachStride target init
    (fun c hc => hr c.1 (hlt c hc))
  rw [h1]
  congr 1
  apply List.ext_getElem?
  intro j
  by_cases hj : j < r.length
  · rcases hsurj j hj with ⟨i, hi, ht, e⟩ | ⟨hnone, e⟩
    · rw [← e]
      have hm : (i, m.strides[i]) ∈ m.forEachStride := mem_forEachStride.2 (by simp [hi])
      rw [h3 _ hm j ht]
      · simp [hi]
      · intro c' hc' ht'
        have e' := hinj _ (hlt c' hc') i hi j ht' ht
        have hm' := mem_forEachStride.1 (show (c'.1, c'.2) ∈ _ from hc')
        rw [e'] at hm'
        simp [hi] at hm'
        rcases c' with ⟨a, b⟩
        simp_all
    · rw [h4 j (fun c hc => hnone _ (hlt c hc)), e]
  · rw [List.getElem?_eq_none (by omega), List.getElem?_eq_none (by omega)]

theorem storeStrides_id (m : Mapping) (init : List Int) (h : init.length = m.strides.length) :
    storeStrides m.forEachStride some init = some m.strides := by
  apply storeStrides_eq
  · exact h.symm
  · intro i hi j hj; simp at hj; omega
  · intro i _ i' _ j h1 h2; simp at h1 h2; omega
  · intro j hj; exact Or.inl ⟨j, hj, rfl, rfl⟩

theorem storeStrides_succ (m : Mapping) (s : Int) (rest : List Int)
    (h : rest.length = m.strides.length) :
    storeStrides m.forEachStride (fun i => some (i+1)) (s :: rest) = some (s :: m.strides) := by
  apply storeStrides_eq
  · simp [h]
  · intro i hi j hj; simp at hj; simp; omega
  · intro i _ i' _ j h1 h2; simp at h1 h2; omega
  · intro j hj
    cases j with
    | zero => right; simp
    | succ j => left; exact ⟨j, by simpa using hj, rfl, by simp⟩

theorem storeStrides_erase (m : Mapping) (index : Nat) (init : List Int)
    (hi : index < m.strides.length) (h : init.length = m.strides.length - 1) :
    storeStrides m.forEachStride
      (fun i => if i < index then some i else if index < i then some (i - 1) else none) init
      = some (m.strides.eraseIdx index) := by
  apply storeStrides_eq
  · rw [List.length_eraseIdx]; simp [hi, h]
  · intro i hi' j hj
    split at hj
    · simp at hj; omega
    · split at hj
      · simp at hj; omega
      · simp at hj
  · intro i _ i' _ j h1 h2
    split at h1 <;> split at h2
    · simp at h1 h2; omega
    · split at h2 <;> simp at h1 h2; omega
    · split at h1 <;> simp at h1 h2; omega
    · split at h1 <;> split at h2 <;> simp at h1 h2; omega
  · intro j hj
    rw [List.length_eraseIdx] at hj; simp [hi] at hj
    left
    rw [List.getElem?_eraseIdx]
    by_cases hj' : j < index
    · exact ⟨j, by omega, by simp [hj'], by simp [hj']⟩
    · refine ⟨j+1, by omega, ?_, by simp [hj']⟩
      have : ¬ (j + 1 < index) := by omega
      simp [this]; omega

theorem storeStrides_reverse (m : Mapping) (init : List Int) (h : init.length = m.strides.length)
    (n : Nat) (hn : n = m.strides.length) :
    storeStrides m.forEachStride (fun i => some (n - 1 - i)) init = some m.strides.reverse := by
  subst hn
  apply storeStrides_eq
  · simp [h]
  · intro i hi j hj; simp at hj; omega
  · intro i _ i' _ j h1 h2; simp at h1 h2; omega
  · intro j hj
    simp at hj
    left
    refine ⟨m.strides.length - 1 - j, by omega, by simp; omega, ?_⟩
    rw [List.getElem?_reverse hj]

theorem dimsNew_of_conforms {ty : ShapeTy} {dims : List Nat} (h : ty.Conforms dims) :
    dimsNew ty dims.length = some (List.replicate dims.length 0) := by
  cases ty with
  | dynRank => rfl
  | static ds => simp [dimsNew, ShapeTy.conforms_static_length h]

theorem dimsNew_length {ty : ShapeTy} {n st} (h : dimsNew ty n = some st) :
    st = List.replicate n 0 := by
  cases ty with
  | dynRank => simp [dimsNew] at h; exact h.symm
  | static ds => simp only [dimsNew] at h; split at h <;> simp at h; exact h.symm

theorem foldlM_some_of_forall {α β} (f : β → α → Option β) (g : β → α → β) (l : List α) (b : β)
    (h : ∀ b, ∀ a ∈ l, f b a = some (g b a)) : l.foldlM f b = some (l.foldl g b) := by
  induction l generalizing b with
  | nil => rfl
  | cons a l ih =>
    rw [List.foldlM_cons, h b a (List.mem_cons_self ..)]
    exact ih _ (fun b a ha => h b a (List.mem_cons_of_mem _ ha))

/-- Offsets are inner products. -/
theorem offset_eq (m : Mapping) (index : List Nat) (h : index.length = m.strides.length) :
    m.offset index = some (dot m.strides index) := by
  -- turn the monadic fold into a sum over the calls
  have hsum : ∀ (l : List (Nat × Int)) (b : Int),
      l.foldl (fun off c => off + c.2 * ((index.getD c.1 0 : Nat) : Int)) b =
      b + (l.map fun c => c.2 * ((index.getD c.1 0 : Nat) : Int)).sum := by
    intro l
    induction l with
    | nil => simp
    | cons c l ih => intro b; simp only [List.foldl_cons, ih, List.map_cons, List.sum_cons]; ring
  have hf : m.offset index = some (m.forEachStride.foldl
      (fun off c => off + c.2 * ((index.getD c.1 0 : Nat) : Int)) 0) := by
    unfold offset
    apply foldlM_some_of_forall
    intro b c hc
    have hc' := mem_forEachStride.1 (show (c.1, c.2) ∈ _ from hc)
    have hlt : c.1 < index.length := by
      by_contra hh
      rw [List.getElem?_eq_none (by omega)] at hc'; simp at hc'
    simp [List.getElem?_eq_getElem hlt, List.getD]
  rw [hf, hsum]
  have hdot : ∀ (st : List Int) (k : Nat), index.length = k + st.length →
      ((st.zipIdx k).map (fun x => x.1 * ((index.getD x.2 0 : Nat) : Int))).sum
        = dot st (index.drop k) := by
    intro st
    induction st with
    | nil => intro k _; simp [dot]
    | cons s st ih =>
      intro k hk
      simp at hk
      have hk' : k < index.length := by omega
      rw [List.drop_eq_getElem_cons hk', dot_cons, List.zipIdx_cons, List.map_cons, List.sum_cons,
        ih (k+1) (by omega)]
      simp [List.getD, List.getElem?_eq_getElem hk']
  have e := hdot m.strides 0 (by omega)
  simp only [List.drop_zero] at e
  rw [← e]
  rcases forEachStride_perm m with hp | hp <;> rw [hp] <;>
    simp [List.map_map, Function.comp_def, List.sum_reverse]

end Mapping
end Model
