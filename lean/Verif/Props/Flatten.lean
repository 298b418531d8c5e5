import Verif.Props.Reshape
import Verif.Spec.Reach
import Verif.Lemmas.Flatten

/-! Flattening and conversion to dynamic rank: C65, C14. -/

namespace Props
open Spec Model

/-! ### C14 -/

/-- `into_dyn` always succeeds, keeps the layout and changes no element. -/
theorem C14_into_dyn (v : View) (h : v.map.WF) :
    ∃ v', v.intoDyn = some v' ∧ v'.dims = v.dims ∧ v'.ty = .dynRank ∧ v'.layout = v.layout ∧
      ∀ j, v'.index j = v.index j := by
  obtain ⟨h1, h2⟩ := C14_remap v h .dynRank v.layout
  obtain ⟨v', hv⟩ := Option.isSome_iff_exists.1 (h1.2 ⟨trivial, fun hl => by
    obtain ⟨p, m⟩ := v
    cases m with
    | dense s => rfl
    | strided s st => cases hl⟩)
  exact ⟨v', hv, h2 v' hv⟩

example : let v : View := ⟨5, .strided ⟨.static [.dyn, .const 3], [2, 3]⟩ [20, 2]⟩
    v.map.WF ∧ v.intoDyn = some ⟨5, .strided ⟨.dynRank, [2, 3]⟩ [20, 2]⟩ := by decide

/-! ### C65 -/

/-- The elements are uniformly strided: in row-major order there is a constant distance between them. -/
def Uniform (v : View) : Prop := ∃ d : Int, ∀ k < size v.dims, v.linIndex k = some (v.ptr + d * k)

/-- `flatten` gives all elements in row-major order. It only succeeds if they are uniformly strided, and always
does so for dense views and for views without dimensions of size one. Missing (see `C65_violated`): uniformly
strided views with dimensions of size one. -/
theorem C65_partial (v : View) (h : v.map.WF) (hn : size v.dims < usizeMax) :
    (∀ v', v.flatten = some v' → v'.dims = [size v.dims] ∧ v'.ty = .static [.dyn] ∧
      (∀ k, v'.index [k] = v.linIndex k) ∧ Uniform v) ∧
    (v.layout = .dense → v.flatten.isSome) ∧
    ((∀ d ∈ v.dims, d ≠ 1) → Uniform v → v.flatten.isSome) := by
  have hw : (⟨.static [.dyn], [size v.dims]⟩ : Shape).WF := by
    show (ShapeTy.static [.dyn]).Conforms _; simp
  refine ⟨fun v' hv => ?_, fun hl => View.flatten_dense_isSome v hl hn, fun hu ⟨d, hd⟩ => ?_⟩
  · unfold View.flatten at hv
    rw [Mapping.len_eq] at hv
    obtain ⟨k1, k2, k3, k4, k5, k6⟩ := View.reshape_spec h hw hv
    have hdim : v'.dims = [size v.dims] := Shape.resolves_unique k3 (.exact (by simpa using Nat.ne_of_gt hn) (by simp))
    have hlen := k1.len
    have key : ∀ k, v'.index [k] = v'.linIndex k := by
      intro k
      rw [View.index_eq _ k1, View.linIndex_eq _ k1, hdim]
      obtain ⟨st, hst⟩ : ∃ st, v'.map.strides = [st] := by
        rw [show v'.map.dims.length = 1 from by rw [show v'.map.dims = v'.dims from rfl, hdim]; rfl] at hlen
        exact List.length_eq_one_iff.1 hlen
      rw [hst]
      simp only [valid_cons, size_cons, size_nil, Nat.mul_one, lin_cons, Nat.div_one, Nat.mod_one]
      simp [lin, dot]
    refine ⟨hdim, k2, fun k => (key k).trans (k6 k), ?_⟩
    obtain ⟨st, hst⟩ : ∃ st, v'.map.strides = [st] := by
      rw [show v'.map.dims.length = 1 from by rw [show v'.map.dims = v'.dims from rfl, hdim]; rfl] at hlen
      exact List.length_eq_one_iff.1 hlen
    have hptr : v'.ptr = v.ptr := by
      unfold View.reshape at hv
      simp only [Option.bind_eq_bind, Option.bind_eq_some_iff] at hv
      obtain ⟨m, -, e⟩ := hv
      injection e with e
      rw [← e]
    refine ⟨st, fun k hk => ?_⟩
    rw [← k6 k, ← key k, View.index_eq _ k1, hdim, hst, hptr]
    simp [hk, dot]
  · unfold View.flatten
    rw [Mapping.len_eq]
    refine C13_complete v ⟨v.ptr, .strided ⟨.static [.dyn], [size v.dims]⟩ [d]⟩ h ?_ hu _ hw (by simpa using Nat.ne_of_gt hn) ?_
      (by simp) rfl ?_
    · exact ⟨hw, rfl⟩
    · intro k hk
      simp at hk
      rcases (by omega : k = 0 ∨ k = 1) with rfl | rfl
      · simp [usizeMax]
      · simpa using Nat.le_of_lt hn
    · intro k hk
      rw [hd k hk, View.linIndex_eq ⟨v.ptr, .strided ⟨.static [.dyn], [size v.dims]⟩ [d]⟩ ⟨hw, rfl⟩]
      show (if k < size [size v.dims] then some (v.ptr + lin [size v.dims] [d] k) else none) = _
      rw [if_pos (by simpa using hk), lin_cons]
      simp [lin, dot]

/-- A tensor with dimensions `[2, 2, 1]` and two of them swapped: the elements are adjacent, but flattening
panics, because the stride of the dimension of size one does not fit. -/
theorem C65_violated : ∃ v : View,
    (whole ⟨.static [.dyn, .dyn, .dyn], [2, 2, 1]⟩).permute true
      ⟨.static [.dyn, .dyn, .dyn], [0, 2, 1]⟩ = some v ∧ Uniform v ∧ v.flatten = none :=
  ⟨⟨0, .strided ⟨.static [.dyn, .dyn, .dyn], [2, 1, 2]⟩ [2, 1, 1]⟩, by decide +kernel,
    ⟨1, by decide⟩, by decide +kernel⟩

/-- Exactly when `flatten` succeeds for a strided view: if the view is empty, or each stride is the next one times
the next size. The latter is not needed where all dimensions before or all dimensions after have size one. -/
theorem C65_exact (p : Int) (s : Shape) (st : List Int) (h : (Mapping.strided s st).WF)
    (hn : size s.dims < usizeMax) :
    (View.flatten ⟨p, .strided s st⟩).isSome ↔ size s.dims = 0 ∨
      ∀ i, 1 < size (s.dims.drop (i + 1)) → size (s.dims.drop (i + 1)) < size s.dims →
        st.getD i 0 = st.getD (i + 1) 0 * (s.dims.getD (i + 1) 0 : Int) := by
  have hw : (⟨.static [.dyn], [size s.dims]⟩ : Shape).WF := by
    show (ShapeTy.static [.dyn]).Conforms _; simp
  rw [← Mapping.flatStrides_isSome s.dims st h.2]
  unfold View.flatten View.reshape Mapping.reshape
  rw [Mapping.len_eq]
  show (((s.reshape ⟨.static [.dyn], [size s.dims]⟩).bind fun ns => _).bind _).isSome ↔ _
  rw [Shape.reshape_none_eq _ _ hw (by simpa using Nat.ne_of_gt hn), if_pos]
  · rw [Option.bind_some]
    cases hr : Mapping.reshapeStrides s.dims st [size s.dims] <;> simp [hr]
  · refine ⟨fun k hk => ?_, by simp⟩
    simp at hk
    rcases (by omega : k = 0 ∨ k = 1) with rfl | rfl
    · simp [usizeMax]
    · simpa using Nat.le_of_lt hn

/-- A dimension of size one in the middle prevents flattening, at either end it does not. -/
example : (View.flatten ⟨0, .strided ⟨.dynRank, [2, 1, 2]⟩ [2, 1, 1]⟩).isSome = false ∧
    (View.flatten ⟨0, .strided ⟨.dynRank, [1, 2, 2, 1]⟩ [7, 2, 1, 9]⟩).isSome = true ∧
    (View.flatten ⟨0, .strided ⟨.dynRank, [2, 2]⟩ [3, 1]⟩).isSome = false := by decide +kernel

/-- Every second column, in reverse order. -/
example : let v : View := ⟨5, .strided ⟨.dynRank, [2, 3]⟩ [-6, -2]⟩
    v.map.WF ∧ v.flatten = some ⟨5, .strided ⟨.static [.dyn], [6]⟩ [-2]⟩ ∧ (∀ d ∈ v.dims, d ≠ 1) ∧ Uniform v :=
  ⟨by decide, by decide +kernel, by decide, ⟨-2, by decide⟩⟩

end Props
