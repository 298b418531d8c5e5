import Verif.Lemmas.MachineReach

/-! The pointers of views. -/

namespace Model
open Spec

namespace Machine
variable {checks : Bool} {v w : View}

theorem productFrom_zero {l : List Nat} {acc n : Nat} (h : acc = 0 ∨ 0 ∈ l)
    (hp : l.foldlM (fun acc x => retU checks (acc * x)) acc = some n) : n = 0 := by
  induction l generalizing acc with
  | nil =>
    simp only [List.foldlM_nil, Option.pure_def, Option.some.injEq] at hp
    rcases h with h | h
    · omega
    · simp at h
  | cons x l ih =>
    rw [List.foldlM_cons] at hp
    obtain ⟨k, hk, hp⟩ := Option.bind_eq_some_iff.1 hp
    refine ih ?_ hp
    have h0 : acc * x = 0 ∨ 0 ∈ l := by
      rcases h with rfl | h
      · left; simp
      · rcases List.mem_cons.1 h with rfl | h
        · left; simp
        · exact .inr h
    rcases h0 with h0 | h0
    · rw [h0] at hk
      left
      simpa [retU] using hk.symm
    · exact .inr h0

theorem isEmpty_of_empty {s : Shape} {b : Bool} (h0 : size s.dims = 0) (h : isEmpty checks s = some b) :
    b = true := by
  unfold isEmpty len product at h
  obtain ⟨n, hn, rfl⟩ := Option.map_eq_some_iff.1 h
  have : 0 ∈ s.dims := by
    by_contra hn
    have := (size_pos_iff (ds := s.dims)).2 fun d hd => Nat.pos_of_ne_zero fun h => hn (h ▸ hd)
    omega
  rw [productFrom_zero (.inr this) hn]
  rfl

theorem ptr_axisAt {a i} (hv : axisAt checks v a i = some w) (h0 : size w.dims = 0) : w.ptr = v.ptr := by
  unfold axisAt at hv
  simp only [Option.bind_eq_bind, Option.bind_eq_some_iff, Option.pure_def, Option.some.injEq] at hv
  obtain ⟨p, -, d, -, -, -, m, -, st, -, o, -, b, hb, rfl⟩ := hv
  rw [isEmpty_of_empty h0 hb]
  simp

theorem ptr_split {a mid} {w₂ : View} (hv : splitAxisAt checks v a mid = some (w, w₂)) :
    w.ptr = v.ptr ∧ (size w₂.dims = 0 → w₂.ptr = v.ptr) := by
  unfold splitAxisAt at hv
  simp only [Option.bind_eq_bind, Option.bind_eq_some_iff, Option.pure_def, Option.some.injEq, Prod.mk.injEq] at hv
  obtain ⟨p, -, d, -, -, -, m, -, m', -, st, -, o, -, b, hb, rfl, rfl⟩ := hv
  refine ⟨rfl, fun h0 => ?_⟩
  rw [isEmpty_of_empty h0 hb]
  simp

theorem ptr_view {xs} (hv : view checks v xs = some w) (h0 : size w.dims = 0) : w.ptr = v.ptr := by
  unfold view at hv
  simp only [Option.bind_eq_bind, Option.bind_eq_some_iff, Option.pure_def, Option.some.injEq] at hv
  obtain ⟨⟨o, m⟩, -, b, hb, rfl⟩ := hv
  rw [isEmpty_of_empty h0 hb]
  simp

theorem ptr_reshape {ns} (hv : viewReshape checks v ns = some w) : w.ptr = v.ptr := by
  unfold viewReshape at hv
  simp only [Option.bind_eq_bind, Option.bind_eq_some_iff, Option.pure_def, Option.some.injEq] at hv
  obtain ⟨m, -, rfl⟩ := hv
  rfl

theorem ptr_line {xs} (hv : line checks v xs = some w) (h0 : size w.dims = 0) : w.ptr = v.ptr := by
  unfold line at hv
  simp only [Option.bind_eq_bind, Option.bind_eq_some_iff] at hv
  obtain ⟨ns, -, u, hu, hv⟩ := hv
  rw [ptr_view hv h0, ptr_reshape hu]

theorem ptr_diag {k} (hv : diag checks v k = some w) (h0 : size w.dims = 0) : w.ptr = v.ptr := by
  unfold diag at hv
  simp only [Option.bind_eq_bind, Option.bind_eq_some_iff, Option.pure_def, Option.some.injEq] at hv
  obtain ⟨-, -, d0, -, d1, -, s0, -, s1, -, ⟨o, len⟩, -, st, -, m, hm, rfl⟩ := hv
  have hd : m.dims = [len] := by
    unfold Mapping.newStrided at hm
    simp only [Option.bind_eq_bind, Option.bind_eq_some_iff, Option.pure_def, Option.some.injEq] at hm
    obtain ⟨-, -, rfl⟩ := hm
    rfl
  have h0 : size m.dims = 0 := h0
  rw [hd] at h0
  have : len = 0 := by simpa [size] using h0
  subst this
  simp

/-- A call that gives an empty view does not move the pointer. -/
theorem ptr_call (hc : CallM checks v w) (h0 : size w.dims = 0) : w.ptr = v.ptr := by
  cases hc with
  | axisAt hv => exact ptr_axisAt hv h0
  | splitFst hv => exact (ptr_split hv).1
  | splitSnd hv => exact (ptr_split hv).2 h0
  | view hx hv => exact ptr_view hv h0
  | permute _ hv =>
    unfold viewPermute at hv
    simp only [Option.bind_eq_bind, Option.bind_eq_some_iff, Option.pure_def, Option.some.injEq] at hv
    obtain ⟨m, -, rfl⟩ := hv
    rfl
  | reorder hv =>
    unfold viewReorder at hv
    simp only [Option.bind_eq_bind, Option.bind_eq_some_iff, Option.pure_def, Option.some.injEq] at hv
    obtain ⟨m, -, rfl⟩ := hv
    rfl
  | reshape hw hu hv => exact ptr_reshape hv
  | flatten hv =>
    unfold flatten at hv
    simp only [Option.bind_eq_bind, Option.bind_eq_some_iff] at hv
    obtain ⟨n, -, hv⟩ := hv
    exact ptr_reshape hv
  | remap hv =>
    unfold viewRemap at hv
    simp only [Option.bind_eq_bind, Option.bind_eq_some_iff, Option.pure_def, Option.some.injEq] at hv
    obtain ⟨m, -, rfl⟩ := hv
    rfl
  | row hv => exact ptr_line hv h0
  | col hv => exact ptr_line hv h0
  | diag _ hv => exact ptr_diag hv h0

theorem Known.ptr {s : Shape} (h : Known s v) (hp : 0 < Spec.size v.dims) :
    0 ≤ v.ptr ∧ v.ptr < Spec.size s.dims := by
  obtain ⟨pb, h1, -⟩ := h.good.2.2
  have hz := valid_zeros hp
  obtain ⟨g1, g2⟩ := h1 _ hz
  have g1' : Valid s.dims (pb (List.replicate v.dims.length 0)) := g1
  rw [View.index_whole h.wf, if_pos g1', View.index_eq v h.inv.wf, if_pos hz, dot_zeros] at g2
  have := rowMajor_lt g1'
  simp only [Int.add_zero, Option.some.injEq] at g2
  omega

theorem ptr_reach {s : Shape} (hw : s.WF) (hu : Usize s.dims) (hs : Spec.size s.dims ≤ 4611686018427387904)
    (h : ReachM checks (whole s) v) : v.ptr = 0 ∨ (0 ≤ v.ptr ∧ v.ptr < Spec.size s.dims) := by
  induction h with
  | refl => exact .inl rfl
  | @call v w hr hl hc ih =>
    rcases Nat.eq_zero_or_pos (Spec.size w.dims) with h0 | hp
    · rw [ptr_call hc h0]; exact ih
    · exact .inr ((known_reach hw hu hs (.call hr hl hc)).ptr hp)

end Machine
end Model
