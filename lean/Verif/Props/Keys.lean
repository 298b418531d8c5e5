import Verif.Lemmas.Keys
import Verif.Props.DynRank

/-!
# C91: shapes and mappings as keys
-/

namespace Props
open Model Spec

/-- Mappings of the same type are equal exactly if they have the same dimensions and strides, however they are
represented. -/
theorem C91_eq (m m' : MapRep) (h : SameTy m m') : m.eq m' = true ↔ mappingOf m = mappingOf m' := by
  cases m with
  | dense s =>
    cases m' with
    | dense t =>
      rw [MapRep.eq, shapeEq_iff h.2]
      simp [mappingOf]
    | strided t st => exact absurd h.1 (by simp [mappingOf, Mapping.layout])
  | strided s st =>
    cases m' with
    | dense t => exact absurd h.1 (by simp [mappingOf, Mapping.layout])
    | strided t st' =>
      rw [MapRep.eq, Bool.and_eq_true, shapeEq_iff h.2]
      simp [mappingOf]

/-- What a mapping feeds to a hasher depends only on the mapping, and determines it among those of the same type, whatever
is fed afterwards. -/
theorem C91_hash (m m' : MapRep) (h : SameTy m m') (r r' : List Int) :
    m.hash ++ r = m'.hash ++ r' ↔ mappingOf m = mappingOf m' ∧ r = r' := by
  have same : ∀ {s t : ShapeRep}, shapeOf s = shapeOf t → s.hash = t.hash := by
    intro s t h
    cases s with
    | tuple as =>
      cases t with
      | tuple bs =>
        simp only [shapeOf, Shape.mk.injEq, ShapeTy.static.injEq] at h
        exact tupleHash_same h.1 h.2
      | dynRank b => simp [shapeOf] at h
    | dynRank a =>
      cases t with
      | tuple bs => simp [shapeOf] at h
      | dynRank b =>
        have : a.dims = b.dims := by simpa [shapeOf] using h
        simp [ShapeRep.hash, DynRank.hash, this]
  cases m with
  | dense s =>
    cases m' with
    | dense t =>
      constructor
      · intro he
        obtain ⟨h1, h2⟩ := shapeHash_inj h.2 he
        exact ⟨congrArg Mapping.dense h1, h2⟩
      · rintro ⟨h1, rfl⟩
        rw [MapRep.hash, MapRep.hash, same (Mapping.dense.inj h1)]
    | strided t st => exact absurd h.1 (by simp [mappingOf, Mapping.layout])
  | strided s st =>
    cases m' with
    | dense t => exact absurd h.1 (by simp [mappingOf, Mapping.layout])
    | strided t st' =>
      constructor
      · intro he
        rw [MapRep.hash, MapRep.hash, List.append_assoc, List.append_assoc] at he
        obtain ⟨h1, h2⟩ := shapeHash_inj h.2 he
        simp only [List.cons_append, List.cons.injEq, Int.natCast_inj] at h2
        obtain ⟨h3, h4⟩ := List.append_inj h2.2 h2.1
        exact ⟨by simp [mappingOf, h1, h3], h4⟩
      · rintro ⟨h1, rfl⟩
        simp only [mappingOf, Mapping.strided.injEq] at h1
        rw [MapRep.hash, MapRep.hash, same h1.1, h1.2]

/-- Equal mappings hash equally. -/
theorem C91_consistent (m m' : MapRep) (h : SameTy m m') : m.eq m' = true ↔ m.hash = m'.hash := by
  have := C91_hash m m' h [] []
  rw [C91_eq m m' h]
  simpa using this.symm

/-- The order of shapes of the same type is the lexicographic order of their dimensions, and agrees with equality. -/
theorem C91_order (s t : ShapeRep) (h : (shapeOf s).ty = (shapeOf t).ty) :
    (s.cmp t = .lt ↔ LexLt (shapeOf s).dims (shapeOf t).dims) ∧
    (s.cmp t = .gt ↔ LexLt (shapeOf t).dims (shapeOf s).dims) ∧
    (s.cmp t = .eq ↔ s.eq t = true) := by
  rw [shapeEq_iff h]
  cases s with
  | tuple as =>
    cases t with
    | tuple bs =>
      have h' : as.map dimTyOf = bs.map dimTyOf := by simpa [shapeOf] using h
      obtain ⟨h1, h2, h3⟩ := tupleCmp_spec h'
      exact ⟨h1, h2, by simp [ShapeRep.cmp, h3, shapeOf, h']⟩
    | dynRank b => simp [shapeOf] at h
  | dynRank a =>
    cases t with
    | tuple bs => simp [shapeOf] at h
    | dynRank b =>
      obtain ⟨h1, h2, h3⟩ := C56_cmp a b
      exact ⟨h1, h2, by simp [ShapeRep.cmp, h3, (C56_eq a b).1, shapeOf]⟩

/-- Copies are the same mapping, and `clone_from` replaces any mapping of the same type by the other one. -/
theorem C91_clone (m m' : MapRep) : mappingOf m.clone = mappingOf m ∧ mappingOf (m.cloneFrom m') = mappingOf m' := by
  have hc : ∀ m : MapRep, mappingOf m.clone = mappingOf m := by
    intro m
    cases m <;> simp [MapRep.clone, mappingOf, shapeOf_clone]
  refine ⟨hc m, ?_⟩
  unfold MapRep.cloneFrom
  split
  · simp [mappingOf, shapeOf_cloneFrom]
  · simp [mappingOf, shapeOf_cloneFrom]
  · exact hc _

/-- A shape of dynamic rank with one dimension has two representations. -/
example : let m : MapRep := .strided (.dynRank (.one 5)) [-2]
    let m' : MapRep := .strided (.dynRank (.dyn [5])) [-2]
    SameTy m m' ∧ m.eq m' = true ∧ m.hash = [1, 5, 1, -2] ∧ m'.hash = [1, 5, 1, -2] := by
  simp only [SameTy]
  decide

/-- Constant sizes are not fed to the hasher, and types with constant sizes differ. -/
example : let m : MapRep := .dense (.tuple [.const 4, .dyn 2])
    let m' : MapRep := .dense (.tuple [.const 4, .dyn 3])
    SameTy m m' ∧ m.eq m' = false ∧ m.hash = [2] ∧ m'.hash = [3] ∧
    ShapeRep.cmp (.tuple [.const 4, .dyn 2]) (.tuple [.const 4, .dyn 3]) = .lt ∧
    ¬ SameTy m (.dense (.tuple [.const 5, .dyn 2])) := by
  simp only [SameTy]
  decide

/-- Without the length, the strides of mappings of dynamic rank would not be told apart from what follows. -/
example : (MapRep.strided (.dynRank (.dyn [])) []).hash = [0, 0] := rfl

end Props
