import Verif.Lemmas.Serialize
import Verif.Spec.Reach

/-! Serialisation: C46 and C47. -/

namespace Props
open Spec Model

variable {σ A T : Type}

/-! ### C46 -/

/-- Serialising gives the nested sequence of the elements with exact lengths, whatever the layout. -/
theorem C46_serialize (v : View) (hv : v.map.WF) {tys : List DimTy} (hty : v.ty = .static tys)
    (hf : RowsFit v.dims) (enc : Int → M σ (Val A)) :
    serialize enc v = nestM v.dims fun j => M.bind (orUb (v.index j)) enc := by
  unfold serialize
  rw [hty]
  have hc : (ShapeTy.static tys).Conforms v.dims := by rw [← hty]; exact hv.1
  exact serRank_eq enc _ v hv (ShapeTy.conforms_static_length hc).symm hf

/-- A serialised array of static rank reads back with the same elements in the same order, and with the
same dimensions up to the first zero; all later dimensions become 0 (or their constant). Missing (see
`C46_violated`): the dimensions after a zero. Dimensions of `usize::MAX` are excluded, since they stand for
an inferred dimension. The element type reads back what it writes. -/
theorem C46_partial (v : View) (hv : v.map.WF) {tys : List DimTy} (hty : v.ty = .static tys)
    (hn : NoOverflow usizeMax v.dims) (hm : usizeMax ∉ v.dims) (ht : .const usizeMax ∉ tys)
    {limit : Nat} (hl : size v.dims ≤ limit) (hl' : limit ≤ usizeMax)
    (ser : T → Val A) (de : Val A → Option T) (hde : ∀ x, de (ser x) = some x)
    (m : Int → Option T) (g : List Nat → T) (hg : ∀ j p, v.index j = some p → m p = some (g j))
    (s : σ) :
    ∃ val, serialize (fun p => M.bind (orUb (m p)) fun x => M.pure (ser x)) v s = .ok val s ∧
      deserialize limit de v.ty val =
        some (some (⟨v.ty, resetAfterZero tys v.dims⟩, (allIdx v.dims).map g)) := by
  have hc : (ShapeTy.static tys).Conforms v.dims := by rw [← hty]; exact hv.1
  refine ⟨nest v.dims fun j => ser (g j), ?_, ?_⟩
  · rw [C46_serialize v hv hty (rowsFit_of_noOverflow hn)]
    rw [nestM_congr (g := fun j => M.pure (ser (g j)))]
    · rw [nestM_pure]; rfl
    · intro j hj
      obtain ⟨p, hp⟩ := Option.isSome_iff_exists.1 ((View.index_isSome v hv j).2 hj)
      simp [orUb, hp, hg j p hp]
  · have hM := modest_nest (limit := limit) v.dims (fun j => ser (g j)) hn hl hm
    rw [← ShapeTy.conforms_static_length hc] at hM
    obtain ⟨r, hr, hs⟩ := deserRank_spec (de := de) hl' tys _ hM ht
    have hR := rect_nest (de := de) (f := fun j => ser (g j)) (g := g) hc fun j _ => hde _
    rw [hty]
    show deserRank limit de tys _ = _
    rw [hr, (hs ⟨.static tys, _⟩ _).2 ⟨rfl, hR⟩]

/-- For arrays that are not empty these are the original dimensions. -/
theorem C46_same (tys : List DimTy) (ds : List Nat) (hc : (ShapeTy.static tys).Conforms ds)
    (h : 0 < size ds) : resetAfterZero tys ds = ds := by
  induction tys generalizing ds with
  | nil => rw [ShapeTy.conforms_nil] at hc; subst hc; rfl
  | cons t ts ih =>
    cases ds with
    | nil => simp at hc
    | cons d ds =>
      rw [ShapeTy.conforms_cons] at hc
      have hp := size_pos_iff.1 h
      rw [resetAfterZero, if_neg (by have := hp d (by simp); omega),
        ih ds hc.2 (size_pos_iff.2 fun x hx => hp x (by simp [hx]))]

/-- In general the dimensions are kept exactly when those after the first zero have the value that
their type defaults to; in particular for shapes with only constant dimensions. -/
theorem C46_same_iff (tys : List DimTy) (ds : List Nat) (hc : (ShapeTy.static tys).Conforms ds) :
    resetAfterZero tys ds = ds ↔
      ∀ a b, ds = a ++ 0 :: b → b = (tys.drop (a.length + 1)).map DimTy.default := by
  induction tys generalizing ds with
  | nil => rw [ShapeTy.conforms_nil] at hc; subst hc; simp [resetAfterZero]
  | cons t ts ih =>
    cases ds with
    | nil => simp at hc
    | cons d ds =>
      rw [ShapeTy.conforms_cons] at hc
      rw [resetAfterZero]
      by_cases hd : d = 0
      · subst hd
        rw [if_pos rfl]
        constructor
        · intro h a b hab
          have hds : ts.map DimTy.default = ds := (List.cons.inj h).2
          cases a with
          | nil => simp at hab; simp [← hab, hds]
          | cons x a =>
            simp only [List.cons_append, List.cons.injEq] at hab
            rw [List.length_cons, List.drop_succ_cons, List.map_drop, hds, hab.2]
            simp
        · intro h
          have := h [] ds rfl
          simp at this
          rw [this]
      · rw [if_neg hd]
        simp only [List.cons.injEq, true_and]
        rw [ih ds hc.2]
        constructor
        · intro h a b hab
          cases a with
          | nil => simp at hab; exact absurd hab.1 hd
          | cons x a =>
            simp only [List.cons_append, List.cons.injEq] at hab
            simpa using h a b hab.2
        · intro h a b hab
          simpa using h (d :: a) b (by simp [hab])

/-- Numbers as leaves. -/
def readNat : Val Nat → Option Nat
  | .leaf a => some a
  | .seq _ _ => none

/-- The code as it is: an array with dimensions 0 and 3 reads back with dimensions 0 and 0. -/
theorem C46_violated :
    let v := whole ⟨.static [.dyn, .dyn], [0, 3]⟩
    v.map.WF ∧ (match serialize (σ := Unit) (fun _ => M.pure (Val.leaf 0)) v () with
      | .ok val _ => deserialize 1000 readNat v.ty val
      | _ => none) = some (some (⟨.static [.dyn, .dyn], [0, 0]⟩, [])) := by
  refine ⟨by decide, by rfl⟩

/-- A transposed array of 2 by 3 elements, read back with a constant dimension. -/
example :
    let v : View := ⟨0, .strided ⟨.static [.dyn, .const 2], [3, 2]⟩ [1, 3]⟩
    let m : Int → Option Nat := fun p => [1, 2, 3, 4, 5, 6][p.toNat]?
    let g : List Nat → Nat := fun j => 1 + j.getD 0 0 + 3 * j.getD 1 0
    v.map.WF ∧ NoOverflow usizeMax v.dims ∧ usizeMax ∉ v.dims ∧ size v.dims ≤ 1000 ∧
    (∀ x, readNat (.leaf x) = some x) ∧ (∀ j ∈ allIdx v.dims, ∀ p ∈ v.index j, m p = some (g j)) ∧
    resetAfterZero [.dyn, .const 2] v.dims = [3, 2] ∧
    (match serialize (σ := Unit) (fun p => M.bind (orUb (m p)) fun x => M.pure (.leaf x)) v () with
      | .ok val _ => deserialize 1000 readNat v.ty val
      | _ => none) = some (some (⟨.static [.dyn, .const 2], [3, 2]⟩, [1, 4, 2, 5, 3, 6])) := by
  refine ⟨by decide, by decide, by decide, by decide, fun _ => rfl, by decide, by decide, by rfl⟩

/-! ### C47 -/

/-- Reading nested data succeeds exactly when it is rectangular and matches the constant dimensions, and
gives its dimensions and elements; otherwise it gives an error, never a panic. Missing (see
`C47_violated`, `C47_hint_violated`): shape types with a dimension of `Const<usize::MAX>`, and length
hints that announce more elements than can be allocated. -/
theorem C47_partial (de : Val A → Option T) (tys : List DimTy) (val : Val A) {limit : Nat}
    (hl : limit ≤ usizeMax) (hm : Modest limit tys.length val) (ht : .const usizeMax ∉ tys) :
    ∃ r, deserialize limit de (.static tys) val = some r ∧
      (∀ s ys, r = some (s, ys) ↔ s.ty = .static tys ∧ Rect de tys val s.dims ys) ∧
      (r = none ↔ ¬ ∃ ds ys, Rect de tys val ds ys) := by
  obtain ⟨r, hr, hs⟩ := deserRank_spec (de := de) hl tys val hm ht
  refine ⟨r, hr, hs, ?_⟩
  constructor
  · rintro rfl ⟨ds, ys, h⟩
    have := (hs ⟨.static tys, ds⟩ ys).2 ⟨rfl, h⟩
    simp at this
  · intro h
    rcases r with _ | ⟨s, ys⟩
    · rfl
    · exact absurd ⟨_, _, ((hs s ys).1 rfl).2⟩ h

/-- The result is well-formed: its dimensions match the type, and the number of elements is the product
of the dimensions. -/
theorem C47_wellformed (de : Val A → Option T) (tys : List DimTy) (val : Val A) (ds : List Nat)
    (ys : List T) (h : Rect de tys val ds ys) :
    (ShapeTy.static tys).Conforms ds ∧ ys.length = size ds :=
  ⟨rect_conforms h, (rect_size h).symm⟩

/-- A dynamic rank is not supported. -/
theorem C47_dynRank (de : Val A → Option T) (val : Val A) (limit : Nat) :
    deserialize limit de .dynRank val = none := rfl

/-- The code as it is: a dimension of `usize::MAX` is taken for an inferred dimension, and an empty
sequence panics. -/
theorem C47_violated :
    deserialize usizeMax readNat (.static [.dyn, .const usizeMax]) (.seq 0 []) = none := by
  decide +kernel

/-- The code as it is: reading allocates as much as the length hint announces, and panics if that fails. -/
theorem C47_hint_violated :
    deserialize 1000 readNat (.static [.dyn]) (.seq (2 ^ 60) [.leaf 1]) = none := by
  decide +kernel

/-- Rectangular, ragged and mismatched data. -/
example :
    let val : Val Nat := .seq 2 [.seq 0 [.leaf 1, .leaf 2, .leaf 3], .seq 3 [.leaf 4, .leaf 5, .leaf 6]]
    let rag : Val Nat := .seq 2 [.seq 3 [.leaf 1, .leaf 2, .leaf 3], .seq 2 [.leaf 4, .leaf 5]]
    Modest 1000 2 val ∧ Modest 1000 2 rag ∧
    deserialize 1000 readNat (.static [.dyn, .const 3]) val =
      some (some (⟨.static [.dyn, .const 3], [2, 3]⟩, [1, 2, 3, 4, 5, 6])) ∧
    deserialize 1000 readNat (.static [.dyn, .const 2]) val = some none ∧
    deserialize 1000 readNat (.static [.dyn, .dyn]) rag = some none ∧
    deserialize 1000 readNat (.static [.dyn]) rag = some none := by
  refine ⟨?_, ?_, by rfl, by rfl, by rfl, by rfl⟩ <;> simp [Modest, width, usizeMax] <;> decide

end Props
