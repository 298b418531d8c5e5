import Verif.Lemmas.IterSeq

/-! Shapes of zipped expressions. -/

namespace Model
open Spec

namespace ShapeTy

theorem merge_fits {x y : DimTy} {d : Nat} (hx : x.Fits d) (hy : y.Fits d) : (x.merge y).Fits d := by
  cases x with
  | const n => exact hx
  | dyn => exact hy

/-- Merging two shape types gives a type for the longer of two agreeing dimension lists. -/
theorem mergeStatic_conforms : ∀ (xs : List DimTy) (s : ShapeTy) (ds es : List Nat),
    (ShapeTy.static xs).Conforms ds → s.Conforms es →
    (∀ k, k < ds.length → k < es.length → ds[k]? = es[k]?) →
    (mergeStatic xs s).Conforms (if ds.length < es.length then es else ds)
  | [], s, ds, es, hd, he, hk => by
    rw [conforms_nil] at hd
    subst hd
    cases es with
    | nil => simpa [mergeStatic] using he
    | cons e es => simpa [mergeStatic] using he
  | x :: xs, s, ds, es, hd, he, hk => by
    cases ds with
    | nil => simp at hd
    | cons d ds =>
      obtain ⟨h1, h2⟩ := conforms_cons.1 hd
      simp only [mergeStatic]
      cases es with
      | nil =>
        have hs : s.head = .dyn ∧ s.tail.Conforms [] := by
          cases s with
          | dynRank => exact ⟨rfl, trivial⟩
          | static l =>
            cases l with
            | nil => exact ⟨rfl, by simp [tail]⟩
            | cons y l => simp at he
        have := mergeStatic_conforms xs s.tail ds [] h2 hs.2 (by simp)
        simp only [List.length_nil, Nat.not_lt_zero, if_false] at this ⊢
        refine conforms_prepend ?_ this
        rw [hs.1]
        cases x <;> simp_all [DimTy.merge, DimTy.Fits]
      | cons e es =>
        have hde : d = e := by simpa using hk 0 (by simp) (by simp)
        subst hde
        have := mergeStatic_conforms xs s.tail ds es h2 (conforms_tail he) (by
          intro k h1 h2
          simpa using hk (k + 1) (by simpa using h1) (by simpa using h2))
        have hif : (if (d :: ds).length < (d :: es).length then d :: es else d :: ds) =
            d :: (if ds.length < es.length then es else ds) := by
          simp only [List.length_cons, Nat.add_lt_add_iff_right]
          split <;> rfl
        rw [hif]
        exact conforms_prepend (merge_fits h1 (conforms_head he)) this

theorem merge_conforms {r s : ShapeTy} {ds es : List Nat} (hd : r.Conforms ds) (he : s.Conforms es)
    (hk : ∀ k, k < ds.length → k < es.length → ds[k]? = es[k]?) :
    (r.merge s).Conforms (if ds.length < es.length then es else ds) := by
  cases r with
  | dynRank => exact trivial
  | static xs => exact mergeStatic_conforms xs s ds es hd he hk

end ShapeTy

namespace Expr
variable {σ : Type} {α β : Type}

theorem zipTy_conforms {r s : ShapeTy} {ds es : List Nat} (hd : r.Conforms ds) (he : s.Conforms es)
    (hk : ∀ k, k < ds.length → k < es.length → ds.reverse[k]? = es.reverse[k]?) :
    (zipTy r s).Conforms (if ds.length < es.length then es else ds) := by
  have := ShapeTy.merge_conforms (ShapeTy.conforms_reverse hd) (ShapeTy.conforms_reverse he)
    (by simpa using hk)
  have := ShapeTy.conforms_reverse this
  unfold zipTy
  have hif : (if ds.reverse.length < es.reverse.length then es.reverse else ds.reverse).reverse =
      if ds.length < es.length then es else ds := by
    simp only [List.length_reverse]
    split <;> simp
  rwa [hif] at this

theorem shape_wf {e : Expr σ α} (h : e.Wf) : e.shape.WF := by
  induction e with
  | view r v => exact h.1
  | axis r v a m off =>
    obtain ⟨p, -, -, -, -, -, hmw⟩ := axis_dims h.1 h.2.1
    exact hmw.1
  | lanes r v a m off =>
    obtain ⟨p, -, -, -, -, hmw⟩ := lanes_dims h.1 h.2.1
    exact hmw.1
  | fill f => exact ShapeTy.conforms_nil.2 rfl
  | fromElem s f => exact h
  | fromFn s idx f => exact h.1
  | intoExpr s buf idx => exact h.1
  | map e f ih => exact ih h
  | enumerate e k ih => exact ih h.1
  | zip a b s =>
    have := h.2.2
    unfold zipShape at this
    simp only [Option.bind_eq_bind, Option.bind_eq_some_iff] at this
    obtain ⟨_, _, _, _, _, _, h4⟩ := this
    rw [Shape.fromDims_eq, Option.ite_none_right_eq_some] at h4
    obtain ⟨hc, h4⟩ := h4
    injection h4 with h4
    subst h4
    exact hc

/-- Agreement of the shared trailing dimensions. -/
theorem trailing_iff {ds es : List Nat} :
    (∀ k, k < ds.length → k < es.length → ds.reverse[k]? = es.reverse[k]?) ↔
    ds.drop ((if ds.length < es.length then es else ds).length - es.length) =
      es.drop ((if ds.length < es.length then es else ds).length - ds.length) := by
  by_cases h : ds.length < es.length
  · simp only [if_pos h, Nat.sub_self, List.drop_zero]
    constructor
    · intro hk
      apply List.ext_getElem?
      intro n
      rw [List.getElem?_drop]
      by_cases hn : n < ds.length
      · have := hk (ds.length - 1 - n) (by omega) (by omega)
        rw [List.getElem?_reverse (by omega), List.getElem?_reverse (by omega)] at this
        rw [show ds.length - 1 - (ds.length - 1 - n) = n by omega,
          show es.length - 1 - (ds.length - 1 - n) = es.length - ds.length + n by omega] at this
        exact this
      · rw [List.getElem?_eq_none (by omega), List.getElem?_eq_none (by omega)]
    · intro he k h1 h2
      rw [List.getElem?_reverse h1, List.getElem?_reverse h2, he, List.getElem?_drop,
        List.length_drop]
      congr 1
      omega
  · simp only [if_neg h, Nat.sub_self, List.drop_zero]
    constructor
    · intro hk
      apply List.ext_getElem?
      intro n
      rw [List.getElem?_drop]
      by_cases hn : n < es.length
      · have := hk (es.length - 1 - n) (by omega) (by omega)
        rw [List.getElem?_reverse (by omega), List.getElem?_reverse (by omega)] at this
        rw [show es.length - 1 - (es.length - 1 - n) = n by omega,
          show ds.length - 1 - (es.length - 1 - n) = ds.length - es.length + n by omega] at this
        exact this
      · rw [List.getElem?_eq_none (by omega), List.getElem?_eq_none (by omega)]
    · intro he k h1 h2
      rw [List.getElem?_reverse h1, List.getElem?_reverse h2, ← he, List.getElem?_drop,
        List.length_drop]
      congr 1
      omega

theorem zipShape_eq {a : Expr σ α} {b : Expr σ β} (ha : a.shape.WF) (hb : b.shape.WF) :
    zipShape a b =
      if (∀ k, k < a.dims.length → k < b.dims.length → a.dims.reverse[k]? = b.dims.reverse[k]?) ∧
        (a.repeatable = true ∨ b.dims.length ≤ a.dims.length) ∧
        (b.repeatable = true ∨ a.dims.length ≤ b.dims.length)
      then some ⟨zipTy a.shape.ty b.shape.ty, if a.dims.length < b.dims.length then b.dims else a.dims⟩
      else none := by
  unfold zipShape
  simp only [Option.bind_eq_bind]
  by_cases h1 : a.repeatable = true ∨ a.rank ≥ b.rank
  · rw [show check (a.repeatable = true ∨ a.rank ≥ b.rank) = some () from if_pos h1, Option.bind_some]
    by_cases h2 : b.repeatable = true ∨ b.rank ≥ a.rank
    · rw [show check (b.repeatable = true ∨ b.rank ≥ a.rank) = some () from if_pos h2, Option.bind_some]
      by_cases h3 : a.dims.drop ((if a.dims.length < b.dims.length then b.dims else a.dims).length -
          b.dims.length) = b.dims.drop ((if a.dims.length < b.dims.length then b.dims else
            a.dims).length - a.dims.length)
      · have h3' := trailing_iff.2 h3
        rw [show check _ = some () from if_pos h3, Option.bind_some, Shape.fromDims_eq,
          if_pos (zipTy_conforms ha hb h3')]
        exact (if_pos ⟨h3', h1, h2⟩).symm
      · rw [show check _ = none from if_neg h3, Option.bind_none, if_neg]
        intro h; exact h3 (trailing_iff.1 h.1)
    · rw [show check (b.repeatable = true ∨ b.rank ≥ a.rank) = none from if_neg h2, Option.bind_none,
        if_neg]
      intro h; exact h2 h.2.2
  · rw [show check (a.repeatable = true ∨ a.rank ≥ b.rank) = none from if_neg h1, Option.bind_none,
      if_neg]
    intro h; exact h1 h.2.1

end Expr
end Model
