import Verif.Spec.ResultTypes
import Verif.Lemmas.Types

/-! The type-level functions of the model compared with their specification. -/

namespace Model
open Spec

namespace ShapeTy

theorem layout_eq (ty : ShapeTy) (l : Layout) : ty.layout l = if ty = .static [] then l else .strided := by
  cases ty with
  | dynRank => rfl
  | static ds => cases ds <;> rfl

theorem prepend_static {ds : List DimTy} (d : DimTy) (h : ds.length < 6) :
    (ShapeTy.static ds).prepend d = .static (d :: ds) := if_pos h

end ShapeTy

namespace Axis
open ShapeTy

theorem constDim_static (n : Nat) (ds : List DimTy) : constDim n (.static ds) = ds.getD n .dyn := by
  induction n generalizing ds with
  | zero => cases ds <;> rfl
  | succ n ih =>
    rw [constDim, tail, ih]
    cases ds <;> simp

theorem constDim_dyn (n : Nat) : constDim n .dynRank = .dyn := by
  induction n with
  | zero => rfl
  | succ n ih => exact ih

theorem constRest_static (n : Nat) (ds : List DimTy) : constRest n (.static ds) = .static (ds.drop (n + 1)) := by
  induction n generalizing ds with
  | zero => cases ds <;> rfl
  | succ n ih =>
    rw [constRest, tail, ih]
    cases ds <;> simp

theorem constRest_dyn (n : Nat) : constRest n .dynRank = .dynRank := by
  induction n with
  | zero => rfl
  | succ n ih => exact ih

theorem constRemove_static (n : Nat) (ds : List DimTy) (hn : n < ds.length) (h6 : ds.length ≤ 6) :
    constRemove n (.static ds) = .static (ds.eraseIdx n) := by
  induction n generalizing ds with
  | zero => cases ds <;> rfl
  | succ n ih =>
    cases ds with
    | nil => simp at hn
    | cons d ds =>
      simp only [List.length_cons] at hn h6
      rw [constRemove, tail, List.tail_cons, ih ds (by omega) (by omega), head,
        prepend_static _ (by rw [List.length_eraseIdx]; split <;> omega)]
      rfl

theorem constRemove_dyn (n : Nat) : constRemove n .dynRank = .dynRank := by
  cases n with
  | zero => rfl
  | succ n => rw [constRemove, tail, constRemove_dyn n]; rfl

theorem constInsert_static (d : DimTy) (n : Nat) (ds : List DimTy) (hn : n ≤ ds.length) (h6 : ds.length < 6) :
    constInsert d n (.static ds) = .static (ds.insertIdx n d) := by
  induction n generalizing ds with
  | zero => rw [constInsert, prepend_static _ h6]; rfl
  | succ n ih =>
    cases ds with
    | nil => simp at hn
    | cons e ds =>
      simp only [List.length_cons] at hn h6
      rw [constInsert, tail, List.tail_cons, ih ds (by omega) (by omega), head,
        prepend_static _ (by rw [List.length_insertIdx]; split <;> omega)]
      rfl

theorem constInsert_dyn (d : DimTy) (n : Nat) : constInsert d n .dynRank = .dynRank := by
  cases n with
  | zero => rfl
  | succ n => rw [constInsert, tail, constInsert_dyn d n]; rfl

theorem constInit_eq_nil (n : Nat) (ty : ShapeTy) : constInit n ty = .static [] ↔ n = 0 :=
  ⟨constInit_nil, fun h => by subst h; rfl⟩

theorem reverse_eraseIdx' (l : List DimTy) (k : Nat) (h : k < l.length) :
    (l.reverse.eraseIdx k).reverse = l.eraseIdx (l.length - 1 - k) := by
  rw [List.eraseIdx_eq_take_drop_succ, List.eraseIdx_eq_take_drop_succ, List.reverse_append,
    List.reverse_drop, List.reverse_take]
  simp only [List.reverse_reverse, List.length_reverse]
  congr 2 <;> omega

theorem reverse_set (l : List DimTy) (k : Nat) (d : DimTy) (h : k < l.length) :
    (l.reverse.set k d).reverse = l.set (l.length - 1 - k) d := by
  apply List.ext_getElem?
  intro i
  by_cases hi : i < l.length
  · rw [List.getElem?_reverse (by simpa), List.length_set, List.length_reverse, List.getElem?_set,
      List.getElem?_set, List.getElem?_reverse (by omega)]
    by_cases h1 : k = l.length - 1 - i
    · rw [if_pos h1, if_pos (by rw [List.length_reverse]; omega), if_pos (by omega), if_pos (by omega)]
    · rw [if_neg h1, if_neg (by omega)]
      congr 1; omega
  · rw [List.getElem?_eq_none (by simp; omega), List.getElem?_eq_none (by simp; omega)]

theorem eraseIdx_insertIdx (l : List DimTy) (k : Nat) (d : DimTy) (h : k < l.length) :
    (l.eraseIdx k).insertIdx k d = l.set k d := by
  induction l generalizing k with
  | nil => simp at h
  | cons x l ih =>
    cases k with
    | zero => rfl
    | succ k =>
      simp only [List.length_cons] at h
      simp [ih k (by omega)]

/-- `Split` is the documented layout. -/
theorem split_spec {a : Axis} {ty : ShapeTy} {ds : List Nat} {p : Nat} (l : Layout) (h : ty.Conforms ds)
    (hp : a.index ds.length = some p) : a.split ty l = firstLayout a ty l := by
  unfold split firstLayout
  rw [layout_eq]
  cases a with
  | const n => simp [Axis.init, knownPos, constInit_eq_nil]
  | dyn i => simp [Axis.init, knownPos]
  | cols =>
    cases ty with
    | dynRank => simp [Axis.init, ShapeTy.reverse, constRest_dyn, knownPos]
    | static xs =>
      have hl := conforms_static_length h
      simp only [Axis.index] at hp
      split at hp
      · simp [Axis.init, ShapeTy.reverse, constRest_static, knownPos]
        have : xs.length - 2 = 0 ↔ xs.length ≤ 2 := by omega
        simp [this]
      · cases hp
  | rows =>
    cases ty with
    | dynRank => simp [Axis.init, ShapeTy.reverse, constRest_dyn, knownPos]
    | static xs =>
      have hl := conforms_static_length h
      have h1 : Axis.init .rows (.static xs) = .static [] ↔ xs.length - 1 = 0 := by
        simp only [Axis.init, ShapeTy.reverse, constRest_static]
        rw [ShapeTy.static.injEq, List.reverse_eq_nil_iff, List.drop_eq_nil_iff, List.length_reverse]
        omega
      simp [h1, knownPos]

/-- `Keep` is the documented layout. -/
theorem keep_spec {a : Axis} {ty : ShapeTy} {ds : List Nat} {p : Nat} (l : Layout) (h : ty.Conforms ds)
    (hp : a.index ds.length = some p) : a.keep ty l = lastLayout a ty l := by
  unfold keep lastLayout
  rw [layout_eq]
  cases a with
  | const n =>
    cases ty with
    | dynRank => simp [Axis.rest, constRest_dyn]
    | static xs =>
      have hl := conforms_static_length h
      simp only [Axis.index] at hp
      split at hp
      · simp [Axis.rest, constRest_static, knownPos]
        have : n = xs.length - 1 ↔ xs.length ≤ n + 1 := by omega
        simp [this]
      · cases hp
  | dyn i => cases ty <;> simp [Axis.rest, knownPos]
  | cols =>
    have h1 : Axis.rest .cols ty ≠ .static [] := fun h => by
      have := ShapeTy.reverse_eq_nil (ty := constInit 1 ty.reverse) h
      simp [constInit_eq_nil] at this
    rw [if_neg h1]
    cases ty with
    | dynRank => rfl
    | static xs =>
      have hl := conforms_static_length h
      simp only [Axis.index] at hp
      split at hp
      · show _ = if knownPos .cols (.static xs) = some (xs.length - 1) then l else .strided
        rw [if_neg (by rw [knownPos, Option.some.injEq]; omega)]
      · cases hp
  | rows => simp [Axis.rest, constInit, ShapeTy.reverse]

theorem remove_spec {a : Axis} {ty : ShapeTy} {ds : List Nat} {p : Nat} (hw : ty.WF) (h : ty.Conforms ds)
    (hp : a.index ds.length = some p) : a.remove ty = withoutDim a ty := by
  cases ty with
  | dynRank =>
    cases a <;> simp [Axis.remove, withoutDim, knownPos, constRemove_dyn, ShapeTy.reverse, ShapeTy.tail, toDyn]
  | static xs =>
    have hl := conforms_static_length h
    have h6 : xs.length ≤ 6 := hw
    have hlt := index_lt hp
    cases a with
    | const n =>
      simp only [Axis.index] at hp
      split at hp
      · exact constRemove_static n xs (by omega) h6
      · cases hp
    | dyn i =>
      simp [Axis.remove, withoutDim, knownPos, ShapeTy.tail, toDyn]
    | cols =>
      simp only [Axis.index] at hp
      split at hp
      · simp only [Axis.remove, ShapeTy.reverse]
        rw [constRemove_static 1 xs.reverse (by simp; omega) (by simpa)]
        simp only [withoutDim, knownPos]
        rw [reverse_eraseIdx' _ _ (by omega)]
        rfl
      · cases hp
    | rows =>
      simp only [Axis.remove, ShapeTy.reverse]
      rw [constRemove_static 0 xs.reverse (by simp; omega) (by simpa)]
      simp only [withoutDim, knownPos]
      rw [reverse_eraseIdx' _ _ (by omega)]
      rfl

theorem resizeTy_spec {a : Axis} {ty : ShapeTy} {ds : List Nat} {p : Nat} (hw : ty.WF) (h : ty.Conforms ds)
    (hp : a.index ds.length = some p) : a.resizeTy ty = resizedDim a ty := by
  cases ty with
  | dynRank =>
    cases a <;> simp [Axis.resizeTy, Axis.insert, Axis.remove, resizedDim, knownPos, constRemove_dyn,
      constInsert_dyn, ShapeTy.reverse, ShapeTy.tail, toDyn, prepend]
  | static xs =>
    have hl := conforms_static_length h
    have h6 : xs.length ≤ 6 := hw
    have hlt := index_lt hp
    have key : ∀ (k : Nat) (l : List DimTy), k < l.length → l.length ≤ 6 →
        constInsert .dyn k (constRemove k (.static l)) = .static (l.set k .dyn) := by
      intro k l h1 h2
      have h3 : (l.eraseIdx k).length = l.length - 1 := by rw [List.length_eraseIdx, if_pos h1]
      rw [constRemove_static k l h1 h2, constInsert_static _ _ _ (by omega) (by omega),
        eraseIdx_insertIdx _ _ _ h1]
    cases a with
    | const n =>
      simp only [Axis.index] at hp
      split at hp
      · exact key n xs (by omega) h6
      · cases hp
    | dyn i =>
      simp only [Axis.resizeTy, Axis.insert, Axis.remove, resizedDim, knownPos, ShapeTy.tail, toDyn]
      rw [prepend_static _ (by simp; omega)]
      cases xs with
      | nil => simp at hl; omega
      | cons x xs => simp [List.replicate_succ, List.map_const']
    | cols =>
      simp only [Axis.index] at hp
      split at hp
      · simp only [Axis.resizeTy, Axis.insert, Axis.remove]
        rw [ShapeTy.reverse_reverse]
        simp only [ShapeTy.reverse]
        rw [key 1 xs.reverse (by simp; omega) (by simpa)]
        simp only [resizedDim, knownPos]
        rw [reverse_set _ _ _ (by omega)]
        rfl
      · cases hp
    | rows =>
      simp only [Axis.resizeTy, Axis.insert, Axis.remove]
      rw [ShapeTy.reverse_reverse]
      simp only [ShapeTy.reverse]
      rw [key 0 xs.reverse (by simp; omega) (by simpa)]
      simp only [resizedDim, knownPos]
      rw [reverse_set _ _ _ (by omega)]
      rfl

theorem dimTy_spec {a : Axis} {ty : ShapeTy} {ds : List Nat} {p : Nat} (h : ty.Conforms ds)
    (hp : a.index ds.length = some p) : a.dimTy ty = dimAlong a ty := by
  cases ty with
  | dynRank =>
    cases a <;> simp [Axis.dimTy, dimAlong, knownPos, constDim_dyn, ShapeTy.reverse]
  | static xs =>
    have hl := conforms_static_length h
    have hlt := index_lt hp
    cases a with
    | const n => exact constDim_static n xs
    | dyn i => rfl
    | cols =>
      simp only [Axis.index] at hp
      split at hp
      · simp only [Axis.dimTy, ShapeTy.reverse, constDim_static, dimAlong, knownPos]
        rw [List.getD_eq_getElem?_getD, List.getD_eq_getElem?_getD, List.getElem?_reverse (by omega)]
        rfl
      · cases hp
    | rows =>
      simp only [Axis.dimTy, ShapeTy.reverse, constDim_static, dimAlong, knownPos]
      rw [List.getD_eq_getElem?_getD, List.getD_eq_getElem?_getD, List.getElem?_reverse (by omega)]
      rfl

end Axis

namespace ViewIdx

theorem outer_spec (l : Layout) (xs : List DimIdx) :
    ((∀ x ∈ xs, x = .full) → outer l xs = l) ∧ ((¬ ∀ x ∈ xs, x = .full) → outer l xs = .strided) := by
  induction xs with
  | nil => exact ⟨fun _ => rfl, fun h => absurd (fun x hx => by cases hx) h⟩
  | cons x xs ih =>
    cases x with
    | full =>
      refine ⟨fun h => ih.1 fun x hx => h x (List.mem_cons_of_mem _ hx), fun h => ih.2 fun h' => h ?_⟩
      intro x hx
      rcases List.mem_cons.1 hx with rfl | hx
      · rfl
      · exact h' x hx
    | int i => exact ⟨fun h => by simp at h, fun _ => rfl⟩
    | range s e => exact ⟨fun h => by simp at h, fun _ => rfl⟩
    | step s e k => exact ⟨fun h => by simp at h, fun _ => rfl⟩

theorem keepsLayout_int (i : Nat) (xs : List DimIdx) : KeepsLayout (.int i :: xs) ↔ KeepsLayout xs := by
  constructor
  · rintro ⟨pre, mid, post, h1, h2, h3, h4, h5⟩
    cases pre with
    | cons x pre =>
      injection h1 with h1 h1'
      exact ⟨pre, mid, post, h1', fun x hx => h2 x (List.mem_cons_of_mem _ hx), h3, h4, h5⟩
    | nil =>
      cases mid with
      | cons y mid =>
        injection h1 with h1 h1'
        simp only [List.length_cons] at h3
        have : mid = [] := List.length_eq_zero_iff.1 (by omega)
        subst this
        exact ⟨[], [], post, h1', by simp, by simp, by simp, h5⟩
      | nil =>
        have := h5 (.int i) (by rw [← show DimIdx.int i :: xs = post from h1]; simp)
        cases this
  · rintro ⟨pre, mid, post, h1, h2, h3, h4, h5⟩
    refine ⟨.int i :: pre, mid, post, by simp [h1], fun x hx => ?_, h3, h4, h5⟩
    rcases List.mem_cons.1 hx with rfl | hx
    · exact ⟨i, rfl⟩
    · exact h2 x hx

theorem keepsLayout_range {x : DimIdx} (hi : ∀ i, x ≠ .int i) (hs : ∀ s e k, x ≠ .step s e k)
    (xs : List DimIdx) : KeepsLayout (x :: xs) ↔ ∀ y ∈ xs, y = .full := by
  constructor
  · rintro ⟨pre, mid, post, h1, h2, h3, h4, h5⟩
    cases pre with
    | cons y pre =>
      injection h1 with h1 h1'
      obtain ⟨i, hy⟩ := h2 y (by simp)
      exact absurd (h1.trans hy) (hi i)
    | nil =>
      cases mid with
      | cons y mid =>
        injection h1 with h1 h1'
        simp only [List.length_cons] at h3
        have : mid = [] := List.length_eq_zero_iff.1 (by omega)
        subst this
        rw [h1']; exact h5
      | nil =>
        intro y hy
        exact h5 y (by rw [← show x :: xs = post from h1]; exact List.mem_cons_of_mem _ hy)
  · intro h
    exact ⟨[], [x], xs, rfl, by simp, by simp, fun y hy => by rw [List.mem_singleton.1 hy]; exact hs, h⟩

theorem not_keepsLayout_step (s e : Bnd) (k : Int) (xs : List DimIdx) : ¬ KeepsLayout (.step s e k :: xs) := by
  rintro ⟨pre, mid, post, h1, h2, h3, h4, h5⟩
  cases pre with
  | cons y pre =>
    injection h1 with h1 h1'
    obtain ⟨i, hy⟩ := h2 y (by simp)
    rw [← h1] at hy; cases hy
  | nil =>
    cases mid with
    | cons y mid =>
      injection h1 with h1 h1'
      exact h4 y (by simp) s e k h1.symm
    | nil =>
      have := h5 (.step s e k) (by rw [← show DimIdx.step s e k :: xs = post from h1]; simp)
      cases this

/-- The layout of a view is the documented one. -/
theorem layout_spec (l : Layout) (xs : List DimIdx) :
    (KeepsLayout xs → layout l xs = l) ∧ (¬ KeepsLayout xs → layout l xs = .strided) := by
  induction xs with
  | nil => exact ⟨fun _ => rfl, fun h => absurd ⟨[], [], [], rfl, by simp, by simp, by simp, by simp⟩ h⟩
  | cons x xs ih =>
    cases x with
    | int i => rw [keepsLayout_int]; exact ih
    | full => rw [keepsLayout_range (by simp) (by simp)]; exact outer_spec l xs
    | range s e => rw [keepsLayout_range (by simp) (by simp)]; exact outer_spec l xs
    | step s e k => exact ⟨fun h => absurd h (not_keepsLayout_step s e k xs), fun _ => rfl⟩

theorem shapeTy_spec (xs : List DimIdx) (ds : List DimTy) (hl : xs.length = ds.length) (h6 : ds.length ≤ 6) :
    shapeTy xs (.static ds) = .static (viewDimTys xs ds) := by
  induction xs generalizing ds with
  | nil => rfl
  | cons x xs ih =>
    cases ds with
    | nil => simp at hl
    | cons d ds =>
      simp only [List.length_cons] at hl h6
      have h1 := ih ds (by omega) (by omega)
      have h2 : (viewDimTys xs ds).length ≤ ds.length := by
        unfold viewDimTys
        exact le_trans (List.length_filterMap_le _ _) (by rw [List.length_zip]; omega)
      cases x with
      | int i => exact h1
      | full =>
        rw [shapeTy, ShapeTy.tail, List.tail_cons, h1, ShapeTy.prepend_static _ (by omega)]; rfl
      | range s e =>
        rw [shapeTy, ShapeTy.tail, List.tail_cons, h1, ShapeTy.prepend_static _ (by omega)]; rfl
      | step s e k =>
        rw [shapeTy, ShapeTy.tail, List.tail_cons, h1, ShapeTy.prepend_static _ (by omega)]; rfl

end ViewIdx

namespace Perm
open ShapeTy

theorem constInit_unit (n : Nat) (h : n ≤ 6) : ∃ l, Axis.constInit n (.static []) = .static l ∧ l.length = n := by
  induction n with
  | zero => exact ⟨[], rfl, rfl⟩
  | succ n ih =>
    obtain ⟨l, h1, h2⟩ := ih (by omega)
    refine ⟨.dyn :: l, ?_, by simp [h2]⟩
    rw [Axis.constInit, ShapeTy.tail, List.tail_nil, h1, prepend_static _ (by omega)]
    rfl

theorem mergeStatic_unit (a b : List DimTy) (h : a.length = b.length) (h6 : a.length ≤ 6) :
    ∃ l, mergeStatic a (.static b) = .static l ∧ l.length = a.length := by
  induction a generalizing b with
  | nil => exact ⟨b, rfl, h.symm⟩
  | cons x a ih =>
    cases b with
    | nil => simp at h
    | cons y b =>
      simp only [List.length_cons] at h h6
      obtain ⟨l, h1, h2⟩ := ih b (by omega) (by omega)
      refine ⟨x.merge y :: l, ?_, by simp [h2]⟩
      rw [mergeStatic, ShapeTy.tail, List.tail_cons, h1, prepend_static _ (by omega)]
      rfl

theorem init_range (k m : Nat) (h : k + m ≤ 5) :
    ∃ l, init ((List.range' k (m + 1)).map .const) = .static l ∧ l.length = k := by
  induction m generalizing k with
  | zero => exact constInit_unit k (by omega)
  | succ m ih =>
    obtain ⟨l, h1, h2⟩ := ih (k + 1) (by omega)
    obtain ⟨l', h3, h4⟩ := constInit_unit k (by omega)
    have h5 : l.tail.length = k := by simp [h2]
    obtain ⟨l'', h6, h7⟩ := mergeStatic_unit l.tail l' (by omega) (by omega)
    refine ⟨l'', ?_, by omega⟩
    rw [← h6]
    rw [List.range'_succ, List.map_cons]
    rw [List.range'_succ, List.map_cons] at h1 ⊢
    rw [init, h1]
    show (ShapeTy.static l.tail).merge (Axis.constInit k (.static [])) = _
    rw [h3]; rfl

/-- The layout of a permuted view is the documented one. -/
theorem layout_spec {perm : Shape} (l : Layout) (hw : perm.WF) (h6 : perm.ty.WF)
    (hp : perm.dims.Perm (List.range perm.dims.length)) : layout perm.ty l = permLayout perm.ty l := by
  obtain ⟨ty, p⟩ := perm
  cases ty with
  | dynRank => rfl
  | static xs =>
    have hlen := conforms_static_length hw
    have h6 : xs.length ≤ 6 := h6
    match xs, hlen with
    | [], _ => rfl
    | [x], _ => rfl
    | x :: y :: rest, hlen =>
      show (init (x :: y :: rest)).layout l = if _ then l else _
      by_cases hid : x :: y :: rest = (List.range (x :: y :: rest).length).map DimTy.const
      · rw [if_pos (Or.inr hid), hid, List.range_eq_range']
        obtain ⟨l', h1, h2⟩ := init_range 0 (rest.length + 1) (by simp at h6; omega)
        rw [show (x :: y :: rest).length = rest.length + 1 + 1 from rfl, h1,
          List.length_eq_zero_iff.1 h2]
        rfl
      · rw [if_neg (fun h => h.elim (fun h => by simp at h) hid), layout_eq, if_neg]
        intro h1
        apply hid
        have hn : p.Nodup := hp.nodup_iff.2 List.nodup_range
        have key : ∀ i (hi : i < (x :: y :: rest).length) (hi' : i < p.length),
            (x :: y :: rest)[i] = .const p[i] ∧ p[i] ≤ i := by
          intro i hi hi'
          obtain ⟨c, hc1, hc2⟩ := init_bound h1 (k := 0) (by simp) i hi
          have hf : ((x :: y :: rest)[i]'hi).Fits p[i] := by
            have := (List.forall₂_iff_get.1 hw).2 i hi hi'
            simpa using this
          rw [hc1] at hf
          simp at hf
          subst hf
          exact ⟨hc1, by omega⟩
        have hr := eq_range_of_le hn fun i hi => (key i (by simp only at hlen; omega) hi).2
        apply List.ext_getElem (by simp)
        intro i h1 h2
        rw [(key i h1 (by simp only at hlen; omega)).1]
        simp only [List.getElem_map, List.getElem_range, DimTy.const.injEq]
        have : p[i]'(by simp only at hlen; omega) = (List.range p.length)[i]'(by simp only at hlen; simp; omega) := by
          congr 1
        rw [this, List.getElem_range]

theorem shapeStatic_spec (xs : List DimTy) (ty : ShapeTy) (h6 : xs.length ≤ 6) :
    shapeStatic xs ty = .static (xs.map fun x => (toAxis x).dimTy ty) := by
  match xs, h6 with
  | [], _ => rfl
  | [x], _ => rfl
  | x :: y :: rest, h6 =>
    simp only [List.length_cons] at h6
    rw [shapeStatic, shapeStatic_spec (y :: rest) ty (by simp; omega), prepend_static _ (by simp; omega)]
    rfl

theorem shapeTy_spec (perm ty : ShapeTy) (h6 : perm.WF) : shapeTy perm ty = permutedTy perm ty := by
  cases perm with
  | dynRank =>
    cases ty with
    | dynRank => rfl
    | static ds =>
      show ShapeTy.static _ = ShapeTy.static _
      rw [List.map_const']
  | static xs =>
    rw [shapeTy, shapeStatic_spec xs ty h6]
    cases ty with
    | dynRank =>
      show ShapeTy.static _ = ShapeTy.static _
      congr 1
      apply List.map_congr_left
      intro x _
      cases x with
      | const n => exact Axis.constDim_dyn n
      | dyn => rfl
    | static ds =>
      show ShapeTy.static _ = ShapeTy.static _
      congr 1
      apply List.map_congr_left
      intro x _
      cases x with
      | const n => exact Axis.constDim_static n ds
      | dyn => rfl

end Perm

namespace ShapeTy

theorem mergeStatic_spec (a b : List DimTy) (ha : a.length ≤ 6) (hb : b.length ≤ 6) :
    ∃ l, mergeStatic a (.static b) = .static l ∧ l.length = max a.length b.length ∧
      ∀ k : Nat, l[k]? = mergedDim a[k]? b[k]? := by
  induction a generalizing b with
  | nil => exact ⟨b, rfl, by simp, fun k => by simp [mergedDim]⟩
  | cons x a ih =>
    simp only [List.length_cons] at ha
    obtain ⟨l, h1, h2, h3⟩ := ih b.tail (by omega) (by simp; omega)
    refine ⟨x.merge (ShapeTy.static b).head :: l, ?_, ?_, fun k => ?_⟩
    · rw [mergeStatic, ShapeTy.tail, h1, prepend_static _ (by rw [h2]; simp; omega)]
    · simp only [List.length_cons, h2, List.length_tail]; omega
    · cases k with
      | zero => cases x <;> cases b <;> rfl
      | succ k =>
        simp only [List.getElem?_cons_succ, h3]
        cases b <;> simp

end ShapeTy
end Model
