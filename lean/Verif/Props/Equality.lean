import Verif.Props.Slice
import Verif.Props.Serde
import Verif.Lemmas.CompareExact

/-!
Exact behaviour of comparison, search, formatting and serialising (C43, C45, C46, C59). Equality of arrays and views is an
equivalence relation if equality of elements is (C57).
-/

namespace Props
open Model Spec

variable {σ A T U W : Type}

/-! ### C43, C45, C46, C59 -/

/-- C43, exactly: what comparison does for all pairs of views. It panics iff the dimensions are the same,
an operand is strided and the size of a row that exists overflows; then no element is compared. -/
theorem C43_exact (cmp : Int → Int → M σ Bool) (v w : View) (hv : v.map.WF) (hw : w.map.WF) :
    (v.dims ≠ w.dims → viewEq cmp v w = M.pure false) ∧
    (v.dims = w.dims → (v.layout = .dense ∧ w.layout = .dense) ∨ RowsFit v.dims → viewEq cmp v w =
      allM (fun j => M.bind (orUb (v.index j)) fun p => M.bind (orUb (w.index j)) fun q => cmp p q)
        (allIdx v.dims)) ∧
    (v.dims = w.dims → ¬ ((v.layout = .dense ∧ w.layout = .dense) ∨ RowsFit v.dims) →
      viewEq cmp v w = M.panic) := by
  refine ⟨fun hd => ?_, fun hd hf => ?_, fun hd hf => ?_⟩
  · unfold viewEq
    rw [eqLoop, if_neg hd]
  · rw [C43_steps_partial cmp v w hv hw (hf.imp_right Or.inr), if_pos hd]
  · rw [not_or] at hf
    exact eqLoop_panic cmp _ v w hv hw hd (Nat.lt_succ_self _)
      (fun h => hf.1 ⟨Mapping.isDense_iff.1 h.1, Mapping.isDense_iff.1 h.2⟩) hf.2

/-- Both kinds of operands. -/
example : ¬ RowsFit hugeRows.dims ∧ RowsFit (swapped 2 3).dims :=
  ⟨fun h => absurd (h 1 (by decide) (by decide) 2 (by decide)) (by decide +kernel),
    C43_rows _ (by decide) (by decide)⟩

/-- C45, exactly: `contains` panics iff the view is strided and the size of a row that exists overflows. -/
theorem C45_exact (f : Int → M σ Bool) (v : View) (hv : v.map.WF) :
    (v.layout = .dense ∨ RowsFit v.dims → viewContains f v =
      anyM (fun j => M.bind (orUb (v.index j)) f) (allIdx v.dims)) ∧
    (¬ (v.layout = .dense ∨ RowsFit v.dims) → viewContains f v = M.panic) := by
  refine ⟨fun hf => C45_steps_partial f v hv (hf.imp_right Or.inr), fun hf => ?_⟩
  rw [not_or] at hf
  exact containsLoop_panic f _ v hv (Nat.lt_succ_self _) (fun h => hf.1 (Mapping.isDense_iff.1 h)) hf.2

example : ¬ (hugeRows.layout = .dense ∨ RowsFit hugeRows.dims) :=
  fun h => h.elim (by decide) fun h => absurd (h 1 (by decide) (by decide) 2 (by decide)) (by decide +kernel)

/-- C59, exactly: formatting panics iff the size of a row that exists overflows. -/
theorem C59_exact (fmt : Int → M σ A) (v : View) (hv : v.map.WF) :
    (RowsFit v.dims → debug fmt v = treeM v.dims fun j => M.bind (orUb (v.index j)) fmt) ∧
    (¬ RowsFit v.dims → debug fmt v = M.panic) :=
  ⟨fun hf => C59_partial v hv hf fmt, fun hf => debugLoop_panic fmt _ v hv (Nat.lt_succ_self _) hf⟩

example : hugeRows.map.WF ∧ ¬ RowsFit hugeRows.dims :=
  ⟨by decide +kernel, fun h => absurd (h 1 (by decide) (by decide) 2 (by decide)) (by decide +kernel)⟩

/-- C46, exactly: serialising a view panics iff its rank is dynamic or the size of a row that exists
overflows. -/
theorem C46_exact (enc : Int → M σ (Val A)) (v : View) (hv : v.map.WF) :
    (v.ty ≠ .dynRank → RowsFit v.dims →
      serialize enc v = nestM v.dims fun j => M.bind (orUb (v.index j)) enc) ∧
    (v.ty = .dynRank ∨ ¬ RowsFit v.dims → serialize enc v = M.panic) := by
  constructor
  · intro ht hf
    cases hty : v.ty with
    | dynRank => exact absurd hty ht
    | static tys => exact C46_serialize v hv hty hf enc
  · intro h
    cases hty : v.ty with
    | dynRank => unfold serialize; rw [hty]; rfl
    | static tys =>
      have hf : ¬ RowsFit v.dims := h.resolve_left (by rw [hty]; simp)
      have hc : (ShapeTy.static tys).Conforms v.dims := by rw [← hty]; exact hv.1
      unfold serialize
      rw [hty]
      exact serRank_panic enc _ v hv (ShapeTy.conforms_static_length hc).symm hf

example : hugeRows.ty ≠ .dynRank ∧ ¬ RowsFit hugeRows.dims ∧ (swapped 2 3).ty ≠ .dynRank ∧
    RowsFit (swapped 2 3).dims :=
  ⟨by decide, fun h => absurd (h 1 (by decide) (by decide) 2 (by decide)) (by decide +kernel), by decide,
    C43_rows _ (by decide) (by decide)⟩

/-! ### C57 -/

/-- The comparison does not panic (see `C43_violated`): both operands are dense, or the sizes of rows fit
into `usize`. This holds for all non-empty arrays and for all arrays with rank below 2, see `C43_rows`. -/
def Comparable (v w : View) : Prop :=
  (v.layout = .dense ∧ w.layout = .dense) ∨ v.dims.length < 2 ∨ RowsFit v.dims

/-- The result of a comparison with a `true` answer. -/
private theorem eq_true (v w : View) (hv : v.map.WF) (hw : w.map.WF) (hf : Comparable v w)
    (m : Int → Option T) (m' : Int → Option U) (hm : Within v m) (hm' : Within w m')
    (eqv : T → U → Bool) (s : σ) :
    viewEq (compareAt m m' eqv) v w s = .ok true s ↔ (v.dims = w.dims ∧ ∀ j p q x y,
      v.index j = some p → w.index j = some q → m p = some x → m' q = some y → eqv x y = true) := by
  obtain ⟨b, hb, h⟩ := C43_partial v w hv hw hf m m' hm hm' eqv s
  rw [hb, ← h]
  constructor
  · intro e; injection e
  · rintro rfl; rfl

/-- C57: an array is equal to itself, through whatever view, if every element is equal to itself. -/
theorem C57_refl_partial (v : View) (hv : v.map.WF) (hf : Comparable v v) (m : Int → Option T)
    (hm : Within v m) (eqv : T → T → Bool) (h : ∀ x, eqv x x = true) (s : σ) :
    viewEq (compareAt m m eqv) v v s = .ok true s := by
  rw [eq_true v v hv hv hf m m hm hm]
  refine ⟨rfl, fun j p q x y h1 h2 h3 h4 => ?_⟩
  rw [h1] at h2; cases h2
  rw [h3] at h4; cases h4
  exact h x

/-- C57, exactly: a view is equal to itself iff the comparison does not panic. -/
theorem C57_refl_exact (v : View) (hv : v.map.WF) (m : Int → Option T) (hm : Within v m)
    (eqv : T → T → Bool) (h : ∀ x, eqv x x = true) (s : σ) :
    (v.layout = .dense ∨ RowsFit v.dims → viewEq (compareAt m m eqv) v v s = .ok true s) ∧
    (¬ (v.layout = .dense ∨ RowsFit v.dims) → viewEq (compareAt m m eqv) v v s = .panic s) := by
  refine ⟨fun hf => ?_, fun hf => ?_⟩
  · exact C57_refl_partial v hv (hf.elim (fun h => Or.inl ⟨h, h⟩) fun h => Or.inr (Or.inr h)) m hm eqv h s
  · rw [(C43_exact _ v v hv hv).2.2 rfl (fun h => hf (h.imp_left And.left))]
    rfl

example : hugeRows.map.WF ∧ Within hugeRows (fun _ => (none : Option Nat)) ∧
    Within (swapped 2 3) (fun p => [1, 2, 3, 4, 5, 6][p.toNat]?) := by
  have h : ∀ (v : View), v.map.WF → ∀ (m : Int → Option Nat),
      (∀ j ∈ allIdx v.dims, ∀ p ∈ v.index j, (m p).isSome) → Within v m := fun v hv m h j p hp =>
    h j (mem_allIdx.2 ((View.index_isSome v hv j).1 (by rw [hp]; rfl))) p hp
  have hw : hugeRows.map.WF := by decide +kernel
  refine ⟨hw, fun j p hp => ?_, h _ (by decide) _ (by decide)⟩
  have hj := (View.index_isSome hugeRows hw j).1 (by rw [hp]; rfl)
  have := hj.size_pos
  exact absurd this (by decide)

/-- C57: the order of the operands does not matter, if it does not matter for elements. This includes
comparisons that panic. -/
theorem C57_symm (v w : View) (hv : v.map.WF) (hw : w.map.WF)
    (m : Int → Option T) (m' : Int → Option U) (hm : Within v m) (hm' : Within w m')
    (eqv : T → U → Bool) (eqv' : U → T → Bool) (h : ∀ x y, eqv x y = eqv' y x) (s : σ) :
    viewEq (compareAt m m' eqv) v w s = viewEq (compareAt m' m eqv') w v s := by
  by_cases hd : v.dims = w.dims
  swap
  · rw [(C43_exact _ v w hv hw).1 hd, (C43_exact _ w v hw hv).1 (Ne.symm hd)]
  by_cases hf : (v.layout = .dense ∧ w.layout = .dense) ∨ RowsFit v.dims
  swap
  · rw [(C43_exact _ v w hv hw).2.2 hd hf,
      (C43_exact _ w v hw hv).2.2 hd.symm (fun g => hf (g.imp And.symm fun g => hd ▸ g))]
  obtain ⟨b, hb, h1⟩ := C43_partial v w hv hw (hf.imp_right Or.inr) m m' hm hm' eqv s
  obtain ⟨c, hc, h2⟩ := C43_partial w v hw hv (hf.imp And.symm fun g => Or.inr (hd ▸ g)) m' m hm' hm eqv' s
  rw [hb, hc]
  have : b = true ↔ c = true := by
    rw [h1, h2]
    constructor
    · rintro ⟨e, g⟩
      exact ⟨e.symm, fun j p q x y a b c d => by rw [← h]; exact g j q p y x b a d c⟩
    · rintro ⟨e, g⟩
      exact ⟨e.symm, fun j p q x y a b c d => by rw [h]; exact g j q p y x b a d c⟩
  have : b = c := by cases b <;> cases c <;> simp_all
  rw [this]

/-- A successful comparison did not panic. -/
private theorem comparable_of_ok (v w : View) (hv : v.map.WF) (hw : w.map.WF) (cmp : Int → Int → M σ Bool)
    (s : σ) (h : viewEq cmp v w s = .ok true s) :
    v.dims = w.dims ∧ ((v.layout = .dense ∧ w.layout = .dense) ∨ RowsFit v.dims) := by
  have hd : v.dims = w.dims := by
    by_contra hd
    rw [(C43_exact _ v w hv hw).1 hd] at h
    cases h
  refine ⟨hd, ?_⟩
  by_contra hf
  rw [(C43_exact _ v w hv hw).2.2 hd hf] at h
  cases h

/-- C57: if the first is equal to the second and the second to the third, then the first is equal to the
third, if this holds for elements. In particular the comparison of the first and the third does not panic. -/
theorem C57_trans (u v w : View) (hu : u.map.WF) (hv : v.map.WF) (hw : w.map.WF)
    (m : Int → Option T) (m' : Int → Option U) (m'' : Int → Option W)
    (hm : Within u m) (hm' : Within v m') (hm'' : Within w m'')
    (eqv : T → U → Bool) (eqv' : U → W → Bool) (eqv'' : T → W → Bool)
    (h : ∀ x y z, eqv x y = true → eqv' y z = true → eqv'' x z = true) (s : σ)
    (h1 : viewEq (compareAt m m' eqv) u v s = .ok true s)
    (h2 : viewEq (compareAt m' m'' eqv') v w s = .ok true s) :
    viewEq (compareAt m m'' eqv'') u w s = .ok true s := by
  obtain ⟨d1, f1⟩ := comparable_of_ok u v hu hv _ s h1
  obtain ⟨d2, f2⟩ := comparable_of_ok v w hv hw _ s h2
  have huw : Comparable u w := by
    rcases f1 with f1 | f1
    · rcases f2 with f2 | f2
      · exact Or.inl ⟨f1.1, f2.2⟩
      · exact Or.inr (Or.inr (d1 ▸ f2))
    · exact Or.inr (Or.inr f1)
  rw [eq_true u v hu hv (f1.imp_right Or.inr) m m' hm hm'] at h1
  rw [eq_true v w hv hw (f2.imp_right Or.inr) m' m'' hm' hm''] at h2
  rw [eq_true u w hu hw huw m m'' hm hm'']
  refine ⟨h1.1.trans h2.1, fun j p r x z hp hr hx hz => ?_⟩
  have hj : Valid v.dims j := by
    rw [← h1.1, ← View.index_isSome u hu, hp]; rfl
  obtain ⟨q, hq⟩ := Option.isSome_iff_exists.1 ((View.index_isSome v hv j).2 hj)
  obtain ⟨y, hy⟩ := Option.isSome_iff_exists.1 (hm' j q hq)
  exact h x y z (h1.2 j p q x y hp hq hx hy) (h2.2 j q r y z hq hr hy hz)

/-- A transposed copy of an array is equal to its transposed view, in both directions. -/
example : let m : Int → Option Nat := fun p => [1, 2, 3, 4, 5, 6][p.toNat]?
    let m' : Int → Option Nat := fun p => [1, 4, 2, 5, 3, 6][p.toNat]?
    let w := whole ⟨.static [.dyn, .dyn], [3, 2]⟩
    (whole ⟨.static [.dyn, .dyn], [2, 3]⟩).reorder = some (swapped 2 3) ∧
    viewEq (compareAt m m' (· == ·)) (swapped 2 3) w () = .ok true () ∧
    viewEq (compareAt m' m (· == ·)) w (swapped 2 3) () = .ok true () := by decide +kernel

example (w : View) : Comparable (swapped 2 3) w :=
  Or.inr (Or.inr (C43_rows _ (by decide) (by decide)))

end Props
