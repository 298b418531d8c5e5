import Verif.Lemmas.View

namespace Model
open Spec
namespace ViewIdx
open ShapeTy

/-- One argument as an arithmetic progression: start, and for kept axes length and step. -/
def apSel : DimIdx → Nat → Option (Nat × Option (Nat × Int))
  | .int i, d => if i < d then some (i, none) else none
  | .full, d => some (0, some (d, 1))
  | .range a b, d => (rangeNorm a b d).map fun r => (r.1, some (r.2 - r.1, 1))
  | .step a b s, d => do
    let r ← rangeNorm a b d
    check (s.natAbs ≠ 0)
    pure (if s < 0 ∧ r.1 < r.2 then r.2 - 1 else r.1,
      some ((r.2 - r.1 + s.natAbs - 1) / s.natAbs, s))

/-- Combination of one argument with the result for the following axes. -/
def apCons (s : Int) (r : Int × List Nat × List Int) : Nat × Option (Nat × Int) → Int × List Nat × List Int
  | (delta, none) => (r.1 + s * (delta : Int), r.2.1, r.2.2)
  | (delta, some (len, mult)) => (r.1 + s * (delta : Int), len :: r.2.1, s * mult :: r.2.2)

/-- All arguments: total offset, dimensions, strides. -/
def apAll : List DimIdx → List Nat → List Int → Option (Int × List Nat × List Int)
  | [], [], [] => some (0, [], [])
  | x :: xs, d :: ds, s :: ss => do
    let r ← apAll xs ds ss
    let q ← apSel x d
    pure (apCons s r q)
  | _, _, _ => none

theorem outer_dense {L : Layout} {xs : List DimIdx} (h : outer L xs = .dense) :
    L = .dense ∧ layout L xs = .dense := by
  induction xs with
  | nil => exact ⟨h, h⟩
  | cons x xs ih =>
    cases x with
    | int i => simp [outer] at h
    | range a b => simp [outer] at h
    | step a b s => simp [outer] at h
    | full => simp only [outer] at h; exact ⟨(ih h).1, h⟩

theorem stride_append {m : Mapping} (h : m.WF) {ps ss : List Int} {s : Int}
    (hs : m.strides = ps ++ s :: ss) : m.stride ps.length = some s := by
  rw [Mapping.stride_eq m h, hs]; simp

theorem dim_append {m : Mapping} {pd ds : List Nat} {d : Nat}
    (hd : m.dims = pd ++ d :: ds) : m.dim pd.length = some d := by
  show m.dims[pd.length]? = some d
  rw [hd]; simp

theorem viewIndex_eq (m : Mapping) (hm : m.WF) (xs : List DimIdx) :
    ∀ (sty : ShapeTy) (pd ds : List Nat) (ps ss : List Int),
      m.dims = pd ++ ds → m.strides = ps ++ ss → ds.length = xs.length → ss.length = xs.length →
      sty.Conforms ds →
      (viewIndex m xs sty = (apAll xs ds ss).map fun r =>
        (r.1, Mapping.mk (shapeTy xs sty) r.2.1 r.2.2 (layout m.layout xs))) ∧
      ∀ off nd ns, apAll xs ds ss = some (off, nd, ns) →
        (shapeTy xs sty).Conforms nd ∧ ns.length = nd.length ∧
        (layout m.layout xs = .dense → ns = denseStrides nd) ∧
        (outer m.layout xs = .dense → nd = ds ∧ off = 0) := by
  induction xs with
  | nil =>
    intro sty pd ds ps ss hd hs hdl hsl hc
    have h1 : ds = [] := by simpa using hdl
    have h2 : ss = [] := by simpa using hsl
    subst h1 h2
    refine ⟨?_, ?_⟩
    · simp only [viewIndex, apAll, Option.map_some, layout]
      cases m.layout <;> rfl
    · intro off nd ns h
      simp [apAll] at h
      obtain ⟨rfl, rfl, rfl⟩ := h
      simp [shapeTy, denseStrides]
  | cons x xs ih =>
    intro sty pd ds ps ss hd hs hdl hsl hc
    cases ds with
    | nil => simp at hdl
    | cons d ds =>
    cases ss with
    | nil => simp at hsl
    | cons s ss =>
    simp at hdl hsl
    obtain ⟨ih1, ih2⟩ := ih sty.tail (pd ++ [d]) ds (ps ++ [s]) ss (by simp [hd]) (by simp [hs]) hdl hsl
      (conforms_tail hc)
    have hlen : pd.length = ps.length := by
      have := hm.2
      rw [hd, hs] at this; simp at this; omega
    have hpos : m.rank - 1 - xs.length = pd.length := by
      show m.dims.length - 1 - xs.length = _
      rw [hd]; simp; omega
    have hstride : m.stride pd.length = some s := by rw [hlen]; exact stride_append hm hs
    have hdim : m.dim pd.length = some d := dim_append hd
    have hdense : m.layout = .dense → ss = denseStrides ds ∧ s = (size ds : Int) := by
      intro hl
      have := Mapping.strides_of_dense hl
      rw [hd, hs, Mapping.denseStrides_append] at this
      have h3 := (List.append_inj this (by simp [hlen])).2
      simp [denseStrides] at h3
      exact ⟨h3.2, h3.1⟩
    simp only [viewIndex, hpos, ih1, apAll]
    cases hr : apAll xs ds ss with
    | none => simp
    | some r =>
      obtain ⟨off, nd, ns⟩ := r
      obtain ⟨c1, c2, c3, c4⟩ := ih2 off nd ns hr
      have hwf : (Mapping.mk (shapeTy xs sty.tail) nd ns (layout m.layout xs)).WF := Mapping.mk_wf c1 c2
      have hst : (Mapping.mk (shapeTy xs sty.tail) nd ns (layout m.layout xs)).strides = ns :=
        Mapping.mk_strides c3
      simp only [Option.map_some, Option.bind_eq_bind, Option.bind_some, hdim, hstride]
      cases x with
      | int i =>
        have hl : layout m.layout (DimIdx.int i :: xs) = layout m.layout xs := rfl
        have ht : shapeTy (DimIdx.int i :: xs) sty = shapeTy xs sty.tail := rfl
        have hre : (Mapping.mk (shapeTy xs sty.tail) nd ns (layout m.layout xs)).remap
            (shapeTy xs sty.tail) (layout m.layout xs)
            = some (Mapping.mk (shapeTy xs sty.tail) nd ns (layout m.layout xs)) := by
          rw [Mapping.remap_eq _ hwf, if_pos, Mapping.mk_dims, hst]
          refine ⟨by rw [Mapping.mk_dims]; exact c1, ?_⟩
          intro hh; rw [Mapping.isContiguous_iff hwf, hst, Mapping.mk_dims]; exact c3 hh
        simp only [hl, ht, hre, apSel]
        by_cases hi : i < d
        · refine ⟨?_, ?_⟩
          · simp only [if_pos hi, Option.bind_some]
            show (check _ >>= _) = _
            rw [check_pos hi]; rfl
          · intro off' nd' ns' h
            simp only [if_pos hi, Option.bind_some] at h
            simp [apCons] at h
            obtain ⟨_, rfl, rfl⟩ := h
            exact ⟨c1, c2, c3, by simp [outer]⟩
        · refine ⟨?_, ?_⟩
          · simp only [if_neg hi, Option.bind_none, Option.map_none]
            show (check _ >>= _) = _
            rw [check_neg hi]
          · intro off' nd' ns' h; simp [hi] at h
      | full =>
        have hl : layout m.layout (DimIdx.full :: xs) = outer m.layout xs := rfl
        have ht : shapeTy (DimIdx.full :: xs) sty = (shapeTy xs sty.tail).prepend sty.head := rfl
        have hcf : ((shapeTy xs sty.tail).prepend sty.head).Conforms (d :: nd) :=
          conforms_prepend (conforms_head hc) c1
        have hpre : (Mapping.mk (shapeTy xs sty.tail) nd ns (layout m.layout xs)).prependDim d s
            ((shapeTy xs sty.tail).prepend sty.head) (outer m.layout xs)
            = some (Mapping.mk ((shapeTy xs sty.tail).prepend sty.head) (d :: nd) (s :: ns)
                (outer m.layout xs)) := by
          rw [Mapping.prependDim_eq _ hwf, if_pos, Mapping.mk_dims, hst]
          rw [Mapping.mk_dims]
          refine ⟨hcf, ?_⟩
          intro hh
          rw [Mapping.mk_layout]
          exact ⟨(outer_dense hh).2, by rw [(hdense (outer_dense hh).1).2, (c4 hh).1]⟩
        simp only [hl, ht, hpre, apSel, apCons]
        refine ⟨by simp, ?_⟩
        intro off' nd' ns' h
        simp at h
        obtain ⟨rfl, rfl, rfl⟩ := h
        refine ⟨hcf, by simp [c2], ?_, ?_⟩
        · intro hh
          have h4 := c4 hh
          rw [c3 (outer_dense hh).2]
          simp [denseStrides, h4.1, (hdense (outer_dense hh).1).2]
        · intro hh
          have h4 := c4 hh
          exact ⟨by rw [h4.1], h4.2⟩
      | range a b =>
        have hl : layout m.layout (DimIdx.range a b :: xs) = outer m.layout xs := rfl
        have ht : shapeTy (DimIdx.range a b :: xs) sty = (shapeTy xs sty.tail).prepend .dyn := rfl
        cases hrn : rangeNorm a b d with
        | none =>
          simp only [apSel, hrn]
          exact ⟨rfl, by simp⟩
        | some se =>
          obtain ⟨st, en⟩ := se
          have hcf : ((shapeTy xs sty.tail).prepend .dyn).Conforms ((en - st) :: nd) :=
            conforms_prepend trivial c1
          have hpre : (Mapping.mk (shapeTy xs sty.tail) nd ns (layout m.layout xs)).prependDim (en - st) s
              ((shapeTy xs sty.tail).prepend .dyn) (outer m.layout xs)
              = some (Mapping.mk ((shapeTy xs sty.tail).prepend .dyn) ((en - st) :: nd) (s :: ns)
                  (outer m.layout xs)) := by
            rw [Mapping.prependDim_eq _ hwf, if_pos, Mapping.mk_dims, hst]
            rw [Mapping.mk_dims]
            refine ⟨hcf, ?_⟩
            intro hh
            rw [Mapping.mk_layout]
            exact ⟨(outer_dense hh).2, by rw [(hdense (outer_dense hh).1).2, (c4 hh).1]⟩
          simp only [hl, ht, apSel, apCons, hrn, Option.map_some, Option.bind_some, hpre]
          refine ⟨by simp, ?_⟩
          intro off' nd' ns' h
          simp at h
          obtain ⟨rfl, rfl, rfl⟩ := h
          refine ⟨hcf, by simp [c2], ?_, by simp [outer]⟩
          intro hh
          have h4 := c4 hh
          rw [c3 (outer_dense hh).2]
          simp [denseStrides, h4.1, (hdense (outer_dense hh).1).2]
      | step a b k =>
        have hl : layout m.layout (DimIdx.step a b k :: xs) = .strided := rfl
        have ht : shapeTy (DimIdx.step a b k :: xs) sty = (shapeTy xs sty.tail).prepend .dyn := rfl
        cases hrn : rangeNorm a b d with
        | none =>
          simp only [apSel, hrn]
          exact ⟨rfl, by simp⟩
        | some se =>
          obtain ⟨st, en⟩ := se
          by_cases hk : k.natAbs ≠ 0
          swap
          · simp only [apSel, hrn, Option.bind_some, Option.bind_eq_bind]
            have e1 : check (k.natAbs ≠ 0) = none := if_neg hk
            simp only [e1, Option.bind_none, Option.map_none]
            exact ⟨trivial, fun _ _ _ h => by simp at h⟩
          have e1 : check (k.natAbs ≠ 0) = some () := if_pos hk
          have hcf : ((shapeTy xs sty.tail).prepend .dyn).Conforms
              (((en - st + k.natAbs - 1) / k.natAbs) :: nd) := conforms_prepend trivial c1
          have hpre : (Mapping.mk (shapeTy xs sty.tail) nd ns (layout m.layout xs)).prependDim
              ((en - st + k.natAbs - 1) / k.natAbs) (s * k)
              ((shapeTy xs sty.tail).prepend .dyn) .strided
              = some (Mapping.mk ((shapeTy xs sty.tail).prepend .dyn)
                  (((en - st + k.natAbs - 1) / k.natAbs) :: nd) (s * k :: ns) .strided) := by
            rw [Mapping.prependDim_eq _ hwf, if_pos, Mapping.mk_dims, hst]
            rw [Mapping.mk_dims]
            exact ⟨hcf, by simp⟩
          simp only [hl, ht, apSel, apCons, hrn, Option.bind_some, hpre, e1, Option.bind_eq_bind]
          refine ⟨by simp, ?_⟩
          intro off' nd' ns' h
          simp at h
          obtain ⟨rfl, rfl, rfl⟩ := h
          exact ⟨hcf, by simp [c2], by simp, by simp [outer]⟩

/-- Arithmetic progressions agree with the specified selections. -/
theorem apSel_spec {x : DimIdx} {d : Nat} (hd : d ≤ usizeMax) :
    match select x d, apSel x d with
    | none, none => True
    | some (.drop i), some (delta, none) => delta = i ∧ i < d
    | some (.keep l), some (delta, some (len, mult)) =>
        l.length = len ∧ ∀ j (h : j < l.length), ((l[j] : Nat) : Int) = delta + mult * j ∧ l[j] < d
    | _, _ => False := by
  cases x with
  | int i => by_cases h : i < d <;> simp [select, apSel, h]
  | full => simp [select, apSel]
  | range a b =>
    simp only [select, apSel, rangeNorm_eq hd]
    by_cases h : lo a ≤ hi d b ∧ hi d b ≤ d
    · simp only [if_pos h, Option.map_some]
      refine ⟨by simp, ?_⟩
      intro j hj
      simp at hj ⊢
      omega
    · simp [h]
  | step a b s =>
    simp only [select, apSel, rangeNorm_eq hd]
    by_cases h : lo a ≤ hi d b ∧ hi d b ≤ d
    swap
    · have : ¬ (lo a ≤ hi d b ∧ hi d b ≤ d ∧ s ≠ 0) := fun h' => h ⟨h'.1, h'.2.1⟩
      simp only [if_neg h, if_neg this]
      trivial
    by_cases hs : s = 0
    · have : ¬ (lo a ≤ hi d b ∧ hi d b ≤ d ∧ s ≠ 0) := fun h' => h'.2.2 hs
      have e1 : check (s.natAbs ≠ 0) = none := if_neg (by simp [hs])
      simp only [if_pos h, if_neg this, Option.bind_eq_bind, Option.bind_some, e1]
      trivial
    · have : (lo a ≤ hi d b ∧ hi d b ≤ d ∧ s ≠ 0) := ⟨h.1, h.2, hs⟩
      have e1 : check (s.natAbs ≠ 0) = some () := if_pos (by omega)
      simp only [if_pos h, if_pos this, Option.bind_eq_bind, Option.bind_some, e1]
      rw [stepCoords_eq h.1 hs]
      refine ⟨by simp, ?_⟩
      intro j hj
      simp at hj
      have hn : 0 < s.natAbs := by omega
      have hlast := step_last hn hj
      simp only [List.getElem_map, List.getElem_range]
      generalize hm : j * s.natAbs = q at *
      have hq : (j : Int) * (s.natAbs : Int) = (q : Int) := by rw [← hm]; push_cast; ring
      by_cases hsp : 0 < s
      · have e2 : ¬ (s < 0 ∧ lo a < hi d b) := by omega
        rw [if_pos hsp, if_neg e2]
        have e3 : (s.natAbs : Int) = s := by omega
        rw [e3, mul_comm] at hq
        rw [hq]; constructor
        · push_cast; rfl
        · omega
      · have e2 : (s < 0 ∧ lo a < hi d b) := by omega
        rw [if_neg hsp, if_pos e2]
        have e3 : (s.natAbs : Int) = -s := by omega
        rw [e3] at hq
        have e4 : s * (j : Int) = -(q : Int) := by rw [← hq]; ring
        rw [e4]; constructor
        · omega
        · omega

/-- `apAll` agrees with the specified selection of a subarray. -/
theorem apAll_spec (xs : List DimIdx) : ∀ (ds : List Nat) (ss : List Int),
    ds.length = xs.length → ss.length = xs.length → (∀ d ∈ ds, d ≤ usizeMax) →
    match selectAll xs ds, apAll xs ds ss with
    | none, none => True
    | some sel, some (off, nd, ns) =>
        selDims sel = nd ∧ ns.length = nd.length ∧ (∀ j, (pull sel j).isSome ↔ Valid nd j) ∧
        (∀ j i, pull sel j = some i → Valid ds i ∧ off + dot ns j = dot ss i)
    | _, _ => False := by
  induction xs with
  | nil =>
    intro ds ss h1 h2 _
    have h1 : ds = [] := by simpa using h1
    have h2 : ss = [] := by simpa using h2
    subst h1 h2
    simp only [selectAll, apAll]
    refine ⟨rfl, rfl, ?_, ?_⟩
    · intro j; cases j <;> simp [pull]
    · intro j i h; cases j <;> simp [pull] at h
      subst h; simp
  | cons x xs ih =>
    intro ds ss h1 h2 hb
    cases ds with
    | nil => simp at h1
    | cons d ds =>
    cases ss with
    | nil => simp at h2
    | cons s ss =>
    simp at h1 h2
    have ihh := ih ds ss h1 h2 (fun d hd => hb d (by simp [hd]))
    have hx := apSel_spec (x := x) (hb d (by simp))
    simp only [selectAll, apAll]
    revert hx ihh
    cases selectAll xs ds with
    | none => cases apAll xs ds ss <;> cases select x d <;> cases apSel x d <;> simp
    | some sel =>
      cases apAll xs ds ss with
      | none => simp
      | some r =>
        obtain ⟨off, nd, ns⟩ := r
        cases select x d with
        | none => cases apSel x d <;> simp
        | some q =>
          cases apSel x d with
          | none => cases q <;> simp
          | some q' =>
            intro ihh hx
            obtain ⟨g1, g2, g3, g4⟩ := ihh
            obtain ⟨delta, k⟩ := q'
            cases q with
            | drop i =>
              cases k with
              | some k => simp at hx
              | none =>
                simp only at hx
                obtain ⟨rfl, hlt⟩ := hx
                simp only [Option.bind_eq_bind, Option.bind_some, apCons]
                refine ⟨g1, g2, ?_, ?_⟩
                · intro j
                  rw [← g3 j]
                  simp only [pull]
                  cases pull sel j <;> simp
                · intro j i h
                  simp only [pull] at h
                  cases hp : pull sel j with
                  | none => simp [hp] at h
                  | some i' =>
                    simp [hp] at h; subst h
                    obtain ⟨v1, v2⟩ := g4 j i' hp
                    refine ⟨by simp [hlt, v1], ?_⟩
                    rw [dot_cons, ← v2]; ring
            | keep l =>
              cases k with
              | none => simp at hx
              | some k =>
                obtain ⟨len, mult⟩ := k
                obtain ⟨hl, hx⟩ := hx
                simp only [Option.bind_eq_bind, Option.bind_some, apCons]
                refine ⟨by simp [selDims, hl, g1], by simp [g2], ?_, ?_⟩
                · intro j
                  cases j with
                  | nil => simp [pull]
                  | cons j js =>
                    rw [valid_cons, ← g3 js]
                    simp only [pull]
                    by_cases hj : j < l.length
                    · rw [List.getElem?_eq_getElem hj]
                      cases pull sel js <;> simp <;> omega
                    · rw [List.getElem?_eq_none (by omega)]
                      simp; omega
                · intro j i h
                  cases j with
                  | nil => simp [pull] at h
                  | cons j js =>
                    simp only [pull] at h
                    by_cases hj : j < l.length
                    · rw [List.getElem?_eq_getElem hj] at h
                      cases hp : pull sel js with
                      | none => simp [hp] at h
                      | some i' =>
                        simp [hp] at h; subst h
                        obtain ⟨v1, v2⟩ := g4 js i' hp
                        obtain ⟨e1, e2⟩ := hx j hj
                        refine ⟨by simp [e2, v1], ?_⟩
                        rw [dot_cons, dot_cons, ← v2, e1]; push_cast; ring
                    · rw [List.getElem?_eq_none (by omega)] at h
                      simp at h

end ViewIdx
end Model
