import Verif.Spec.Ops
import Verif.Lemmas.ZipWith
import Verif.Lemmas.Resize

/-! Rules for the element-wise operators. -/

namespace Model
open Spec Expr Iter

variable {σ T α β : Type}

theorem _root_.Spec.Stopped.congr {step step' : Nat → M σ α} {n k : Nat} {s t : σ} {ys : List α}
    (h : Stopped step n s k ys t) (he : ∀ k, k < n → step k = step' k) : Stopped step' n s k ys t := by
  obtain ⟨hk, u, h1, h2⟩ := h
  exact ⟨hk, u, h1.congr fun i hi => he i (by omega), by rw [← he k hk]; exact h2⟩

/-- The dimensions of two zipped expressions. -/
def longer (ds es : List Nat) : List Nat := if ds.length < es.length then es else ds

theorem zipNew_isSome {a : Expr σ α} {b : Expr σ β} (ha : Built a) (hb : Built b) :
    (zipNew a b).isSome ↔ CanCast a (longer a.dims b.dims) ∧ CanCast b (longer a.dims b.dims) := by
  constructor
  · intro h
    cases hz : zipNew a b with
    | none => rw [hz] at h; simp at h
    | some z =>
      obtain ⟨s, rfl, h1, h2, h3, h4⟩ := zip_trailing hz
      have hd : s.dims = longer a.dims b.dims := by
        unfold zipNew at hz
        rw [Option.map_eq_some_iff] at hz
        obtain ⟨s', hs', hz⟩ := hz
        injection hz with _ _ _ _ hz
        subst hz
        rw [zipShape_eq (shape_wf (wf_of_built ha)) (shape_wf (wf_of_built hb))] at hs'
        split at hs'
        · injection hs' with hs'
          rw [← hs']; rfl
        · cases hs'
      rw [← hd]
      exact ⟨⟨h1 ▸ List.drop_suffix _ _, h3⟩, ⟨h2 ▸ List.drop_suffix _ _, h4⟩⟩
  · rintro ⟨⟨h1, h2⟩, ⟨h3, h4⟩⟩
    unfold zipNew
    rw [Option.isSome_map, zipShape_eq (shape_wf (wf_of_built ha)) (shape_wf (wf_of_built hb)), if_pos]
    · rfl
    · have hl1 := h1.length_le
      have hl2 := h3.length_le
      refine ⟨?_, ?_, ?_⟩
      · intro k hk hk'
        obtain ⟨p, hp⟩ := h1
        obtain ⟨q, hq⟩ := h3
        have e1 : (longer a.dims b.dims).reverse[k]? = a.dims.reverse[k]? := by
          rw [← hp, List.reverse_append, List.getElem?_append_left (by simpa using hk)]
        have e2 : (longer a.dims b.dims).reverse[k]? = b.dims.reverse[k]? := by
          rw [← hq, List.reverse_append, List.getElem?_append_left (by simpa using hk')]
        rw [← e1, e2]
      · cases hr : a.repeatable with
        | true => exact Or.inl rfl
        | false => right; rw [h2 hr]; exact hl2
      · cases hr : b.repeatable with
        | true => exact Or.inl rfl
        | false => right; rw [h4 hr]; exact hl1

theorem zip_items {a : Expr σ α} {b : Expr σ β} {z} (ha : Built a) (hb : Built b)
    (hz : zipNew a b = some z) :
    z.dims = longer a.dims b.dims ∧ (∀ n, item z n (unrank z.dims n) =
      M.bind (castItem z.dims a n) fun x => M.bind (castItem z.dims b n) fun y => M.pure (x, y)) := by
  obtain ⟨s, rfl, -⟩ := zip_trailing hz
  refine ⟨?_, fun n => rfl⟩
  unfold zipNew at hz
  rw [Option.map_eq_some_iff] at hz
  obtain ⟨s', hs', hz⟩ := hz
  injection hz with _ _ _ _ hz
  subst hz
  rw [zipShape_eq (shape_wf (wf_of_built ha)) (shape_wf (wf_of_built hb))] at hs'
  split at hs'
  · injection hs' with hs'
    rw [← hs']; rfl
  · cases hs'

theorem minRank_comm (x y : Option Nat) : minRank x y = minRank y x := by
  cases x <;> cases y <;> simp [minRank, Nat.min_comm]

/-- No defects when two expressions are combined. -/
def ZipClean (a : Expr σ α) (b : Expr σ β) : Prop :=
  ∀ z, zipNew a b = some z → Sound z ∧ (size z.dims = 0 → size (z.dims.drop z.outerRank) = 0)

/-- Compatible operands have the same dimensions in any order. -/
theorem longer_comm {a : Expr σ α} {b : Expr σ β} {dims : List Nat} (hd : dims = longer a.dims b.dims)
    (ha : CanCast a dims) (hb : CanCast b dims) : dims = longer b.dims a.dims := by
  obtain ⟨h1, -⟩ := ha
  obtain ⟨h2, -⟩ := hb
  have l1 := h1.length_le
  have l2 := h2.length_le
  unfold longer at *
  split at hd
  · rw [if_neg (by omega)]; exact hd
  · split
    · exact hd
    · rw [hd] at h2 l2
      have : b.dims = a.dims := h2.eq_of_length (by omega)
      rw [hd, this]

theorem ZipClean.swap {a : Expr σ α} {b : Expr σ β} (ha : Built a) (hb : Built b) (h : ZipClean a b) :
    ZipClean b a := by
  intro z hz
  have hs := (zipNew_isSome hb ha).1 (by rw [hz]; rfl)
  have hl := longer_comm rfl hs.1 hs.2
  rw [hl, and_comm] at hs
  have hs' := (zipNew_isSome ha hb).2 hs
  obtain ⟨z', hz'⟩ := Option.isSome_iff_exists.1 hs'
  have hd := (zip_items hb ha hz).1
  have hd' := (zip_items ha hb hz').1
  obtain ⟨s, rfl, -⟩ := zip_trailing hz
  obtain ⟨s', rfl, -⟩ := zip_trailing hz'
  obtain ⟨k1, k2⟩ := h _ hz'
  have hdd : s.dims = s'.dims := hd.trans (hl.trans hd'.symm)
  have ho : (zip b a s).outerRank = (zip a b s').outerRank := by
    show (match minRank b.innerRank a.innerRank with | none => 0 | some k => s.dims.length - k) =
      (match minRank a.innerRank b.innerRank with | none => 0 | some k => s'.dims.length - k)
    rw [minRank_comm, hdd]
  unfold Sound at *
  rw [ho]
  refine ⟨?_, ?_⟩
  · rw [show (zip b a s).dims = (zip a b s').dims from hdd]
    exact ⟨k1.2, k1.1⟩
  · rw [show (zip b a s).dims = (zip a b s').dims from hdd]
    exact k2

theorem built_whole {s : Shape} (h : s.WF) : Built (view false (whole s) : Expr σ Int) :=
  .view (Mapping.wf_dense.2 h)

/-- Zipping with the elements of a tensor in place, or with the moved elements. -/
theorem ZipClean.whole {s : Shape} (hw : s.WF) {buf : List T} (hl : buf.length = size s.dims)
    {b : Expr σ β} (hb : Built b) (h : ZipClean (intoExpr s buf 0) b) :
    ZipClean (view false (whole s)) b := by
  intro z hz
  have hbi : Built (intoExpr s buf 0 : Expr σ T) := .intoExpr hw hl
  have hs := (zipNew_isSome (built_whole hw) hb).1 (by rw [hz]; rfl)
  have hs' := (zipNew_isSome hbi hb).2 hs
  obtain ⟨z', hz'⟩ := Option.isSome_iff_exists.1 hs'
  have hd := (zip_items (built_whole hw) hb hz).1
  have hd' := (zip_items hbi hb hz').1
  have hds : z.dims = s.dims := (zip_view hz).1
  have hbl : b.dims.length ≤ s.dims.length := by
    have := hs.2.1.length_le
    rw [← hd, hds] at this
    exact this
  obtain ⟨t, rfl, -⟩ := zip_trailing hz
  obtain ⟨t', rfl, -⟩ := zip_trailing hz'
  obtain ⟨k1, k2⟩ := h _ hz'
  have hdd : t.dims = t'.dims := hd.trans hd'.symm
  have hts : t.dims = s.dims := hds
  have ho : (zip (view false (Spec.whole s)) b t : Expr σ (Int × β)).outerRank =
      (zip (intoExpr s buf 0) b t' : Expr σ (T × β)).outerRank := by
    show (match minRank (mapInnerRank (.dense s)) b.innerRank with
        | none => 0 | some k => t.dims.length - k) =
      (match minRank none b.innerRank with | none => 0 | some k => t'.dims.length - k)
    rw [← hdd, hts]
    have hm : mapInnerRank (.dense s) = none ∨ mapInnerRank (.dense s) = some s.dims.length := by
      show (if s.ty.rank? = some 0 then none else some s.dims.length) = none ∨ _
      split
      · exact Or.inl rfl
      · rename_i hne
        right
        show (if s.ty.rank? = some 0 then none else some s.dims.length) = _
        rw [if_neg hne]
    rcases hm with hm | hm
    · rw [hm]
    · rw [hm]
      cases b.innerRank with
      | none => simp [minRank]
      | some k =>
        simp only [minRank]
        rcases Nat.le_total s.dims.length k with hk | hk
        · rw [Nat.min_eq_left hk, Nat.sub_self, Nat.sub_eq_zero_of_le hk]
        · rw [Nat.min_eq_right hk]
  unfold Sound at *
  rw [ho]
  rw [show (zip (view false (Spec.whole s)) b t : Expr σ (Int × β)).dims =
    (zip (intoExpr s buf 0) b t' : Expr σ (T × β)).dims from hdd]
  exact ⟨⟨trivial, k1.2⟩, k2⟩

theorem post_runOwn {o : Own T} {x : M (σ × Own T) Unit} {s : σ} {Q : Own T → σ → Prop} {R : σ → Prop}
    (h : M.Post x (s, o) (fun _ t => Q t.2 t.1) fun t => R t.1) : M.Post (runOwn o x) s Q R :=
  M.Post.bind (M.post_scope (Q := fun p t => Q p.2 t) h) fun _ _ h => h

theorem operandDims_eq (a : Operand σ T) : operandDims a = a.toExpr.dims := by cases a <;> rfl

theorem built_operand {a : Operand σ T} (h : OperandOk a) : Built a.toExpr ∧ TameItems a.toExpr := by
  cases a with
  | expr e => exact h
  | tensor s buf =>
    refine ⟨.intoExpr h.1 h.2, fun n j hj => ?_⟩
    show M.Tame (orUb buf[rowMajor s.dims j]?)
    rw [List.getElem?_eq_getElem (by rw [h.2]; exact rowMajor_lt hj)]
    exact M.tame_pure _
  | array s buf =>
    refine ⟨.intoExpr h.1 h.2, fun n j hj => ?_⟩
    show M.Tame (orUb buf[rowMajor s.dims j]?)
    rw [List.getElem?_eq_getElem (by rw [h.2]; exact rowMajor_lt hj)]
    exact M.tame_pure _

theorem canCast_intoExpr {s : Shape} {buf : List T} {dims : List Nat} :
    CanCast (intoExpr s buf 0 : Expr σ T) dims ↔ s.dims = dims :=
  ⟨fun h => h.2 rfl, fun h => ⟨h ▸ List.suffix_refl _, fun _ => h⟩⟩

theorem operandFits_iff {a : Operand σ T} {dims : List Nat} :
    operandFits a dims ↔ CanCast a.toExpr dims := by
  cases a with
  | expr e => exact Iff.rfl
  | tensor s buf => exact canCast_intoExpr.symm
  | array s buf => exact canCast_intoExpr.symm

theorem castItem_intoExpr {s : Shape} {buf : List T} {n : Nat} (hn : n < size s.dims) :
    castItem s.dims (intoExpr s buf 0 : Expr σ T) n = orUb buf[n]? := by
  unfold castItem
  rw [show (intoExpr s buf 0 : Expr σ T).dims = s.dims from rfl, Nat.sub_self, List.drop_zero]
  show orUb buf[rowMajor s.dims (unrank s.dims n)]? = _
  rw [rowMajor_unrank hn]

theorem operandItem_eq {a : Operand σ T} {dims : List Nat} (h : operandFits a dims) {n : Nat}
    (hn : n < size dims) : castItem dims a.toExpr n = operandItem dims a n := by
  cases a with
  | expr e => rfl
  | tensor s buf => obtain rfl : s.dims = dims := h; exact castItem_intoExpr hn
  | array s buf => obtain rfl : s.dims = dims := h; exact castItem_intoExpr hn

end Model
