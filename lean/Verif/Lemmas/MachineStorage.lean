import Verif.Lemmas.Nightly
import Verif.Lemmas.Drain
import Verif.Lemmas.Storage
import Verif.Lemmas.History
import Verif.Lemmas.MachineArith
import Verif.Spec.MachineStorage
import Verif.Model.MachineStorage

/-! Operations on tensors with 64-bit integers: when they agree with exact arithmetic. -/

namespace Spec
open Model

theorem LenFits.of_pos {checks : Bool} {l : List Nat} (h0 : 0 < size l) (h : size l ≤ usizeMax) : LenFits checks l := by
  refine ⟨h, fun _ k _ => le_trans ?_ h⟩
  conv_rhs => rw [← List.take_append_drop k l, size_append]
  refine Nat.le_mul_of_pos_right _ (Nat.pos_of_ne_zero fun e => ?_)
  rw [← List.take_append_drop k l, size_append, e, Nat.mul_zero] at h0
  exact absurd h0 (lt_irrefl _)

theorem size_take_mono {l l' : List Nat} (h : List.Forall₂ (· ≤ ·) l l') (k : Nat) :
    size (l.take k) ≤ size (l'.take k) := by
  induction h generalizing k with
  | nil => simp
  | cons hd _ ih =>
    cases k with
    | zero => simp
    | succ k => rw [List.take_succ_cons, List.take_succ_cons, size_cons, size_cons]; exact Nat.mul_le_mul hd (ih k)

theorem LenFits.mono {checks : Bool} {l l' : List Nat} (h : LenFits checks l') (hl : List.Forall₂ (· ≤ ·) l l') :
    LenFits checks l := by
  have e := hl.length_eq
  refine ⟨?_, fun hc k hk => (size_take_mono hl k).trans (h.2 hc k (by omega))⟩
  have := size_take_mono hl l.length
  rw [List.take_length, e, List.take_length] at this
  exact this.trans h.1

theorem LenFits.head {checks : Bool} {d m : Nat} {ds : List Nat} (h : LenFits checks (d :: ds)) (hm : m ≤ d) :
    LenFits checks (m :: ds) :=
  h.mono (.cons hm (List.forall₂_same.2 fun _ _ => le_refl _))

theorem LenFits.tail {checks : Bool} {d : Nat} {ds : List Nat} (h : LenFits checks (d :: ds)) (hd : d ≠ 0) :
    LenFits checks ds := by
  have := Nat.pos_of_ne_zero hd
  refine ⟨le_trans (Nat.le_mul_of_pos_left _ this) (size_cons d ds ▸ h.1), fun hc k hk => ?_⟩
  have h2 := h.2 hc (k + 1) (by simpa using hk)
  rw [List.take_succ_cons, size_cons] at h2
  exact le_trans (Nat.le_mul_of_pos_left _ this) h2

theorem default_le {ds : List DimTy} {dims : List Nat} (h : List.Forall₂ DimTy.Fits ds dims) :
    List.Forall₂ (· ≤ ·) (ds.map DimTy.default) dims := by
  induction h with
  | nil => exact .nil
  | @cons d n ds dims hd _ ih =>
    refine .cons ?_ ih
    cases d with
    | const m => exact (show n = m from hd) ▸ le_refl _
    | dyn => exact Nat.zero_le _

theorem LenFits.default {checks : Bool} {s : Shape} (h : LenFits checks s.dims) (hw : s.WF) :
    LenFits checks (Shape.default s.ty).dims := by
  obtain ⟨ty, dims⟩ := s
  cases ty with
  | dynRank => exact (show LenFits checks [0] from ⟨by simp, fun _ => by decide +kernel⟩)
  | static ds => exact h.mono (default_le hw)

theorem LenFits.single {checks : Bool} {n : Nat} (h : n ≤ usizeMax) : LenFits checks [n] := by
  refine ⟨by simpa using h, fun _ k hk => ?_⟩
  cases k with
  | zero => simp [usizeMax]
  | succ k =>
    have : k = 0 := by simp at hk; omega
    subst this
    simpa using h

theorem LenFits.nil {checks : Bool} : LenFits checks [] := by
  cases checks <;> decide +kernel

end Spec

namespace Model
namespace Machine
open Spec

variable {σ ρ T α β : Type} {checks : Bool}

theorem product_noOverflow_aux (c : Bool) (l : List Nat) (a : Nat) (h : ∀ k ≤ l.length, a * size (l.take k) ≤ usizeMax) :
    l.foldlM (fun acc x => retU c (acc * x)) a = some (a * size l) := by
  induction l generalizing a with
  | nil => simp
  | cons d l ih =>
    have h1 := h 1 (by simp)
    simp only [List.take_succ_cons, List.take_zero, size_cons, size_nil, Nat.mul_one] at h1
    rw [List.foldlM_cons, retU_fit h1]
    simp only [Option.bind_eq_bind, Option.bind_some]
    rw [ih, size_cons, mul_assoc]
    intro k hk
    have := h (k + 1) (by simpa using hk)
    rwa [List.take_succ_cons, size_cons, ← mul_assoc] at this

theorem retU_false (x : Nat) : retU false x = some (x % 2 ^ 64) := by
  unfold retU
  split
  · rename_i h
    rw [Nat.mod_eq_of_lt]
    unfold usizeMax at h; omega
  · rfl

theorem product_false_aux (l : List Nat) (a : Nat) :
    l.foldlM (fun acc x => retU false (acc * x)) (a % 2 ^ 64) = some (a * size l % 2 ^ 64) := by
  induction l generalizing a with
  | nil => simp
  | cons d l ih =>
    rw [List.foldlM_cons, retU_false]
    simp only [Option.bind_eq_bind, Option.bind_some]
    rw [show a % 2 ^ 64 * d % 2 ^ 64 = a * d % 2 ^ 64 by rw [Nat.mod_mul_mod], ih, size_cons, mul_assoc]

theorem product_false (l : List Nat) : product false l = some (size l % 2 ^ 64) := by
  have := product_false_aux l 1
  rw [Nat.one_mul] at this
  exact this

theorem product_fits {l : List Nat} (h : LenFits checks l) : product checks l = some (size l) := by
  cases checks with
  | true =>
    have := product_noOverflow_aux true l 1 (fun k hk => by simpa using h.2 rfl k hk)
    simpa [product] using this
  | false =>
    rw [product_false, Nat.mod_eq_of_lt]
    have := h.1
    unfold usizeMax at this; omega

theorem product_bad {l : List Nat} (h : ¬ NoOverflow usizeMax l) : product true l = none := by
  have : product true l = Shape.checkedLen ⟨.dynRank, l⟩ := by
    unfold product Shape.checkedLen
    congr 1
  rw [this, Shape.checkedLen_eq, if_neg h]

theorem len_fits {s : Shape} (h : LenFits checks s.dims) : len checks s = some s.len := by
  rw [Shape.len_eq]; exact product_fits h

theorem lenM_fits {s : Shape} (h : LenFits checks s.dims) : (lenM checks s : M σ Nat) = M.pure s.len := by
  unfold lenM; rw [len_fits h]; rfl

theorem isEmpty_fits {s : Shape} (h : LenFits checks s.dims) : isEmpty checks s = some s.isEmpty := by
  unfold isEmpty; rw [len_fits h]; rfl

/-! The guard. -/

theorem partsGuard_eq {t : σ × Own T} (h : t.2.shape.WF) (hf : LenFits checks t.2.shape.dims) :
    partsGuard checks t = Model.partsGuard t := by
  show M.bind (lenM checks t.2.shape) _ t = _
  rw [lenM_fits hf, M.pure_bind]
  show (if t.2.len ≠ t.2.shape.len then M.bind (lenM checks (Shape.default t.2.shape.ty)) _ else _ :
    M (σ × Own T) Unit) t = _
  rw [lenM_fits (hf.default h)]
  rfl

/-- What every operation keeps, see `Spec.Fits64`. -/
abbrev Ok (checks : Bool) (t : σ × Own T) : Prop := Fits64 checks t.2


theorem fits_dropCells {p n : Nat} {I : σ × Own T → Prop}
    (h : ∀ s (o : Own T) c l, I (s, o) → c.length = o.cells.length → I (s, { o with cells := c, log := l })) :
    (dropCells p n : M (σ × Own T) Unit).Inv I := by
  intro s hs
  unfold dropCells
  dsimp only
  split
  · rename_i hc
    refine h s.1 s.2 _ _ hs ?_
    have := hc.1
    simp only [List.length_take, List.length_drop] at this
    simp only [List.length_append, List.length_take, List.length_drop, List.length_replicate]
    by_cases hn : n = 0
    · subst hn; omega
    · omega
  · trivial

/-- The shape is `sh`, and memory stays within the limit. -/
abbrev Within (sh : Shape) (L : Nat) (t : σ × Own T) : Prop :=
  t.2.shape = sh ∧ t.2.limit = L ∧ t.2.cells.length ≤ L

theorem Within.ok {sh : Shape} {L : Nat} {t : σ × Own T} (h : Within sh L t) (hw : sh.WF) (hf : LenFits checks sh.dims)
    (hL : L ≤ usizeMax) : Ok checks t := by
  unfold Ok Fits64
  rw [h.1, h.2.1]
  exact ⟨hw, hf, h.2.2, hL⟩

section
variable {sh : Shape} {L : Nat}

theorem within_dropCells {p n : Nat} : (dropCells p n : M (σ × Own T) Unit).Inv (Within sh L) :=
  fits_dropCells fun _ _ _ _ h hc => ⟨h.1, h.2.1, hc.le.trans h.2.2⟩

theorem within_writeCell {p : Nat} {x : T} : (writeCell p x : M (σ × Own T) Unit).Inv (Within sh L) := by
  intro s hs
  unfold writeCell
  split
  · exact ⟨hs.1, hs.2.1, by rw [List.length_set]; exact hs.2.2⟩
  · trivial

theorem within_upd_len {f : Own T → Nat} :
    (upd fun o => { o with len := f o } : M (σ × Own T) Unit).Inv (Within sh L) := fun _ h => h

theorem within_vecReserve {n : Nat} : (vecReserve n : M (σ × Own T) Unit).Inv (Within sh L) := by
  intro s hs
  show ((if s.2.len + n ≤ s.2.cells.length then M.pure () else if s.2.len + n ≤ s.2.limit then _ else M.panic :
    M (σ × Own T) Unit) s).All _
  split
  · exact hs
  · split
    · refine ⟨hs.1, hs.2.1, ?_⟩
      have := hs.2.1
      simp only [List.length_append, List.length_replicate]
      omega
    · exact hs

theorem within_vecAppend (x : T) : (vecAppend x : M (σ × Own T) Unit).Inv (Within sh L) := by
  unfold vecAppend; simp only [M.bind_eq]
  exact M.Inv.bind inv_own fun _ => M.Inv.bind within_writeCell fun _ => within_upd_len

theorem within_up {x : M σ α} : (M.up x : M (σ × Own T) α).Inv (Within sh L) :=
  M.inv_up (J := fun o : Own T => o.shape = sh ∧ o.limit = L ∧ o.cells.length ≤ L) x

theorem within_vecClear : (vecClear : M (σ × Own T) Unit).Inv (Within sh L) := by
  unfold vecClear; simp only [M.bind_eq]
  exact M.Inv.bind inv_own fun _ => M.Inv.bind within_upd_len fun _ => within_dropCells

theorem within_vecTruncate {n : Nat} : (vecTruncate n : M (σ × Own T) Unit).Inv (Within sh L) := by
  unfold vecTruncate; simp only [M.bind_eq, M.pure_eq]
  exact M.Inv.bind inv_own fun _ => M.inv_ite (M.Inv.bind within_upd_len fun _ => within_dropCells) (M.inv_pure _)

theorem within_vecResizeWith {n : Nat} {f : M σ T} : (vecResizeWith n f).Inv (Within sh L) := by
  unfold vecResizeWith; simp only [M.bind_eq]
  exact M.Inv.bind inv_own fun _ => M.inv_ite (M.Inv.bind within_vecReserve fun _ =>
    M.inv_repeat (M.Inv.bind within_up within_vecAppend)) within_vecTruncate

theorem within_vecExtend {n : Nat} {step : Nat → M σ T} : (vecExtend n step).Inv (Within sh L) :=
  M.inv_foldlM (fun _ => M.Inv.bind within_up fun _ => M.Inv.bind
    (M.Inv.onPanic within_vecReserve (inv_upd (by intro _ _ h; exact h))) fun _ => within_vecAppend _) _

theorem within_cloneSlice {c : T → M σ T} (pos : Nat) (ys : List T) : (cloneSlice c pos ys).Inv (Within sh L) := by
  induction ys generalizing pos with
  | nil => exact M.inv_pure _
  | cons y ys ih =>
    exact M.Inv.bind within_up fun _ => M.Inv.bind within_dropCells fun _ =>
      M.Inv.bind within_writeCell fun _ => ih _

theorem within_vecCloneFrom {src : List T} {c : T → M σ T} : (vecCloneFrom src c).Inv (Within sh L) := by
  unfold vecCloneFrom; simp only [M.bind_eq]
  exact M.Inv.bind within_vecTruncate fun _ => M.Inv.bind inv_own fun _ => M.Inv.bind (within_cloneSlice _ _) fun _ =>
    M.Inv.bind within_vecReserve fun _ => M.inv_foldlM (fun _ => M.Inv.bind within_up within_vecAppend) _

theorem within_cloneIntoVec {e : Expr σ α} {c : α → M σ T} : (Model.cloneIntoVec e c).Inv (Within sh L) := by
  unfold Model.cloneIntoVec; simp only [M.bind_eq]
  refine M.Inv.bind inv_own fun _ => M.Inv.bind (M.inv_lift _) fun _ => ?_
  have hk : Keeps (fun t : σ × Own T => (t.2.shape, t.2.limit, t.2.cells.length))
      (e.up.forEach fun x => M.bind (M.up (c x)) vecAppend) := by
    refine Expr.keep_forEach (Expr.keep_up (keep_const (⟨.dynRank, []⟩, 0, 0) e) fun _ _ _ _ => rfl) fun x => ?_
    intro t
    have : (M.bind (M.up (c x)) vecAppend : M (σ × Own T) Unit).Inv
        fun u => (u.2.shape, u.2.limit, u.2.cells.length) = (t.2.shape, t.2.limit, t.2.cells.length) := by
      refine M.Inv.bind (M.inv_up (J := fun o : Own T => (o.shape, o.limit, o.cells.length) = _) _) fun x => ?_
      unfold vecAppend; simp only [M.bind_eq]
      refine M.Inv.bind inv_own fun _ => M.Inv.bind ?_ fun _ => inv_upd (by intro _ _ h; exact h)
      intro u hu
      unfold writeCell
      split
      · show (_, _, (u.2.cells.set _ _).length) = _
        rw [List.length_set]; exact hu
      · trivial
    have := this t rfl
    revert this
    cases (M.bind (M.up (c x)) vecAppend : M (σ × Own T) Unit) t <;> exact id
  intro t ht
  have := hk.inv _ t rfl
  revert this
  cases (e.up.forEach fun x => M.bind (M.up (c x)) vecAppend : M (σ × Own T) Unit) t with
  | ok a u => intro this; injection this with h1 h2; injection h2 with h2 h3; exact ⟨h1.trans ht.1, h2.trans ht.2.1, h3.le.trans ht.2.2⟩
  | panic u => intro this; injection this with h1 h2; injection h2 with h2 h3; exact ⟨h1.trans ht.1, h2.trans ht.2.1, h3.le.trans ht.2.2⟩
  | ub => exact id
  | abort => exact id

/-- As `Within`, and the new vector has room for `n` elements. -/
abbrev Copying (sh : Shape) (L n : Nat) (t : (σ × Own T) × Loc T) : Prop :=
  Within sh L t.1 ∧ t.2.newCells.length = n

theorem copying_moveOld {n m : Nat} : (moveOld m : M ((σ × Own T) × Loc T) Unit).Inv (Copying sh L n) := by
  intro t ht
  unfold moveOld
  dsimp only
  split
  · rename_i hc
    obtain ⟨h1, h2, h3, -⟩ := hc
    refine ⟨⟨ht.1.1, ht.1.2.1, ?_⟩, ?_⟩
    · have := ht.1.2.2
      simp only [List.length_take, List.length_drop] at h3
      simp only [List.length_append, List.length_take, List.length_drop, List.length_replicate]
      by_cases hm : m = 0
      · subst hm; omega
      · omega
    · have := ht.2
      simp only [List.length_append, h3, List.length_take, List.length_drop]
      omega
  · trivial

theorem copying_dropOld {n m : Nat} : (dropOld m : M ((σ × Own T) × Loc T) Unit).Inv (Copying sh L n) := by
  intro t ht
  unfold dropOld
  split
  · exact (M.Inv.up (ρ := Loc T) (within_dropCells (σ := σ) (T := T) (sh := sh) (L := L))) |> fun h => by
      have := h (t.1, { t.2 with pos := t.2.pos + m, cnt := t.2.cnt - m }) ht.1
      unfold M.up at this ⊢
      cases hd : (dropCells t.2.pos m : M (σ × Own T) Unit) t.1 with
      | ok a u => rw [hd] at this; exact ⟨this, ht.2⟩
      | panic u => rw [hd] at this; exact ⟨this, ht.2⟩
      | ub => trivial
      | abort => trivial
  · trivial

theorem copying_up {n : Nat} {x : M (σ × Own T) α} (hx : x.Inv (Within sh L)) :
    (M.up x : M ((σ × Own T) × Loc T) α).Inv (Copying sh L n) := by
  intro t ht
  have := hx t.1 ht.1
  unfold M.up
  cases hd : x t.1 with
  | ok a u => rw [hd] at this; exact ⟨this, ht.2⟩
  | panic u => rw [hd] at this; exact ⟨this, ht.2⟩
  | ub => trivial
  | abort => trivial

theorem copying_pushNew {n : Nat} {f : M σ T} : (pushNew f).Inv (Copying sh L n) := by
  refine M.Inv.bind (copying_up within_up) fun x t ht => ?_
  dsimp only
  split
  · exact ⟨ht.1, by rw [List.length_set]; exact ht.2⟩
  · trivial

theorem copying_dropOldGuard {n : Nat} : (dropOldGuard : M ((σ × Own T) × Loc T) Unit).Inv (Copying sh L n) :=
  fun t ht => copying_up within_dropCells t ht

theorem copying_dropNewVec {n : Nat} : (dropNewVec : M ((σ × Own T) × Loc T) Unit).Inv (Copying sh L n) :=
  inv_dropNewVec fun _ h _ => h

theorem part_scope {x : M (σ × ρ) α} {i : ρ} {s : σ} {R : σ → Prop} {Q : α → σ × ρ → Prop}
    (hx : M.Part x (s, i) Q fun t => R t.1) : M.Part (M.scope i x) s (fun r t => Q r.1 (t, r.2)) R := by
  unfold M.Part M.scope
  unfold M.Part at hx
  cases h : x (s, i) <;> rw [h] at hx <;> exact hx

theorem part_resizeCopy {d : List Nat} {n : Nat} {f : M σ T} {t : σ × Own T} (h : Within sh L t) :
    M.Part (Model.resizeCopy d n f) t (fun _ => Within sh L) (Within sh L) := by
  unfold Model.resizeCopy; simp only [M.bind_eq]
  refine M.Part.bind (P := fun o u => o = t.2 ∧ u = t) ⟨rfl, rfl⟩ ?_
  rintro o u ⟨rfl, rfl⟩
  refine M.Part.bind (P := fun _ v => v = u ∧ n ≤ L) ?_ ?_
  · unfold M.Part
    by_cases hn : n ≤ u.2.limit
    · rw [show check (n ≤ u.2.limit) = some () from if_pos hn]
      exact ⟨rfl, h.2.1 ▸ hn⟩
    · rw [show check (n ≤ u.2.limit) = none from if_neg hn]
      exact h
  rintro - v ⟨rfl, hn⟩
  refine M.Part.bind (P := fun _ => Within sh L) (M.Inv.part within_upd_len h) fun _ v hv => ?_
  refine M.Part.bind (part_scope (Q := fun _ => Copying sh L n) (R := Within sh L) ?_) fun r w hw => ?_
  · refine M.Part.bind (P := fun _ => Copying sh L n) (M.Part.onPanic (P := Copying sh L n) ?_ fun w hw => ?_) fun _ w hw => ?_
    · exact M.Inv.part (inv_copyDim (fun _ => copying_moveOld) (fun _ => copying_dropOld) copying_pushNew _ _)
        ⟨hv, by simp⟩
    · have := M.Inv.part (M.Inv.bind copying_dropOldGuard fun _ => copying_dropNewVec :
        M.Inv (Copying sh L n) (M.bind dropOldGuard fun _ => dropNewVec)) hw
      unfold M.Part at this ⊢
      cases hd : (M.bind dropOldGuard fun _ => dropNewVec : M ((σ × Own T) × Loc T) Unit) w <;> rw [hd] at this
      · exact this.1
      all_goals trivial
    · have := M.Inv.part copying_dropOldGuard hw
      unfold M.Part at this ⊢
      cases hd : (dropOldGuard : M ((σ × Own T) × Loc T) Unit) w <;> rw [hd] at this
      · exact this
      · exact this.1
      all_goals trivial
  · exact ⟨hw.1.1, hw.1.2.1, by show r.2.newCells.length ≤ L; rw [hw.2]; exact hn⟩

theorem part_resizeVec {d : List Nat} {n : Nat} {f : M σ T} {t : σ × Own T} (h : Within sh L t) :
    M.Part (Model.resizeVec d n f) t (fun _ => Within sh L) (Within sh L) := by
  unfold Model.resizeVec
  refine M.Part.bind (P := fun o u => u = t) rfl ?_
  rintro o u rfl
  split
  · exact M.Inv.part within_vecClear h
  · split
    · exact M.Inv.part within_vecResizeWith h
    · exact part_resizeCopy h

end

theorem fits_partsGuard : (Model.partsGuard : M (σ × Own T) Unit).Inv (Ok checks) := by
  unfold Model.partsGuard; simp only [M.bind_eq, M.pure_eq]
  refine M.Inv.bind inv_own fun o => M.inv_ite (M.Inv.bind (M.inv_lift _) fun _ => M.Inv.bind
    (inv_upd fun s o h => ?_) fun _ => fits_dropCells fun s o c l h hc => ?_) (M.inv_pure _)
  · refine ⟨?_, ?_, h.2.2⟩
    · exact Shape.default_wf _
    · exact h.2.1.default h.1
  · exact ⟨h.1, h.2.1, by rw [show ({ o with cells := c, log := l } : Own T).cells.length = _ from hc]; exact h.2.2.1,
      h.2.2.2⟩

theorem withMutParts_eq {x' x : M (σ × Own T) α} {s : σ} {o : Own T} (ho : Fits64 checks o)
    (he : x' (s, parts o) = x (s, parts o)) (hx : M.Part x (s, parts o) (fun _ => Ok checks) (Ok checks)) :
    withMutParts checks x' (s, o) = Model.withMutParts x (s, o) := by
  rw [Model.withMutParts_eq]
  show M.bind (lenM checks o.shape) _ (s, o) = _
  rw [lenM_fits ho.2.1, M.pure_bind]
  show M.onPanic x' (partsGuard checks) (s, parts o) = _
  unfold M.onPanic
  unfold M.Part at hx
  rw [he]
  cases hr : x (s, parts o) with
  | panic t => rw [hr] at hx; dsimp only; rw [partsGuard_eq hx.1 hx.2.1]
  | _ => rfl

theorem withMutParts_kept {x : M (σ × Own T) α} {s : σ} {o : Own T}
    (hx : M.Part x (s, parts o) (fun _ => Ok checks) (Ok checks)) :
    M.Part (Model.withMutParts x) (s, o) (fun _ => Ok checks) (Ok checks) := by
  unfold M.Part
  rw [Model.withMutParts_eq]
  exact M.Part.onPanic hx fun t ht => by
    have := M.Inv.part fits_partsGuard ht
    unfold M.Part at this ⊢
    cases hr : Model.partsGuard t <;> rw [hr] at this <;> trivial

/-! The operations. -/

variable {s : σ} {o : Own T}

theorem within_parts (ho : Fits64 checks o) : Within o.shape o.limit (s, parts o) := ⟨rfl, rfl, ho.2.2.1⟩

theorem ok_of_within {x : M (σ × Own T) α} (ho : Fits64 checks o) (hx : x.Inv (Within o.shape o.limit)) :
    M.Part x (s, parts o) (fun _ => Ok checks) (Ok checks) := by
  have := M.Inv.part hx (within_parts (s := s) ho)
  unfold M.Part at this ⊢
  cases hr : x (s, parts o) <;> rw [hr] at this
  · exact this.ok ho.1 ho.2.1 ho.2.2.2
  · exact this.ok ho.1 ho.2.1 ho.2.2.2
  all_goals trivial

theorem part_then {x : M (σ × Own T) Unit} {f : Own T → Own T} (ho : Fits64 checks o)
    (hx : x.Inv (Within o.shape o.limit)) (hf : ∀ u : Own T, u.shape = o.shape → u.limit = o.limit →
      u.cells.length ≤ o.limit → Fits64 checks (f u)) :
    M.Part (M.bind x fun _ => upd f) (s, parts o) (fun _ => Ok checks) (Ok checks) := by
  have := M.Inv.part hx (within_parts (s := s) ho)
  refine M.Part.bind (P := fun _ => Within o.shape o.limit) ?_ fun _ u hu => hf u.2 hu.1 hu.2.1 hu.2.2
  unfold M.Part at this ⊢
  cases hr : x (s, parts o) <;> rw [hr] at this
  · exact this
  · exact this.ok ho.1 ho.2.1 ho.2.2.2
  all_goals trivial

theorem part_clear (ho : Fits64 checks o) : M.Part (M.bind vecClear fun _ => upd fun o =>
    { o with shape := Shape.default o.shape.ty }) (s, parts o) (fun _ => Ok checks) (Ok checks) := by
  refine part_then ho within_vecClear fun u h1 h2 h3 => ⟨Shape.default_wf _, ?_, ?_, ?_⟩
  · show LenFits checks (Shape.default u.shape.ty).dims
    rw [h1]; exact ho.2.1.default ho.1
  · exact h3.trans h2.ge
  · exact h2.le.trans ho.2.2.2

theorem tensorClear_eq (ho : Fits64 checks o) : tensorClear checks (s, o) = Model.tensorClear (s, o) := by
  show M.bind (lenM checks (Shape.default o.shape.ty)) _ (s, o) = _
  rw [lenM_fits (ho.2.1.default ho.1), M.pure_bind]
  refine bind_congr_at fun a t ht => ?_
  obtain rfl : t = (s, o) := by
    revert ht; cases check ((Shape.default o.shape.ty).len = 0) <;> intro ht <;> cases ht; rfl
  exact withMutParts_eq ho rfl (part_clear ho)

theorem part_lift {x : Option α} {t : σ} {Q : α → σ → Prop} {R : σ → Prop} (h1 : ∀ a, x = some a → Q a t)
    (h2 : x = none → R t) : M.Part (M.lift x) t Q R := by
  cases x with
  | none => exact h2 rfl
  | some a => exact h1 a rfl

theorem part_setShape {f : Shape → Option Shape} {t : σ × Own T} {Q : Unit → σ × Own T → Prop} {R : σ × Own T → Prop}
    (h1 : ∀ s', f t.2.shape = some s' → Q () (t.1, { t.2 with shape := s' })) (h2 : f t.2.shape = none → R t) :
    M.Part (setShape f) t Q R := by
  show M.Part (M.bind (M.lift (f t.2.shape)) fun s' => upd fun o => { o with shape := s' }) t Q R
  cases hf : f t.2.shape with
  | none => exact h2 hf
  | some s' => exact h1 s' hf

theorem tensorClear_kept (ho : Fits64 checks o) :
    M.Part Model.tensorClear (s, o) (fun _ => Ok checks) (Ok checks) := by
  show M.Part (M.bind (M.lift (check ((Shape.default o.shape.ty).len = 0))) _) (s, o) _ _
  refine M.Part.bind (P := fun _ t => t = (s, o)) (part_lift (fun _ _ => rfl) fun _ => ho) ?_
  rintro - t rfl
  exact withMutParts_kept (part_clear ho)

theorem checkHead_part {Q : Unit → σ × Own T → Prop} {R : σ × Own T → Prop}
    (h1 : 0 < o.shape.rank → o.shape.ty.head = .dyn → Q () (s, o)) (h2 : R (s, o)) :
    M.Part checkHead (s, o) Q R := by
  show M.Part (M.bind (M.lift (check (0 < o.shape.rank))) fun _ => M.lift (check (o.shape.ty.head = .dyn))) (s, o) _ _
  refine M.Part.bind (P := fun _ t => t = (s, o) ∧ 0 < o.shape.rank) (part_lift (fun _ h => ⟨rfl, ?_⟩) fun _ => h2) ?_
  · by_contra hn
    rw [show check (0 < o.shape.rank) = none from if_neg hn] at h; cases h
  · rintro - t ⟨rfl, hr⟩
    refine part_lift (fun _ h => ?_) fun _ => h2
    by_cases hh : o.shape.ty.head = .dyn
    · exact h1 hr hh
    · rw [show check (o.shape.ty.head = .dyn) = none from if_neg hh] at h; cases h

theorem bind_congr_part {x : M σ α} {f g : α → M σ β} {t : σ} {P : α → σ → Prop} {R : σ → Prop}
    (hx : M.Part x t P R) (h : ∀ a u, P a u → f a u = g a u) : M.bind x f t = M.bind x g t :=
  bind_congr_at fun a u e => h a u (by unfold M.Part at hx; rw [e] at hx; exact hx)

theorem part_of_inv {x : M σ α} {I J : σ → Prop} {t : σ} (hx : x.Inv I) (ht : I t) (h : ∀ u, I u → J u) :
    M.Part x t (fun _ => J) J := by
  have := M.Inv.part hx ht
  unfold M.Part at this ⊢
  cases hr : x t <;> rw [hr] at this
  · exact h _ this
  · exact h _ this
  all_goals trivial

/-! `truncate` -/

theorem setHead_fits {sh s' : Shape} {n : Nat} (hf : LenFits checks sh.dims) (hn : n < sh.dims.getD 0 0)
    (h : (sh.withMutDims fun dims => some (dims.set 0 n)) = some s') : s'.WF ∧ LenFits checks s'.dims := by
  rw [Shape.withMutDims_eq] at h
  simp only [Option.bind_some] at h
  split at h
  · rename_i hc
    cases h
    refine ⟨hc, ?_⟩
    cases hd : sh.dims with
    | nil => exact LenFits.nil
    | cons d ds =>
      rw [hd] at hf hn
      exact hf.head (le_of_lt hn)
  · cases h

abbrev truncBody (n : Nat) : M (σ × Own T) Unit :=
  M.bind (setShape fun s => s.withMutDims fun dims => some (dims.set 0 n)) fun _ =>
    M.bind own fun o => vecTruncate o.shape.len

theorem part_setHead {n : Nat} (ho : Fits64 checks o) (hn : n < o.shape.dims.getD 0 0) :
    M.Part (setShape fun s => s.withMutDims fun dims => some (dims.set 0 n)) (s, parts o) (fun _ => Ok checks)
      (Ok checks) := by
  refine part_setShape (fun s' h => ?_) fun _ => ho
  obtain ⟨h1, h2⟩ := setHead_fits ho.2.1 hn h
  exact ⟨h1, h2, ho.2.2⟩

theorem part_truncate {n : Nat} (ho : Fits64 checks o) (hn : n < o.shape.dims.getD 0 0) :
    M.Part (truncBody n) (s, parts o) (fun _ => Ok checks) (Ok checks) :=
  M.Part.bind (part_setHead ho hn) fun _ t ht =>
    part_of_inv (I := Within t.2.shape t.2.limit) (M.Inv.bind inv_own fun _ => within_vecTruncate)
      ⟨rfl, rfl, ht.2.2.1⟩ fun _ hu => hu.ok ht.1 ht.2.1 ht.2.2.2

theorem tensorTruncate_eq (ho : Fits64 checks o) (n : Nat) :
    tensorTruncate checks n (s, o) = Model.tensorTruncate n (s, o) := by
  refine bind_congr_at fun a t ht => ?_
  obtain ⟨rfl, h1, h2⟩ := checkHead_ok ht
  show (if n < o.shape.dims.getD 0 0 then _ else _ : M (σ × Own T) Unit) (s, o) =
    (if n < o.shape.dims.getD 0 0 then _ else _ : M (σ × Own T) Unit) (s, o)
  split
  · rename_i hn
    refine withMutParts_eq ho (bind_congr_part (part_setHead ho hn) fun a t ht => ?_) (part_truncate ho hn)
    show M.bind (lenM checks t.2.shape) _ t = _
    rw [lenM_fits ht.2.1]
    rfl
  · rfl

theorem tensorTruncate_kept (ho : Fits64 checks o) (n : Nat) :
    M.Part (Model.tensorTruncate n) (s, o) (fun _ => Ok checks) (Ok checks) := by
  refine M.Part.bind (P := fun _ t => t = (s, o)) (checkHead_part (fun _ _ => rfl) ho) ?_
  rintro - t rfl
  show M.Part (if n < o.shape.dims.getD 0 0 then _ else _ : M (σ × Own T) Unit) (s, o) _ _
  split
  · exact withMutParts_kept (part_truncate ho (by assumption))
  · exact ho

/-! Operations on the vector. -/

theorem tensorReserve_eq (ho : Fits64 checks o) (n : Nat) : tensorReserve checks n (s, o) = Model.tensorReserve n (s, o) :=
  withMutParts_eq ho rfl (ok_of_within ho within_vecReserve)

theorem tensorReserve_kept (ho : Fits64 checks o) (n : Nat) :
    M.Part (Model.tensorReserve n) (s, o) (fun _ => Ok checks) (Ok checks) :=
  withMutParts_kept (ok_of_within ho within_vecReserve)

theorem within_tryReserve {sh : Shape} {L n : Nat} : (M.bind own fun o =>
    if o.len + n ≤ o.cells.length ∨ o.len + n ≤ o.limit then M.bind (vecReserve n) fun _ => M.pure true
    else M.pure false : M (σ × Own T) Bool).Inv (Within sh L) :=
  M.Inv.bind inv_own fun _ => M.inv_ite (M.Inv.bind within_vecReserve fun _ => M.inv_pure _) (M.inv_pure _)

theorem tensorTryReserve_eq (ho : Fits64 checks o) (n : Nat) :
    tensorTryReserve checks n (s, o) = Model.tensorTryReserve n (s, o) :=
  withMutParts_eq ho rfl (ok_of_within ho within_tryReserve)

theorem tensorTryReserve_kept (ho : Fits64 checks o) (n : Nat) :
    M.Part (Model.tensorTryReserve n) (s, o) (fun _ => Ok checks) (Ok checks) :=
  withMutParts_kept (ok_of_within ho within_tryReserve)

theorem within_shrink {sh : Shape} {L n : Nat} :
    (upd fun o => { o with cells := o.cells.take (max o.len n) } : M (σ × Own T) Unit).Inv (Within sh L) :=
  fun t ht => ⟨ht.1, ht.2.1, by
    show (t.2.cells.take _).length ≤ L
    rw [List.length_take]; exact le_trans (min_le_right _ _) ht.2.2⟩

theorem tensorShrinkTo_eq (ho : Fits64 checks o) (n : Nat) : tensorShrinkTo checks n (s, o) = Model.tensorShrinkTo n (s, o) :=
  withMutParts_eq ho rfl (ok_of_within ho within_shrink)

theorem tensorShrinkTo_kept (ho : Fits64 checks o) (n : Nat) :
    M.Part (Model.tensorShrinkTo n) (s, o) (fun _ => Ok checks) (Ok checks) :=
  withMutParts_kept (ok_of_within ho within_shrink)

/-! `clone_from` -/

theorem part_cloneFrom {b : Own T} {src : List T} {c : T → M σ T} (ho : Fits64 checks o) (hb : Fits64 checks b) :
    M.Part (M.bind (vecCloneFrom src c) fun _ => upd fun o => { o with shape := b.shape }) (s, parts o)
      (fun _ => Ok checks) (Ok checks) :=
  part_then ho within_vecCloneFrom fun _ _ h2 h3 => ⟨hb.1, hb.2.1, h3.trans h2.ge, h2.le.trans ho.2.2.2⟩

theorem readElems_eq {b : Own T} (hb : Fits64 checks b) : (readElems checks b : M σ (List T)) = Model.readElems b := by
  unfold readElems
  rw [lenM_fits hb.2.1]
  rfl

theorem part_readElems {b : Own T} {t : σ} {R : σ → Prop} : M.Part (Model.readElems b) t (fun _ u => u = t) R := by
  unfold Model.readElems M.Part
  dsimp only
  split
  · rename_i a u h
    split at h <;> cases h
    rfl
  · rename_i h
    split at h <;> cases h
  · trivial

theorem part_up {x : M σ α} {t : σ × ρ} {Q : α → σ → Prop} {R : σ × ρ → Prop} (h : M.Part x t.1 Q fun u => R (u, t.2)) :
    M.Part (M.up x) t (fun a u => Q a u.1 ∧ u.2 = t.2) R := by
  unfold M.Part M.up
  unfold M.Part at h
  cases hr : x t.1 <;> rw [hr] at h
  · exact ⟨h, rfl⟩
  · exact h
  all_goals trivial

theorem tensorCloneFrom_eq {b : Own T} (ho : Fits64 checks o) (hb : Fits64 checks b) (c : T → M σ T) :
    tensorCloneFrom checks b c (s, o) = Model.tensorCloneFrom b c (s, o) := by
  unfold tensorCloneFrom Model.tensorCloneFrom
  rw [readElems_eq hb]
  refine bind_congr_part (part_up (R := fun _ => True) part_readElems) ?_
  rintro src ⟨s', o'⟩ ⟨rfl, rfl⟩
  exact withMutParts_eq ho rfl (part_cloneFrom ho hb)

theorem tensorCloneFrom_kept {b : Own T} (ho : Fits64 checks o) (hb : Fits64 checks b) (c : T → M σ T) :
    M.Part (Model.tensorCloneFrom b c) (s, o) (fun _ => Ok checks) (Ok checks) := by
  refine M.Part.bind (part_up part_readElems) ?_
  rintro src ⟨s', o'⟩ ⟨rfl, rfl⟩
  exact withMutParts_kept (part_cloneFrom ho hb)

theorem tensorClone_eq {b : Own T} (hb : Fits64 checks b) (c : T → M σ T) :
    tensorClone checks b c = Model.tensorClone b c := by
  unfold tensorClone Model.tensorClone
  rw [readElems_eq hb]

theorem tensorClone_kept {b : Own T} (ho : Fits64 checks o) (hb : Fits64 checks b) (c : T → M σ T) :
    M.Part (Model.tensorClone b c) (s, o) (fun _ => Ok checks) (Ok checks) := by
  refine M.Part.bind (part_up part_readElems) ?_
  rintro src ⟨s', o'⟩ ⟨rfl, rfl⟩
  unfold vecClone
  rw [M.bind_assoc]
  refine M.Part.bind (P := fun _ => Within o'.shape o'.limit) ⟨rfl, rfl, Nat.zero_le _⟩ fun _ t ht => ?_
  refine M.Part.bind (P := fun _ => Within o'.shape o'.limit) ?_ fun _ u hu =>
    ⟨hb.1, hb.2.1, hu.2.2.trans hu.2.1.ge, hu.2.1.le.trans ho.2.2.2⟩
  have hi : (M.bind (vecReserve src.length) fun _ => M.onPanic
      (src.foldlM (fun _ y => M.bind (M.up (c y)) vecAppend) ()) (M.bind own fun o => dropCells 0 o.len) :
      M (σ × Own T) Unit).Inv (Within o'.shape o'.limit) :=
    M.Inv.bind within_vecReserve fun _ => M.Inv.onPanic (M.inv_foldlM (fun _ => M.Inv.bind within_up within_vecAppend) _)
      (M.Inv.bind inv_own fun _ => within_dropCells)
  have := M.Inv.part hi ht
  unfold M.Part at this ⊢
  revert this
  cases (M.bind (vecReserve src.length) fun _ => M.onPanic
      (src.foldlM (fun _ y => M.bind (M.up (c y)) vecAppend) ()) (M.bind own fun o => dropCells 0 o.len) :
      M (σ × Own T) Unit) t with
  | ok a u => exact id
  | panic u => exact fun h => h.ok ho.1 ho.2.1 ho.2.2.2
  | ub => exact id
  | abort => exact id

/-! `extend` -/

/-- As `Within`, and the length is at most the capacity. -/
abbrev Filled (sh : Shape) (L : Nat) (t : σ × Own T) : Prop := Within sh L t ∧ t.2.len ≤ t.2.cells.length

theorem filled_up {sh : Shape} {L : Nat} {x : M σ α} : (M.up x : M (σ × Own T) α).Inv (Filled sh L) :=
  M.inv_up (J := fun o : Own T => (o.shape = sh ∧ o.limit = L ∧ o.cells.length ≤ L) ∧ o.len ≤ o.cells.length) x

theorem filled_vecReserve {sh : Shape} {L n : Nat} : (vecReserve n : M (σ × Own T) Unit).Inv (Filled sh L) := by
  intro t ht
  have := within_vecReserve (n := n) t ht.1
  by_cases h1 : t.2.len + n ≤ t.2.cells.length
  · have e : vecReserve n t = .ok () t := by
      show (if t.2.len + n ≤ t.2.cells.length then M.pure () else _ : M (σ × Own T) Unit) t = _
      rw [if_pos h1]; rfl
    rw [e]; exact ht
  by_cases h2 : t.2.len + n ≤ t.2.limit
  · have e : vecReserve n t = .ok () (t.1, { t.2 with
        cells := t.2.cells ++ List.replicate (t.2.len + n - t.2.cells.length) none }) := by
      show (if t.2.len + n ≤ t.2.cells.length then M.pure () else if t.2.len + n ≤ t.2.limit then _ else M.panic :
        M (σ × Own T) Unit) t = _
      rw [if_neg h1, if_pos h2]; rfl
    rw [e] at this ⊢
    refine ⟨this, ?_⟩
    show t.2.len ≤ (t.2.cells ++ _).length
    rw [List.length_append]
    exact ht.2.trans (Nat.le_add_right _ _)
  · have e : vecReserve n t = .panic t := by
      show (if t.2.len + n ≤ t.2.cells.length then M.pure () else if t.2.len + n ≤ t.2.limit then _ else M.panic :
        M (σ × Own T) Unit) t = _
      rw [if_neg h1, if_neg h2]; rfl
    rw [e]; exact ht

theorem filled_vecAppend {sh : Shape} {L : Nat} (x : T) : (vecAppend x : M (σ × Own T) Unit).Inv (Filled sh L) := by
  intro t ht
  show (M.bind (writeCell t.2.len x) (fun _ => upd fun o => { o with len := o.len + 1 }) t : Res (σ × Own T) Unit).All _
  unfold writeCell M.bind
  dsimp only
  by_cases h : t.2.len < t.2.cells.length
  · rw [if_pos h]
    exact ⟨⟨ht.1.1, ht.1.2.1, by
      show (t.2.cells.set _ _).length ≤ L; rw [List.length_set]; exact ht.1.2.2⟩, by
      show t.2.len + 1 ≤ (t.2.cells.set _ _).length; rw [List.length_set]; exact h⟩
  · rw [if_neg h]; trivial

theorem filled_vecExtend {sh : Shape} {L n : Nat} {step : Nat → M σ T} : (vecExtend n step).Inv (Filled sh L) :=
  M.inv_foldlM (fun _ => M.Inv.bind filled_up fun _ => M.Inv.bind
    (M.Inv.onPanic filled_vecReserve (inv_upd (by intro _ _ h; exact h))) fun _ => filled_vecAppend _) _

theorem part_extend {n : Nat} {step : Nat → M σ T} (ho : Fits64 checks o) (hl : o.shape.len ≤ o.cells.length) :
    M.Part (M.bind (vecExtend n step) fun _ => upd fun o => { o with shape := ⟨.static [.dyn], [o.len]⟩ }) (s, parts o)
      (fun _ => Ok checks) (Ok checks) := by
  refine M.Part.bind (P := fun _ => Filled o.shape o.limit) ?_ fun _ u hu => ?_
  · have := M.Inv.part (filled_vecExtend (n := n) (step := step))
      (show Filled o.shape o.limit (s, parts o) from ⟨within_parts ho, hl⟩)
    unfold M.Part at this ⊢
    cases hr : vecExtend n step (s, parts o) <;> rw [hr] at this
    · exact this
    · exact this.1.ok ho.1 ho.2.1 ho.2.2.2
    all_goals trivial
  · have h1 : u.2.len ≤ usizeMax := by
      have := hu.2; have := hu.1.2.2; have := ho.2.2.2; omega
    refine ⟨.cons trivial .nil, ?_, hu.1.2.2.trans hu.1.2.1.ge, hu.1.2.1.le.trans ho.2.2.2⟩
    show LenFits checks [u.2.len]
    exact .single h1

theorem tensorExtend_eq (ho : Fits64 checks o) (hl : o.shape.len ≤ o.cells.length) (n : Nat) (step : Nat → M σ T) :
    tensorExtend checks n step (s, o) = Model.tensorExtend n step (s, o) :=
  withMutParts_eq ho rfl (part_extend ho hl)

theorem tensorExtend_kept (ho : Fits64 checks o) (hl : o.shape.len ≤ o.cells.length) (n : Nat) (step : Nat → M σ T) :
    M.Part (Model.tensorExtend n step) (s, o) (fun _ => Ok checks) (Ok checks) :=
  withMutParts_kept (part_extend ho hl)

/-! `expand` -/

theorem expandShape_eq {sh : Shape} {src : List Nat} (hf : LenFits checks sh.dims) (h0 : 0 < size src)
    (hs : size sh.dims + size src ≤ usizeMax) : expandShape checks sh src = Model.expandShape sh src := by
  unfold expandShape Model.expandShape
  rw [isEmpty_fits hf]
  simp only [Option.bind_eq_bind, Option.bind_some]
  split
  · rfl
  · rename_i he
    have he : size sh.dims ≠ 0 := fun h => he (Shape.isEmpty_iff.2 h)
    rw [Shape.withMutDims_eq, Shape.withMutDims_eq]
    congr 1
    by_cases h1 : src.length = sh.dims.length
    · rw [show check (src.length = sh.dims.length) = some () from if_pos h1]
      by_cases h2 : src.tail = sh.dims.tail
      · rw [show check (src.tail = sh.dims.tail) = some () from if_pos h2]
        have : sh.dims.getD 0 0 + src.getD 0 0 ≤ usizeMax := by
          cases hd : sh.dims with
          | nil =>
            rw [hd] at h1
            have : src = [] := by simpa using h1
            rw [this]; simp
          | cons d ds =>
            cases src with
            | nil => rw [hd] at h1; simp at h1
            | cons a as =>
              rw [hd] at h2 he hs
              have h2 : as = ds := h2
              subst h2
              rw [size_cons] at h0 he hs
              rw [size_cons] at hs
              have : 0 < size as := Nat.pos_of_ne_zero fun e => by rw [e] at he; simp at he
              have := Nat.le_mul_of_pos_right d this
              have := Nat.le_mul_of_pos_right a ‹0 < size as›
              simp only [List.getD_cons_zero]
              omega
        rw [retU_fit this]
        rfl
      · rw [show check (src.tail = sh.dims.tail) = none from if_neg h2]
        rfl
    · rw [show check (src.length = sh.dims.length) = none from if_neg h1]
      rfl

theorem cloneIntoVec_eq {e : Expr σ α} (he : LenFits checks e.dims) (c : α → M σ T) :
    cloneIntoVec checks e c = Model.cloneIntoVec e c := by
  unfold cloneIntoVec
  rw [lenM_fits he]
  rfl

theorem part_vecReserve {n : Nat} {sh : Shape} {L : Nat} {t : σ × Own T} (h : Within sh L t) :
    M.Part (vecReserve n) t (fun _ u => Within sh L u ∧ t.2.len + n ≤ L) (Within sh L) := by
  have hw := within_vecReserve (n := n) t h
  have : M.Part (vecReserve n) t (fun _ _ => t.2.len + n ≤ L) fun _ => True := by
    show M.Part (if t.2.len + n ≤ t.2.cells.length then M.pure () else if t.2.len + n ≤ t.2.limit then _ else M.panic :
      M (σ × Own T) Unit) t _ _
    split
    · rename_i h1; exact h1.trans h.2.2
    · split
      · rename_i h1; exact h1.trans h.2.1.le
      · trivial
  unfold M.Part at this ⊢
  cases hr : (vecReserve n : M (σ × Own T) Unit) t <;> rw [hr] at this hw
  · exact ⟨hw, this⟩
  · exact hw
  all_goals trivial

abbrev expandBody (e : Expr σ α) (c : α → M σ T) : M (σ × Own T) Unit :=
  M.bind (vecReserve e.shape.len) fun _ => M.bind (setShape fun s => Model.expandShape s e.dims) fun _ =>
    Model.cloneIntoVec e c

theorem part_expandShape {e : Expr σ α} (ho : Fits64 checks o) (hr : 0 < o.shape.rank) (h0 : 0 < size e.dims)
    (hs : size o.shape.dims + size e.dims ≤ usizeMax) {t : σ × Own T} (ht : Within o.shape o.limit t) :
    M.Part (setShape fun s => Model.expandShape s e.dims) t (fun _ => Ok checks) (Ok checks) := by
  refine part_setShape (fun s' h => ?_) fun _ => ht.ok ho.1 ho.2.1 ho.2.2.2
  rw [ht.1] at h
  obtain ⟨h1, -, h3, -⟩ := expandShape_some hr h h0
  have h4 : 0 < size s'.dims := by omega
  have h5 : size s'.dims ≤ usizeMax := by omega
  exact ⟨h1, .of_pos h4 h5, ht.2.2.trans ht.2.1.ge, ht.2.1.le.trans ho.2.2.2⟩

theorem part_expand {e : Expr σ α} {c : α → M σ T} (ho : Fits64 checks o) (hr : 0 < o.shape.rank)
    (h0 : 0 < size e.dims) : M.Part (expandBody e c) (s, parts o) (fun _ => Ok checks) (Ok checks) := by
  refine M.Part.bind (P := fun _ u => Within o.shape o.limit u ∧ (parts o).len + e.shape.len ≤ o.limit) ?_ ?_
  · have := part_vecReserve (n := e.shape.len) (within_parts (s := s) ho)
    unfold M.Part at this ⊢
    cases hr : (vecReserve e.shape.len : M (σ × Own T) Unit) (s, parts o) <;> rw [hr] at this
    · exact this
    · exact this.ok ho.1 ho.2.1 ho.2.2.2
    all_goals trivial
  · rintro - t ⟨ht, hl⟩
    have hl : size o.shape.dims + size e.dims ≤ o.limit := by
      rw [← Shape.len_eq, show size e.dims = e.shape.len from (Shape.len_eq _).symm]; exact hl
    refine M.Part.bind (part_expandShape ho hr h0 (hl.trans ho.2.2.2) ht) fun _ u hu => ?_
    exact part_of_inv (I := Within u.2.shape u.2.limit) within_cloneIntoVec ⟨rfl, rfl, hu.2.2.1⟩
      fun _ hw => hw.ok hu.1 hu.2.1 hu.2.2.2

theorem expand_eq {e : Expr σ α} (ho : Fits64 checks o) (he : LenFits checks e.dims) (c : α → M σ T) :
    expand checks e c (s, o) = Model.expand e c (s, o) := by
  refine bind_congr_at fun a t ht => ?_
  obtain ⟨rfl, h1, h2⟩ := checkHead_ok ht
  show M.bind (lenM checks e.shape) _ (s, o) = _
  rw [lenM_fits he, M.pure_bind]
  split
  · rename_i h0
    rw [show e.shape.len = size e.dims from Shape.len_eq _] at h0
    refine withMutParts_eq ho ?_ (part_expand ho h1 h0)
    refine bind_congr_part (part_vecReserve (within_parts (s := s) ho)) ?_
    rintro - t ⟨ht, hl⟩
    have hl : size o.shape.dims + size e.dims ≤ usizeMax := by
      refine le_trans ?_ ho.2.2.2
      rw [← Shape.len_eq, show size e.dims = e.shape.len from (Shape.len_eq _).symm]; exact hl
    simp only [M.bind_eq]
    rw [cloneIntoVec_eq he]
    have e1 : setShape (fun s => expandShape checks s e.dims) t = setShape (fun s => Model.expandShape s e.dims) t := by
      show M.bind (M.lift (expandShape checks t.2.shape e.dims)) _ t = M.bind (M.lift (Model.expandShape t.2.shape e.dims)) _ t
      rw [ht.1, expandShape_eq ho.2.1 h0 hl]
    unfold M.bind
    rw [e1]
  · rfl

theorem expand_kept {e : Expr σ α} (ho : Fits64 checks o) (c : α → M σ T) :
    M.Part (Model.expand e c) (s, o) (fun _ => Ok checks) (Ok checks) := by
  refine M.Part.bind (P := fun _ t => t = (s, o) ∧ 0 < o.shape.rank) (checkHead_part (fun h _ => ⟨rfl, h⟩) ho) ?_
  rintro - t ⟨rfl, hr⟩
  split
  · rename_i h0
    rw [show e.shape.len = size e.dims from Shape.len_eq _] at h0
    exact withMutParts_kept (part_expand ho hr h0)
  · exact ho

/-! `resize` -/

theorem copyDim_eq (f : M σ T) : ∀ (ods nds : List Nat), LenFits checks ods →
    (checks = true → NoOverflow usizeMax (afterZero ods)) → 0 < size nds → size nds ≤ usizeMax →
    copyDim checks f ods nds = Model.copyDim f ods nds := by
  intro ods
  induction ods with
  | nil => intro nds _ _ _ _; cases nds <;> rfl
  | cons od ods ih =>
    intro nds ho hz hn0 hn
    cases nds with
    | nil => rfl
    | cons nd nds =>
      rw [size_cons] at hn0 hn
      have hnd : 0 < nd := Nat.pos_of_mul_pos_right hn0
      have hns0 : 0 < size nds := Nat.pos_of_mul_pos_left hn0
      have hns : size nds ≤ usizeMax := le_trans (Nat.le_mul_of_pos_left _ hnd) hn
      have e2 : product checks nds = some (size nds) := product_fits (.of_pos hns0 hns)
      have e3 : retU checks ((nd - min od nd) * size nds) = some ((nd - min od nd) * size nds) :=
        retU_fit (le_trans (Nat.mul_le_mul_right _ (Nat.sub_le _ _)) hn)
      unfold copyDim Model.copyDim
      rw [e2, prod_eq, prod_eq, M.lift_some]
      simp only [M.pure_bind]
      rw [e3, M.lift_some]
      simp only [M.pure_bind]
      by_cases hod : od = 0
      · subst hod
        obtain ⟨n, e1⟩ : ∃ n, product checks ods = some n := by
          cases checks with
          | false => exact ⟨_, product_false _⟩
          | true => exact ⟨_, product_fits ⟨(hz rfl).size_le, fun _ => hz rfl⟩⟩
        rw [e1, M.lift_some, M.pure_bind]
        rw [Nat.zero_min, if_neg (Nat.lt_irrefl 0), if_neg (Nat.lt_irrefl 0)]
        rfl
      · have ho' := ho.tail hod
        have hz' : checks = true → NoOverflow usizeMax (afterZero ods) := by
          intro hc; have := hz hc; unfold afterZero at this; rwa [if_neg hod] at this
        rw [product_fits ho', M.lift_some, M.pure_bind, ih nds ho' hz' hns0 hns,
          retU_fit (le_trans (Nat.mul_le_mul_right _ (Nat.sub_le _ _)) (size_cons od ods ▸ ho.1)), M.lift_some, M.pure_bind]

theorem resizeVec_eq {d : List Nat} {n : Nat} {f : M σ T} {t : σ × Own T} (ho : LenFits checks t.2.shape.dims)
    (hz : 0 < size d → size d ≤ t.2.limit → checks = true → NoOverflow usizeMax (afterZero t.2.shape.dims))
    (hn : n = size d) (hd : size d ≤ usizeMax) :
    resizeVec checks d n f t = Model.resizeVec d n f t := by
  unfold resizeVec Model.resizeVec
  show (if n = 0 then _ else if d.tail = t.2.shape.dims.tail then _ else resizeCopy checks d n f :
    M (σ × Own T) Unit) t = (if n = 0 then _ else if d.tail = t.2.shape.dims.tail then _ else Model.resizeCopy d n f :
    M (σ × Own T) Unit) t
  split
  · rfl
  · split
    · rfl
    · rename_i h0 _
      unfold resizeCopy Model.resizeCopy
      simp only [M.bind_eq]
      refine bind_congr_at fun a u hu => ?_
      obtain ⟨rfl, rfl⟩ : t.2 = a ∧ t = u := by
        injection hu with h1 h2; exact ⟨h1, h2⟩
      by_cases hl : n ≤ t.2.limit
      · rw [copyDim_eq f _ _ ho (hz (by omega) (by omega)) (by omega) hd]
      · rw [show check (n ≤ t.2.limit) = none from if_neg hl]
        rfl

abbrev resizeBody (d : List Nat) (n : Nat) (f : M σ T) : M (σ × Own T) Unit :=
  M.bind (Model.resizeVec d n f) fun _ => setShape fun s => s.withMutDims fun dims => Shape.copyFromSlice dims d

theorem part_resize {d : List Nat} {n : Nat} {f : M σ T} (ho : Fits64 checks o) (hd : NoOverflow usizeMax d) :
    M.Part (resizeBody d n f) (s, parts o) (fun _ => Ok checks) (Ok checks) := by
  refine M.Part.bind (P := fun _ => Within o.shape o.limit) ?_ fun _ t ht => ?_
  · have := part_resizeVec (d := d) (n := n) (f := f) (within_parts (s := s) ho)
    unfold M.Part at this ⊢
    cases hr : Model.resizeVec d n f (s, parts o) <;> rw [hr] at this
    · exact this
    · exact this.ok ho.1 ho.2.1 ho.2.2.2
    all_goals trivial
  · refine part_setShape (fun s' h => ?_) fun _ => ht.ok ho.1 ho.2.1 ho.2.2.2
    rw [ht.1, Shape.withMutDims_eq] at h
    obtain ⟨d', h1, h2⟩ := Option.bind_eq_some_iff.mp h
    have e : d' = d := by
      unfold Shape.copyFromSlice at h1
      split at h1
      · injection h1 with h1; exact h1.symm
      · cases h1
    subst e
    split at h2
    · rename_i hc
      injection h2 with h2
      subst h2
      exact ⟨hc, ⟨hd.size_le, fun _ => hd⟩, ht.2.2.trans ht.2.1.ge, ht.2.1.le.trans ho.2.2.2⟩
    · cases h2

theorem resizeWith_eq {d : List Nat} {f : M σ T} (ho : Fits64 checks o)
    (hz : ¬ ResizeOverflows checks o d) : resizeWith checks d f (s, o) = Model.resizeWith d f (s, o) := by
  unfold resizeWith Model.resizeWith
  show M.bind (M.lift (check (d.length = o.shape.rank))) _ (s, o) = M.bind (M.lift (check (d.length = o.shape.rank))) _ (s, o)
  refine bind_congr_part (P := fun _ t => t = (s, o) ∧ d.length = o.shape.rank) (R := fun _ => True)
    (part_lift (fun _ h => ⟨rfl, ?_⟩) fun _ => trivial) ?_
  · by_contra hc
    rw [show check (d.length = o.shape.rank) = none from if_neg hc] at h
    cases h
  rintro - t ⟨rfl, hdl⟩
  split
  · refine bind_congr_part (P := fun n t => t = (s, o) ∧ NoOverflow usizeMax d ∧ n = size d) (R := fun _ => True)
      (part_lift (fun n h => ?_) fun _ => trivial) ?_
    · rw [Shape.checkedLen_eq] at h
      split at h
      · rename_i hno; injection h with h; exact ⟨rfl, hno, h.symm⟩
      · cases h
    · rintro n t ⟨rfl, hno, hn⟩
      refine withMutParts_eq ho ?_ (part_resize ho hno)
      unfold M.bind
      rw [resizeVec_eq (t := (s, parts o)) ho.2.1 (fun h1 h2 h3 => ?_) hn hno.size_le]
      by_contra hc
      exact hz ⟨h3, hc, hdl, h1, h2⟩
  · rfl

theorem resizeWith_kept {d : List Nat} {f : M σ T} (ho : Fits64 checks o) :
    M.Part (Model.resizeWith d f) (s, o) (fun _ => Ok checks) (Ok checks) := by
  unfold Model.resizeWith
  refine M.Part.bind (P := fun a t => t = (s, o) ∧ a = o) ⟨rfl, rfl⟩ ?_
  rintro a t ⟨rfl, ha⟩
  subst ha
  refine M.Part.bind (P := fun _ t => t = (s, a)) (part_lift (fun _ _ => rfl) fun _ => ho) ?_
  rintro - t rfl
  split
  · refine M.Part.bind (P := fun n t => t = (s, a) ∧ NoOverflow usizeMax d) (part_lift (fun n h => ?_) fun _ => ho) ?_
    · rw [Shape.checkedLen_eq] at h
      split at h
      · rename_i hno; exact ⟨rfl, hno⟩
      · cases h
    · rintro n t ⟨rfl, hno⟩
      exact withMutParts_kept (part_resize ho hno)
  · exact ho

theorem size_of_afterZero : ∀ {l : List Nat}, ¬ NoOverflow usizeMax (afterZero l) → size l = 0
  | [], h => absurd ((LenFits.nil (checks := true)).2 rfl) h
  | d :: ds, h => by
    unfold afterZero at h
    split at h
    · rename_i h0; rw [h0, size_cons, Nat.zero_mul]
    · rw [size_cons, size_of_afterZero h, Nat.mul_zero]

/-- The copy stops at the first old dimension that is zero, if the product of the dimensions behind it overflows. -/
theorem copyDim_bad (f : M σ T) : ∀ (ods nds : List Nat) (t : (σ × Own T) × Loc T), LenFits true ods →
    ¬ NoOverflow usizeMax (afterZero ods) → ods.length = nds.length → 0 < size nds → size nds ≤ usizeMax →
    copyDim true f ods nds t = .panic t := by
  intro ods
  induction ods with
  | nil => intro nds t _ hz; exact absurd ((LenFits.nil (checks := true)).2 rfl) hz
  | cons od ods ih =>
    intro nds t ho hz hl hn0 hn
    cases nds with
    | nil => cases hl
    | cons nd nds =>
      rw [size_cons] at hn0 hn
      have hnd : 0 < nd := Nat.pos_of_mul_pos_right hn0
      have hns0 : 0 < size nds := Nat.pos_of_mul_pos_left hn0
      have hns : size nds ≤ usizeMax := le_trans (Nat.le_mul_of_pos_left _ hnd) hn
      unfold copyDim
      unfold afterZero at hz
      by_cases hod : od = 0
      · rw [if_pos hod] at hz
        rw [product_bad hz]; rfl
      · rw [if_neg hod] at hz
        have ho' := ho.tail hod
        rw [product_fits ho', product_fits (LenFits.of_pos hns0 hns), M.lift_some, M.lift_some]
        simp only [M.pure_bind]
        have h0 : 0 < ods.length := by
          cases ods with
          | nil => exact absurd ((LenFits.nil (checks := true)).2 rfl) hz
          | cons _ _ => exact Nat.succ_pos _
        rw [if_pos h0]
        obtain ⟨k, hk⟩ : ∃ k, min od nd = k + 1 := ⟨min od nd - 1, by omega⟩
        rw [hk]
        have := ih nds t ho' hz (by simpa using hl) hns0 hns
        unfold repeatM
        simp only [M.bind]
        rw [this]

theorem dropCells_none {t : σ × Own T} : dropCells 0 0 t = .ok () t := by
  unfold dropCells
  simp

theorem resizeWith_bad {d : List Nat} {f : M σ T} (ho : Fits64 checks o) (hb : ResizeOverflows checks o d) :
    resizeWith checks d f (s, o) = .panic (s, { o with len := 0 }) := by
  obtain ⟨rfl, hz, hl, h0, hd⟩ := hb
  have hu : size d ≤ usizeMax := hd.trans ho.2.2.2
  have hno : NoOverflow usizeMax d := (LenFits.of_pos (checks := true) h0 hu).2 rfl
  have hs : size o.shape.dims = 0 := size_of_afterZero hz
  have hlen : o.shape.len = 0 := (Shape.len_eq _).trans hs
  have ht : ¬ d.tail = o.shape.dims.tail := by
    intro e
    cases hds : o.shape.dims with
    | nil => rw [hds] at hz; exact hz ((LenFits.nil (checks := true)).2 rfl)
    | cons od ods =>
      cases d with
      | nil => rw [Shape.rank, hds] at hl; cases hl
      | cons nd nds =>
        rw [hds] at e hz
        obtain rfl : nds = ods := e
        rw [size_cons] at h0 hu
        have hns0 : 0 < size nds := Nat.pos_of_mul_pos_left h0
        unfold afterZero at hz
        split at hz
        · exact hz ((LenFits.of_pos (checks := true) hns0 (le_trans (Nat.le_mul_of_pos_left _ (Nat.pos_of_mul_pos_right h0)) hu)).2 rfl)
        · exact absurd (size_of_afterZero hz) (by omega)
  have hne : d ≠ [] := by
    rintro rfl
    have : o.shape.dims = [] := List.length_eq_zero_iff.mp hl.symm
    rw [this] at hz; exact hz ((LenFits.nil (checks := true)).2 rfl)
  have hp : parts o = { o with len := 0 } := by unfold parts; rw [hlen]
  unfold resizeWith
  show M.bind (M.lift (check (d.length = o.shape.rank))) _ (s, o) = _
  rw [show check (d.length = o.shape.rank) = some () from if_pos hl, M.lift_some, M.pure_bind, if_pos hne,
    show Shape.checkedLen ⟨.dynRank, d⟩ = some (size d) by rw [Shape.checkedLen_eq]; exact if_pos hno, M.lift_some,
    M.pure_bind]
  show M.bind (lenM true o.shape) _ (s, o) = _
  rw [lenM_fits ho.2.1, M.pure_bind]
  show M.onPanic _ (partsGuard true) (s, parts o) = _
  rw [hp]
  have e1 : resizeCopy true d (size d) f (s, { o with len := 0 }) = .panic (s, { o with len := 0 }) := by
    unfold resizeCopy
    show M.bind (M.lift (check (size d ≤ o.limit))) _ (s, _) = _
    rw [show check (size d ≤ o.limit) = some () from if_pos hd, M.lift_some, M.pure_bind]
    show M.bind (M.scope _ (M.bind (M.onPanic (copyDim true f o.shape.dims d) _) _)) _ (s, _) = _
    unfold M.bind M.scope M.onPanic
    dsimp only
    rw [copyDim_bad f _ _ _ ho.2.1 hz hl.symm h0 hu]
    dsimp only [dropOldGuard, M.up]
    rw [dropCells_none]
    simp [dropNewVec]
  have e2 : resizeVec true d (size d) f (s, { o with len := 0 }) = .panic (s, { o with len := 0 }) := by
    unfold resizeVec
    show (if size d = 0 then _ else if d.tail = o.shape.dims.tail then _ else resizeCopy true d (size d) f :
      M (σ × Own T) Unit) _ = _
    rw [if_neg (by omega), if_neg ht, e1]
  unfold M.onPanic M.bind
  rw [e2]
  dsimp only
  rw [partsGuard_eq ho.1 ho.2.1]
  have e3 : Model.partsGuard (s, { o with len := 0 }) = .ok () (s, { o with len := 0 }) := by
    show (if (0 : Nat) ≠ o.shape.len then _ else M.pure () : M (σ × Own T) Unit) _ = _
    rw [if_neg (by omega)]; rfl
  rw [e3]

/-! `into_shape` and similar operations -/

theorem tensorInto_eq {f' f : Shape → Option Shape} (ho : Fits64 checks o) (hf : f' o.shape = f o.shape) :
    tensorInto checks f' (s, o) = Model.tensorInto f (s, o) := by
  show M.bind (lenM checks o.shape) _ (s, o) = _
  rw [lenM_fits ho.2.1, M.pure_bind]
  show M.onPanic (setShape f') _ (s, parts o) = M.onPanic (setShape f) _ (s, parts o)
  have e : setShape f' (s, parts o) = setShape f (s, parts o) := by
    show M.bind (M.lift (f' o.shape)) _ (s, parts o) = M.bind (M.lift (f o.shape)) _ (s, parts o)
    rw [hf]
  unfold M.onPanic
  rw [e]

theorem tensorInto_kept {f : Shape → Option Shape} (ho : Fits64 checks o)
    (hf : ∀ s', f o.shape = some s' → s'.WF ∧ LenFits checks s'.dims) :
    M.Part (Model.tensorInto f) (s, o) (fun _ => Ok checks) (Ok checks) := by
  unfold Model.tensorInto; simp only [M.bind_eq]
  refine M.Part.bind (P := fun _ t => t = (s, parts o)) rfl ?_
  rintro - t rfl
  refine M.Part.onPanic (P := Within o.shape o.limit)
    (part_setShape (fun s' h => ⟨(hf s' h).1, (hf s' h).2, ho.2.2⟩) fun _ => within_parts ho) fun t ht => ?_
  have := M.Inv.part (M.Inv.bind inv_own fun o => within_dropCells : M.Inv (Within o.shape o.limit)
    (M.bind own fun o => dropCells 0 o.len : M (σ × Own T) Unit)) ht
  unfold M.Part at this ⊢
  cases hr : (M.bind own fun o => dropCells 0 o.len : M (σ × Own T) Unit) t <;> rw [hr] at this
  · exact this.ok ho.1 ho.2.1 ho.2.2.2
  all_goals trivial

theorem shapeReshape_fits {sh : Shape} (h : LenFits checks sh.dims) (ns : Shape) :
    shapeReshape checks sh ns = sh.reshape ns := by
  unfold shapeReshape Shape.reshape; rw [len_fits h]; rfl

theorem reshape_fits {sh ns s' : Shape} (hw : ns.WF) (hf : LenFits checks sh.dims) (h : sh.reshape ns = some s') :
    s'.WF ∧ LenFits checks s'.dims := by
  obtain ⟨-, h2, h3, h4, h5⟩ := Shape.reshape_result hw h
  refine ⟨h2, ?_⟩
  rcases Nat.eq_zero_or_pos (size sh.dims) with h0 | h0
  · have key : LenFits checks (ns.dims.map fun d => if d = usizeMax then 1 else d) := ⟨h4.size_le, fun _ => h4⟩
    refine key.mono ?_
    rw [h0] at h5
    generalize ns.dims = req at h5
    generalize s'.dims = dims at h5
    have id' : ∀ l : List Nat, usizeMax ∉ l → List.Forall₂ (· ≤ ·) l (l.map fun d => if d = usizeMax then 1 else d) := by
      intro l hl
      induction l with
      | nil => exact .nil
      | cons d l ih =>
        rw [List.mem_cons, not_or] at hl
        exact .cons (by show d ≤ if d = usizeMax then 1 else d; rw [if_neg (Ne.symm hl.1)]) (ih hl.2)
    cases h5 with
    | exact hn _ => exact id' _ hn
    | @infer a b m ha hb hp he =>
      rw [List.map_append, List.map_cons, if_pos rfl]
      have : m = 0 := by
        rcases Nat.mul_eq_zero.mp he with h | h
        · omega
        · exact h
      exact List.rel_append (id' a ha) (.cons (by omega) (id' b hb))
  · exact .of_pos (by omega) (by rw [h3]; exact hf.1)

theorem tensorIntoShape_eq (ho : Fits64 checks o) (ns : Shape) :
    tensorIntoShape checks ns (s, o) = Model.tensorIntoShape ns (s, o) :=
  tensorInto_eq ho (shapeReshape_fits ho.2.1 ns)

theorem tensorIntoShape_kept (ho : Fits64 checks o) {ns : Shape} (hw : ns.WF) :
    M.Part (Model.tensorIntoShape ns) (s, o) (fun _ => Ok checks) (Ok checks) :=
  tensorInto_kept ho fun _ h => reshape_fits hw ho.2.1 h

theorem tensorIntoMapping_eq (ho : Fits64 checks o) (ty : ShapeTy) :
    tensorIntoMapping checks ty (s, o) = Model.tensorIntoMapping ty (s, o) := tensorInto_eq ho rfl

theorem tensorIntoMapping_kept (ho : Fits64 checks o) (ty : ShapeTy) :
    M.Part (Model.tensorIntoMapping ty) (s, o) (fun _ => Ok checks) (Ok checks) := by
  refine tensorInto_kept ho fun s' h => ?_
  rw [Shape.fromDims_eq] at h
  split at h
  · rename_i hc
    injection h with h; subst h
    exact ⟨hc, ho.2.1⟩
  · cases h

theorem tensorIntoVec_eq (ho : Fits64 checks o) : tensorIntoVec checks (s, o) = Model.tensorIntoVec (s, o) := by
  show M.bind (lenM checks o.shape) _ (s, o) = _
  rw [lenM_fits ho.2.1, M.pure_bind]
  rfl

theorem tensorIntoVec_kept (ho : Fits64 checks o) :
    M.Part Model.tensorIntoVec (s, o) (fun _ => Ok checks) (Ok checks) := ho

theorem tensorIntoFlat_eq (ho : Fits64 checks o) : tensorIntoFlat checks (s, o) = Model.tensorIntoFlat (s, o) := by
  show M.bind (tensorIntoVec checks) _ (s, o) = _
  unfold M.bind
  rw [tensorIntoVec_eq ho]
  rfl

theorem tensorIntoFlat_kept (ho : Fits64 checks o) :
    M.Part Model.tensorIntoFlat (s, o) (fun _ => Ok checks) (Ok checks) := by
  refine ⟨?_, ?_, ho.2.2⟩
  · exact List.Forall₂.cons trivial .nil
  · have : o.shape.len ≤ usizeMax := (Shape.len_eq _).trans_le ho.2.1.1
    exact .single this

theorem tensorIntoScalar_eq (ho : Fits64 checks o) : tensorIntoScalar checks (s, o) = Model.tensorIntoScalar (s, o) := by
  show M.bind (M.onPanic (M.bind (lenM checks o.shape) _) (M.bind (lenM checks o.shape) _)) _ (s, o) =
    M.bind (M.onPanic (M.lift (check (o.shape.len = 1))) (dropCells 0 o.shape.len)) _ (s, o)
  rw [lenM_fits ho.2.1, M.pure_bind, M.pure_bind]
  refine bind_congr_part (P := fun _ t => t = (s, o)) (R := fun _ => True) ?_ ?_
  · refine M.Part.onPanic (P := fun _ => True) (part_lift (fun _ _ => rfl) fun _ => trivial) fun t _ => ?_
    unfold M.Part
    cases dropCells 0 o.shape.len t <;> trivial
  · rintro - t rfl
    show M.bind (tensorIntoVec checks) _ (s, o) = M.bind Model.tensorIntoVec _ (s, o)
    unfold M.bind
    rw [tensorIntoVec_eq ho]

/-! `from_expr` -/

theorem tensorFromExpr_eq {e : Expr σ T} (he : LenFits checks e.dims) :
    tensorFromExpr checks e = Model.tensorFromExpr e := by
  unfold tensorFromExpr
  rw [lenM_fits he, cloneIntoVec_eq he]
  rfl

theorem tensorFromExpr_kept {e : Expr σ T} (hw : e.shape.WF) (he : LenFits checks e.dims) (hl : o.limit ≤ usizeMax) :
    M.Part (Model.tensorFromExpr e) (s, o) (fun _ => Ok checks) (Ok checks) := by
  unfold Model.tensorFromExpr; simp only [M.bind_eq]
  refine M.Part.bind (P := fun _ => Within e.shape o.limit) ⟨rfl, rfl, Nat.zero_le _⟩ ?_
  intro _ t ht
  refine M.Part.bind (P := fun a u => a = t.2 ∧ u = t) ⟨rfl, rfl⟩ ?_
  rintro a u ⟨rfl, rfl⟩
  refine M.Part.bind (P := fun _ v => v = u ∧ e.shape.len ≤ o.limit) (part_lift (fun _ h => ?_) fun _ =>
    ht.ok hw he hl) ?_
  · refine ⟨rfl, ?_⟩
    rw [← ht.2.1]
    by_contra hc
    rw [show check (e.shape.len ≤ u.2.limit) = none from if_neg hc] at h
    cases h
  rintro - v ⟨rfl, hn⟩
  refine M.Part.bind (P := fun _ => Within e.shape o.limit) ⟨ht.1, ht.2.1, by simpa using hn⟩ fun _ w hw' => ?_
  refine M.Part.onPanic (P := Within e.shape o.limit) ?_ fun t ht => ?_
  · have := M.Inv.part (within_cloneIntoVec (e := e) (c := M.pure)) hw'
    unfold M.Part at this ⊢
    cases hr : Model.cloneIntoVec e M.pure w <;> rw [hr] at this
    · exact this.ok hw he hl
    · exact this
    all_goals trivial
  · have := M.Inv.part (M.Inv.bind inv_own fun o => within_dropCells : M.Inv (Within e.shape o.limit)
      (M.bind own fun o => dropCells 0 o.len : M (σ × Own T) Unit)) ht
    unfold M.Part at this ⊢
    cases hr : (M.bind own fun o => dropCells 0 o.len : M (σ × Own T) Unit) t <;> rw [hr] at this
    · exact this.ok hw he hl
    all_goals trivial

/-! `zip_with` -/

theorem zipWith_eq {e : Expr σ β} (ho : Fits64 checks o) (f : T → β → M σ T) :
    zipWith checks e f (s, o) = Model.zipWith e f (s, o) := by
  have e1 : (zipGuard checks o.shape : M ((σ × Own T) × Nat) Unit) = Model.zipGuard o.shape.len := by
    unfold zipGuard Model.zipGuard
    rw [lenM_fits ho.2.1]
    rfl
  unfold zipWith Model.zipWith
  refine bind_congr_at fun a t ht => ?_
  obtain ⟨rfl, rfl⟩ : o = a ∧ (s, o) = t := by injection ht with h1 h2; exact ⟨h1, h2⟩
  rw [e1]

/-- The shape, the limit and the capacity. -/
abbrev meas (t : σ × Own T) : Shape × Nat × Nat := (t.2.shape, t.2.limit, t.2.cells.length)

theorem meas_dropCells (p n : Nat) : Keeps meas (dropCells p n : M (σ × Own T) Unit) := by
  intro t
  have := fits_dropCells (p := p) (n := n) (I := fun u : σ × Own T => meas u = meas t)
    (fun s o c l h hc => by rw [← h]; show (_, _, c.length) = (_, _, o.cells.length); rw [hc]) t rfl
  revert this
  cases (dropCells p n : M (σ × Own T) Unit) t <;> exact id

theorem meas_takeCell (p : Nat) : Keeps meas (takeCell p : M (σ × Own T) T) := by
  intro t
  unfold takeCell
  split
  · rename_i h
    split at h
    · injection h with h1 h2
      rw [← h2]
      show (_, _, (List.set _ _ _).length) = (_, _, _)
      rw [List.length_set]
    · cases h
  · rename_i h
    split at h <;> cases h
  · trivial

theorem meas_writeCell (p : Nat) (x : T) : Keeps meas (writeCell p x : M (σ × Own T) Unit) := by
  intro t
  unfold writeCell
  by_cases h : p < t.2.cells.length
  · rw [if_pos h]
    show (_, _, (List.set _ _ _).length) = (_, _, _)
    rw [List.length_set]
  · rw [if_neg h]; trivial

theorem meas_takeItems (pos : Nat) : ∀ (n idx : Nat), Keeps meas (takeItems pos idx n : M (σ × Own T) (List T))
  | 0, _ => keeps_pure _
  | n + 1, idx => (meas_takeCell _).bind fun _ => (meas_takeItems pos n (idx + 1)).bind fun _ => keeps_pure _

theorem Ok.of_meas {t u : σ × Own T} (ht : Ok checks t) (h : meas u = meas t) : Ok checks u := by
  injection h with h1 h2
  injection h2 with h2 h3
  exact ⟨h1 ▸ ht.1, h1 ▸ ht.2.1, by rw [h3, h2]; exact ht.2.2.1, h2 ▸ ht.2.2.2⟩

theorem zipWith_kept {e : Expr σ β} (ho : Fits64 checks o) (f : T → β → M σ T) :
    M.Part (Model.zipWith e f) (s, o) (fun _ => Ok checks) (Ok checks) := by
  let w : (σ × Own T) × Nat → Shape × Nat × Nat := fun t => meas t.1
  have up : ∀ {γ : Type} {x : M (σ × Own T) γ}, Keeps meas x → Keeps w (M.up x) := fun h => keeps_up h fun _ _ _ h => h
  have hk : Keeps w (M.bind (M.lift (Expr.zipNew (Expr.view false ⟨0, .dense o.shape⟩) e.up.up)) fun z =>
      z.forEach (zipStep f)) := by
    refine KeepsQ.bindK (P := fun z => z.Keep w) (keepsQ_lift ?_) fun z hz => Expr.keep_forEach hz fun py => ?_
    · intro z hz
      simp only [Expr.zipNew, Option.map_eq_some_iff] at hz
      obtain ⟨s, -, rfl⟩ := hz
      exact ⟨trivial, Expr.keep_up (Expr.keep_up (w := meas) (keep_const (⟨.dynRank, []⟩, 0, 0) e) fun _ _ _ _ => rfl) fun _ _ _ h => h⟩
    · unfold zipStep
      exact Keeps.bind (fun _ => rfl) fun _ => (up (meas_takeCell _)).bind fun x =>
        (up (keeps_up (keeps_const (⟨.dynRank, []⟩, 0, 0) _) fun _ _ _ _ => rfl)).bind fun x' => up (meas_writeCell _ _)
  have hg : Keeps w (Model.zipGuard o.shape.len) := by
    unfold Model.zipGuard
    refine Keeps.bind (fun _ => rfl) fun t => Keeps.bind ?_ fun _ => up (meas_dropCells _ _)
    split
    · exact up (meas_dropCells _ _)
    · exact keeps_pure _
  have hI : (M.onPanic (M.bind (M.lift (Expr.zipNew (Expr.view false ⟨0, .dense o.shape⟩) e.up.up)) fun z =>
      z.forEach (zipStep f)) (Model.zipGuard o.shape.len)).Inv fun t => w t = meas (s, o) :=
    M.Inv.onPanic (hk.inv _) (hg.inv _)
  unfold Model.zipWith
  refine M.Part.bind (P := fun a t => a = o ∧ t = (s, o)) ⟨rfl, rfl⟩ ?_
  rintro a t ⟨rfl, rfl⟩
  refine M.Part.bind (part_scope (Q := fun _ t => Ok checks t.1) (R := Ok checks) ?_) fun r t ht => ht
  exact part_of_inv hI rfl fun u hu => Ok.of_meas ho hu

/-! `drain` -/

theorem resizeMap_dense (sh : Shape) (n : Nat) :
    resizeMap checks (Axis.const 0) (.dense sh) n = (Axis.const 0).resizeMap (.dense sh) n := by
  have e : ∀ ty, (Axis.const 0).split ty .dense = .dense := fun _ => rfl
  rfl

theorem resizeDim_fits {sh s' : Shape} {n : Nat} (hf : LenFits checks sh.dims) (hn : n ≤ sh.dims.getD 0 0)
    (h : sh.resizeDim sh.ty 0 n = some s') : s'.WF ∧ LenFits checks s'.dims := by
  rw [Shape.resizeDim_eq] at h
  split at h
  · rename_i hc
    injection h with h; subst h
    refine ⟨hc.2, ?_⟩
    cases hd : sh.dims with
    | nil => rw [hd] at hc; simp at hc
    | cons d ds =>
      rw [hd] at hf hn
      exact hf.head hn
  · cases h

theorem drainNew_eq {start stop : Bnd} (ho : Fits64 checks o) :
    drainNew checks start stop (s, o) = Model.drainNew start stop (s, o) := by
  unfold drainNew Model.drainNew; simp only [M.bind_eq, M.pure_eq]
  refine bind_congr_at fun a t ht => ?_
  obtain ⟨rfl, h1, h2⟩ := checkHead_ok ht
  show M.bind (M.lift (rangeNorm start stop (o.shape.dims.getD 0 0))) _ (s, o) =
    M.bind (M.lift (rangeNorm start stop (o.shape.dims.getD 0 0))) _ (s, o)
  refine bind_congr_part (P := fun r t => t = (s, o) ∧ r.1 ≤ r.2 ∧ r.2 ≤ o.shape.dims.getD 0 0) (R := fun _ => True)
    (part_lift (fun r h => ⟨rfl, (rangeNorm_some h).2.2⟩) fun _ => trivial) ?_
  rintro ⟨a, b⟩ t ⟨rfl, hab, hbd⟩
  dsimp only at hab hbd ⊢
  refine bind_congr_part (P := fun _ t => t = (s, o)) (R := fun _ => True) (part_lift (fun _ _ => rfl) fun _ => trivial) ?_
  rintro - t rfl
  rw [resizeMap_dense]
  refine bind_congr_part (P := fun m t => t = (s, o) ∧ LenFits checks m.shape.dims) (R := fun _ => True)
    (part_lift (fun m h => ⟨rfl, ?_⟩) fun _ => trivial) ?_
  · rw [View.resizeMap_eq ⟨0, .dense o.shape⟩ (Mapping.wf_dense.2 ho.1) (a := .const 0) (p := 0) _
      (show (Axis.const 0).index o.shape.dims.length = some 0 from if_pos h1)] at h
    injection h with h; subst h
    rw [Mapping.mk_shape]
    show LenFits checks (o.shape.dims.set 0 _)
    have hf := ho.2.1
    cases hd : o.shape.dims with
    | nil => rw [Shape.rank, hd] at h1; cases h1
    | cons d ds =>
      rw [hd] at hf
      exact hf.head (by show d - (b - a) - a ≤ d; omega)
  rintro m t ⟨rfl, hm⟩
  rw [lenM_fits hm, M.pure_bind]
  refine bind_congr_part (P := fun _ t => LenFits checks t.2.shape.dims) (R := fun _ => True)
    (part_setShape (fun s' h => (resizeDim_fits ho.2.1 (by omega) h).2) fun _ => trivial) ?_
  intro _ t ht
  show M.bind (lenM checks t.2.shape) _ t = _
  rw [lenM_fits ht, M.pure_bind]
  rfl

/-- What `Drain::new` returns. -/
theorem part_drainNew {start stop : Bnd} {xs : List T} (h : Holds o xs) (ho : Fits64 checks o) :
    M.Part (Model.drainNew start stop) (s, o) (fun d t => Ok checks t ∧ LenFits checks d.shape.dims ∧
      d.pos + d.shape.len + d.tail ≤ t.2.cells.length ∧ ∀ s', t.2.shape.resizeDim t.2.shape.ty 0 d.newSize = some s' →
        s'.WF ∧ LenFits checks s'.dims) (Ok checks) := by
  have hpost := post_drainNew (s := s) start stop h
  have hc : size o.shape.dims ≤ o.cells.length := by
    rw [← h.2.1, ← List.length_map (f := some)]; exact h.2.2.length_le
  unfold M.Post at hpost
  unfold M.Part
  cases hr : Model.drainNew start stop (s, o) with
  | panic t => rw [hr] at hpost; rw [hpost.1]; exact ho
  | ub => trivial
  | abort => trivial
  | ok d t =>
    rw [hr] at hpost
    obtain ⟨⟨hr, hh⟩, d0, ds, a, b, hd, -, hab, hbd, rfl, rfl⟩ := hpost
    have hconf : ∀ n, o.shape.ty.Conforms (n :: ds) := by
      intro n
      have := h.1; unfold Shape.WF at this; rw [hd] at this
      exact ShapeTy.conforms_head_dyn hh this
    have hf := ho.2.1
    rw [hd] at hf
    refine ⟨⟨hconf a, hf.head (by omega), ho.2.2⟩, hf.head (by omega), ?_, fun s' h => ?_⟩
    · show a * size ds + Shape.len ⟨_, (b - a) :: ds⟩ + (d0 - b) * size ds ≤ o.cells.length
      rw [Shape.len_eq, size_cons, ← Nat.add_mul, ← Nat.add_mul]
      rw [hd, size_cons] at hc
      refine le_trans (Nat.mul_le_mul_right _ ?_) hc
      omega
    · rw [Shape.resizeDim_eq] at h
      split at h
      · injection h with h; subst h
        exact ⟨hconf _, hf.head (by show d0 - (b - a) ≤ d0; omega)⟩
      · cases h

theorem dropItems_fits {pos idx : Nat} {sh : Shape} (h : LenFits checks sh.dims) :
    (dropItems checks pos sh idx : M (σ × Own T) Unit) = Model.dropItems pos sh.len idx := by
  unfold dropItems
  rw [lenM_fits h, M.pure_bind]

theorem drainDrop_fits {d : DrainSt} (h : LenFits checks d.shape.dims) :
    (drainDrop checks d : M (σ × Own T) Unit) = Model.drainDrop d := by
  unfold drainDrop
  rw [lenM_fits h]
  rfl

theorem dropItems_calm (pos n idx : Nat) (t : σ × Own T) (x : M (σ × Own T) Unit) :
    M.onPanic (Model.dropItems pos n idx) x t = Model.dropItems pos n idx t := by
  unfold M.onPanic
  cases h : Model.dropItems pos n idx t with
  | panic u =>
    exfalso
    revert h
    unfold Model.dropItems dropCells
    dsimp only
    split <;> exact fun h => by cases h
  | _ => rfl

theorem drainEnd_fits {d : DrainSt} (h : LenFits checks d.shape.dims) (idx : Nat) :
    (drainEnd checks d idx : M (σ × Own T) Unit) =
      M.bind (Model.dropItems d.pos d.shape.len idx) fun _ => Model.drainDrop d := by
  unfold drainEnd
  rw [dropItems_fits h, drainDrop_fits h]
  congr 1
  funext t
  exact dropItems_calm ..

theorem bind_left_eq {x y : M σ α} {f : α → M σ β} {t : σ} (h : x t = y t) : M.bind x f t = M.bind y f t := by
  unfold M.bind; rw [h]

theorem drainRun_eq {start stop : Bnd} {k : Nat} {leak : Bool} {xs : List T} (h : Holds o xs) (ho : Fits64 checks o) :
    drainRun checks start stop k leak (s, o) = Model.drainRun start stop k leak (s, o) := by
  unfold drainRun Model.drainRun
  refine (bind_left_eq (drainNew_eq ho)).trans ?_
  refine bind_congr_part (part_drainNew h ho) fun d t hd => ?_
  rw [drainEnd_fits hd.2.1]
  simp only [M.bind_assoc]

theorem part_drainDrop {d : DrainSt} {t : σ × Own T} (ht : Ok checks t) (hc : d.pos + d.shape.len + d.tail ≤ t.2.cells.length)
    (hs : ∀ s', t.2.shape.resizeDim t.2.shape.ty 0 d.newSize = some s' → s'.WF ∧ LenFits checks s'.dims) :
    M.Part (Model.drainDrop d) t (fun _ => Ok checks) (Ok checks) := by
  unfold Model.drainDrop; simp only [M.bind_eq]
  refine M.Part.bind (P := fun a u => a = t.2 ∧ u = t) ⟨rfl, rfl⟩ ?_
  rintro a u ⟨rfl, rfl⟩
  refine M.Part.bind (P := fun s' v => v = u ∧ s'.WF ∧ LenFits checks s'.dims) (part_lift (fun s' h => ⟨rfl, hs s' h⟩)
    fun _ => ht) ?_
  rintro s' v ⟨rfl, hw, hf⟩
  split
  · rename_i hx
    refine ⟨hw, hf, ?_, ht.2.2.2⟩
    have := ht.2.2.1
    have := hx.1
    simp only [List.length_append, List.length_take, List.length_drop, List.length_replicate] at this ⊢
    omega
  · trivial

theorem part_meas {x : M (σ × Own T) α} {t : σ × Own T} (h : Keeps meas x) (ht : Ok checks t) :
    M.Part x t (fun _ u => meas u = meas t) (Ok checks) := by
  have := h t
  unfold M.Part
  cases hr : x t <;> rw [hr] at this
  · exact this
  · exact ht.of_meas this
  all_goals trivial

theorem drainRun_kept {start stop : Bnd} {k : Nat} {leak : Bool} {xs : List T} (h : Holds o xs) (ho : Fits64 checks o) :
    M.Part (Model.drainRun start stop k leak) (s, o) (fun _ => Ok checks) (Ok checks) := by
  unfold Model.drainRun
  refine M.Part.bind (part_drainNew h ho) ?_
  rintro d t ⟨h1, h2, h3, h4⟩
  refine M.Part.bind (P := fun _ u => meas u = meas t) (part_meas (meas_takeItems _ _ _) h1) ?_
  intro xs u hu
  split
  · exact h1.of_meas hu
  · refine M.Part.bind (part_meas (meas_dropCells _ _) (h1.of_meas hu)) fun _ v hv => ?_
    have hv := hv.trans hu
    refine M.Part.bind (P := fun _ => Ok checks) (part_drainDrop (h1.of_meas hv) ?_ ?_) fun _ _ h => h
    · rw [show v.2.cells.length = t.2.cells.length from congrArg (fun m => m.2.2) hv]; exact h3
    · rw [show v.2.shape = t.2.shape from congrArg (fun m => m.1) hv]; exact h4

theorem intoItems_eq {k : Nat} (ho : Fits64 checks o) : intoItems checks k (s, o) = Model.intoItems k (s, o) := by
  show M.bind _ (fun xs => M.bind (dropItems checks 0 o.shape _) _) (s, o) = _
  rw [dropItems_fits ho.2.1]
  rfl

/-! `append` -/

theorem part_up_drainNew {o2 : Own T} {xs : List T} (h2 : Holds o2 xs) (ho2 : Fits64 checks o2)
    {R : (σ × Own T) × Own T → Prop} (hR : ∀ t : σ × Own T, Ok checks t → R (t, o)) :
    M.Part (M.up (Model.drainNew .unbounded .unbounded)) ((s, o2), o) (fun d t => t.2 = o ∧ Ok checks t.1 ∧
      LenFits checks d.shape.dims ∧ d.pos + d.shape.len + d.tail ≤ t.1.2.cells.length ∧ ∀ s',
        t.1.2.shape.resizeDim t.1.2.shape.ty 0 d.newSize = some s' → s'.WF ∧ LenFits checks s'.dims) R := by
  have := part_drainNew (s := s) (start := .unbounded) (stop := .unbounded) h2 ho2
  unfold M.Part at this ⊢
  unfold M.up
  cases hr : (Model.drainNew .unbounded .unbounded (s, o2) : Res (σ × Own T) DrainSt) <;> rw [hr] at this
  · exact ⟨rfl, this⟩
  · exact hR _ this
  all_goals trivial

theorem tensorAppend_eq {o2 : Own T} {xs : List T} (h2 : Holds o2 xs) (ho : Fits64 checks o) (ho2 : Fits64 checks o2) :
    tensorAppend checks ((s, o2), o) = Model.tensorAppend ((s, o2), o) := by
  unfold tensorAppend Model.tensorAppend
  have e1 : (M.up (drainNew checks .unbounded .unbounded) : M ((σ × Own T) × Own T) DrainSt) ((s, o2), o) =
      M.up (Model.drainNew .unbounded .unbounded) ((s, o2), o) := by
    unfold M.up; rw [drainNew_eq ho2]
  refine (bind_left_eq e1).trans ?_
  refine bind_congr_part (part_up_drainNew (o := o) (R := fun _ => True) h2 ho2 fun _ _ => trivial) ?_
  rintro d ⟨u, o'⟩ ⟨rfl, -, h4, -⟩
  rw [drainEnd_fits h4, drainEnd_fits h4]
  show M.bind (M.onPanic (expand checks _ _) _) _ (u, o') = M.bind (M.onPanic (Model.expand _ _) _) _ (u, o')
  refine bind_left_eq ?_
  have he := fun buf => expand_eq (s := u) (e := (.intoExpr d.shape buf 0 : Expr (σ × Own T) T)) ho h4 M.pure
  unfold M.onPanic
  rw [he]

theorem keeps_onPanic {ν : Type} {v : σ → ν} {x : M σ α} {g : M σ Unit} (hx : Keeps v x) (hg : Keeps v g) :
    Keeps v (M.onPanic x g) := by
  intro t
  have := hx t
  unfold M.onPanic
  cases h : x t with
  | panic u =>
    rw [h] at this
    have h' := hg u
    dsimp only
    cases hu : g u <;> rw [hu] at h'
    · exact h'.trans this
    all_goals trivial
  | ok a u => rw [h] at this; exact this
  | _ => trivial

theorem fst_expand {e : Expr σ α} (he : e.Keep id) {c : α → M σ T} (hc : ∀ x, Keeps id (c x)) :
    Keeps Prod.fst (Model.expand e c) := by
  have hown : Keeps Prod.fst (own : M (σ × Own T) (Own T)) := fun _ => rfl
  have hupd : ∀ f : Own T → Own T, Keeps Prod.fst (upd f : M (σ × Own T) Unit) := fun _ _ => rfl
  have hset : ∀ f, Keeps Prod.fst (setShape f : M (σ × Own T) Unit) := fun f => by
    unfold setShape; simp only [M.bind_eq]
    exact hown.bind fun _ => (keeps_lift _).bind fun _ => hupd _
  have hd : ∀ p n, Keeps Prod.fst (dropCells p n : M (σ × Own T) Unit) := by
    intro p n t
    unfold dropCells
    dsimp only
    by_cases h : ((t.2.cells.drop p).take n).length = n ∧ ((t.2.cells.drop p).take n).all Option.isSome
    · rw [if_pos h]
    · rw [if_neg h]; trivial
  have hw : ∀ p x, Keeps Prod.fst (writeCell p x : M (σ × Own T) Unit) := by
    intro p x t
    unfold writeCell
    by_cases h : p < t.2.cells.length
    · rw [if_pos h]
    · rw [if_neg h]; trivial
  have hr : ∀ n, Keeps Prod.fst (vecReserve n : M (σ × Own T) Unit) := by
    intro n
    unfold vecReserve; simp only [M.bind_eq, M.pure_eq]
    refine hown.bind fun _ => ?_
    split
    · exact keeps_pure _
    · split
      · exact hupd _
      · exact keeps_panic
  have hc : Keeps Prod.fst (Model.cloneIntoVec e c) := by
    unfold Model.cloneIntoVec; simp only [M.bind_eq]
    refine hown.bind fun _ => (keeps_lift _).bind fun _ => Expr.keep_forEach
      (Expr.keep_up (v := id) he fun _ _ _ h => h) fun x => (keeps_up (v := id) (hc x) fun _ _ _ h => h).bind fun y => ?_
    unfold vecAppend; simp only [M.bind_eq]
    exact hown.bind fun _ => (hw _ _).bind fun _ => hupd _
  have hg : Keeps Prod.fst (Model.partsGuard : M (σ × Own T) Unit) := by
    unfold Model.partsGuard; simp only [M.bind_eq, M.pure_eq]
    refine hown.bind fun _ => ?_
    split
    · exact (keeps_lift _).bind fun _ => (hupd _).bind fun _ => hd _ _
    · exact keeps_pure _
  have hh : Keeps Prod.fst (checkHead : M (σ × Own T) Unit) := by
    unfold checkHead; simp only [M.bind_eq]
    exact hown.bind fun _ => (keeps_lift _).bind fun _ => keeps_lift _
  unfold Model.expand; simp only [M.bind_eq, M.pure_eq]
  refine hh.bind fun _ => ?_
  split
  · unfold Model.withMutParts; simp only [M.bind_eq]
    exact (hupd _).bind fun _ => keeps_onPanic ((hr _).bind fun _ => (hset _).bind fun _ => hc) hg
  · exact keeps_pure _

theorem part_fst {x : M (σ × ρ) α} {t : σ × ρ} {P : α → σ × ρ → Prop} {R : σ × ρ → Prop} (hx : M.Part x t P R)
    (hk : Keeps Prod.fst x) : M.Part x t (fun a u => P a u ∧ u.1 = t.1) fun u => R u ∧ u.1 = t.1 := by
  have := hk t
  unfold M.Part at hx ⊢
  cases h : x t <;> rw [h] at this hx
  · exact ⟨hx, this⟩
  · exact ⟨hx, this⟩
  all_goals trivial

theorem part_up' {x : M σ α} {t : σ × ρ} {Q : α → σ → Prop} {R : σ → Prop} (h : M.Part x t.1 Q R) :
    M.Part (M.up x) t (fun a u => Q a u.1 ∧ u.2 = t.2) fun u => R u.1 ∧ u.2 = t.2 := by
  unfold M.Part M.up at *
  cases hx : x t.1 <;> rw [hx] at h
  · exact ⟨h, rfl⟩
  · exact ⟨h, rfl⟩
  all_goals trivial

theorem part_imp {x : M σ α} {t : σ} {Q Q' : α → σ → Prop} {R R' : σ → Prop} (h : M.Part x t Q R)
    (hq : ∀ a u, Q a u → Q' a u) (hr : ∀ u, R u → R' u) : M.Part x t Q' R' := by
  unfold M.Part at *
  cases hx : x t <;> rw [hx] at h
  · exact hq _ _ h
  · exact hr _ h
  all_goals trivial

theorem part_drainEnd {d : DrainSt} {i : Nat} {t : σ × Own T} (h3 : Ok checks t)
    (h5 : d.pos + d.shape.len + d.tail ≤ t.2.cells.length) (h6 : ∀ s',
      t.2.shape.resizeDim t.2.shape.ty 0 d.newSize = some s' → s'.WF ∧ LenFits checks s'.dims) :
    M.Part (M.bind (Model.dropItems d.pos d.shape.len i) fun _ => Model.drainDrop d) t (fun _ => Ok checks) (Ok checks) := by
  refine M.Part.bind (part_meas (meas_dropCells _ _) h3) fun _ v hv => part_drainDrop (h3.of_meas hv) ?_ ?_
  · rw [show v.2.cells.length = t.2.cells.length from congrArg (fun m => m.2.2) hv]; exact h5
  · rw [show v.2.shape = t.2.shape from congrArg (fun m => m.1) hv]; exact h6

theorem tensorAppend_kept {o2 : Own T} {ys : List T} (h2 : Holds o2 ys) (ho : Fits64 checks o) (ho2 : Fits64 checks o2) :
    M.Part Model.tensorAppend ((s, o2), o) (fun _ t => Fits64 checks t.2 ∧ Fits64 checks t.1.2)
      fun t => Fits64 checks t.2 ∧ Fits64 checks t.1.2 := by
  unfold Model.tensorAppend
  refine M.Part.bind (part_up_drainNew h2 ho2 fun t ht => ⟨ho, ht⟩) ?_
  rintro d ⟨u, o'⟩ ⟨rfl, h3, h4, h5, h6⟩
  refine M.Part.bind (P := fun a t => a = (u, o') ∧ t = (u, o')) ⟨rfl, rfl⟩ ?_
  rintro _ _ ⟨rfl, rfl⟩
  dsimp only
  refine M.Part.bind (P := fun _ t => Ok checks t ∧ t.1 = u) (M.Part.onPanic (part_fst (expand_kept ho M.pure)
    (fst_expand (e := .intoExpr _ _ 0) (by trivial) fun _ => keeps_pure _)) ?_) ?_
  · rintro ⟨t, o3⟩ ⟨h7, rfl⟩
    exact part_imp (part_up' (part_drainEnd h3 h5 h6)) (fun _ w hw => ⟨by rw [hw.2]; exact h7, hw.1⟩) fun _ _ => trivial
  · rintro - ⟨t, o3⟩ ⟨h7, rfl⟩
    refine M.Part.bind (P := fun _ w => w.2 = o3 ∧ meas w.1 = meas t) (part_imp (part_up' (part_meas (meas_takeItems _ _ _) h3))
      (fun _ w hw => ⟨hw.2, hw.1⟩) fun w hw => ⟨by rw [hw.2]; exact h7, hw.1⟩) ?_
    rintro - ⟨v, o4⟩ ⟨rfl, hv⟩
    refine part_imp (part_up' (part_drainEnd (h3.of_meas hv) ?_ ?_)) (fun _ w hw => ⟨by rw [hw.2]; exact h7, hw.1⟩)
      fun w hw => ⟨by rw [hw.2]; exact h7, hw.1⟩
    · show _ ≤ v.2.cells.length
      rw [show v.2.cells.length = t.2.cells.length from congrArg (fun m => m.2.2) hv]; exact h5
    · show ∀ s', v.2.shape.resizeDim v.2.shape.ty 0 d.newSize = some s' → _
      rw [show v.2.shape = t.2.shape from congrArg (fun m => m.1) hv]; exact h6

/-! Operations in histories -/

theorem onA_eq {x y : M (σ × Own T) α} {S : Sys σ T} (h : x (S.world, S.a) = y (S.world, S.a)) : onA x S = onA y S := by
  unfold onA; rw [h]

theorem onBoth_eq {x y : M ((σ × Own T) × Own T) α} {S : Sys σ T}
    (h : x ((S.world, S.b), S.a) = y ((S.world, S.b), S.a)) : onBoth x S = onBoth y S := by
  unfold onBoth; rw [h]

theorem onA_leaves {x : M (σ × Own T) α} {S : Sys σ T} {P : Own T → Prop}
    (h : M.Part x (S.world, S.a) (fun _ t => P t.2) fun t => P t.2) (hb : P S.b) : LeavesBoth P (onA x S) := by
  unfold onA
  unfold M.Part at h
  cases hx : x (S.world, S.a) <;> rw [hx] at h
  · exact ⟨h, hb⟩
  · exact ⟨h, hb⟩
  all_goals trivial

theorem onBoth_leaves {x : M ((σ × Own T) × Own T) α} {S : Sys σ T} {P : Own T → Prop}
    (h : M.Part x ((S.world, S.b), S.a) (fun _ t => P t.2 ∧ P t.1.2) fun t => P t.2 ∧ P t.1.2) :
    LeavesBoth P (onBoth x S) := by
  unfold onBoth
  unfold M.Part at h
  cases hx : x ((S.world, S.b), S.a) <;> rw [hx] at h
  · exact h
  · exact h
  all_goals trivial

theorem leaves_of_part {x : M (σ × Own T) α} {P : Own T → Prop}
    (h : M.Part x (s, o) (fun _ t => P t.2) fun t => P t.2) : Leaves P (x (s, o)) := by
  unfold M.Part at h
  cases hx : x (s, o) <;> rw [hx] at h
  · exact h
  · exact h
  all_goals trivial

theorem cloneFrom_run {S : Sys σ T} (hb : Usable S.b) (c : T → M σ T) :
    onA (Model.tensorCloneFrom S.b c) S = (TensorOp.cloneFrom c).run S := by
  obtain ⟨ys, h⟩ := hb
  obtain ⟨rest, hc⟩ := h.2.2
  have hl : S.b.shape.len = ys.length := by rw [Shape.len_eq, h.2.1]
  have e : S.b.cells.take S.b.shape.len = ys.map some := by
    rw [hl, ← hc, show ys.length = (ys.map some).length by simp, List.take_left]
  have e1 : (Model.readElems S.b : M σ (List T)) = M.pure ys := by
    unfold Model.readElems
    rw [e, if_pos ⟨by simp [hl], by simp⟩]
    simp
  show onA (M.bind (M.up (Model.readElems S.b)) fun src => Model.cloneFrom src S.b.shape c) S =
    (if (S.b.cells.take S.b.shape.len).all Option.isSome then
      onA (Model.cloneFrom ((S.b.cells.take S.b.shape.len).filterMap id) S.b.shape c) S else .ub)
  rw [e, e1, if_pos (by simp)]
  simp only [List.filterMap_map, Function.comp_def, id, List.filterMap_some]
  rfl

theorem holds_cap {xs : List T} (h : Holds o xs) : o.shape.len ≤ o.cells.length := by
  rw [Shape.len_eq, ← h.2.1, ← List.length_map (f := some)]
  exact h.2.2.length_le

theorem run64_eq {S : Sys σ T} (ha : Usable S.a) (hb : Usable S.b) (ha' : Fits64 checks S.a) (hb' : Fits64 checks S.b)
    {op : TensorOp σ T} (hs : op.Short checks)
    (hr : ∀ dims f, op = .resizeWith dims f → ¬ ResizeOverflows checks S.a dims) : op.run64 checks S = op.run S := by
  obtain ⟨xs, hx⟩ := ha
  obtain ⟨ys, hy⟩ := hb
  cases op with
  | swap => rfl
  | expand e c => exact onA_eq (expand_eq ha' hs c)
  | append => exact onBoth_eq (tensorAppend_eq hy ha' hb')
  | drain start stop k leak => exact onA_eq (bind_left_eq (drainRun_eq hx ha'))
  | truncate n => exact onA_eq (tensorTruncate_eq ha' n)
  | clear => exact onA_eq (tensorClear_eq ha')
  | resizeWith dims f => exact onA_eq (resizeWith_eq ha' (hr dims f rfl))
  | extend n step => exact onA_eq (tensorExtend_eq ha' (holds_cap hx) n step)
  | reserve n => exact onA_eq (tensorReserve_eq ha' n)
  | shrinkTo n => exact onA_eq (tensorShrinkTo_eq ha' n)
  | cloneFrom c => exact (onA_eq (tensorCloneFrom_eq ha' hb' c)).trans (cloneFrom_run ⟨ys, hy⟩ c)
  | intoShape ns => exact onA_eq (tensorIntoShape_eq ha' ns)
  | intoMapping ty => exact onA_eq (tensorIntoMapping_eq ha' ty)
  | intoFlat => exact onA_eq (tensorIntoFlat_eq ha')
  | zipWith e f => exact onA_eq (zipWith_eq ha' f)
  | fromExpr e => exact onA_eq (congrFun (tensorFromExpr_eq hs) _)

theorem run_leaves {S : Sys σ T} (ha : Usable S.a) (hb : Usable S.b) (ha' : Fits64 checks S.a) (hb' : Fits64 checks S.b)
    {op : TensorOp σ T} (hop : op.Allowed S) (hs : op.Short checks) : LeavesBoth (Fits64 checks) (op.run S) := by
  obtain ⟨xs, hx⟩ := ha
  obtain ⟨ys, hy⟩ := hb
  cases op with
  | swap => exact ⟨hb', ha'⟩
  | expand e c => exact onA_leaves (expand_kept ha' c) hb'
  | append => exact onBoth_leaves (tensorAppend_kept hy ha' hb')
  | drain start stop k leak =>
    exact onA_leaves (M.Part.bind (P := fun _ => Ok checks) (drainRun_kept hx ha') fun _ _ h => h) hb'
  | truncate n => exact onA_leaves (tensorTruncate_kept ha' n) hb'
  | clear => exact onA_leaves (tensorClear_kept ha') hb'
  | resizeWith dims f => exact onA_leaves (resizeWith_kept ha') hb'
  | extend n step => exact onA_leaves (tensorExtend_kept ha' (holds_cap hx) n step) hb'
  | reserve n => exact onA_leaves (tensorReserve_kept ha' n) hb'
  | shrinkTo n => exact onA_leaves (tensorShrinkTo_kept ha' n) hb'
  | cloneFrom c => rw [← cloneFrom_run ⟨ys, hy⟩ c]; exact onA_leaves (tensorCloneFrom_kept ha' hb' c) hb'
  | intoShape ns => exact onA_leaves (tensorIntoShape_kept ha' hop) hb'
  | intoMapping ty => exact onA_leaves (tensorIntoMapping_kept ha' ty) hb'
  | intoFlat => exact onA_leaves (tensorIntoFlat_kept ha') hb'
  | zipWith e f => exact onA_leaves (zipWith_kept ha' f) hb'
  | fromExpr e => exact onA_leaves (tensorFromExpr_kept (Expr.shape_wf (Expr.wf_of_built hop.1)) hs ha'.2.2.2) hb'

theorem run64_bad {S : Sys σ T} (ha' : Fits64 checks S.a) {dims : List Nat} {f : M σ T}
    (h : ResizeOverflows checks S.a dims) : (TensorOp.resizeWith dims f).run64 checks S =
      .panic ⟨S.world, { S.a with len := 0 }, S.b⟩ := by
  show onA (resizeWith checks dims f) S = _
  unfold onA
  rw [resizeWith_bad ha' h]

/-- The state after the overflow in `resize` is also reached by reserving no space. -/
theorem reserve_zero {S : Sys σ T} (ha : Usable S.a) {dims : List Nat} (h : ResizeOverflows checks S.a dims) :
    (TensorOp.reserve 0).run S = .ok () ⟨S.world, { S.a with len := 0 }, S.b⟩ := by
  obtain ⟨xs, hx⟩ := ha
  have h0 : S.a.shape.len = 0 := (Shape.len_eq _).trans (size_of_afterZero h.2.1)
  show onA (Model.tensorReserve 0) S = _
  have : Model.tensorReserve 0 (S.world, S.a) = .ok () (S.world, { S.a with len := 0 }) := by
    show Model.withMutParts (vecReserve 0) (S.world, S.a) = _
    rw [Model.withMutParts_eq]
    have e : parts S.a = { S.a with len := 0 } := by unfold parts; rw [h0]
    rw [e]
    have e2 : vecReserve 0 (S.world, { S.a with len := 0 }) = .ok () (S.world, { S.a with len := 0 }) := by
      unfold vecReserve; simp only [M.bind_eq, M.pure_eq]
      simp [M.bind, own, M.pure]
    unfold M.onPanic
    rw [e2]
  unfold onA
  rw [this]

end Machine
end Model
