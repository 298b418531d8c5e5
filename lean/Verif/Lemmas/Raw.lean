import Verif.Lemmas.Phantom
import Verif.Lemmas.Assign
import Verif.Spec.Raw

/-! Iteration without any assumption but that there are no phantom rows. -/

namespace Model
open Spec

variable {σ ρ : Type} {α β τ : Type}

namespace Expr

theorem up_badFn {e : Expr σ α} : BadFn (e.up : Expr (σ × ρ) α) ↔ BadFn e := by
  induction e with
  | map e f ih => exact ih
  | enumerate e k ih => exact ih
  | zip a b s iha ihb => exact or_congr iha ihb
  | _ => exact Iff.rfl

theorem up_lift (o : Option α) : (M.up (M.lift o) : M (σ × ρ) α) = M.lift o := by
  cases o <;> rfl

theorem up_rawItem (K : Nat) (e : Expr σ α) (n : Nat) (j : List Nat) :
    rawItem K (e.up : Expr (σ × ρ) α) n j = M.up (rawItem K e n j) := by
  induction e generalizing n j with
  | view r v => rfl
  | axis r v a m off => exact (up_lift _).symm
  | lanes r v a m off => exact (up_lift _).symm
  | fill f => rfl
  | fromElem s f => rfl
  | fromFn s idx f =>
    simp only [Expr.up, rawItem]
    split
    · rw [M.up_bind]; rfl
    · rfl
  | intoExpr s buf idx => simp only [Expr.up, rawItem]; cases buf[n]? <;> rfl
  | map e f ih => simp only [Expr.up, rawItem, ih, M.up_bind]
  | enumerate e k ih => simp only [Expr.up, rawItem, ih, M.up_bind, M.up_pure]
  | zip a b s iha ihb =>
    simp only [Expr.up, rawItem, iha, ihb, M.up_bind, M.up_pure, Expr.dims, Expr.up_shape]

theorem up_visited (e : Expr σ α) : visited (e.up : Expr (σ × ρ) α) = visited e := by
  simp [visited, Expr.dims]

theorem up_rawNth (e : Expr σ α) (n : Nat) : rawNth (e.up : Expr (σ × ρ) α) n = M.up (rawNth e n) := by
  unfold rawNth
  rw [up_rawItem, up_visited]
  simp [Expr.dims]

end Expr

namespace Iter
open Expr

theorem bind_pair_inj {κ : Type*} {x y : M σ α} {k : κ}
    (h : (M.bind x fun a => M.pure (a, k)) = M.bind y fun a => M.pure (a, k)) : x = y := by
  have := congrArg (fun z => M.bind z fun p => M.pure p.1) h
  simpa only [M.bind_assoc, M.pure_bind, M.bind_pure] using this

theorem visited_of_pos {e : Expr σ α} (h : 0 < size e.dims) : visited e = e.dims := by
  rw [visited_eq, lims_eq h, List.take_append_drop]

theorem notBad_of_regular {e : Expr σ α} {R O : Nat} (hs : Regular e R O) : ¬ BadFn e := by
  induction e with
  | fromFn s idx f => exact fun h => h.2 (hs h.1)
  | map e f ih => exact ih hs
  | enumerate e k ih => exact ih hs
  | zip a b s iha ihb => exact fun h => h.elim (iha hs.1) (ihb hs.2)
  | _ => exact id

/-- Without the known defects, the items are those of the specification. -/
theorem rawNth_eq {e : Expr σ α} (hw : e.Wf) (hs : Sound e) {n : Nat} (hn : n < size e.dims) :
    rawNth e n = item e n (unrank e.dims n) := by
  have h0 : 0 < size e.dims := by omega
  have hsz := size_split h0
  have hr : 0 < row e := by
    rcases Nat.eq_zero_or_pos (row e) with h | h
    · rw [h] at hsz; omega
    · exact h
  have hq : n / row e < rows e := (Nat.div_lt_iff_lt_mul hr).2 (by rw [← hsz]; exact hn)
  have hc : n % row e < row e := Nat.mod_lt _ hr
  have hn' : n / row e * row e + n % row e = n := Nat.div_add_mod' n (row e)
  have hbad := notBad_of_regular hs
  have h1 := get_iterAt hw hs h0 hq hc
  have h2 := get_rawAt (n := n / row e * row e + n % row e) hw hbad hq hc
  rw [h1] at h2
  have h3 := bind_pair_inj h2
  rw [hn'] at h3
  exact h3.symm

end Iter

namespace Expr
open Iter

/-- An expression without any known defect that is iterated in the same way. -/
def mimic (e : Expr σ α) : Expr σ α :=
  map (intoExpr e.shape (List.range (size e.dims)) 0) fun n => rawNth e n

@[simp] theorem mimic_shape (e : Expr σ α) : (mimic e).shape = e.shape := rfl

theorem mimic_built {e : Expr σ α} (hw : e.Wf) : Built (mimic e) :=
  .map (.intoExpr (shape_wf hw) (by simp))

theorem mimic_sound (e : Expr σ α) : Sound (mimic e) := by unfold Sound mimic Regular; trivial

theorem mimic_outerRank (e : Expr σ α) : (mimic e).outerRank = 0 := by
  simp [mimic, outerRank, innerRank]

theorem mimic_item (e : Expr σ α) {n : Nat} (hn : n < size e.dims) (m : Nat) :
    item (mimic e) m (unrank e.dims n) = rawNth e n := by
  simp only [mimic, item]
  rw [rowMajor_unrank hn, List.getElem?_eq_getElem (by simpa using hn), List.getElem_range]
  rfl

theorem mimic_tame {e : Expr σ α} (ht : TameRaw e) : TameItems (mimic e) := by
  intro n j hj
  have hj : Valid e.dims j := hj
  have hlt := rowMajor_lt hj
  have := mimic_item e hlt n
  rw [unrank_rowMajor hj] at this
  rw [this]
  exact ht _ hlt

theorem foldlM_congr {ι : Type} {f g : τ → ι → M σ τ} {l : List ι} (h : ∀ n ∈ l, ∀ a, f a n = g a n)
    (acc : τ) : l.foldlM f acc = l.foldlM g acc := by
  induction l generalizing acc with
  | nil => rfl
  | cons x l ih =>
    simp only [List.foldlM_cons]
    rw [h x (by simp)]
    congr 1
    funext a
    exact ih (fun n hn => h n (by simp [hn])) a

theorem mimic_fold {e : Expr σ α} (hb : Built e) (he : BadFn e → 0 < row e)
    (hp : size e.dims = 0 → size (e.dims.drop e.outerRank) = 0) (f : τ → α → M (σ × ρ) τ) (acc : τ) :
    (e.up : Expr (σ × ρ) α).fold acc f = ((mimic e).up : Expr (σ × ρ) α).fold acc f := by
  have hw := wf_of_built hb
  have hw' : (e.up : Expr (σ × ρ) α).Wf := wf_of_built (up_built hb)
  rw [fold_raw hw' (fun h => by
    rw [show row (e.up : Expr (σ × ρ) α) = row e by simp [row, Expr.dims]]; exact he (up_badFn.1 h)),
    fold_eq (up_built (mimic_built hw)) (up_sound (mimic_sound e)) (by
      unfold NoPhantom row; rw [up_outerRank, mimic_outerRank]; exact id), foldItems_eq]
  have hd : ((mimic e).up : Expr (σ × ρ) α).dims = e.dims := by simp [Expr.dims]
  have hv : size (visited e) = size e.dims := by
    rcases Nat.eq_zero_or_pos (size e.dims) with h | h
    · rw [size_visited, h]; unfold row; rw [hp h, Nat.mul_zero]
    · rw [visited_of_pos h]
  rw [hd, up_visited, hv]
  refine foldlM_congr (fun n hn a => ?_) acc
  unfold visitRaw visit
  rw [up_rawNth, up_item, hd, mimic_item e (List.mem_range.1 hn)]

end Expr
open Model.Expr Model.Iter

theorem tame_lift (x : Option α) : M.Tame (M.lift x : M σ α) := by
  cases x
  · exact fun _ => trivial
  · exact M.tame_pure _

theorem rawItem_tame {inner : Nat} {e : Expr σ α} (hb : Built e) (hc : TameClosures e) (n : Nat)
    (hn : e.repeatable = true ∨ n < size e.dims) (j : List Nat) : M.Tame (rawItem inner e n j) := by
  induction hb generalizing n j with
  | view h => exact M.tame_pure _
  | axis h he =>
    simp only [axisNew, Option.map_eq_some_iff] at he
    obtain ⟨m, hm, rfl⟩ := he
    exact tame_lift _
  | lanes h he =>
    simp only [lanesNew, Option.bind_eq_some_iff, Option.map_eq_some_iff] at he
    obtain ⟨m, hm, _, _, rfl⟩ := he
    exact tame_lift _
  | fill => exact hc
  | fromElem h he =>
    simp only [fromElemNew, Option.map_eq_some_iff] at he
    obtain ⟨_, _, rfl⟩ := he
    exact hc
  | fromFn h he =>
    simp only [fromFnNew, Option.map_eq_some_iff] at he
    obtain ⟨_, _, rfl⟩ := he
    unfold rawItem
    split
    · exact (hc _).bind fun _ => fun _ => trivial
    · exact hc _
  | @intoExpr _ s buf h hl =>
    rcases hn with hn | hn
    · cases hn
    · change n < size s.dims at hn
      unfold rawItem
      rw [List.getElem?_eq_getElem (by omega)]
      exact M.tame_pure _
  | map h ih => exact (ih hc.1 n hn j).bind hc.2
  | enumerate h ih => exact (ih hc n hn j).bind fun _ => M.tame_pure _
  | @zip _ _ a b _ ha hb he iha ihb =>
    obtain ⟨s, rfl, -, -, h3, h4⟩ := zip_trailing he
    change (_ && _) = true ∨ n < size s.dims at hn
    rw [Bool.and_eq_true] at hn
    refine (iha hc.1 n ?_ _).bind fun _ => (ihb hc.2 n ?_ _).bind fun _ => M.tame_pure _
    · rcases hn with hn | hn
      · exact .inl hn.1
      · cases hr : a.repeatable
        · rw [h3 hr]; exact .inr hn
        · exact .inl rfl
    · rcases hn with hn | hn
      · exact .inl hn.2
      · cases hr : b.repeatable
        · rw [h4 hr]; exact .inr hn
        · exact .inl rfl

/-- All items are well-behaved if the functions are. -/
theorem tameRaw_of_closures {e : Expr σ α} (hb : Built e) (hc : TameClosures e) : TameRaw e :=
  fun n hn => rawItem_tame hb hc n (.inr hn) _

end Model
