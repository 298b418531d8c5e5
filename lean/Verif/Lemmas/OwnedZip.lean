import Verif.Lemmas.OwnedAssign
import Verif.Lemmas.ZipWith
import Verif.Lemmas.RawOps

/-! The in-place `zip_with` for operands that own arrays: the item of a panic and the elements moved out (C75). -/

namespace Model
open Spec Expr Iter

variable {σ T α β γ : Type}

theorem someMoved_of_moved {e : Expr σ α} {n : Nat} {l : Left} (h : Moved e (n + 1) l) : SomeMoved e n l := by
  unfold Moved at h
  unfold SomeMoved
  rw [h, List.forall₂_map_right_iff]
  exact List.forall₂_same.2 fun p _ => ⟨rfl, .inr rfl⟩

/-- `post_forEachE`, with the elements moved out if the function panics. -/
theorem post_forEachE' {ρ : Type} {e : Expr σ α} (hb : Built e) (he : BadFn e → 0 < row e)
    (hp : size e.dims = 0 → size (e.dims.drop e.outerRank) = 0) {f : α → M (σ × ρ) Unit}
    (I R R' : Nat → σ × ρ → Prop)
    (hf : ∀ n, n < size e.dims → ∀ s, I n s →
      M.Post (M.up (rawNth e n)) s (fun x t => M.Post (f x) t (fun _ => I (n + 1)) (R' n)) (R n))
    {s : σ × ρ} (h : I 0 s) :
    ((e.up : Expr (σ × ρ) α).forEachE f s).Post (fun _ l t => AllMoved e l ∧ I (size e.dims) t)
      fun l t => ∃ j, j < size e.dims ∧ ((SomeMoved e j l ∧ R j t) ∨ (Moved e (j + 1) l ∧ R' j t)) := by
  have hd : (e.up : Expr (σ × ρ) α).dims = e.dims := by rw [dims, up_shape]
  have hrow : row (e.up : Expr (σ × ρ) α) = row e := by simp [row, Expr.dims]
  have hheld : ∀ n, heldAt (e.up : Expr (σ × ρ) α) n = heldAt e n := fun n => by
    unfold heldAt; rw [owned_up]
  have := foldE_ends (τ := Unit) (up_built (ρ := ρ) hb) (by rw [up_badFn, hrow]; exact he)
    (by rw [hd, up_outerRank]; exact hp) (f := fun _ x => f x) (fun n _ s => I n s) R R'
    (by
      intro n hn _ s hi
      rw [hd] at hn
      rw [up_rawNth]
      exact hf n hn s hi) (acc := ()) (s := s) h
  rw [hd] at this
  unfold Expr.forEachE
  cases hx : (Iter.new (e.up : Expr (σ × ρ) α)).foldE () (fun _ x => f x) s with
  | ok u e' t =>
    rw [hx] at this
    exact ⟨allMoved_of (wf_of_built hb) (by rw [← hheld]; exact this.1), this.2⟩
  | panic e' t =>
    rw [hx] at this
    obtain ⟨j, hj, ⟨h1, h2⟩ | ⟨h1, h2⟩⟩ := this
    · exact ⟨j, hj, .inl ⟨someMoved_of (hheld j) h2, h1⟩⟩
    · refine ⟨j, hj, .inr ⟨?_, h1⟩⟩
      unfold Moved
      show e'.owned = _
      rw [h2, hheld]
      rfl
  | ub => rw [hx] at this; exact this
  | abort => rw [hx] at this; exact this

/-- The loop of `zip_with`. -/
theorem zip_loopE {o : Own T} {xs : List T} (h : Holds o xs) {rest : List (Option T)}
    (hcells : o.cells = xs.map some ++ rest) {e : Expr σ β} {z} (hb : Built e)
    (hz : zipNew (view false (whole o.shape)) e = some z) (ht : TameRaw z) (he : BadFn z → 0 < row z)
    (hp : NoPhantomRows z) {f : T → β → M σ T} (hf : ∀ x y, (f x y).Tame) (s : σ) :
    ((z.up.up : Expr ((σ × Own T) × Nat) (Int × β)).forEachE (zipStep f) ((s, o), 0)).Post
      (fun _ l u => AllMoved z l ∧ ∃ ys, Ran (zipResult xs (operand z) f) (size o.shape.dims) s ys u.1.1 ∧
        u.1.2 = { o with cells := ys.map some ++ rest })
      (fun l u => ∃ k ys, k < size z.dims ∧
        ((Moved z (k + 1) l ∧ ZipStops (size o.shape.dims) xs (operand z) f s k ys u.1.1 false ∧ u.2 = k + 1 ∧
          u.1.2.cells = ys.map some ++ none :: (xs.drop (k + 1)).map some ++ rest ∧ u.1.2.log = o.log) ∨
        (SomeMoved z k l ∧ ZipStops (size o.shape.dims) xs (operand z) f s k ys u.1.1 true ∧ u.2 = k ∧
          u.1.2.cells = ys.map some ++ (xs.drop k).map some ++ rest ∧ u.1.2.log = o.log))) := by
  have hwf : (whole o.shape).map.WF := Mapping.wf_dense.2 h.1
  have hbz : Built z := .zip (.view hwf) hb hz
  have hd : z.dims = o.shape.dims := (zip_view hz).1
  have hup : (z.up : Expr (σ × Own T) (Int × β)).dims = z.dims := by rw [dims, up_shape]
  have hrow : row (z.up : Expr (σ × Own T) (Int × β)) = row z := by simp [row, Expr.dims]
  refine (post_forEachE' (ρ := Nat) (e := (z.up : Expr (σ × Own T) (Int × β))) (up_built hbz)
    (by rw [up_badFn, hrow]; exact he) (by rw [hup, up_outerRank]; exact hp)
    (fun n u => n ≤ size o.shape.dims → ∃ ys, Ran (zipResult xs (operand z) f) n s ys u.1.1 ∧ u.2 = n ∧
        u.1.2 = { o with cells := ys.map some ++ (xs.drop n).map some ++ rest })
    (fun k u => ∃ ys, ZipStops (size o.shape.dims) xs (operand z) f s k ys u.1.1 true ∧ u.2 = k ∧
          u.1.2.cells = ys.map some ++ (xs.drop k).map some ++ rest ∧ u.1.2.log = o.log)
    (fun k u => ∃ ys, ZipStops (size o.shape.dims) xs (operand z) f s k ys u.1.1 false ∧ u.2 = k + 1 ∧
          u.1.2.cells = ys.map some ++ none :: (xs.drop (k + 1)).map some ++ rest ∧ u.1.2.log = o.log)
    ?_ (s := ((s, o), 0)) fun _ => ⟨[], ran_zero, rfl, by simp [← hcells]⟩).mono ?_ ?_
  · rintro n hn ⟨⟨t, o'⟩, m⟩ hI
    rw [hup] at hn
    have htn := ht n hn
    rw [hd] at hn
    obtain ⟨ys, h1, h2, h3⟩ := hI hn.le
    have h1' : Ran (zipResult xs (operand z) f) n s ys t := h1
    simp only at h2 h3
    subst h2 h3
    have hidx : (whole o.shape).index (unrank o.shape.dims m) = some (m : Int) := by
      rw [View.index_whole h.1, if_pos (unrank_valid hn), rowMajor_unrank hn]
    have htame : (operand z m).Tame := htn.bind fun _ => M.tame_pure _
    rw [up_rawNth, rawNth_zipView hwf hz hn hidx]
    have hx : m < xs.length := by rw [h.2.1]; exact hn
    simp only [M.up_bind, M.up_pure]
    refine M.Post.bind (P := fun y u => ∃ t', operand z m t = .ok y t' ∧
      u = ((t', ({ o with cells := ys.map some ++ (xs.drop m).map some ++ rest } : Own T)), m))
      (M.post_up (M.post_up ((htame.post t).mono ?_ ?_))) ?_
    · intro y t' h
      exact ⟨t', h, rfl⟩
    · intro t' h
      exact ⟨ys, ⟨hn, t, h1', .inl ⟨rfl, h⟩⟩, rfl, rfl, rfl⟩
    · rintro y - ⟨t', hy, rfl⟩
      refine M.post_pure ?_
      have hdrop : xs.drop m = xs[m] :: xs.drop (m + 1) := List.drop_eq_getElem_cons hx
      have hstep : ∀ z' t'', f xs[m] y t' = .ok z' t'' → zipResult xs (operand z) f m t = .ok z' t'' := by
        intro z' t'' hz'
        simp only [zipResult, M.bind, hy, List.getElem?_eq_getElem hx, orUb, M.pure, hz']
      refine M.Post.mono (post_zipStep (x := xs[m]) (r := xs.drop (m + 1)) (ys := ys) (rest := rest) hf
        (by rw [hdrop]) h1'.length) ?_ ?_
      · rintro - u ⟨z', h4, h5, h6⟩ -
        exact ⟨ys ++ [z'], h1'.succ (hstep z' _ h4), h5, h6⟩
      · rintro u ⟨h4, h5, h6⟩
        refine ⟨ys, ⟨hn, t, h1', .inr ⟨rfl, y, t', hy, xs[m], List.getElem?_eq_getElem hx, h4⟩⟩, h5, ?_, ?_⟩
        · rw [h6]
        · rw [h6]
  · rintro - l u ⟨h1, hI⟩
    rw [hup, hd] at hI
    obtain ⟨ys, h2, -, h3⟩ := hI le_rfl
    refine ⟨by unfold AllMoved at h1 ⊢; rw [h1, owned_up], ys, h2, ?_⟩
    rw [h3, List.drop_of_length_le (by rw [h.2.1])]
    simp
  · rintro l u ⟨k, hk, ⟨h1, ys, h2⟩ | ⟨h1, ys, h2⟩⟩
    · exact ⟨k, ys, hup ▸ hk, .inr ⟨by unfold SomeMoved at h1 ⊢; rwa [owned_up] at h1, h2⟩⟩
    · exact ⟨k, ys, hup ▸ hk, .inl ⟨by unfold Moved at h1 ⊢; rw [h1, owned_up], h2⟩⟩

end Model
