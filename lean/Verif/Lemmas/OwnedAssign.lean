import Verif.Lemmas.Owned
import Verif.Lemmas.Assign

/-! Assignment of expressions that own arrays: the item of a panic and the elements moved out (C75). -/

namespace Model
open Spec Expr Iter

variable {σ T α β γ : Type}

theorem rawNth_zipView {v : View} (hv : v.map.WF) {e : Expr σ β} {z}
    (hz : zipNew (view false v) e = some z) {n : Nat} (hn : n < size v.dims) {p : Int}
    (hp : v.index (unrank v.dims n) = some p) :
    rawNth z n = M.bind (operand z n) fun y => M.pure (p, y) := by
  obtain ⟨hd, -⟩ := zip_view hz
  obtain ⟨s, rfl, -, -, -, -⟩ := zip_trailing hz
  have hsd : s.dims = v.dims := hd
  have hvis : visited (zip (view false v) e s) = v.dims := by
    rw [visited_of_pos (by rw [hd]; omega), hd]
  rw [View.index_eq _ hv, if_pos (show Valid v.dims (unrank v.dims n) from unrank_valid hn)] at hp
  injection hp with hp
  unfold operand rawNth
  simp only [rawItem, hvis, M.pure_bind, M.bind_assoc]
  rw [show (view false v : Expr σ Int).dims = v.dims from rfl, hsd, Nat.sub_self, List.drop_zero, hp]

theorem someMoved_congr {e : Expr σ α} {z : Expr σ γ} (h : z.owned = e.owned) {k : Nat} {l : Left} :
    SomeMoved z k l ↔ SomeMoved e k l := by
  unfold SomeMoved; rw [h]

/-- The general loop, see `write_loop`. -/
theorem write_loopE {v : View} {m : List T} (hv : Exclusive v m.length) {z : Expr σ γ} (hb : Built z)
    (he : BadFn z → 0 < row z) (hp : size z.dims = 0 → size (z.dims.drop z.outerRank) = 0)
    (hd : z.dims = v.dims) {body : γ → M (σ × List T) Unit} {step : Nat → M σ T}
    (ht : ∀ n, n < size v.dims → (step n).Tame)
    (hstep : ∀ n, n < size v.dims → ∀ (p : Nat), v.index (unrank v.dims n) = some (p : Int) →
      ∀ (s : σ) (m' : List T), m'[p]? = m[p]? →
        M.bind (M.up (rawNth z n)) body (s, m') =
          M.bind (M.up (step n)) (fun x => writeMem (p : Int) x) (s, m'))
    (s : σ) :
    ((z.up : Expr (σ × List T) γ).forEachE body (s, m)).Post
      (fun _ l t => AllMoved z l ∧ ∃ ys, Ran step (size v.dims) s ys t.1 ∧ Written v m ys t.2)
      (fun l t => ∃ k ys, k < size v.dims ∧ SomeMoved z k l ∧ Stopped step (size v.dims) s k ys t.1 ∧
        Written v m ys t.2) := by
  let K : Nat → σ × List T → Prop := fun k t => ∃ ys, Stopped step (size v.dims) s k ys t.1 ∧ Written v m ys t.2
  refine (post_forEachE hb he hp (fun n t => ∃ ys, Ran step n s ys t.1 ∧ Written v m ys t.2) K K ?_
    (s := (s, m)) ⟨[], ran_zero, written_nil v m⟩).mono ?_ ?_
  · rintro n hn ⟨t, m'⟩ ⟨ys, hr, hw⟩
    rw [hd] at hn
    have hlen := hr.length
    obtain ⟨p, hpl, hpi⟩ := hv.2.1 _ (unrank_valid hn)
    subst hlen
    have hpm := hw.elem hv hn hpi
    have key := hstep _ hn p hpi t m' hpm
    apply M.post_bind_iff.1
    unfold M.Post
    rw [key]
    show M.Post (M.bind (M.up (step ys.length)) fun x => writeMem (p : Int) x) (t, m') _ _
    refine M.Post.bind (P := fun x u => step ys.length t = .ok x u.1 ∧ u.2 = m') (M.post_up
      (((ht _ hn).post t).mono (fun x t' h => ⟨h, rfl⟩)
        fun t' h => ⟨ys, ⟨hn, t, hr, h⟩, hw⟩)) ?_
    rintro x ⟨t', m''⟩ ⟨hx, rfl⟩
    unfold M.Post
    rw [writeMem_eq (by rw [hw.1]; exact hpl)]
    exact ⟨ys ++ [x], hr.succ hx, hw.snoc hv hn hpi x⟩
  · rintro - l t ⟨h1, ys, h2, h3⟩
    rw [hd] at h2
    exact ⟨h1, ys, h2, h3⟩
  · rintro l t ⟨k, hk, hm, h | h⟩ <;>
    · obtain ⟨ys, h⟩ := h
      exact ⟨k, ys, hd ▸ hk, hm, h⟩

/-- The loop over an exclusive view and an expression, with all cases. -/
theorem post_viewLoop {v : View} {m : List T} (hv : Exclusive v m.length) {e : Expr σ α} (hb : Built e)
    (hp : ∀ z, zipNew (view false v) e = some z → NoPhantomRows z) {body : Int × α → M (σ × List T) Unit}
    {step : Expr σ (Int × α) → Nat → M σ T}
    (ht : ∀ z, zipNew (view false v) e = some z → ∀ n, n < size v.dims → (step z n).Tame)
    (hstep : ∀ z, zipNew (view false v) e = some z → ∀ n, n < size v.dims → ∀ (p : Nat),
      v.index (unrank v.dims n) = some (p : Int) → ∀ (s : σ) (m' : List T), m'[p]? = m[p]? →
        M.bind (M.up (rawNth z n)) body (s, m') =
          M.bind (M.up (step z n)) (fun x => writeMem (p : Int) x) (s, m'))
    (s : σ) :
    (viewLoop v e e.up body (s, m)).Post
      (fun _ l t => AllMoved e l ∧ ∃ z, zipNew (view false v) e = some z ∧
        ∃ ys, Ran (step z) (size v.dims) s ys t.1 ∧ Written v m ys t.2)
      (fun l t => Disposed l.expr ∧ ((¬ CanCast e v.dims ∧ NoneMoved e l ∧ t = (s, m)) ∨
        ∃ z, zipNew (view false v) e = some z ∧ ((BadFn z ∧ size v.dims = 0 ∧ NoneMoved e l ∧ t = (s, m)) ∨
          ∃ k ys, SomeMoved e k l ∧ Stopped (step z) (size v.dims) s k ys t.1 ∧ Written v m ys t.2))) := by
  have hw := wf_of_built hb
  have hsome := zipNew_view_isSome (σ := σ) hv.1 hb
  unfold viewLoop
  rw [show (view false v : Expr (σ × List T) Int) = (view false v : Expr σ Int).up from rfl, up_zipNew]
  cases hz : zipNew (view false v : Expr σ Int) e with
  | none =>
    rw [hz] at hsome
    exact ⟨disposed_none hw (l := ⟨e⟩) rfl, .inl ⟨fun h => by simpa using hsome.2 h, rfl, rfl⟩⟩
  | some z =>
    show (Expr.forEachE (z.up : Expr (σ × List T) (Int × α)) body (s, m)).Post _ _
    have hbz : Built z := .zip (.view hv.1) hb hz
    have ho := zipNew_owned hz
    have hd : z.dims = v.dims := (zip_view hz).1
    by_cases he : BadFn z ∧ row z = 0
    · refine (forEachE_bad hbz he.1 he.2 body (s, m)).mono (fun _ _ _ h => h.elim) fun l t h => ?_
      have hn : NoneMoved e l := by have := h.1; unfold NoneMoved at this ⊢; rw [this, ho]
      refine ⟨disposed_none hw hn, .inr ⟨z, rfl, .inl ⟨he.1, ?_, hn, h.2⟩⟩⟩
      rw [← hd]
      rcases Nat.eq_zero_or_pos (size z.dims) with h0 | h0
      · exact h0
      · rw [size_split h0, he.2, Nat.mul_zero]
    · refine (write_loopE hv hbz (fun h => Nat.pos_of_ne_zero fun h0 => he ⟨h, h0⟩) (hp z hz) hd (ht z hz)
        (hstep z hz) s).mono ?_ ?_
      · rintro - l t ⟨h1, h2⟩
        exact ⟨by unfold AllMoved at h1 ⊢; rw [h1, ho], z, rfl, h2⟩
      · rintro l t ⟨k, ys, hk, h1, h2⟩
        refine ⟨?_, .inr ⟨z, rfl, .inr ⟨k, ys, (someMoved_congr ho).1 h1, h2⟩⟩⟩
        exact disposed_some (wf_of_built hbz) (hd ▸ hk) h1

end Model
