import Verif.Lemmas.Lift
import Verif.Spec.Outcome

/-! Postconditions of computations, and rules for them. -/

namespace Model
open Spec

namespace M
variable {σ ρ : Type} {α β τ : Type}

theorem post_pure {a : α} {s : σ} {Q : α → σ → Prop} {R} (h : Q a s) : Post (pure a) s Q R := h

theorem post_panic {s : σ} {Q : α → σ → Prop} {R : σ → Prop} (h : R s) : Post panic s Q R := h

theorem Post.mono {x : M σ α} {s} {Q Q' : α → σ → Prop} {R R' : σ → Prop} (h : Post x s Q R)
    (hq : ∀ a s, Q a s → Q' a s) (hr : ∀ s, R s → R' s) : Post x s Q' R' := by
  unfold Post at *
  cases hx : x s <;> simp only [hx] at h ⊢
  · exact hq _ _ h
  · exact hr _ h

theorem post_bind {x : M σ α} {f : α → M σ β} {s} {Q : β → σ → Prop} {R : σ → Prop}
    (h : Post x s (fun a s' => Post (f a) s' Q R) R) : Post (bind x f) s Q R := by
  unfold Post bind at *
  cases hx : x s <;> simp only [hx] at h ⊢
  · exact h
  · exact h

theorem post_bind_iff {x : M σ α} {f : α → M σ β} {s} {Q : β → σ → Prop} {R : σ → Prop} :
    Post (bind x f) s Q R ↔ Post x s (fun a s' => Post (f a) s' Q R) R := by
  unfold Post bind
  cases hx : x s <;> simp only []

theorem Post.bind {x : M σ α} {f : α → M σ β} {s} {P : α → σ → Prop} {Q : β → σ → Prop}
    {R : σ → Prop} (h : Post x s P R) (hf : ∀ a s', P a s' → Post (f a) s' Q R) :
    Post (M.bind x f) s Q R := post_bind (h.mono hf fun _ h => h)

theorem post_get {s : σ} {Q : σ → σ → Prop} {R} (h : Q s s) : Post get s Q R := h

theorem post_set {s t : σ} {Q : Unit → σ → Prop} {R} (h : Q () t) : Post (set t) s Q R := h

theorem post_up {x : M σ α} {s : σ} {r : ρ} {Q : α → σ × ρ → Prop} {R : σ × ρ → Prop}
    (h : Post x s (fun a s' => Q a (s', r)) fun s' => R (s', r)) : Post (up x) (s, r) Q R := by
  unfold Post up at *
  cases hx : x s <;> simp only [hx] at h ⊢
  · exact h
  · exact h

theorem post_onPanic {x : M σ α} {g : M σ Unit} {s} {Q : α → σ → Prop} {R : σ → Prop}
    (h : Post x s Q fun s' => Post g s' (fun _ s'' => R s'') fun _ => False) :
    Post (onPanic x g) s Q R := by
  unfold Post onPanic at *
  cases hx : x s <;> simp only [hx] at h ⊢
  · exact h
  · rename_i s'
    cases hg : g s' <;> simp only [hg] at h ⊢
    exact h

theorem post_scope {x : M (σ × ρ) α} {init : ρ} {s : σ} {Q : α × ρ → σ → Prop} {R : σ → Prop}
    (h : Post x (s, init) (fun a s' => Q (a, s'.2) s'.1) fun s' => R s'.1) :
    Post (scope init x) s Q R := by
  unfold Post scope at *
  cases hx : x (s, init) <;> simp only [hx] at h ⊢
  · exact h
  · exact h

theorem post_lift {o : Option α} {s : σ} {Q : α → σ → Prop} {R : σ → Prop}
    (hs : ∀ a, o = some a → Q a s) (hn : o = none → R s) : Post (lift o) s Q R := by
  cases o with
  | none => exact hn rfl
  | some a => exact hs a rfl

/-- Loops over a list, with an invariant indexed by the number of iterations. -/
theorem post_foldlM {f : τ → α → M σ τ} {R : σ → Prop} (I : Nat → τ → σ → Prop) (l : List α)
    (hf : ∀ n (h : n < l.length) acc s, I n acc s → Post (f acc l[n]) s (I (n + 1)) R)
    {acc : τ} {s : σ} (h0 : I 0 acc s) : Post (l.foldlM f acc) s (I l.length) R := by
  induction l generalizing I acc s with
  | nil => exact h0
  | cons x l ih =>
    rw [List.foldlM_cons]
    refine Post.bind (hf 0 (by simp) acc s h0) ?_
    intro acc' s' h'
    exact ih (fun n => I (n + 1)) (fun n h acc s hi => hf (n + 1) (by simpa using h) acc s hi) h'

theorem tame_pure (a : α) : Tame (pure a : M σ α) := fun _ => trivial

theorem Tame.post {x : M σ α} (h : Tame x) (s : σ) :
    Post x s (fun a s' => x s = .ok a s') fun s' => x s = .panic s' := by
  have := h s
  unfold Post at *
  cases hx : x s <;> simp only [hx] at this ⊢

theorem Tame.bind {x : M σ α} {f : α → M σ β} (h : Tame x) (hf : ∀ a, Tame (f a)) :
    Tame (M.bind x f) := fun s => (h s).bind fun a s' _ => hf a s'

theorem tame_onPanic {x : M σ α} (h : Tame x) : Tame (onPanic x (pure ())) := fun s =>
  post_onPanic ((h s).mono (fun _ _ h => h) fun _ _ => trivial)

theorem _root_.Spec.ran_zero {step : Nat → M σ α} {s : σ} : Ran step 0 s [] s := rfl

theorem _root_.Spec.Ran.succ {step : Nat → M σ α} {n : Nat} {s t s' : σ} {ys : List α} {y : α}
    (h : Ran step n s ys t) (h' : step n t = .ok y s') : Ran step (n + 1) s (ys ++ [y]) s' := by
  unfold Ran at *
  rw [List.range_succ, List.mapM_append]
  simp only [M.bind_eq, M.bind, h, List.mapM_cons, List.mapM_nil, M.pure_eq, M.pure, h']

theorem _root_.Spec.Ran.length {step : Nat → M σ α} {n : Nat} {s s' : σ} {ys : List α}
    (h : Ran step n s ys s') : ys.length = n := by
  have key : ∀ (l : List Nat) (s s' : σ) (ys : List α), l.mapM step s = .ok ys s' → ys.length = l.length := by
    intro l
    induction l with
    | nil =>
      intro s s' ys h
      injection h with h _
      rw [← h]; rfl
    | cons x l ih =>
      intro s s' ys h
      rw [List.mapM_cons] at h
      simp only [M.bind_eq, M.bind, M.pure_eq, M.pure] at h
      cases h1 : step x s with
      | ok y t =>
        rw [h1] at h
        cases h2 : l.mapM step t with
        | ok zs t' =>
          simp only [h2] at h
          injection h with h _
          rw [← h, List.length_cons, ih _ _ _ h2, List.length_cons]
        | panic _ => simp only [h2] at h; cases h
        | ub => simp only [h2] at h; cases h
        | abort => simp only [h2] at h; cases h
      | panic _ => rw [h1] at h; cases h
      | ub => rw [h1] at h; cases h
      | abort => rw [h1] at h; cases h
  have := key _ _ _ _ h
  rwa [List.length_range] at this

end M

namespace Iter
variable {σ ρ : Type} {α τ : Type}
open Expr

/-- Rule for folding an expression inside a larger world. -/
theorem post_fold_up {e : Expr σ α} (hb : Built e) (hs : Sound e)
    (hp : size e.dims = 0 → size (e.dims.drop e.outerRank) = 0)
    {f : τ → α → M (σ × ρ) τ} {R : σ × ρ → Prop} (I : Nat → τ → σ × ρ → Prop)
    (hf : ∀ n, n < size e.dims → ∀ acc s, I n acc s →
      M.Post (M.up (item e n (unrank e.dims n))) s (fun x s' => M.Post (f acc x) s' (I (n + 1)) R) R)
    {acc : τ} {s : σ × ρ} (h0 : I 0 acc s) :
    M.Post ((e.up : Expr (σ × ρ) α).fold acc f) s (I (size e.dims)) R := by
  have hd : (e.up : Expr (σ × ρ) α).dims = e.dims := by rw [dims, up_shape]
  rw [fold_eq (up_built hb) (up_sound hs) (by
    unfold NoPhantom row; rw [hd, up_outerRank]; exact hp), foldItems_eq, hd]
  have := M.post_foldlM (R := R) (f := visit (e.up : Expr (σ × ρ) α) f) I (List.range (size e.dims)) (s := s)
    (acc := acc)
    (fun n hn acc s hi => by
      rw [List.length_range] at hn
      rw [List.getElem_range]
      unfold visit
      apply M.post_bind
      rw [up_item, hd]
      exact hf n hn acc s hi) h0
  rw [List.length_range] at this
  exact this

end Iter

namespace Expr
variable {σ : Type} {α β : Type}

theorem tame_view {r : Bool} {v : View} (h : v.map.WF) : TameItems (view r v : Expr σ Int) := by
  intro n j hj
  unfold item
  have := (View.index_isSome v h j).2 hj
  obtain ⟨p, hp⟩ := Option.isSome_iff_exists.1 this
  rw [hp]
  exact M.tame_pure p

theorem tame_map {e : Expr σ α} {f : α → M σ β} (h : TameItems e) (hf : ∀ x, (f x).Tame) :
    TameItems (map e f) := fun n j hj => (h n j hj).bind hf

theorem tame_enumerate {e : Expr σ α} {k : Nat} (h : TameItems e) : TameItems (enumerate e k) :=
  fun n j hj => (h n j hj).bind fun _ => M.tame_pure _

theorem tame_fill {f : M σ α} (h : f.Tame) : TameItems (fill f) := fun _ _ _ => h

theorem tame_fromElem {s : Shape} {f : M σ α} (h : f.Tame) : TameItems (fromElem s f) :=
  fun _ _ _ => h

theorem tame_fromFn {s : Shape} {idx : List Nat} {f : List Nat → M σ α} (h : ∀ j, (f j).Tame) :
    TameItems (fromFn s idx f) := fun _ j _ => h j

theorem tame_intoExpr {s : Shape} {buf : List α} {idx : Nat} (h : buf.length = size s.dims) :
    TameItems (intoExpr s buf idx : Expr σ α) := by
  intro n j hj
  unfold item
  have : rowMajor s.dims j < buf.length := by rw [h]; exact rowMajor_lt hj
  rw [List.getElem?_eq_getElem this]
  exact M.tame_pure _

/-- An operand of a zip broadcasts to the dimensions of the zip. -/
theorem zip_trailing {a : Expr σ α} {b : Expr σ β} {e} (he : zipNew a b = some e) :
    ∃ s, e = zip a b s ∧ a.dims = s.dims.drop (s.dims.length - a.dims.length) ∧
      b.dims = s.dims.drop (s.dims.length - b.dims.length) ∧
      (a.repeatable = false → a.dims = s.dims) ∧ (b.repeatable = false → b.dims = s.dims) := by
  unfold zipNew at he
  rw [Option.map_eq_some_iff] at he
  obtain ⟨s, hs, rfl⟩ := he
  exact ⟨s, rfl, (zipShape_spec hs).2⟩

theorem tame_zip {a : Expr σ α} {b : Expr σ β} {e}
    (he : zipNew a b = some e) (hta : TameItems a) (htb : TameItems b) : TameItems e := by
  intro n j hj
  obtain ⟨s, rfl, h1, h2, -, -⟩ := zip_trailing he
  refine (hta n _ ?_).bind fun _ => (htb n _ ?_).bind fun _ => M.tame_pure _
  · have := Valid.drop hj (s.dims.length - a.dims.length)
    rwa [show (zip a b s : Expr σ _).dims = s.dims from rfl, ← h1] at this
  · have := Valid.drop hj (s.dims.length - b.dims.length)
    rwa [show (zip a b s : Expr σ _).dims = s.dims from rfl, ← h2] at this

end Expr
end Model
