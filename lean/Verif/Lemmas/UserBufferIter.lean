import Verif.Lemmas.UserBuffer
import Verif.Model.UserBufferIter

/-!
Iterators over buffers defined outside of the crate.
-/

namespace Model
open Spec

variable {σ T α : Type}

namespace UserExpr
variable {u : UserExpr σ α} {s : Shape} {k : Nat} {I : σ → Prop} {R : σ → Prop}

/-- Without outer dimensions there is no further step. -/
theorem Runs.stepOuter_zero (h : Runs u s k I R) (hk : s.rank ≤ k) (limit oi : List Nat) {w : σ} (hw : I w) :
    M.Post (u.stepOuter limit oi) w (fun q w' => q.1 = false ∧ I w') R := by
  refine M.Post.bind (h.outerRank hw) ?_
  rintro a w' ⟨rfl, hw'⟩
  refine M.Post.bind (h.rank hw') ?_
  rintro a w' ⟨rfl, hw'⟩
  rw [show s.rank - k = 0 by omega]
  have key : ∀ w, I w → M.Post (u.stepLoop limit 0 oi) w (fun q w' => q.1 = false ∧ I w') R :=
    fun w hw => ⟨rfl, hw⟩
  by_cases hc : 0 < s.rank
  · simp only [if_pos hc]
    refine M.Post.bind (h.rank hw') ?_
    rintro a w' ⟨rfl, hw'⟩
    rw [show check (0 < s.rank) = some () from if_pos hc]
    show M.Post (M.bind (u.resetDim (s.rank - 1) 0) fun _ => u.stepLoop limit 0 oi) w' _ _
    exact M.Post.bind (h.resetDim _ _ w' hw') fun _ w hw => key w hw
  · simp only [if_neg hc]
    exact key w' hw'

/-- Without outer dimensions there is a single inner loop. -/
theorem Runs.iter_zero (h : Runs u s k I R) (hk : s.rank ≤ k) {w : σ} (hw : I w) :
    M.Post u.iter w (fun it w' => it.innerIndex = 0 ∧ it.innerLimit = size s.dims ∧ I w') R := by
  refine M.Post.bind (h.outerRank hw) ?_
  rintro a w' ⟨rfl, hw'⟩
  refine M.Post.bind (h.shape w' hw') ?_
  rintro a w' ⟨rfl, hw'⟩
  rw [show a.rank - k = 0 by omega]
  refine M.Post.bind (P := fun _ w => I w) (by exact hw') ?_
  intro _ w hw
  simp only [Nat.lt_irrefl, if_false, gt_iff_lt, List.drop_zero]
  refine ⟨rfl, ?_, hw⟩
  exact Shape.len_eq a

end UserExpr

namespace UserBuffer
variable {b : UserBuffer σ} {N : Nat} {s : Shape} {pre post : List (Option T)} {xs : List T} {dbg : Bool}

theorem bind_ok {ρ α β : Type} {x : M ρ α} {k : α → M ρ β} {s t : ρ} {b : β} (h : M.bind x k s = .ok b t) :
    ∃ a s', x s = .ok a s' ∧ k a s' = .ok b t := by
  unfold M.bind at h
  cases hx : x s <;> rw [hx] at h
  · exact ⟨_, _, rfl, h⟩
  all_goals cases h

/-- The value that is returned is the one recorded. -/
theorem take_out {t t' : σ × BufMem T} {x : T} (h : b.take dbg t = .ok x t') : t'.2.out.getLast? = some x := by
  obtain ⟨_, _, -, h⟩ := bind_ok h
  obtain ⟨_, _, -, h⟩ := bind_ok h
  obtain ⟨q, t, -, h⟩ := bind_ok h
  unfold takeAt at h
  dsimp only at h
  split at h
  · injection h with h1 h2
    rw [← h2, ← h1]
    simp
  · cases h

theorem post_take' (h : SafeBuffer b N) (hs : SteadyBuffer b pre.length s) (hx : xs.length = size s.dims) {n : Nat}
    (hn : n < xs.length) (w : σ) :
    M.Post (b.take dbg) (w, Mid pre xs post n 0) (fun x t => xs[n]? = some x ∧ t.2 = Mid pre xs post (n + 1) 0)
      (Halted b pre xs post) := by
  have hp := post_take (dbg := dbg) h hs hx hn (post := post) w
  unfold M.Post at hp ⊢
  cases e : b.take dbg (w, Mid pre xs post n 0) with
  | ok x t =>
    rw [e] at hp
    have hp : t.2 = _ := hp
    have ho := take_out e
    rw [hp] at ho
    refine ⟨?_, hp⟩
    change (xs.take (n + 1)).getLast? = some x at ho
    rw [List.take_succ_eq_append_getElem hn, List.getLast?_append] at ho
    rw [List.getElem?_eq_getElem hn]
    exact ho
  | panic t => rw [e] at hp; exact hp
  | ub => rw [e] at hp; exact hp
  | abort => rw [e] at hp; exact hp

/-- The results of `k` calls of `next` for the rest of the items. -/
def results (xs : List T) (k : Nat) : List (Option T) :=
  (xs.take k).map some ++ List.replicate (k - xs.length) none

theorem post_nexts (h : SafeBuffer b N) (hs : SteadyBuffer b pre.length s) (hx : xs.length = size s.dims)
    (hr : s.rank < 2 ^ 64) {f : Option T → M σ Unit} (hf : ∀ x, (f x).Tame) (k : Nat) :
    ∀ (n : Nat) (it : UserIter) (w : σ), n ≤ xs.length → it.innerIndex = n → it.innerLimit = xs.length →
      M.Post ((b.expr dbg).nexts (fun x => M.up (f x)) k it) (w, Mid pre xs post n 0)
        (fun rs t => rs = results (xs.drop n) k ∧ t.2 = Mid pre xs post (min (n + k) xs.length) 0)
        (Halted b pre xs post) := by
  induction k with
  | zero =>
    intro n it w hn _ _
    refine ⟨by simp [results], ?_⟩
    rw [Nat.add_zero, Nat.min_eq_left hn]
  | succ k ih =>
    intro n it w hn hi hl
    unfold UserExpr.nexts
    by_cases hc : n = xs.length
    · refine M.Post.bind (P := fun q t => q.1 = none ∧ q.2.innerIndex = n ∧ q.2.innerLimit = xs.length ∧
        t.2 = Mid pre xs post n 0) ?_ ?_
      · unfold UserExpr.next
        rw [if_pos (by rw [hi, hl, hc])]
        refine M.Post.bind ((runs_expr h hs n).stepOuter_zero (by omega) _ _ ⟨hn, rfl⟩) ?_
        rintro q t ⟨hq, -, ht⟩
        rw [hq]
        exact ⟨rfl, hi, hl, ht⟩
      · rintro ⟨_, it⟩ ⟨w, m⟩ ⟨rfl, h1, h2, rfl⟩
        refine M.Post.bind (P := fun _ t => t.2 = Mid pre xs post n 0) (M.post_up ((hf none w).mono (fun _ _ _ => rfl)
          fun _ _ => ⟨n, 0, by omega, by omega, fun _ => rfl, rfl⟩)) ?_
        rintro _ ⟨w, m⟩ rfl
        refine M.Post.bind (ih n it w hn h1 h2) ?_
        rintro rs t ⟨rfl, ht⟩
        refine ⟨?_, ?_⟩
        · rw [hc]
          simp [results, List.replicate_succ]
        · rw [ht, Nat.min_eq_right (by omega), Nat.min_eq_right (by omega)]
    · have hn' : n < xs.length := by omega
      refine M.Post.bind (P := fun q t => q.1 = xs[n]? ∧ q.2.innerIndex = n + 1 ∧ q.2.innerLimit = xs.length ∧
        t.2 = Mid pre xs post (n + 1) 0) ?_ ?_
      · unfold UserExpr.next
        rw [if_neg (by rw [hi, hl]; exact hc)]
        refine M.Post.bind (post_take' h hs hx hn' w) ?_
        rintro x t ⟨hx, ht⟩
        exact ⟨hx.symm, by rw [← hi], hl, ht⟩
      · rintro ⟨_, it⟩ ⟨w, m⟩ ⟨rfl, h1, h2, rfl⟩
        refine M.Post.bind (P := fun _ t => t.2 = Mid pre xs post (n + 1) 0) (M.post_up ((hf _ w).mono (fun _ _ _ => rfl)
          fun _ _ => ⟨n + 1, 0, by omega, by omega, fun _ => rfl, rfl⟩)) ?_
        rintro _ ⟨w, m⟩ rfl
        refine M.Post.bind (ih (n + 1) it w hn' h1 h2) ?_
        rintro rs t ⟨rfl, ht⟩
        refine ⟨?_, ?_⟩
        · show xs[n]? :: results (xs.drop (n + 1)) k = results (xs.drop n) (k + 1)
          rw [List.drop_eq_getElem_cons hn', List.getElem?_eq_getElem hn']
          unfold results
          rw [List.take_succ_cons, List.length_cons, Nat.add_sub_add_right]
          rfl
        · rw [ht, show n + 1 + k = n + (k + 1) by omega]

theorem post_iterate (h : SafeBuffer b N) (hs : SteadyBuffer b pre.length s) (hx : xs.length = size s.dims)
    (hr : s.rank < 2 ^ 64) (k : Nat) {f : Option T → M σ Unit} (hf : ∀ x, (f x).Tame) {m : BufMem T}
    (hm : Fresh m pre xs post) (w : σ) :
    M.PostA (b.iterate dbg k f) (w, m)
      (fun rs t => rs = results xs k ∧ Emptied t.2 pre (xs.take k) [] (xs.drop k) post)
      (fun t => ∃ ys zs ds, xs = ys ++ zs ++ ds ∧ Emptied t.2 pre ys zs ds post ∧ (zs.length ≤ 1 ∨ ds = []) ∧
        (QuietBuffer b → zs = [])) (¬QuietBuffer b) := by
  have hm : m = Mid pre xs post 0 0 := by
    rw [hm]
    simp [Mid]
  subst hm
  have run : M.Post (M.bind (b.expr dbg).iter fun it => (b.expr dbg).nexts (fun x => M.up (f x)) k it)
      (w, Mid pre xs post 0 0) (fun rs t => rs = results xs k ∧ t.2 = Mid pre xs post (min k xs.length) 0)
      (Halted b pre xs post) := by
    refine M.Post.bind ((runs_expr h hs 0).iter_zero (by omega) ⟨Nat.zero_le _, rfl⟩) ?_
    rintro it ⟨w, m⟩ ⟨h1, h2, -, rfl⟩
    refine (post_nexts h hs hx hr hf k 0 it w (Nat.zero_le _) h1 (by rw [h2, hx])).mono ?_ fun _ q => q
    rintro rs t ⟨e1, e2⟩
    rw [Nat.zero_add] at e2
    exact ⟨e1, e2⟩
  have lift : ∀ {α : Type} {x : M (σ × BufMem T) α} {t} {Q : α → σ × BufMem T → Prop} {R : σ × BufMem T → Prop}
      {A : Prop}, M.Post x t Q R → M.PostA x t Q R A := by
    intro α x t Q R A hp
    unfold M.Post at hp
    unfold M.PostA
    cases hx : x t <;> simp only [hx] at hp ⊢ <;> exact hp
  unfold iterate
  refine M.PostA.bind' (M.PostA.onPanic' (lift (run.mono ?_ ?_)))
  · rintro rs ⟨w, m⟩ ⟨rfl, rfl⟩
    have hl : min k xs.length + 0 ≤ xs.length := by omega
    have e1 : xs.take (min k xs.length) = xs.take k := by
      rcases Nat.le_total k xs.length with hk | hk
      · rw [Nat.min_eq_left hk]
      · rw [Nat.min_eq_right hk, List.take_of_length_le (Nat.le_refl _), List.take_of_length_le hk]
    have e2 : xs.drop (min k xs.length) = xs.drop k := by
      rcases Nat.le_total k xs.length with hk | hk
      · rw [Nat.min_eq_left hk]
      · rw [Nat.min_eq_right hk, List.drop_of_length_le (Nat.le_refl _), List.drop_of_length_le hk]
    refine M.PostA.bind' ((lift (post_drop h hs hx hl w) (A := ¬QuietBuffer b)).mono' ?_ ?_ fun q => q)
    · intro _ t q
      rw [Nat.add_zero, List.take_zero, e1, e2] at q
      exact ⟨rfl, q⟩
    · rintro t ⟨e, hq⟩
      refine ⟨xs.take k, xs.drop k, [], by simp, ?_, .inr rfl, fun h => absurd h hq⟩
      rw [e]
      unfold Emptied Mid
      refine ⟨?_, e1, rfl⟩
      rw [e2, List.length_take]
      simp
  · rintro ⟨w, m⟩ ⟨n, l, hnl, hl, hq, rfl⟩
    refine lift ((post_drop h hs hx hnl w).mono ?_ fun t q => q.2)
    intro _ t q
    refine ⟨_, _, _, ?_, q, .inl (by rw [List.length_take]; omega), fun hb => by rw [hq hb, List.take_zero]⟩
    rw [← List.drop_drop, List.append_assoc, List.take_append_drop, List.take_append_drop]

end UserBuffer
end Model
