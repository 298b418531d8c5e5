import Verif.Lemmas.UserExpr
import Verif.Lemmas.UnwindResize
import Verif.Spec.UserBuffer

/-!
Buffers defined outside of the crate.
-/

namespace Model
open Spec

variable {σ T : Type}

namespace UserBuffer

theorem dropRange_eq (zs : List T) : ∀ (A C : List (Option T)) (i : Nat) (out log : List T) (w : σ),
    dropRange A.length zs.length (w, ⟨A ++ zs.map some ++ C, i, out, log⟩) =
      .ok () (w, ⟨A ++ List.replicate zs.length none ++ C, i, out, log ++ zs⟩) := by
  induction zs with
  | nil => intro A C i out log w; simp [dropRange, M.pure]
  | cons z zs ih =>
    intro A C i out log w
    have hg : (A ++ (z :: zs).map some ++ C)[A.length]? = some (some z) := by simp
    have hset : (A ++ (z :: zs).map some ++ C).set A.length none = (A ++ [none]) ++ zs.map some ++ C := by simp
    have := ih (A ++ [none]) C i out (log ++ [z]) w
    simp only [List.length_append, List.length_singleton] at this
    simp only [List.length_cons, dropRange, hg, hset, this]
    simp [List.replicate_succ]

/-- The memory when `n` of the elements `xs` have been handed out and `l` are left out. -/
def Mid (pre : List (Option T)) (xs : List T) (post : List (Option T)) (n l : Nat) : BufMem T :=
  ⟨pre ++ List.replicate n none ++ (xs.drop n).map some ++ post, n + l, xs.take n, []⟩

section
variable {b : UserBuffer σ} {N : Nat} {s : Shape} {pre post : List (Option T)} {xs : List T} {dbg : Bool}

theorem post_asSlice (h : SafeBuffer b N) (hs : SteadyBuffer b pre.length s) {w : σ} {m : BufMem T} :
    M.Post (M.up b.asSlice) (w, m) (fun q t => q = (pre.length, s) ∧ t.2 = m) fun t => t.2 = m ∧ ¬QuietBuffer b := by
  refine M.post_up ?_
  have := h.asSlice w
  unfold M.Post at this ⊢
  cases e : b.asSlice w with
  | ok q w' => exact ⟨hs.asSlice _ _ _ e, rfl⟩
  | panic w' => exact ⟨rfl, fun hq => (hq w w').1 e⟩
  | ub => rw [e] at this; exact this
  | abort => rw [e] at this; exact this

theorem post_asMutSlice (h : SafeBuffer b N) (hs : SteadyBuffer b pre.length s) {w : σ} {m : BufMem T} :
    M.Post (M.up b.asMutSlice) (w, m) (fun q t => q = (pre.length, s) ∧ t.2 = m) fun t => t.2 = m ∧ ¬QuietBuffer b := by
  refine M.post_up ?_
  have := h.asMutSlice w
  unfold M.Post at this ⊢
  cases e : b.asMutSlice w with
  | ok q w' => exact ⟨hs.asMutSlice _ _ _ e, rfl⟩
  | panic w' => exact ⟨rfl, fun hq => (hq w w').2 e⟩
  | ub => rw [e] at this; exact this
  | abort => rw [e] at this; exact this

/-- Where evaluating the expression may stop. -/
def Halted (b : UserBuffer σ) (pre : List (Option T)) (xs : List T) (post : List (Option T)) (t : σ × BufMem T) : Prop :=
  ∃ n l, n + l ≤ xs.length ∧ l ≤ 1 ∧ (QuietBuffer b → l = 0) ∧ t.2 = Mid pre xs post n l

theorem post_take (h : SafeBuffer b N) (hs : SteadyBuffer b pre.length s) (hx : xs.length = size s.dims) {n : Nat}
    (hn : n < xs.length) (w : σ) :
    M.Post (b.take dbg) (w, Mid pre xs post n 0) (fun _ t => t.2 = Mid pre xs post (n + 1) 0)
      (Halted b pre xs post) := by
  unfold take
  refine M.Post.bind (P := fun _ t => t.2 = Mid pre xs post n 0) ?_ ?_
  · unfold getCheck
    cases dbg with
    | false => exact rfl
    | true =>
      refine M.Post.bind ((post_asSlice h hs).mono (fun _ _ q => q) ?_) ?_
      · rintro t ⟨e, -⟩
        exact ⟨n, 0, by omega, by omega, fun _ => rfl, e⟩
      · rintro q ⟨w, m⟩ ⟨rfl, rfl⟩
        show M.Post (M.lift (check (n + 0 < s.len))) _ _ _
        rw [show check (n + 0 < s.len) = some () from if_pos (by rw [Shape.len_eq]; omega)]
        exact rfl
  rintro _ ⟨w, m⟩ rfl
  refine M.Post.bind (P := fun _ t => t.2 = Mid pre xs post n 1) (s := (w, Mid pre xs post n 0)) (rfl : _ = _) ?_
  rintro _ ⟨w, m⟩ rfl
  refine M.Post.bind ((post_asMutSlice h hs).mono (fun _ _ q => q) ?_) ?_
  · rintro t ⟨e, hq⟩
    exact ⟨n, 1, by omega, by omega, fun h => absurd h hq, e⟩
  rintro q ⟨w, m⟩ ⟨rfl, rfl⟩
  show M.Post (takeAt (pre.length + (n + 1 - 1))) (w, Mid pre xs post n 1) _ _
  rw [Nat.add_sub_cancel]
  have hd : xs.drop n = xs[n] :: xs.drop (n + 1) := List.drop_eq_getElem_cons hn
  have hg : (Mid pre xs post n 1).cells[pre.length + n]? = some (some xs[n]) := by
    show (pre ++ List.replicate n none ++ (xs.drop n).map some ++ post)[pre.length + n]? = _
    rw [hd, List.append_assoc, List.getElem?_append_right (by simp), List.map_cons]
    simp only [List.length_append, List.length_replicate, Nat.sub_self]
    rfl
  have hset : (Mid pre xs post n 1).cells.set (pre.length + n) none = (Mid pre xs post (n + 1) 0).cells := by
    show (pre ++ List.replicate n none ++ (xs.drop n).map some ++ post).set (pre.length + n) none =
      pre ++ List.replicate (n + 1) none ++ (xs.drop (n + 1)).map some ++ post
    rw [hd, List.append_assoc, List.set_append_right _ _ (by simp), List.map_cons]
    simp only [List.length_append, List.length_replicate, Nat.sub_self, List.cons_append, List.set_cons_zero,
      List.replicate_succ', List.append_assoc, List.nil_append]
  unfold M.Post takeAt
  dsimp only
  rw [hg]
  dsimp only
  rw [hset]
  unfold Mid
  congr 1
  exact (List.take_append_getElem hn)

theorem runs_expr (h : SafeBuffer b N) (hs : SteadyBuffer b pre.length s) (n : Nat) :
    UserExpr.Runs (b.expr dbg) s (2 ^ 64 - 1) (fun t => n ≤ xs.length ∧ t.2 = Mid pre xs post n 0)
      (Halted b pre xs post) where
  shape := by
    rintro ⟨w, m⟩ ⟨hn, rfl⟩
    refine M.Post.bind ((post_asSlice h hs).mono (fun _ _ q => q) ?_) ?_
    · rintro t ⟨e, -⟩
      exact ⟨n, 0, by omega, by omega, fun _ => rfl, e⟩
    · rintro q t ⟨rfl, e⟩
      exact ⟨rfl, hn, e⟩
  innerRank w hw := ⟨rfl, hw⟩
  resetDim i n w hw := hw
  stepDim i w hw := hw
  panic w hw := ⟨n, 0, hw.1, by omega, fun _ => rfl, hw.2⟩

theorem post_drop (h : SafeBuffer b N) (hs : SteadyBuffer b pre.length s) (hx : xs.length = size s.dims) {n l : Nat}
    (hl : n + l ≤ xs.length) (w : σ) :
    M.Post (b.drop dbg) (w, Mid pre xs post n l)
      (fun _ t => Emptied t.2 pre (xs.take n) ((xs.drop n).take l) (xs.drop (n + l)) post)
      fun t => t.2 = Mid pre xs post n l ∧ ¬QuietBuffer b := by
  unfold drop
  refine M.Post.bind (post_asMutSlice h hs) ?_
  rintro q ⟨w, m⟩ ⟨rfl, rfl⟩
  have hc : (Mid pre xs post n l).cells = (pre ++ List.replicate n none ++ ((xs.drop n).take l).map some) ++
      (xs.drop (n + l)).map some ++ post := by
    show pre ++ List.replicate n none ++ (xs.drop n).map some ++ post = _
    rw [← List.drop_drop, List.append_assoc (pre ++ List.replicate n none) (List.map some ((xs.drop n).take l)),
      ← List.map_append, List.take_append_drop]
  have hlen : (pre ++ List.replicate n none ++ ((xs.drop n).take l).map some).length = pre.length + (n + l) := by
    simp
    omega
  refine M.Post.bind (P := fun _ t => t.2 = Mid pre xs post n l) ?_ ?_
  · unfold M.Post
    dsimp only
    rw [if_pos]
    rw [hc, List.length_append, List.length_append, hlen]
    show pre.length + (n + l) ≤ _
    omega
  rintro _ ⟨w, m⟩ rfl
  refine M.Post.bind (post_asSlice h hs) ?_
  rintro q ⟨w, m⟩ ⟨rfl, rfl⟩
  show M.Post (fun w => if w.2.index ≤ s.len then dropRange (pre.length + w.2.index) (s.len - w.2.index) w
    else if dbg then .panic w else .ub) (w, Mid pre xs post n l) _ _
  unfold M.Post
  dsimp only
  have hi : (Mid pre xs post n l).index = n + l := rfl
  rw [hi, if_pos (by rw [Shape.len_eq, ← hx]; exact hl)]
  have e := dropRange_eq (xs.drop (n + l)) (pre ++ List.replicate n none ++ ((xs.drop n).take l).map some) post (n + l)
    (xs.take n) [] w
  rw [hlen, ← hc] at e
  have hk : (xs.drop (n + l)).length = s.len - (n + l) := by rw [List.length_drop, Shape.len_eq, hx]
  rw [hk] at e
  have e : dropRange (pre.length + (n + l)) (s.len - (n + l)) (w, Mid pre xs post n l) = _ := e
  rw [e]
  refine ⟨?_, rfl, rfl⟩
  dsimp only
  rw [hk, List.length_take, Nat.min_eq_left (by omega)]

theorem post_forEach (h : SafeBuffer b N) (hs : SteadyBuffer b pre.length s) (hx : xs.length = size s.dims)
    (hr : s.rank < 2 ^ 64) {f : T → M σ Unit} (hf : ∀ x, (f x).Tame) {m : BufMem T} (hm : Fresh m pre xs post) (w : σ) :
    M.PostA (b.forEach dbg f) (w, m) (fun _ t => Emptied t.2 pre xs [] [] post)
      (fun t => ∃ ys zs ds, xs = ys ++ zs ++ ds ∧ Emptied t.2 pre ys zs ds post ∧ zs.length ≤ 1 ∧
        (QuietBuffer b → zs = [])) (¬QuietBuffer b) := by
  have hm : m = Mid pre xs post 0 0 := by
    rw [hm]
    simp [Mid]
  subst hm
  have hcalls : UserExpr.calls s (2 ^ 64 - 1) = xs.length := by
    unfold UserExpr.calls
    rw [show s.rank - (2 ^ 64 - 1) = 0 by omega, hx]
    simp [UserExpr.count]
  have run : M.Post ((b.expr dbg).runForEach fun x => M.up (f x)) (w, Mid pre xs post 0 0)
      (fun _ t => t.2 = Mid pre xs post xs.length 0) (Halted b pre xs post) := by
    refine (UserExpr.post_fold (u := b.expr dbg) (s := s) (k := 2 ^ 64 - 1)
      (I := fun n t => n ≤ xs.length ∧ t.2 = Mid pre xs post n 0) (runs_expr h hs) ?_ ⟨Nat.zero_le _, rfl⟩).mono
      (fun _ t q => by rw [hcalls] at q; exact q.2) fun _ q => q
    rw [hcalls]
    rintro n hn i ⟨w, m⟩ ⟨-, rfl⟩
    refine M.Post.bind (post_take h hs hx hn w) ?_
    rintro x ⟨w, m⟩ rfl
    exact M.post_up ((hf x w).mono (fun _ _ _ => ⟨hn, rfl⟩) fun _ _ => ⟨n + 1, 0, hn, by omega, fun _ => rfl, rfl⟩)
  unfold forEach
  refine M.PostA.bind' (M.PostA.onPanic' ?_)
  have lift : ∀ {α : Type} {x : M (σ × BufMem T) α} {t} {Q : α → σ × BufMem T → Prop} {R : σ × BufMem T → Prop}
      {A : Prop}, M.Post x t Q R → M.PostA x t Q R A := by
    intro α x t Q R A hp
    unfold M.Post at hp
    unfold M.PostA
    cases hx : x t <;> simp only [hx] at hp ⊢ <;> exact hp
  refine lift (run.mono ?_ ?_)
  · rintro _ ⟨w, m⟩ rfl
    refine (lift (post_drop h hs hx (n := xs.length) (l := 0) (by omega) w) (A := ¬QuietBuffer b)).mono' ?_ ?_ fun q => q
    · intro _ t q
      simpa using q
    · rintro t ⟨e, hq⟩
      refine ⟨xs, [], [], by simp, ?_, by simp, fun _ => rfl⟩
      rw [e]
      simp [Emptied, Mid]
  · rintro ⟨w, m⟩ ⟨n, l, hnl, hl, hq, rfl⟩
    refine lift ((post_drop h hs hx hnl w).mono ?_ fun t q => q.2)
    intro _ t q
    refine ⟨_, _, _, ?_, q, by rw [List.length_take]; omega, fun hb => by rw [hq hb, List.take_zero]⟩
    rw [← List.drop_drop, List.append_assoc, List.take_append_drop, List.take_append_drop]

end
end UserBuffer
end Model
