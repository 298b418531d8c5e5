import Verif.Lemmas.UserExpr
import Verif.Lemmas.Odometer

/-!
Evaluating expressions defined outside of the crate: invariants that depend on the outer index.
-/

namespace Model
open Spec

variable {σ ρ T α : Type}

theorem M.Post.and {x : M σ α} {w : σ} {Q Q' : α → σ → Prop} {R : σ → Prop} (h : M.Post x w Q R)
    (h' : M.Post x w Q' fun _ => True) : M.Post x w (fun a w' => Q a w' ∧ Q' a w') R := by
  unfold M.Post at *
  cases hx : x w <;> simp only [hx] at h h' ⊢
  · exact ⟨h, h'⟩
  · exact h

namespace UserExpr

/-- The functions keep an invariant about the number of items and the outer index. -/
structure RunsAt (u : UserExpr σ α) (s : Shape) (k : Nat) (I : Nat → List Nat → σ → Prop) (R : σ → Prop) : Prop where
  run : Runs u s k (fun _ => True) fun _ => True
  shape : ∀ n oi w, I n oi w → M.Post u.shape w (fun _ w' => I n oi w') R
  innerRank : ∀ n oi w, I n oi w → M.Post u.innerRank w (fun _ w' => I n oi w') R
  same : ∀ n oi w, 0 < s.rank → I n oi w → M.Post (u.resetDim (s.rank - 1) 0) w (fun _ w' => I n oi w') R
  resetDim : ∀ n oi i w, i < s.rank → i < oi.length → I n oi w →
    M.Post (u.resetDim i (oi.getD i 0)) w (fun _ w' => I n (oi.set i 0) w') R
  stepDim : ∀ n oi i w, i < s.rank → i < oi.length → I n oi w →
    M.Post (u.stepDim i) w (fun _ w' => I n (oi.set i (oi.getD i 0 + 1)) w') R
  panic : ∀ n oi w, I n oi w → R w

section
variable {u : UserExpr σ α} {s : Shape} {k : Nat} {I : Nat → List Nat → σ → Prop} {R : σ → Prop}

theorem RunsAt.shape' (h : RunsAt u s k I R) {n : Nat} {oi : List Nat} {w : σ} (hw : I n oi w) :
    M.Post u.shape w (fun a w' => a = s ∧ I n oi w') R :=
  ((h.shape n oi w hw).and (h.run.shape w trivial)).mono (fun _ _ q => ⟨q.2.1, q.1⟩) fun _ q => q

theorem RunsAt.rank (h : RunsAt u s k I R) {n : Nat} {oi : List Nat} {w : σ} (hw : I n oi w) :
    M.Post u.rank w (fun a w' => a = s.rank ∧ I n oi w') R := by
  refine M.Post.bind (h.shape' hw) ?_
  rintro a w' ⟨rfl, hw'⟩
  exact ⟨rfl, hw'⟩

theorem RunsAt.outerRank (h : RunsAt u s k I R) {n : Nat} {oi : List Nat} {w : σ} (hw : I n oi w) :
    M.Post u.outerRank w (fun a w' => a = s.rank - k ∧ I n oi w') R := by
  refine M.Post.bind (h.rank hw) ?_
  rintro a w' ⟨rfl, hw'⟩
  refine M.Post.bind ((h.innerRank n oi w' hw').and (h.run.innerRank w' trivial)) ?_
  rintro a w' ⟨hw', rfl, -⟩
  exact ⟨rfl, hw'⟩

theorem RunsAt.stepLoop (h : RunsAt u s k I R) {limit : List Nat} {n : Nat} (m : Nat) :
    ∀ (oi : List Nat) (w : σ), m ≤ s.rank → I n oi w →
      M.Post (u.stepLoop limit m oi) w (fun q w' => ∃ oi', I n oi' w' ∧ (q.1 = true → oi' = q.2)) R := by
  induction m with
  | zero =>
    intro oi w _ hw
    exact ⟨oi, hw, nofun⟩
  | succ m ih =>
    intro oi w hm hw
    refine M.Post.bind (P := fun x w' => w' = w ∧ oi[m]? = some x)
      (M.post_lift (fun x h => ⟨rfl, h⟩) fun _ => h.panic _ _ _ hw) ?_
    rintro x _ ⟨rfl, hx⟩
    rename_i w
    refine M.Post.bind (P := fun x w' => w' = w)
      (M.post_lift (fun x h => rfl) fun _ => h.panic _ _ _ hw) ?_
    rintro l _ rfl
    rename_i w
    have hl : m < oi.length := (List.getElem?_eq_some_iff.1 hx).1
    have hxd : oi.getD m 0 = x := by simp [List.getD, hx]
    subst hxd
    by_cases hc : oi.getD m 0 + 1 < l
    · rw [if_pos hc]
      exact M.Post.bind (h.stepDim n oi m w hm hl hw) fun _ w' hw' => ⟨_, hw', fun _ => rfl⟩
    · rw [if_neg hc]
      exact M.Post.bind (h.resetDim n oi m w hm hl hw) fun _ w' hw' => ih _ w' (by omega) hw'

theorem RunsAt.stepOuter (h : RunsAt u s k I R) {limit oi : List Nat} {n : Nat} {w : σ} (hd : Digits limit oi)
    (hw : I n oi w) :
    M.Post (u.stepOuter limit oi) w (fun q w' => (∃ oi', I n oi' w' ∧ (q.1 = true → oi' = q.2)) ∧
      Stepped limit oi (s.rank - k) q) R := by
  refine M.Post.and ?_ ((h.run.stepOuter hd trivial).mono (fun _ _ q => q.1) fun _ q => q)
  refine M.Post.bind (h.outerRank hw) ?_
  rintro a w' ⟨rfl, hw'⟩
  refine M.Post.bind (h.rank hw') ?_
  rintro a w' ⟨rfl, hw'⟩
  by_cases hc : s.rank - k < s.rank
  · simp only [if_pos hc]
    refine M.Post.bind (h.rank hw') ?_
    rintro a w' ⟨rfl, hw'⟩
    rw [show check (0 < s.rank) = some () from if_pos (by omega)]
    show M.Post (M.bind (u.resetDim (s.rank - 1) 0) fun _ => u.stepLoop limit (s.rank - k) oi) w' _ _
    exact M.Post.bind (h.same _ _ w' (by omega) hw') fun _ w hw => h.stepLoop _ oi w (Nat.sub_le _ _) hw
  · simp only [if_neg hc]
    exact h.stepLoop _ oi w' (Nat.sub_le _ _) hw'

/-- The outer index during the evaluation: only the outer digits are used. -/
def Outer (D : List Nat) (O : Nat) (oi : List Nat) : Prop :=
  O ≤ oi.length ∧ (∀ i, i < O → oi.getD i 0 < max (D.getD i 0) 1) ∧ ∀ i, O ≤ i → oi.getD i 0 = 0

variable {f : α → M σ Unit}

theorem post_innerLoopAt {N : Nat} {oi : List Nat} {r : Nat}
    (hb : ∀ i w, i < r → I (N + i) oi w → M.Post (M.bind (u.get i) f) w (fun _ w' => I (N + i + 1) oi w') R) (m : Nat) :
    ∀ i w, i + m = r → I (N + i) oi w →
      M.Post (innerLoop u (fun _ x => f x) (List.range' i m) ()) w (fun _ w' => I (N + r) oi w') R := by
  induction m with
  | zero => intro i w hi hw; have : i = r := hi
            subst this; exact hw
  | succ m ih =>
    intro i w hi hw
    show M.Post (M.bind (u.get i) fun x => M.bind (f x) fun acc =>
      innerLoop u (fun _ x => f x) (List.range' (i + 1) m) acc) w _ _
    rw [← M.bind_assoc]
    exact M.Post.bind (hb i w (by omega) hw) fun _ w' hw' => ih (i + 1) w' (by omega) hw'

theorem post_foldLoopAt (hu : RunsAt u s k I R) {limit : List Nat} {r : Nat}
    (hl : s.rank - k = 0 ∨ limit = s.dims)
    (hb : ∀ oi, Outer s.dims (s.rank - k) oi → ∀ i w, i < r → I (value s.dims oi (s.rank - k) * r + i) oi w →
      M.Post (M.bind (u.get i) f) w (fun _ w' => I (value s.dims oi (s.rank - k) * r + i + 1) oi w') R) (fuel : Nat) :
    ∀ oi w, Digits limit oi → Outer s.dims (s.rank - k) oi →
      count s.dims (s.rank - k) ≤ fuel + value s.dims oi (s.rank - k) →
      I (value s.dims oi (s.rank - k) * r) oi w →
      M.Post (foldLoop u (fun _ x => f x) fuel ⟨0, r, oi, limit⟩ ()) w
        (fun _ w' => ∃ oi, I (count s.dims (s.rank - k) * r) oi w') R := by
  have hv : ∀ oi, value limit oi (s.rank - k) = value s.dims oi (s.rank - k) := by
    intro oi
    rcases hl with h | h
    · rw [h]; rfl
    · rw [h]
  have hcnt : count limit (s.rank - k) = count s.dims (s.rank - k) := by
    rcases hl with h | h
    · rw [h]; rfl
    · rw [h]
  induction fuel with
  | zero =>
    intro oi w hd ho hf
    have := value_lt hd (s.rank - k)
    rw [hv, hcnt] at this
    omega
  | succ fuel ih =>
    intro oi w hd ho hf hw
    refine M.Post.bind (post_innerLoopAt (hb oi ho) (r - 0) 0 w (by omega) hw) fun _ w hw => ?_
    refine M.Post.bind (hu.stepOuter hd hw) ?_
    rintro ⟨b, oi'⟩ w' ⟨⟨oi'', hI, he⟩, h0, h1, -, -, h2⟩
    cases b with
    | true =>
      have he : oi'' = oi' := he rfl
      subst he
      obtain ⟨h2, h3⟩ := h2
      have h2 : value limit oi'' (s.rank - k) = value limit oi (s.rank - k) + 1 := h2
      rw [hv, hv] at h2
      refine ih oi'' w' h1 ⟨?_, ?_, fun i hi => (h3 i hi).trans (ho.2.2 i hi)⟩ (by omega) ?_
      · have h0 : oi''.length = oi.length := h0
        rw [h0]; exact ho.1
      · intro i hi
        rcases hl with h | h
        · omega
        · have := h1 i; rwa [h] at this
      · rw [h2, Nat.add_mul, Nat.one_mul]
        exact hI
    | false =>
      have h2 : value limit oi (s.rank - k) + 1 = count limit (s.rank - k) := h2
      rw [hv, hcnt] at h2
      refine ⟨oi'', ?_⟩
      rw [← h2, Nat.add_mul, Nat.one_mul]
      exact hI

/-- Evaluating an expression which does not change its shape: an invariant indexed by the number of items and the
outer index. -/
theorem post_foldAt (hu : RunsAt u s k I R)
    (hz : ∀ oi oi' w, (∀ i, oi.getD i 0 = 0) → (∀ i, oi'.getD i 0 = 0) → I 0 oi w → I 0 oi' w)
    (hb : ∀ oi, Outer s.dims (s.rank - k) oi → ∀ i w, i < size (s.dims.drop (s.rank - k)) →
      I (value s.dims oi (s.rank - k) * size (s.dims.drop (s.rank - k)) + i) oi w →
      M.Post (M.bind (u.get i) f) w
        (fun _ w' => I (value s.dims oi (s.rank - k) * size (s.dims.drop (s.rank - k)) + i + 1) oi w') R)
    {w : σ} (hw : I 0 [] w) : M.Post (u.fold () fun _ x => f x) w (fun _ w' => ∃ oi, I (calls s k) oi w') R := by
  have key : ∀ it w, it.innerIndex = 0 → it.innerLimit = size (s.dims.drop (s.rank - k)) →
      (∀ i, it.outerIndex.getD i 0 = 0) → (s.rank - k = 0 ∨ it.outerLimit = s.dims) → s.rank - k ≤ it.outerIndex.length →
      count s.dims (s.rank - k) ≤ outerCount it → I 0 [] w →
      M.Post (u.foldLoop (fun _ x => f x) (outerCount it) it ()) w (fun _ w' => ∃ oi, I (calls s k) oi w') R := by
    rintro ⟨ii, il, oi, ol⟩ w h1 h2 h3 h4 h5 h6 hw
    dsimp only at h1 h2 h3 h4 h5
    subst h1
    subst h2
    have hzv := value_zero (limit := s.dims) h3 (s.rank - k)
    refine post_foldLoopAt hu h4 hb _ oi w (fun i => by rw [h3]; omega)
      ⟨h5, fun i _ => by rw [h3]; omega, fun i _ => h3 i⟩ (by omega) ?_
    rw [hzv, Nat.zero_mul]
    exact hz _ _ _ (fun _ => rfl) h3 hw
  show M.Post (M.bind (M.bind u.outerRank _) _) w _ _
  rw [M.bind_assoc]
  refine M.Post.bind (hu.outerRank hw) ?_
  rintro o w' ⟨rfl, hw'⟩
  show M.Post (M.bind (M.bind u.shape _) _) w' _ _
  rw [M.bind_assoc]
  refine M.Post.bind (hu.shape' hw') ?_
  rintro a w' ⟨rfl, hw'⟩
  rw [show check (a.rank - k ≤ a.dims.length) = some () from if_pos (Nat.sub_le _ _)]
  have hl : (a.dims.drop (a.rank - k)).foldl (· * ·) 1 = size (a.dims.drop (a.rank - k)) := by
    rw [foldl_mul, Nat.one_mul]
  by_cases ho : a.rank - k > 0
  · show M.Post (M.bind (if a.rank - k > 0 then _ else _ : M σ UserIter) _) w' _ _
    rw [if_pos ho]
    show M.Post (M.bind (M.bind u.rank _) _) w' _ _
    rw [M.bind_assoc]
    refine M.Post.bind (hu.rank hw') ?_
    rintro r w' ⟨rfl, hw'⟩
    show M.Post (M.bind (M.bind u.shape _) _) w' _ _
    rw [M.bind_assoc]
    refine M.Post.bind (hu.shape' hw') ?_
    rintro b w' ⟨rfl, hw'⟩
    refine key _ w' rfl hl (getD_replicate_zero _) (Or.inr rfl) ?_ ?_ hw'
    · show _ ≤ (List.replicate b.rank 0).length
      rw [List.length_replicate]; omega
    rw [outerCount_eq]
    refine count_le _ ?_
    show _ ≤ min (List.replicate b.rank 0).length b.dims.length
    rw [List.length_replicate]
    show b.dims.length - k ≤ min b.dims.length b.dims.length
    omega
  · show M.Post (M.bind (if a.rank - k > 0 then _ else _ : M σ UserIter) _) w' _ _
    rw [if_neg ho]
    have ho : a.rank - k = 0 := by omega
    refine key _ w' rfl hl (getD_defaultDims _) (Or.inl ho) (by omega) ?_ hw'
    rw [ho, outerCount_eq]
    exact count_pos _ _

end

end UserExpr
end Model
