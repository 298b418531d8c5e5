import Verif.Lemmas.UserExpr

/-!
Evaluating expressions defined outside of the crate into arrays.
-/

namespace Model
open Spec

variable {σ ρ T α : Type}

namespace UserExpr

/-! Iteration is safe whatever the expression does. -/

section
variable {u : UserExpr σ α} (h : SafeCode u)
include h

theorem SafeCode.rank (w : σ) : M.Post u.rank w (fun _ _ => True) fun _ => True :=
  M.Post.bind (h.shape w) fun _ _ _ => trivial

theorem SafeCode.outerRank (w : σ) : M.Post u.outerRank w (fun _ _ => True) fun _ => True :=
  M.Post.bind (SafeCode.rank h w) fun _ w _ => M.Post.bind (h.innerRank w) fun _ _ _ => trivial

theorem SafeCode.stepOuter {limit oi : List Nat} (hd : Digits limit oi) (w : σ) :
    M.Post (u.stepOuter limit oi) w (fun q _ => ∃ n, Stepped limit oi n q) fun _ => True := by
  refine M.Post.bind (SafeCode.outerRank h w) fun o w _ => M.Post.bind (SafeCode.rank h w) fun r w _ => ?_
  have key : ∀ w, M.Post (u.stepLoop limit o oi) w (fun q _ => ∃ n, Stepped limit oi n q) fun _ => True := fun w =>
    (post_stepLoop (I := fun _ => True) (fun i n w _ => h.resetDim i n w) (fun i w _ => h.stepDim i w)
      (fun _ _ => trivial) o oi w hd trivial).mono (fun _ _ h => ⟨o, h.1⟩) fun _ h => h
  by_cases hc : o < r
  · simp only [if_pos hc]
    refine M.Post.bind (SafeCode.rank h w) fun r w _ => ?_
    refine M.Post.bind (P := fun _ _ => True) (M.post_lift (fun _ _ => trivial) fun _ => trivial) fun _ w _ => ?_
    exact M.Post.bind (h.resetDim _ _ w) fun _ w _ => key w
  · simp only [if_neg hc]
    exact key w

theorem SafeCode.innerLoop {τ : Type} {f : τ → α → M σ τ} (hf : ∀ acc x, (f acc x).Tame) (is : List Nat) :
    ∀ acc, (innerLoop u f is acc).Tame := by
  induction is with
  | nil => intro _ _; trivial
  | cons i is ih =>
    intro acc w
    exact M.Post.bind (h.get i w) fun x w _ => M.Post.bind (hf acc x w) fun acc w _ => ih acc w

theorem SafeCode.foldLoop {τ : Type} {f : τ → α → M σ τ} (hf : ∀ acc x, (f acc x).Tame) (fuel : Nat) :
    ∀ it acc w, Digits it.outerLimit it.outerIndex →
      count it.outerLimit (min it.outerIndex.length it.outerLimit.length) ≤
        fuel + value it.outerLimit it.outerIndex (min it.outerIndex.length it.outerLimit.length) →
      M.Post (foldLoop u f fuel it acc) w (fun _ _ => True) fun _ => True := by
  induction fuel with
  | zero =>
    intro it acc w hd hl
    have := value_lt hd (min it.outerIndex.length it.outerLimit.length)
    omega
  | succ fuel ih =>
    intro it acc w hd hl
    refine M.Post.bind (SafeCode.innerLoop h hf _ acc w) fun acc w _ =>
      M.Post.bind (SafeCode.stepOuter h hd w) ?_
    rintro ⟨b, oi⟩ w ⟨n, h1, h2, h3, h4, h5⟩
    have h1 : oi.length = it.outerIndex.length := h1
    have h2 : Digits it.outerLimit oi := h2
    cases b with
    | false => trivial
    | true =>
      obtain ⟨h5, h6⟩ := h5
      refine ih _ acc w h2 ?_
      show count it.outerLimit (min oi.length it.outerLimit.length) ≤
        fuel + value it.outerLimit oi (min oi.length it.outerLimit.length)
      rw [h1]
      have := value_mono (limit := it.outerLimit) (a := it.outerIndex) (b := oi)
        (m := min it.outerIndex.length it.outerLimit.length) (by omega)
        (by have h5 : value it.outerLimit oi n = value it.outerLimit it.outerIndex n + 1 := h5
            omega)
        fun i hi => (h6 i hi).symm
      omega

theorem SafeCode.fold {τ : Type} {f : τ → α → M σ τ} (hf : ∀ acc x, (f acc x).Tame) (init : τ) :
    (u.fold init f).Tame := by
  intro w
  have key : ∀ it w, (∀ i, it.outerIndex.getD i 0 = 0) →
      M.Post (u.foldLoop f (outerCount it) it init) w (fun _ _ => True) fun _ => True := fun it w hz =>
    SafeCode.foldLoop h hf _ it init w (fun i => by rw [hz]; omega) (by rw [outerCount_eq]; omega)
  refine M.Post.bind (P := fun it _ => ∀ i, it.outerIndex.getD i 0 = 0) ?_ fun it w hz => key it w hz
  refine M.Post.bind (SafeCode.outerRank h w) fun o w _ => M.Post.bind (h.shape w) fun s w _ => ?_
  refine M.Post.bind (P := fun _ _ => True) (M.post_lift (fun _ _ => trivial) fun _ => trivial) fun _ w _ => ?_
  show M.Post (if o > 0 then _ else _ : M σ UserIter) w _ _
  by_cases ho : o > 0
  · rw [if_pos ho]
    exact M.Post.bind (SafeCode.rank h w) fun r w _ => M.Post.bind (h.shape w) fun s w _ => getD_replicate_zero _
  · rw [if_neg ho]
    exact getD_defaultDims _

theorem SafeCode.runForEach {f : α → M σ Unit} (hf : ∀ x, (f x).Tame) : (u.runForEach f).Tame := by
  unfold UserExpr.runForEach
  cases hx : u.forEach with
  | none => exact SafeCode.fold h (fun _ x => hf x) ()
  | some xs =>
    intro w
    refine M.post_foldlM (fun _ _ _ => True) xs (fun n hn _ w _ => ?_) trivial
    exact M.Post.bind (h.forEach xs hx _ (List.getElem_mem hn) w) fun x w _ => hf x w

end

/-! Filling a vector. -/

theorem handed_nil (u : UserExpr σ α) (w : σ) : HandedOut u w [] w := fun _ _ => by simp

theorem handed_trans {u : UserExpr σ α} {w w' w'' : σ} {ys zs : List α} (h : HandedOut u w ys w')
    (h' : HandedOut u w' zs w'') : HandedOut u w (ys ++ zs) w'' := fun g hg => by
  rw [h' g hg, h g hg, List.append_assoc]

theorem handed_keep {u : UserExpr σ α} {w w' w'' : σ} {ys : List α} (h : HandedOut u w ys w')
    (h' : ∀ g, Notes u g → g w'' = g w') : HandedOut u w ys w'' := fun g hg => by rw [h' g hg, h g hg]

theorem handed_snoc {u : UserExpr σ α} {w w' w'' : σ} {ys : List α} {x : α} (h : HandedOut u w ys w')
    (h' : ∀ g, Notes u g → g w'' = g w' ++ [x]) : HandedOut u w (ys ++ [x]) w'' := fun g hg => by
  rw [h' g hg, h g hg, List.append_assoc]

/-- Combine safety with what every record says. -/
theorem post_all {x : M σ α} {w : σ} (ht : x.Tame) {β : Type} {P : β → Prop} {Q : β → α → σ → Prop} {R : β → σ → Prop}
    (h : ∀ g, P g → M.Post x w (Q g) (R g)) :
    M.Post x w (fun a w' => x w = .ok a w' ∧ ∀ g, P g → Q g a w') fun w' => ∀ g, P g → R g w' := by
  have ht := ht w
  unfold M.Post at *
  cases hx : x w with
  | ok a w' => rw [hx] at h; exact ⟨rfl, h⟩
  | panic w' => rw [hx] at h; exact h
  | ub => rw [hx] at ht; exact ht
  | abort => rw [hx] at ht; exact ht

/-- The vector holds `xs` and the items `ys`, which are all those handed out since world `w₀`. -/
def Filled (u : UserExpr σ T) (w₀ : σ) (o : Own T) (xs : List T) (n : Nat) (t : σ × Own T) : Prop :=
  ∃ ys, ys.length = n ∧ Vec t.2 (xs ++ ys) ∧ Eff o t.2 [] ∧ t.2.cells.length = o.cells.length ∧ HandedOut u w₀ ys t.1

theorem runs_filled {u : UserExpr σ T} {s : Shape} {k : Nat} (h : SafeCode u) (hs : Steady u s k) {w₀ : σ} {o : Own T}
    {xs : List T} {n N : Nat} (hn : n ≤ N) :
    Runs u.up s k (fun t => Filled u w₀ o xs n t ∧ n ≤ N) (fun t => ∃ n, n ≤ N ∧ Filled u w₀ o xs n t) where
  shape := by
    rintro ⟨w, t⟩ ⟨⟨ys, h1, h2, h3, h4, h5⟩, -⟩
    refine M.post_up ((post_all h.shape fun g (hg : Notes u g) => hg.shape w).mono ?_ ?_)
    · rintro a w' ⟨e, hg⟩
      exact ⟨hs.shape _ _ _ e, ⟨ys, h1, h2, h3, h4, handed_keep h5 hg⟩, hn⟩
    · intro w' hg
      exact ⟨n, hn, ys, h1, h2, h3, h4, handed_keep h5 hg⟩
  innerRank := by
    rintro ⟨w, t⟩ ⟨⟨ys, h1, h2, h3, h4, h5⟩, -⟩
    refine M.post_up ((post_all h.innerRank fun g (hg : Notes u g) => hg.innerRank w).mono ?_ ?_)
    · rintro a w' ⟨e, hg⟩
      exact ⟨hs.innerRank _ _ _ e, ⟨ys, h1, h2, h3, h4, handed_keep h5 hg⟩, hn⟩
    · intro w' hg
      exact ⟨n, hn, ys, h1, h2, h3, h4, handed_keep h5 hg⟩
  resetDim := by
    rintro i c ⟨w, t⟩ ⟨⟨ys, h1, h2, h3, h4, h5⟩, -⟩
    refine M.post_up ((post_all (h.resetDim i c) fun g (hg : Notes u g) => hg.resetDim i c w).mono ?_ ?_)
    · rintro a w' ⟨e, hg⟩
      exact ⟨⟨ys, h1, h2, h3, h4, handed_keep h5 hg⟩, hn⟩
    · intro w' hg
      exact ⟨n, hn, ys, h1, h2, h3, h4, handed_keep h5 hg⟩
  stepDim := by
    rintro i ⟨w, t⟩ ⟨⟨ys, h1, h2, h3, h4, h5⟩, -⟩
    refine M.post_up ((post_all (h.stepDim i) fun g (hg : Notes u g) => hg.stepDim i w).mono ?_ ?_)
    · rintro a w' ⟨e, hg⟩
      exact ⟨⟨ys, h1, h2, h3, h4, handed_keep h5 hg⟩, hn⟩
    · intro w' hg
      exact ⟨n, hn, ys, h1, h2, h3, h4, handed_keep h5 hg⟩
  panic := fun t h => ⟨n, hn, h.1⟩

theorem post_fill {u : UserExpr σ T} {s : Shape} {k : Nat} (h : SafeCode u) (hs : Steady u s k) {w : σ} {o : Own T}
    {xs : List T} (hv : Vec o xs) (hc : xs.length + calls s k ≤ o.cells.length) :
    M.Post (u.up.runForEach vecAppend) (w, o) (fun _ t => Filled u w o xs (calls s k) t)
      fun t => ∃ n, n ≤ calls s k ∧ Filled u w o xs n t := by
  have hf : (u.up (ρ := Own T)).forEach = none := by show u.forEach.map _ = none; rw [hs.forEach]; rfl
  unfold runForEach
  rw [hf]
  refine (post_fold (u := u.up) (s := s) (k := k) (I := fun n t => Filled u w o xs n t ∧ n ≤ calls s k)
    (R := fun t => ∃ n, n ≤ calls s k ∧ Filled u w o xs n t) (fun n => ?_) (fun n hn i t ht => ?_) ?_).mono
    (fun _ _ h => h.1) fun _ h => h
  · by_cases hn : n ≤ calls s k
    · exact runs_filled h hs hn
    · exact ⟨fun _ h => absurd h.2 hn, fun _ h => absurd h.2 hn, fun _ _ _ h => absurd h.2 hn,
        fun _ _ h => absurd h.2 hn, fun _ h => absurd h.2 hn⟩
  · obtain ⟨w', t⟩ := t
    obtain ⟨⟨ys, h1, h2, h3, h4, h5⟩, -⟩ := ht
    refine M.Post.bind (P := fun x v => HandedOut u w (ys ++ [x]) v.1 ∧ v.2 = t)
      (M.post_up ((post_all (h.get i) fun g (hg : Notes u g) => hg.get i w').mono ?_ ?_)) ?_
    · rintro x v ⟨-, hg⟩
      exact ⟨handed_snoc h5 hg, rfl⟩
    · intro v hg
      exact ⟨n, by omega, ys, h1, h2, h3, h4, handed_keep h5 hg⟩
    · rintro x ⟨v, t'⟩ ⟨hx, rfl⟩
      have h4 : t'.cells.length = o.cells.length := h4
      refine (post_vecAppend x h2 (by rw [List.length_append, h4]; omega)).mono ?_ fun _ h => h
      rintro - ⟨v', t''⟩ ⟨rfl, a1, a2, a3⟩
      refine ⟨⟨ys ++ [x], by simp [h1], ?_, by simpa using h3.trans a2, a3.trans h4, hx⟩, hn⟩
      rw [← List.append_assoc]
      exact a1
  · exact ⟨⟨[], rfl, by simpa using hv, Eff.refl o, rfl, handed_nil u w⟩, Nat.zero_le _⟩

/-- No more items than elements, if the rows of an empty expression are empty. -/
theorem calls_eq {s : Shape} {k : Nat} (hp : size s.dims = 0 → size (s.dims.drop (s.rank - k)) = 0) :
    calls s k = size s.dims := by
  unfold calls
  rcases Nat.eq_zero_or_pos (size s.dims) with h | h
  · rw [hp h, h, Nat.mul_zero]
  · rw [count_eq _ _ (Nat.sub_le _ _)]
    have hall := size_pos_iff.1 h
    have : (s.dims.take (s.rank - k)).map (fun d => max d 1) = s.dims.take (s.rank - k) := by
      conv_rhs => rw [← List.map_id (s.dims.take (s.rank - k))]
      refine List.map_congr_left fun d hd => ?_
      have := hall d (List.mem_of_mem_take hd)
      show max d 1 = d
      omega
    rw [this, ← size_append, List.take_append_drop]

section
variable {u : UserExpr σ T} {s : Shape} {k : Nat} (h : SafeCode u) (hs : Steady u s k)
include h hs

theorem post_shape (w : σ) (o : Own T) :
    M.Post (M.up u.shape) (w, o) (fun a t => a = s ∧ t.2 = o ∧ HandedOut u w [] t.1)
      fun t => t.2 = o ∧ HandedOut u w [] t.1 :=
  M.post_up ((post_all h.shape fun g (hg : Notes u g) => hg.shape w).mono
    (fun _ _ e => ⟨hs.shape _ _ _ e.1, rfl, handed_keep (handed_nil u w) e.2⟩)
    fun _ e => ⟨rfl, handed_keep (handed_nil u w) e⟩)

theorem post_len (w : σ) (o : Own T) :
    M.Post (M.up u.len) (w, o) (fun a t => a = size s.dims ∧ t.2 = o ∧ HandedOut u w [] t.1)
      fun t => t.2 = o ∧ HandedOut u w [] t.1 := by
  refine M.post_up (M.Post.bind (P := fun a w' => a = s ∧ HandedOut u w [] w')
    ((post_all h.shape fun g (hg : Notes u g) => hg.shape w).mono
      (fun _ _ e => ⟨hs.shape _ _ _ e.1, handed_keep (handed_nil u w) e.2⟩)
      fun _ e => ⟨rfl, handed_keep (handed_nil u w) e⟩) ?_)
  rintro a w' ⟨rfl, e⟩
  exact ⟨Shape.len_eq _, rfl, e⟩

theorem post_cloneIntoVec {w : σ} {o : Own T} {xs : List T} (hv : Vec o xs)
    (hc : xs.length + calls s k ≤ o.cells.length) :
    M.Post u.cloneIntoVec (w, o) (fun _ t => Filled u w o xs (calls s k) t)
      fun t => ∃ n, n ≤ calls s k ∧ Filled u w o xs n t := by
  have base : ∀ w', HandedOut u w [] w' → ∃ n, n ≤ calls s k ∧ Filled u w o xs n (w', o) := fun w' hw' =>
    ⟨0, Nat.zero_le _, [], rfl, by simpa using hv, Eff.refl o, rfl, hw'⟩
  refine M.Post.bind ((post_len h hs w o).mono (fun _ _ h => h) ?_) ?_
  · rintro ⟨w', o'⟩ ⟨rfl, e⟩
    exact base w' e
  rintro n ⟨w', o'⟩ ⟨rfl, e, hw⟩
  have e : o' = o := e
  subst e
  show M.Post (M.bind (M.lift (check (size s.dims ≤ o'.cells.length - o'.len))) _) (w', o') _ _
  refine M.Post.bind (P := fun _ t => t = (w', o')) (M.post_lift (fun _ _ => rfl) fun _ => base w' hw) ?_
  rintro - - rfl
  refine (post_fill h hs hv hc).mono ?_ ?_
  · rintro - t ⟨ys, a1, a2, a3, a4, a5⟩
    exact ⟨ys, a1, a2, a3, a4, by simpa using handed_trans hw a5⟩
  · rintro t ⟨n, hn, ys, a1, a2, a3, a4, a5⟩
    exact ⟨n, hn, ys, a1, a2, a3, a4, by simpa using handed_trans hw a5⟩

theorem post_tensorFrom (hp : size s.dims = 0 → size (s.dims.drop (s.rank - k)) = 0) (w : σ) (o : Own T) :
    M.Post u.tensorFrom (w, o)
      (fun _ t => ∃ ys, Holds t.2 ys ∧ t.2.shape = s ∧ t.2.log = o.log ∧ HandedOut u w ys t.1)
      fun t => ∃ ys, ys.length ≤ size s.dims ∧ t.2.log = o.log ++ ys ∧ HandedOut u w ys t.1 := by
  refine M.Post.bind ((post_shape h hs w o).mono (fun _ _ h => h) ?_) ?_
  · rintro ⟨w', o'⟩ ⟨rfl, e⟩
    exact ⟨[], Nat.zero_le _, by simp, e⟩
  rintro a ⟨w', o'⟩ ⟨rfl, e, hw⟩
  have e : o' = o := e
  subst e
  show M.Post (M.bind (M.lift (check (a.len ≤ o'.limit))) _) (w', { o' with cells := [], len := 0, shape := a }) _ _
  refine M.Post.bind (P := fun _ t => t = (w', ({ o' with cells := [], len := 0, shape := a } : Own T)))
    (M.post_lift (fun _ _ => rfl) fun _ => ⟨[], Nat.zero_le _, by simp, hw⟩) ?_
  rintro - - rfl
  let o1 : Own T := { o' with
    cells := List.replicate a.len none
    len := 0
    shape := a }
  show M.Post (M.onPanic u.cloneIntoVec _) (w', o1) _ _
  have hcalls := calls_eq hp
  refine M.post_onPanic ((post_cloneIntoVec h hs (o := o1) (xs := []) ⟨rfl, by simp⟩ ?_).mono ?_ ?_)
  · rw [hcalls]
    show 0 + _ ≤ (List.replicate a.len (none : Option T)).length
    rw [List.length_replicate, Shape.len_eq]
    omega
  · rintro - t ⟨ys, a1, a2, a3, a4, a5⟩
    have hsh : t.2.shape = a := a3.shape
    refine ⟨ys, Vec.holds (by simpa using a2) (by rw [hsh]; exact hs.wf) (by rw [hsh, a1, hcalls]), hsh, ?_,
      by simpa using handed_trans hw a5⟩
    rw [a3.log, List.append_nil]
  · rintro ⟨v, t⟩ ⟨n, hn, ys, a1, a2, a3, a4, a5⟩
    refine post_dropAll a2 fun o2 ho2 => ⟨ys, by omega, ?_, by simpa using handed_trans hw a5⟩
    show o2.log = _
    have a3 : t.log = _ := a3.log
    rw [ho2, a3, List.append_nil]
    rfl

theorem post_arrayFrom (hp : size s.dims = 0 → size (s.dims.drop (s.rank - k)) = 0) (ty : ShapeTy) (w : σ) (o : Own T) :
    M.Post (u.arrayFrom ty) (w, o)
      (fun _ t => ty.Conforms s.dims ∧ ∃ ys, Holds t.2 ys ∧ t.2.cells = ys.map some ∧ t.2.shape = ⟨ty, s.dims⟩ ∧
        t.2.log = o.log ∧ HandedOut u w ys t.1)
      fun t => ∃ ys, ys.length ≤ size s.dims ∧ t.2.log = o.log ++ ys ∧ HandedOut u w ys t.1 := by
  refine M.Post.bind ((post_shape h hs w o).mono (fun _ _ h => h) ?_) ?_
  · rintro ⟨w', o'⟩ ⟨rfl, e⟩
    exact ⟨[], Nat.zero_le _, by simp, e⟩
  rintro a ⟨w', o'⟩ ⟨rfl, e, hw⟩
  have e : o' = o := e
  subst e
  refine M.Post.bind (P := fun b t => t = (w', o') ∧ ty.Conforms a.dims ∧ b = ⟨ty, a.dims⟩)
    (M.post_lift (fun b hb => ?_) fun _ => ⟨[], Nat.zero_le _, by simp, hw⟩) ?_
  · rw [Shape.fromDims_eq] at hb
    split at hb
    · injection hb with hb
      exact ⟨rfl, by assumption, hb.symm⟩
    · cases hb
  rintro - - ⟨rfl, hcf, rfl⟩
  let o1 : Own T := { o' with
    cells := List.replicate (Shape.len ⟨ty, a.dims⟩) none
    len := 0
    shape := ⟨ty, a.dims⟩ }
  show M.Post (M.bind (M.onPanic (u.up.runForEach vecAppend) _) _) (w', o1) _ _
  have hcalls := calls_eq hp
  have hlen : o1.cells.length = size a.dims := by
    show (List.replicate (Shape.len ⟨ty, a.dims⟩) (none : Option T)).length = _
    rw [List.length_replicate, Shape.len_eq]
  refine M.Post.bind (P := fun _ t => Filled u w' o1 [] (calls a k) t)
    (M.post_onPanic ((post_fill h hs (o := o1) (xs := []) ⟨rfl, by simp⟩ ?_).mono (fun _ _ h => h) ?_)) ?_
  · rw [hcalls, hlen]
    show 0 + _ ≤ _
    omega
  · rintro ⟨v, t⟩ ⟨n, hn, ys, a1, a2, a3, a4, a5⟩
    refine post_dropAll a2 fun o2 ho2 => ⟨ys, by omega, ?_, by simpa using handed_trans hw a5⟩
    show o2.log = _
    have a3 : t.log = _ := a3.log
    rw [ho2, a3, List.append_nil]
    rfl
  · rintro - ⟨v, t⟩ ⟨ys, a1, a2, a3, a4, a5⟩
    have hsh : t.shape = ⟨ty, a.dims⟩ := a3.shape
    have hcells : t.cells = ys.map some := by
      obtain ⟨rest, hrest⟩ := a2.2
      have hl := congrArg List.length hrest
      have a4 : t.cells.length = o1.cells.length := a4
      rw [List.length_append, List.length_map, List.nil_append, a1, a4, hlen, hcalls] at hl
      have : rest = [] := List.eq_nil_of_length_eq_zero (by omega)
      rw [this, List.append_nil, List.nil_append] at hrest
      exact hrest.symm
    show M.Post (if t.cells.all Option.isSome then M.pure () else M.ub) (v, t) _ _
    rw [if_pos (by rw [hcells]; simp)]
    refine ⟨hcf, ys, ⟨by rw [hsh]; exact hcf, by rw [hsh, a1, hcalls], by simpa using a2.2⟩, hcells, hsh, ?_,
      by simpa using handed_trans hw a5⟩
    have a3 : t.log = _ := a3.log
    show t.log = _
    rw [a3, List.append_nil]

theorem post_expandU {w : σ} {o : Own T} {xs : List T} (ho : Holds o xs) :
    M.Post u.expand (w, o)
      (fun _ t => ∃ ys, Holds t.2 (xs ++ ys) ∧ ys.length = size s.dims ∧ t.2.log = o.log ∧ t.2.shape.ty = o.shape.ty ∧
        HandedOut u w ys t.1 ∧ (size s.dims = 0 → t.2 = o) ∧ (0 < size s.dims → Fits o.shape s.dims ∧
          t.2.shape.dims = if size o.shape.dims = 0 then s.dims else
            (o.shape.dims.getD 0 0 + s.dims.getD 0 0) :: o.shape.dims.tail))
      fun t => ∃ zs ds ys, Holds t.2 zs ∧ t.2.shape.ty = o.shape.ty ∧ t.2.log = o.log ++ ds ∧
        zs ++ ds = xs ++ ys ∧ (zs = [] ∨ ds = []) ∧ HandedOut u w ys t.1 := by
  refine M.Post.bind (P := fun _ t => t = (w, o) ∧ 0 < o.shape.rank ∧ o.shape.ty.head = .dyn)
    (post_checkHead (fun h => ⟨rfl, h⟩) fun _ =>
      ⟨xs, [], [], ho, rfl, by simp, by simp, .inr rfl, handed_nil u w⟩) ?_
  rintro - - ⟨rfl, hr, hh⟩
  refine M.Post.bind ((post_len h hs w o).mono (fun _ _ h => h) ?_) ?_
  · rintro ⟨w', o'⟩ ⟨rfl, e⟩
    exact ⟨xs, [], [], ho, rfl, by simp, by simp, .inr rfl, e⟩
  rintro n ⟨w', o'⟩ ⟨rfl, e, hw⟩
  have e : o' = o := e
  subst e
  show M.Post (if 0 < size s.dims then _ else _ : M (σ × Own T) Unit) (w', o') _ _
  by_cases h0 : 0 < size s.dims
  swap
  · rw [if_neg h0]
    exact ⟨[], by simpa using ho, by simp; omega, rfl, rfl, hw, fun _ => rfl, fun hn => absurd hn h0⟩
  rw [if_pos h0]
  have hvec := parts_vec ho
  have hdef := Shape.default_size_of_head ho.1 hr hh
  have hcalls : calls s k = size s.dims := calls_eq fun hz => by omega
  have same : ∀ (R : σ × Own T → Prop) o1 v, Vec o1 xs → Eff (parts o') o1 [] → HandedOut u w [] v →
      (∀ o2, Holds o2 xs → o2.shape = o'.shape → o2.log = o'.log → R (v, o2)) →
      (Recovers R (v, o1) ∧ ∀ ys, Vec (v, o1).2 ys → ys.length ≠ size (v, o1).2.shape.dims →
        size (Shape.default (v, o1).2.shape.ty).dims = 0) := by
    intro R o1 v hv he hw' hR
    have hsh : o1.shape = o'.shape := he.shape
    have hl : xs.length = size o1.shape.dims := by rw [hsh]; exact ho.2.1
    refine ⟨⟨xs, hv, fun _ => hR o1 (Vec.holds hv (by rw [hsh]; exact ho.1) hl) hsh ?_, fun hn => absurd hl hn⟩, fun ys _ _ => ?_⟩
    · rw [he.log, List.append_nil]; rfl
    · show size (Shape.default o1.shape.ty).dims = 0
      rw [hsh]; exact hdef
  refine post_withMutParts (M.Post.bind (M.Post.mono (post_vecReserve (size s.dims) hvec) (fun _ _ h => h) ?_) ?_)
  · rintro t ⟨rfl, -⟩
    exact same _ _ w' hvec (Eff.refl _) hw fun o2 a1 a2 a3 =>
      ⟨xs, [], [], a1, by rw [a2], by rw [a3, List.append_nil], by simp, .inr rfl, hw⟩
  rintro - ⟨v, o1⟩ ⟨rfl, hv1, he1, hc1⟩
  have hsh : o1.shape = o'.shape := he1.shape
  refine M.Post.bind ((post_shape h hs v o1).mono (fun _ _ h => h) ?_) ?_
  · rintro ⟨w2, o2⟩ ⟨e2, e3⟩
    have e2 : o2 = o1 := e2
    subst e2
    have hw2 := handed_trans hw e3
    exact same _ _ w2 hv1 he1 hw2 fun o2 a1 a2 a3 =>
      ⟨xs, [], [], a1, by rw [a2], by rw [a3, List.append_nil], by simp, .inr rfl, hw2⟩
  rintro a ⟨w2, o2⟩ ⟨rfl, e2, e3⟩
  have e2 : o2 = o1 := e2
  subst e2
  have hw2 := handed_trans hw e3
  refine M.Post.bind (P := fun _ t => ∃ s', expandShape o'.shape a.dims = some s' ∧
    t = (w2, { o2 with shape := s' })) (post_setShape ?_ ?_) ?_
  · intro s' hs'
    rw [hsh] at hs'
    exact ⟨s', hs', rfl⟩
  · intro _
    exact same _ _ w2 hv1 he1 hw2 fun o2 a1 a2 a3 =>
      ⟨xs, [], [], a1, by rw [a2], by rw [a3, List.append_nil], by simp, .inr rfl, hw2⟩
  rintro - - ⟨s', hs', rfl⟩
  have hfit : Fits o'.shape a.dims := by
    by_contra hn
    rw [(expandShape_none hr ho.1 hh).2 hn] at hs'
    cases hs'
  obtain ⟨w1', w2', w3', w4'⟩ := expandShape_some hr hs' h0
  have hv2 : Vec ({ o2 with shape := s' } : Own T) xs := hv1
  have hc1 : xs.length + size a.dims ≤ o2.cells.length := hc1
  have hlog : o2.log = o'.log := by have := he1.log; simpa [parts] using this
  refine M.Post.mono (post_cloneIntoVec h hs (w := w2) hv2 (by rw [hcalls]; exact hc1)) ?_ ?_
  · rintro - t ⟨ys, a1, a2, a3, a4, a5⟩
    have a3s : t.2.shape = s' := a3.shape
    rw [hcalls] at a1
    refine ⟨ys, Vec.holds a2 (by rw [a3s]; exact w1') ?_, a1, ?_, by rw [a3s, w2'],
      by simpa using handed_trans hw2 a5, fun hz => by omega, fun _ => ⟨hfit, by rw [a3s, w4']⟩⟩
    · rw [a3s, w3', List.length_append, a1, ho.2.1]
    · have := a3.log; simpa [hlog] using this
  · rintro ⟨v', t⟩ ⟨n, hn, ys, a1, a2, a3, a4, a5⟩
    have a3s : t.shape = s' := a3.shape
    have a3l : t.log = o'.log := by have := a3.log; simpa [hlog] using this
    have hd5 : HandedOut u w ys v' := by simpa using handed_trans hw2 a5
    refine ⟨⟨xs ++ ys, a2, fun heq => ?_, fun _ _ o3 b1 b2 b3 b4 => ?_⟩, fun _ _ _ => ?_⟩
    · exact ⟨xs ++ ys, [], ys, Vec.holds a2 (by show t.shape.WF; rw [a3s]; exact w1') heq, by show t.shape.ty = _; rw [a3s, w2'],
        by rw [List.append_nil]; exact a3l, by simp, .inr rfl, hd5⟩
    · refine ⟨[], xs ++ ys, ys, b1, ?_, ?_, by simp, .inl rfl, hd5⟩
      · show o3.shape.ty = _
        rw [b3]
        show (Shape.default t.shape.ty).ty = _
        rw [a3s, w2', Shape.default_ty]
      · show o3.log = _
        rw [b2]
        show t.log ++ _ = _
        rw [a3l]
    · show size (Shape.default t.shape.ty).dims = 0
      rw [a3s, w2']; exact hdef

end

/-! Rows of an expression without elements. -/

theorem bind_ok {x : M σ α} {β : Type} {f : α → M σ β} {w w' : σ} {a : α} (h : x w = .ok a w') :
    M.bind x f w = f a w' := by
  unfold M.bind; rw [h]

theorem bind_ub {x : M σ α} {β : Type} {f : α → M σ β} {w : σ} (h : x w = .ub) : M.bind x f w = .ub := by
  unfold M.bind; rw [h]

section
variable {u : UserExpr σ T} {s : Shape} {k : Nat} (h : NeverPanics u) (hs : Steady u s k)
include h hs

theorem shape_ok (w : σ) (o : Own T) : ∃ w', M.up u.shape (w, o) = .ok s (w', o) := by
  obtain ⟨a, w', e⟩ := h.shape w
  have := hs.shape _ _ _ e
  subst this
  exact ⟨w', by unfold M.up; dsimp only; rw [e]⟩

theorem innerRank_ok (w : σ) (o : Own T) : ∃ w', M.up u.innerRank (w, o) = .ok k (w', o) := by
  obtain ⟨a, w', e⟩ := h.innerRank w
  have := hs.innerRank _ _ _ e
  subst this
  exact ⟨w', by unfold M.up; dsimp only; rw [e]⟩

theorem rank_ok (w : σ) (o : Own T) : ∃ w', (u.up (ρ := Own T)).rank (w, o) = .ok s.rank (w', o) := by
  obtain ⟨w', e⟩ := shape_ok h hs w o
  exact ⟨w', bind_ok e⟩

theorem outerRank_ok (w : σ) (o : Own T) :
    ∃ w', (u.up (ρ := Own T)).outerRank (w, o) = .ok (s.rank - k) (w', o) := by
  obtain ⟨w1, e1⟩ := rank_ok h hs w o
  obtain ⟨w2, e2⟩ := innerRank_ok h hs w1 o
  exact ⟨w2, (bind_ok e1).trans (bind_ok e2)⟩

theorem iter_ok (w : σ) (o : Own T) : ∃ w' oi ol, (u.up (ρ := Own T)).iter (w, o) =
    .ok ⟨0, size (s.dims.drop (s.rank - k)), oi, ol⟩ (w', o) := by
  obtain ⟨w1, e1⟩ := outerRank_ok h hs w o
  obtain ⟨w2, e2⟩ := shape_ok h hs w1 o
  have hl : (s.dims.drop (s.rank - k)).foldl (· * ·) 1 = size (s.dims.drop (s.rank - k)) := by
    rw [foldl_mul, Nat.one_mul]
  have hck : check (s.rank - k ≤ s.dims.length) = some () := if_pos (Nat.sub_le _ _)
  by_cases ho : s.rank - k > 0
  · obtain ⟨w3, e4⟩ := rank_ok h hs w2 o
    obtain ⟨w4, e5⟩ := shape_ok h hs w3 o
    refine ⟨w4, List.replicate s.rank 0, s.dims, (bind_ok e1).trans ((bind_ok e2).trans ?_)⟩
    show M.bind (M.lift (check (s.rank - k ≤ s.dims.length))) _ (w2, o) = _
    rw [hck]
    show (if s.rank - k > 0 then _ else _ : M (σ × Own T) UserIter) (w2, o) = _
    rw [if_pos ho, ← hl]
    exact (bind_ok e4).trans (bind_ok e5)
  · refine ⟨w2, defaultDims u.ty, defaultDims u.ty, (bind_ok e1).trans ((bind_ok e2).trans ?_)⟩
    show M.bind (M.lift (check (s.rank - k ≤ s.dims.length))) _ (w2, o) = _
    rw [hck]
    show (if s.rank - k > 0 then _ else _ : M (σ × Own T) UserIter) (w2, o) = _
    rw [if_neg ho, ← hl]
    rfl

theorem runForEach_ub {f : T → M (σ × Own T) Unit} {o : Own T} (hf : ∀ x w, f x (w, o) = .ub)
    (hp : 0 < size (s.dims.drop (s.rank - k))) (w : σ) : (u.up (ρ := Own T)).runForEach f (w, o) = .ub := by
  have hfe : (u.up (ρ := Own T)).forEach = none := by show u.forEach.map _ = none; rw [hs.forEach]; rfl
  unfold runForEach
  rw [hfe]
  obtain ⟨w1, oi, ol, e1⟩ := iter_ok h hs w o
  refine (bind_ok e1).trans ?_
  obtain ⟨n, hn⟩ : ∃ n, outerCount ⟨0, size (s.dims.drop (s.rank - k)), oi, ol⟩ = n + 1 :=
    ⟨_, (Nat.succ_pred_eq_of_pos (by rw [outerCount_eq]; exact count_pos _ _)).symm⟩
  obtain ⟨m, hm⟩ : ∃ m, size (s.dims.drop (s.rank - k)) = m + 1 := ⟨_, (Nat.succ_pred_eq_of_pos hp).symm⟩
  rw [hn]
  refine bind_ub ?_
  show innerLoop u.up (fun _ x => f x) (List.range' 0 (size (s.dims.drop (s.rank - k)) - 0)) () (w1, o) = .ub
  rw [hm, Nat.sub_zero, List.range'_succ]
  obtain ⟨x, w2, e2⟩ := h.get 0 w1
  have e3 : M.up (u.get 0) (w1, o) = .ok x (w2, o) := by unfold M.up; dsimp only; rw [e2]
  exact (bind_ok e3).trans (bind_ub (hf x w2))

theorem tensorFrom_ub (hz : size s.dims = 0) (hp : 0 < size (s.dims.drop (s.rank - k))) (w : σ) (o : Own T) :
    u.tensorFrom (w, o) = .ub := by
  have hlen : s.len = 0 := by rw [Shape.len_eq, hz]
  obtain ⟨w1, e1⟩ := shape_ok h hs w o
  obtain ⟨w2, e2⟩ := shape_ok h hs w1 { o with cells := [], len := 0, shape := s }
  refine (bind_ok e1).trans ?_
  show M.bind (M.lift (check (s.len ≤ o.limit))) _ (w1, { o with cells := [], len := 0, shape := s }) = .ub
  rw [show check (s.len ≤ o.limit) = some () from if_pos (by omega)]
  show M.onPanic u.cloneIntoVec _ (w1, { o with cells := List.replicate s.len none, len := 0, shape := s }) = .ub
  have key : u.cloneIntoVec (w1, { o with cells := List.replicate s.len none, len := 0, shape := s }) = .ub := by
    rw [hlen]
    have e3 : M.up u.len (w1, { o with cells := [], len := 0, shape := s }) =
        .ok s.len (w2, { o with cells := [], len := 0, shape := s }) := by
      unfold M.up at e2 ⊢
      dsimp only at e2 ⊢
      unfold len M.bind
      cases hx : u.shape w1 with
      | ok a w' => rw [hx] at e2; injection e2 with a1 a2; subst a1; injection a2 with a2; subst a2; rfl
      | panic w' => rw [hx] at e2; cases e2
      | ub => rw [hx] at e2; cases e2
      | abort => rw [hx] at e2; cases e2
    refine (bind_ok e3).trans ?_
    show M.bind (M.lift (check (s.len ≤ ([] : List (Option T)).length - 0))) _
      (w2, { o with cells := [], len := 0, shape := s }) = .ub
    rw [show check (s.len ≤ ([] : List (Option T)).length - 0) = some () from if_pos (by omega)]
    exact runForEach_ub h hs (fun x w => rfl) hp w2
  unfold M.onPanic
  rw [key]

theorem arrayFrom_ub {ty : ShapeTy} (hc : ty.Conforms s.dims) (hz : size s.dims = 0)
    (hp : 0 < size (s.dims.drop (s.rank - k))) (w : σ) (o : Own T) : u.arrayFrom ty (w, o) = .ub := by
  obtain ⟨w1, e1⟩ := shape_ok h hs w o
  refine (bind_ok e1).trans ?_
  show M.bind (M.lift (Shape.fromDims ty s.dims)) _ (w1, o) = .ub
  rw [Shape.fromDims_eq, if_pos hc]
  have hlen : Shape.len ⟨ty, s.dims⟩ = 0 := by rw [Shape.len_eq]; exact hz
  show M.bind (M.onPanic ((u.up (ρ := Own T)).runForEach vecAppend) _) _
    (w1, { o with cells := List.replicate (Shape.len ⟨ty, s.dims⟩) none, len := 0, shape := ⟨ty, s.dims⟩ }) = .ub
  rw [hlen]
  refine bind_ub ?_
  unfold M.onPanic
  rw [runForEach_ub h hs (fun x w => rfl) hp w1]

end

end UserExpr
end Model
