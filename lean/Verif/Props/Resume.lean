import Verif.Lemmas.ResumeNext
import Verif.Props.Expr

/-! Iterators and panics: arrays whose elements are moved out (C73), and going on after a panic (C74). -/

namespace Props
open Spec Model Model.Iter Model.Expr

variable {σ α β τ : Type}

/-- The functions that keep the state after a panic have the same results as those of the other properties. -/
theorem C73_model (e : Expr σ α) (it : Iter σ α) (s : σ) :
    (∀ i, (e.getE i s).erase = e.get i s) ∧ (it.nextE s).erase = it.next s ∧
    (∀ (init : τ) f, (it.foldE init f s).result = it.fold init f s) :=
  ⟨fun i => getE_erase e i s, nextE_erase it s, fun init f => foldE_result f it init s⟩

/-- After any calls of `next`, each of which has returned an item or has panicked:
- each array whose elements are moved out has the size of the expression, and at most one element per call
  has been moved out of it;
- dropping the iterator drops exactly the other elements;
- the next call is no undefined behaviour; if it returns an item then one element of each array has been
  moved out, if it panics then at most one of each, and if it returns `None` then nothing has changed. -/
theorem C73_next (e : Expr σ α) (hb : Built e) (hp : Plain e) (ht : TameClosures e) (n : Nat) (it : Iter σ α)
    (h : After e n it) :
    (∀ p ∈ it.expr.owned, p.2 = size e.dims ∧ p.1 ≤ n ∧ p.1 ≤ p.2) ∧ Disposed it.expr ∧
    ∀ s, match it.nextE s with
      | .ok (some _) it' _ => AllTaken it.expr.owned it'.expr.owned
      | .ok none it' _ => it'.expr.owned = it.expr.owned
      | .panic it' _ => SomeTaken it.expr.owned it'.expr.owned
      | .ub => False
      | .abort => False := by
  have hw := wf_of_built hb
  obtain ⟨q, c, hat, ho, hn, -⟩ := after_at hw hp h (owned_new hw)
  have hle := pos_le hp hat
  have hsz : ∀ p ∈ it.expr.owned, p.2 = size e.dims := fun p hpm => by
    have := (owned_size (hat.later.wfs hw.wfs)).1 p hpm
    rw [this]
    unfold dims
    rw [hat.later.shape]
  have hall : ∀ p ∈ it.expr.owned, p.2 = size e.dims ∧ p.1 ≤ n ∧ p.1 ≤ p.2 := fun p hpm =>
    ⟨hsz p hpm, le_trans (ho p hpm) hn, by rw [hsz p hpm]; exact le_trans (ho p hpm) hle⟩
  refine ⟨hall, disposed_of fun p hpm => (hall p hpm).2.2, fun s => ?_⟩
  have h1 := nextE_at hw hp hat s
  have h2 := nextE_clean hw hp ht hat ho s
  cases hx : it.nextE s with
  | ok x it' t =>
    rw [hx] at h1
    cases x with
    | none => exact h1.1
    | some x => exact h1.1
  | panic it' t => rw [hx] at h1; exact h1.1
  | ub => rw [hx] at h2; exact h2
  | abort => rw [hx] at h2; exact h2

/-- A `[2, 2]` array seen through a strided view: every other column of a `[2, 4]` array. -/
def evens : View := ⟨0, .strided ⟨.static [.dyn, .dyn], [2, 2]⟩ [4, 2]⟩

/-- The elements of an owned `[2, 2]` array, together with the addresses of the items of a view; the closure
panics for the second one. -/
def halting : Expr Unit Nat :=
  .map (.zip (.view true evens) (.intoExpr ⟨.static [.dyn, .dyn], [2, 2]⟩ [10, 11, 12, 13] 0)
    ⟨.static [.dyn, .dyn], [2, 2]⟩) fun x => if x.2 = 11 then fun s => .panic s else M.pure x.2

theorem halting_built : Built halting :=
  .map (.zip (a := .view true evens) (b := .intoExpr ⟨.static [.dyn, .dyn], [2, 2]⟩ [10, 11, 12, 13] 0)
    (.view (by decide)) (.intoExpr (by decide) rfl) rfl)

theorem halting_tame : TameClosures halting := by
  refine ⟨⟨trivial, trivial⟩, fun x s => ?_⟩
  show M.Post _ _ _ _
  unfold M.Post
  by_cases h : x.2 = 11 <;> simp [h, M.pure]

/-- C73_next, after an item and a panic: two elements are moved out, the other two are dropped. -/
example : Built halting ∧ Plain halting ∧ TameClosures halting ∧
    ∃ it, After halting 2 it ∧ it.expr.owned = [(2, 4)] ∧ it.expr.dropE = some [[2, 3]] :=
  ⟨halting_built, .inl (by decide), halting_tame, _, .panic (s := ()) (t := ()) (.item (s := ()) (t := ()) .new rfl) rfl, rfl, by decide⟩

/-- `fold` is no undefined behaviour. If it returns then all elements of all arrays have been moved out. If it
panics then the same number of elements has been moved out of each array, up to one element of the current
item, and the other elements are dropped. -/
theorem C73_fold (e : Expr σ α) (hb : Built e) (hp : NoPhantomRows e) (ht : TameClosures e) (f : τ → α → M σ τ)
    (hf : ∀ acc x, (f acc x).Tame) (init : τ) (s : σ) :
    match (Iter.new e).foldE init f s with
    | .ok _ e' _ => e'.owned.length = e.owned.length ∧ ∀ p ∈ e'.owned, p.1 = size e.dims ∧ p.2 = size e.dims
    | .panic e' _ => Disposed e' ∧ e'.owned.length = e.owned.length ∧ ∃ n, n ≤ size e.dims ∧
        ∀ p ∈ e'.owned, p.2 = size e.dims ∧ (p.1 = n ∨ p.1 = n + 1)
    | .ub => False
    | .abort => False := by
  have hw := wf_of_built hb
  have hk : rows e * row e = size e.dims := by
    rcases Nat.eq_zero_or_pos (size e.dims) with h0 | h0
    · rw [h0, show row e = 0 from hp h0, Nat.mul_zero]
    · exact (size_split h0).symm
  have h := foldE_folded (T := True) hw (fun _ => ht) hp f (fun _ => hf) (at_new e) (fun p hpm => by rw [owned_new hw p hpm]; exact Nat.zero_le _)
    init s
  rw [show pos e 0 0 = 0 by simp [pos], Nat.sub_zero, hk] at h
  have hown : ∀ p ∈ (Iter.new e).expr.owned, p.1 = 0 ∧ p.2 = size e.dims := fun p hpm =>
    ⟨owned_new hw p hpm, (owned_size hw.wfs).1 p hpm⟩
  have hplus : ∀ j, ∀ p ∈ plus j (Iter.new e).expr.owned, p.1 = j ∧ p.2 = size e.dims := by
    intro j p hpm
    obtain ⟨p', hp', rfl⟩ := List.mem_map.1 hpm
    obtain ⟨h1, h2⟩ := hown p' hp'
    exact ⟨by simp [h1], h2⟩
  cases hx : (Iter.new e).foldE init f s with
  | ok x e' t =>
    rw [hx] at h
    refine ⟨by rw [h.2]; exact List.length_map .., fun p hpm => ?_⟩
    rw [h.2] at hpm
    exact hplus _ p hpm
  | panic e' t =>
    rw [hx] at h
    have key : ∃ n, n ≤ size e.dims ∧ ∀ p ∈ e'.owned, p.2 = size e.dims ∧ (p.1 = n ∨ p.1 = n + 1) ∧
        p.1 ≤ size e.dims := by
      rcases h.2 with ⟨j, hj, h⟩ | ⟨-, j, hj, h⟩
      · refine ⟨j, hj.le, fun p hpm => ?_⟩
        obtain ⟨p', hp', h1, h2⟩ := SomeTaken.mem h p hpm
        obtain ⟨h3, h4⟩ := hplus j p' hp'
        rw [h3] at h2
        exact ⟨h1.trans h4, h2, by omega⟩
      · refine ⟨j, hj, fun p hpm => ?_⟩
        rw [h] at hpm
        obtain ⟨h3, h4⟩ := hplus j p hpm
        exact ⟨h4, .inl h3, by omega⟩
    obtain ⟨n, hn, hall⟩ := key
    have hlen : e'.owned.length = e.owned.length := by
      rcases h.2 with ⟨j, -, h⟩ | ⟨-, j, -, h⟩
      · exact h.length_eq.symm.trans (List.length_map ..)
      · rw [h]; exact List.length_map ..
    exact ⟨disposed_of fun p hpm => by rw [(hall p hpm).1]; exact (hall p hpm).2.2, hlen,
      n, hn, fun p hpm => ⟨(hall p hpm).1, (hall p hpm).2.1⟩⟩
  | ub => rw [hx] at h; exact h trivial
  | abort => rw [hx] at h; exact h trivial

/-- C73_fold: the fold of the expression above panics with two elements moved out. -/
example : Built halting ∧ NoPhantomRows halting ∧ TameClosures halting ∧
    ∃ e', (Iter.new halting).foldE [] (fun l x => M.pure (l ++ [x])) () = .panic e' () ∧
      e'.owned = [(2, 4)] ∧ e'.dropE = some [[2, 3]] :=
  ⟨halting_built, fun h => absurd h (by decide), halting_tame, _, rfl, rfl, by decide⟩

/-- The same for `fold` after any calls of `next` that have returned items or have panicked: there is no
undefined behaviour, and the elements that have not been moved out are dropped. -/
theorem C73_fold_rest (e : Expr σ α) (hb : Built e) (hp : Plain e) (ht : TameClosures e) (f : τ → α → M σ τ)
    (hf : ∀ acc x, (f acc x).Tame) (n : Nat) (it : Iter σ α) (h : After e n it) (init : τ) (s : σ) :
    match it.foldE init f s with
    | .ok _ e' _ => Disposed e'
    | .panic e' _ => Disposed e'
    | .ub => False
    | .abort => False := by
  have hw := wf_of_built hb
  obtain ⟨q, c, hat, ho, -, -⟩ := after_at hw hp h (owned_new hw)
  have hle := pos_le hp hat
  have hk : rows e * row e = size e.dims := by
    rcases Nat.eq_zero_or_pos (size e.dims) with h0 | h0
    · rw [h0, show row e = 0 from noPhantom hp h0, Nat.mul_zero]
    · exact (size_split h0).symm
  have hsz : ∀ p ∈ it.expr.owned, p.2 = size e.dims := fun p hpm => by
    have := (owned_size (hat.later.wfs hw.wfs)).1 p hpm
    rw [this]
    unfold dims
    rw [hat.later.shape]
  have hf := foldE_folded (T := True) hw (fun _ => ht) (noPhantom hp) f (fun _ => hf) hat ho init s
  rw [hk] at hf
  have hplus : ∀ j, j ≤ size e.dims - pos e q c → ∀ p ∈ plus j it.expr.owned, p.1 ≤ pos e q c + j ∧
      p.2 = size e.dims := by
    intro j hj p hpm
    obtain ⟨p', hp', rfl⟩ := List.mem_map.1 hpm
    exact ⟨Nat.add_le_add_right (ho p' hp') j, hsz p' hp'⟩
  cases hx : it.foldE init f s with
  | ok x e' t =>
    rw [hx] at hf
    refine disposed_of fun p hpm => ?_
    rw [hf.2] at hpm
    have := hplus _ (le_refl _) p hpm
    omega
  | panic e' t =>
    rw [hx] at hf
    refine disposed_of fun p hpm => ?_
    rcases hf.2 with ⟨j, hj, h⟩ | ⟨-, j, hj, h⟩
    · obtain ⟨p', hp', h1, h2⟩ := SomeTaken.mem h p hpm
      have := hplus j hj.le p' hp'
      omega
    · rw [h] at hpm
      have := hplus j hj p hpm
      omega
  | ub => rw [hx] at hf; exact hf trivial
  | abort => rw [hx] at hf; exact hf trivial

/-- C73_fold_rest: after an item and a panic the other two elements are folded. -/
example : Built halting ∧ Plain halting ∧ TameClosures halting ∧ ∃ it, After halting 2 it ∧
    ∃ e', it.foldE [] (fun l x => M.pure (l ++ [x])) () = .ok [12, 13] e' () ∧ e'.dropE = some [[]] :=
  ⟨halting_built, .inl (by decide), halting_tame, _,
    .panic (s := ()) (t := ()) (.item (s := ()) (t := ()) .new rfl) rfl, _, rfl, by decide⟩

/-- The same for any calls of `next`, also after `None`, if the expression is iterated in one go (there are no
outer dimensions, or they have size 1). Missing: expressions with several rows, which start again after
`None`; see C73_violated. -/
theorem C73_called_partial (e : Expr σ α) (hb : Built e) (hp : Plain e) (ht : TameClosures e)
    (h1 : ∀ d ∈ e.dims.take e.outerRank, d ≤ 1) (it : Iter σ α) (h : Called e it) :
    (∀ p ∈ it.expr.owned, p.2 = size e.dims ∧ p.1 ≤ p.2) ∧ Disposed it.expr ∧
    ∀ s, match it.nextE s with
      | .ok (some _) it' _ => AllTaken it.expr.owned it'.expr.owned
      | .ok none it' _ => it'.expr.owned = it.expr.owned
      | .panic it' _ => SomeTaken it.expr.owned it'.expr.owned
      | .ub => False
      | .abort => False := by
  have hw := wf_of_built hb
  obtain ⟨c, hat, ho⟩ := called_at hw hp (rows_eq_one h1) h
  have ho : ∀ p ∈ it.expr.owned, p.1 ≤ pos e 0 c := by simpa [pos] using ho
  have hle := pos_le hp hat
  have hsz : ∀ p ∈ it.expr.owned, p.2 = size e.dims := fun p hpm => by
    have := (owned_size (hat.later.wfs hw.wfs)).1 p hpm
    rw [this]
    unfold dims
    rw [hat.later.shape]
  have hall : ∀ p ∈ it.expr.owned, p.2 = size e.dims ∧ p.1 ≤ p.2 := fun p hpm =>
    ⟨hsz p hpm, by rw [hsz p hpm]; exact le_trans (ho p hpm) hle⟩
  refine ⟨hall, disposed_of fun p hpm => (hall p hpm).2, fun s => ?_⟩
  have h1 := nextE_at hw hp hat s
  have h2 := nextE_clean hw hp ht hat ho s
  cases hx : it.nextE s with
  | ok x it' t =>
    rw [hx] at h1
    cases x with
    | none => exact h1.1
    | some x => exact h1.1
  | panic it' t => rw [hx] at h1; exact h1.1
  | ub => rw [hx] at h2; exact h2
  | abort => rw [hx] at h2; exact h2

/-- C73_called_partial: an owned array, after the end. -/
example : Built (.intoExpr ⟨.static [.dyn], [2]⟩ [10, 11] 0 : Expr Unit Nat) ∧
    ∃ it, Called (.intoExpr ⟨.static [.dyn], [2]⟩ [10, 11] 0 : Expr Unit Nat) it ∧
      it.nextE () = .ok none it () ∧ it.expr.dropE = some [[]] :=
  ⟨.intoExpr (by decide) rfl, _,
    .ok (s := ()) (t := ()) (.ok (s := ()) (t := ()) (.ok (s := ()) (t := ()) .new rfl) rfl) rfl, rfl, by decide⟩

/-- The elements of an owned array together with the items of a strided view. -/
def strided : Expr Unit (Int × Nat) :=
  .zip (.view true evens) (.intoExpr ⟨.static [.dyn, .dyn], [2, 2]⟩ [10, 11, 12, 13] 0)
    ⟨.static [.dyn, .dyn], [2, 2]⟩

/-- C73 without these conditions is violated by safe code:
- if `next` is called once more after it has returned `None`, then an element beyond the end of the owned array
  is read, as the iteration starts again while the array is used up;
- `fold` reads beyond the end of an empty owned array of the shape `[0, 2]` when combined with a strided view. -/
theorem C73_violated :
    (∃ (e : Expr Unit (Int × Nat)) (it : Iter Unit (Int × Nat)), Built e ∧ Sound e ∧ Plain e ∧ Called e it ∧
      it.nextE () = .ub) ∧
    (∃ e : Expr Unit (Int × Nat), Built e ∧ Sound e ∧ size e.dims = 0 ∧
      (Iter.new e).foldE 0 (fun n _ => M.pure (n + 1)) () = .ub) := by
  refine ⟨⟨strided, _, ?_, ?_, .inl (by decide), .ok (s := ()) (t := ()) (.ok (s := ()) (t := ()) (.ok (s := ())
    (t := ()) (.ok (s := ()) (t := ()) (.ok (s := ()) (t := ()) .new rfl) rfl) rfl) rfl) rfl, rfl⟩, ?_⟩
  · exact .zip (a := .view true evens) (b := .intoExpr ⟨.static [.dyn, .dyn], [2, 2]⟩ [10, 11, 12, 13] 0)
      (.view (by decide)) (.intoExpr (by decide) rfl) rfl
  · exact ⟨trivial, trivial⟩
  · exact ⟨.zip (.view true ⟨0, .strided ⟨.static [.dyn, .dyn], [0, 2]⟩ [4, 2]⟩)
      (.intoExpr ⟨.static [.dyn, .dyn], [0, 2]⟩ [] 0) ⟨.static [.dyn, .dyn], [0, 2]⟩,
      .zip (a := .view true ⟨0, .strided ⟨.static [.dyn, .dyn], [0, 2]⟩ [4, 2]⟩)
        (b := .intoExpr ⟨.static [.dyn, .dyn], [0, 2]⟩ [] 0) (.view (by decide)) (.intoExpr (by decide) rfl) rfl,
      ⟨trivial, trivial⟩, by decide, rfl⟩

/-! ### Going on after a panic -/

/-- After `n` calls of `next`, each of which has returned an item or has panicked, the next call gives the item
number `n`, or `None` if there were `n` items. Missing: expressions in which a part that counts is not
reached by a panic; see C74_violated. -/
theorem C74_partial (e : Expr σ α) (hb : Built e) (hs : Sound e) (hp : Plain e) (hr : Resumes e) (n : Nat)
    (it : Iter σ α) (h : After e n it) :
    n ≤ size e.dims ∧
    (n < size e.dims → M.bind it.next (fun p => M.pure p.1) =
      M.bind (item e n (unrank e.dims n)) fun x => M.pure (some x)) ∧
    (n = size e.dims → M.bind it.next (fun p => M.pure p.1) = M.pure none) := by
  have hw := wf_of_built hb
  obtain ⟨hle, rfl⟩ := after_iterN hw hs hp hr h
  refine ⟨hle, fun hn => ?_, fun hn => ?_⟩
  · rw [next_iterN hw hs hn, M.bind_assoc]
    rfl
  · obtain ⟨c, hc⟩ := next_iterN_end hw hp
    rw [hn, hc]
    rfl

/-- C74_partial: the expression above meets the conditions, and goes on with the third element. -/
example : Built halting ∧ Sound halting ∧ Plain halting ∧ Resumes halting ∧ ∃ it, After halting 2 it ∧
    item halting 2 [1, 0] () = .ok 12 () :=
  ⟨halting_built, ⟨trivial, trivial⟩, .inl (by decide), ⟨trivial, trivial, .inl trivial⟩, _,
    .panic (s := ()) (t := ()) (.item (s := ()) (t := ()) .new rfl) rfl, rfl⟩

/-- A closure that panics when it is called for the first time. -/
def onceFn : List Nat → M Nat Nat := fun j s => if s = 0 then .panic 1 else .ok (j.getD 0 0) s

/-- The numbers 0 and 1, by a closure that panics when it is called for the first time. -/
def retried : Expr Nat Nat := .fromFn ⟨.static [.dyn], [2]⟩ [0] onceFn

/-- The elements of an owned array, paired with numbers that are computed by a closure that panics when it is
called for the first time. -/
def shifted : Expr Nat (Int × Nat) :=
  .zip (.map (.view true ⟨0, .dense ⟨.static [.dyn], [2]⟩⟩) fun x s => if s = 0 then .panic 1 else .ok x s)
    (.intoExpr ⟨.static [.dyn], [2]⟩ [10, 11] 0) ⟨.static [.dyn], [2]⟩

/-- C74 is violated by the code as it is: after a panic `from_fn` calls its closure with the same index again;
and `zip` pairs the second item of the first expression with the first element of an owned array. -/
theorem C74_violated :
    (Built retried ∧ Sound retried ∧ Plain retried ∧ ∃ it, After retried 1 it ∧ ∃ it',
      it.next 1 = .ok (some 0, it') 1 ∧ item retried 1 [1] 1 = .ok 1 1) ∧
    (Built shifted ∧ Sound shifted ∧ Plain shifted ∧ ∃ it, After shifted 1 it ∧ ∃ it',
      it.next 1 = .ok (some (1, 10), it') 1 ∧ item shifted 1 [1] 1 = .ok (1, 11) 1) := by
  refine ⟨⟨.fromFn (s := ⟨.static [.dyn], [2]⟩) (f := onceFn) (by decide) rfl, fun h => ?_, .inl (by decide), _,
    .panic (s := 0) (t := 1) .new rfl, _, rfl, rfl⟩, ⟨?_, ⟨trivial, trivial⟩, .inl (by decide), _,
    .panic (s := 0) (t := 1) .new rfl, _, rfl, rfl⟩⟩
  · simp at h
  · exact .zip (a := .map (.view true ⟨0, .dense ⟨.static [.dyn], [2]⟩⟩)
        fun x s => if s = 0 then .panic 1 else .ok x s)
      (b := .intoExpr ⟨.static [.dyn], [2]⟩ [10, 11] 0) (.map (.view (by decide)))
      (.intoExpr (by decide) rfl) rfl

end Props
