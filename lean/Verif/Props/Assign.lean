import Verif.Lemmas.Assign
import Verif.Props.Safety
import Verif.Props.Expr

/-! Writing to views: C29, and the compound assignment part of C30. -/

namespace Props
open Spec Model Model.Iter Model.Expr

variable {σ T α β : Type}

/-- Views reached by safe calls address distinct elements of the array. -/
theorem C29_reachable (s : Shape) (hs : s.WF) (hu : Usize s.dims) (hn : size s.dims ≤ usizeMax)
    (checks : Bool) (v : View) (hr : Reach checks (whole s) v) (m : List T)
    (hm : m.length = size s.dims) : Exclusive v m.length := by
  have hg := View.good_reach (View.inv_whole hs hu hn) hr
  refine ⟨hg.1, ?_, fun i j hi hj e => C05 s hs hu hn checks v hr i j hi hj e⟩
  intro j hj
  rw [hm]
  exact (C04 s hs hu hn checks v hr j).1 hj

/-- `assign`, if all values that are computed are well-behaved. -/
theorem assign_post (v : View) (m : List T) (hv : Exclusive v m.length) (e : Expr σ α)
    (hb : Built e) (c : α → M σ T)
    (ht : ∀ n, CanCast e v.dims → n < size v.dims → (M.bind (castItem v.dims e n) c).Tame)
    (hs : ∀ z, zipNew (view false v) e = some z → Sound z ∧
      (size z.dims = 0 → size (z.dims.drop z.outerRank) = 0)) (s : σ) :
    M.Post (assign v e c) (s, m)
      (fun _ t => CanCast e v.dims ∧ ∃ ys,
        Ran (fun n => M.bind (castItem v.dims e n) c) (size v.dims) s ys t.1 ∧ Written v m ys t.2)
      (fun t => (¬ CanCast e v.dims ∧ t = (s, m)) ∨ (CanCast e v.dims ∧ ∃ k ys,
        Stopped (fun n => M.bind (castItem v.dims e n) c) (size v.dims) s k ys t.1 ∧
          Written v m ys t.2)) := by
  have hsome := zipNew_view_isSome (σ := σ) hv.1 hb
  unfold assign
  rw [show (view false v : Expr (σ × List T) Int) = (view false v : Expr σ Int).up from rfl,
    up_zipNew]
  cases hz : zipNew (view false v : Expr σ Int) e with
  | none =>
    rw [hz] at hsome
    exact Or.inl ⟨fun h => by simpa using hsome.2 h, rfl⟩
  | some z =>
    rw [hz] at hsome
    have hcc : CanCast e v.dims := hsome.1 rfl
    obtain ⟨hd, hi⟩ := zip_view hz
    refine M.Post.mono (write_loop hv (.zip (.view hv.1) hb hz) (hs z hz).1 (hs z hz).2 hd
      (step := fun n => M.bind (castItem v.dims e n) c) ?_ ?_ s) ?_ ?_
    · exact fun n hn => ht n hcc hn
    · intro n hn p hp s' m' _
      rw [hi n p hp]
      simp only [M.up_bind, M.bind_assoc, M.up_pure, M.pure_bind]
    · rintro - t ⟨ys, h⟩
      exact ⟨hcc, ys, h⟩
    · rintro t ⟨k, ys, h⟩
      exact Or.inr ⟨hcc, k, ys, h⟩

/-- `assign` writes to each element of the view the (cloned) item of the expression at the matching
index, calling closures once per index in row-major order, and changes no other element. If the
expression cannot be broadcast it panics without any effect; if a closure panics for the `k`-th
element, the elements before it have been written. Missing (see `C29_violated`): empty views for
which the iterator does not notice that it is empty; `Sound` excludes the defects of C26 and C28. -/
theorem C29_assign_partial (v : View) (m : List T) (hv : Exclusive v m.length) (e : Expr σ α)
    (hb : Built e) (ht : TameItems e) (c : α → M σ T) (hc : ∀ y, (c y).Tame)
    (hs : ∀ z, zipNew (view false v) e = some z → Sound z ∧
      (size z.dims = 0 → size (z.dims.drop z.outerRank) = 0)) (s : σ) :
    M.Post (assign v e c) (s, m)
      (fun _ t => CanCast e v.dims ∧ ∃ ys,
        Ran (fun n => M.bind (castItem v.dims e n) c) (size v.dims) s ys t.1 ∧ Written v m ys t.2)
      (fun t => (¬ CanCast e v.dims ∧ t = (s, m)) ∨ (CanCast e v.dims ∧ ∃ k ys,
        Stopped (fun n => M.bind (castItem v.dims e n) c) (size v.dims) s k ys t.1 ∧
          Written v m ys t.2)) := by
  refine assign_post v m hv e hb c (fun n hcc hn => M.Tame.bind (ht n _ ?_) hc) hs s
  rw [List.suffix_iff_eq_drop.1 hcc.1]
  have hl : e.dims.length ≤ v.dims.length := hcc.1.length_le
  rw [List.length_drop, show v.dims.length - (v.dims.length - (v.dims.length - e.dims.length)) =
    v.dims.length - e.dims.length by omega]
  exact (unrank_valid hn).drop _

/-- `fill` and `fill_with` write one (cloned or fresh) value to each element of the view, in
row-major order, and change no other element. Missing: see `C29_violated`. -/
theorem C29_fill_partial (v : View) (m : List T) (hv : Exclusive v m.length) (f : M σ T)
    (hf : f.Tame) (hp : size v.dims = 0 →
      size (v.dims.drop (view false v : Expr σ Int).outerRank) = 0) (s : σ) :
    M.Post (fillWith v f) (s, m)
      (fun _ t => ∃ ys, Ran (fun _ => f) (size v.dims) s ys t.1 ∧ Written v m ys t.2)
      (fun t => ∃ k ys, Stopped (fun _ => f) (size v.dims) s k ys t.1 ∧ Written v m ys t.2) := by
  refine write_loop (z := (view false v : Expr σ Int)) hv (.view hv.1)
    (by unfold Sound Regular; trivial) hp rfl (step := fun _ => f) (fun _ _ => hf) ?_ s
  intro n hn p hp s' m' _
  rw [item, hp]
  rfl

/-- The code as it is: filling an empty view of a 2 by 3 array overwrites two elements that do not
belong to it. -/
theorem C29_violated :
    ∃ v, Reach true (whole ⟨.static [.dyn, .dyn], [2, 3]⟩) v ∧ size v.dims = 0 ∧
      fillWith v (M.pure 9 : M Unit Nat) ((), [0, 1, 2, 3, 4, 5]) = .ok () ((), [9, 1, 2, 9, 4, 5]) := by
  let v1 : View := ⟨0, .strided ⟨.static [.dyn, .dyn], [2, 0]⟩ [3, 1]⟩
  let v2 : View := ⟨0, .strided ⟨.static [.dyn, .dyn], [0, 2]⟩ [1, 3]⟩
  refine ⟨v2, .call (v := v1) (.call .refl (.inr (by decide))
    (.view (xs := [.full, .range .unbounded (.excluded 0)]) rfl (by decide +kernel)))
    (.inr (by decide)) (.reorder (by decide)), by decide, by decide +kernel⟩

/-- A row broadcast to a transposed view of a 2 by 3 array. -/
example : ∃ v : View, Reach true (whole ⟨.static [.dyn, .dyn], [2, 3]⟩) v ∧ v.dims = [3, 2] ∧
    CanCast (intoExpr ⟨.static [.dyn, .dyn], [3, 2]⟩ [1, 2, 3, 4, 5, 6] 0 : Expr Unit Nat) v.dims ∧
    assign v (intoExpr ⟨.static [.dyn, .dyn], [3, 2]⟩ [1, 2, 3, 4, 5, 6] 0 : Expr Unit Nat) M.pure
      ((), [0, 0, 0, 0, 0, 0]) = .ok () ((), [1, 3, 5, 2, 4, 6]) ∧
    assign v (fromFn ⟨.static [.dyn], [2]⟩ [0] (fun j => fun s => .ok (s + j.getD 0 0) (s + 10)) :
      Expr Nat Nat) M.pure (0, [0, 0, 0, 0, 0, 0]) = .ok () (60, [0, 20, 40, 11, 31, 51]) := by
  refine ⟨swapped 2 3, .call .refl (.inr (by decide)) (.reorder (by decide)), by decide,
    ⟨by decide, by decide⟩, by decide +kernel, by decide +kernel⟩

/-! ### C30, compound assignment -/

/-- `v op= e` replaces each element `x` of the view by the result of `x op= y`, where `y` is the item
of the expression at the matching index (old value first), and changes no other element. -/
theorem C30_assign_partial (v : View) (m : List T) (hv : Exclusive v m.length) (e : Expr σ β)
    (hb : Built e) (ht : TameItems e) (g : T → β → M σ T) (hg : ∀ x y, (g x y).Tame)
    (hs : ∀ z, zipNew (view false v) e = some z → Sound z ∧
      (size z.dims = 0 → size (z.dims.drop z.outerRank) = 0)) (s : σ) :
    let step := fun n => M.bind (castItem v.dims e n) fun y =>
      M.bind (orUb (elemAt v m n)) fun x => g x y
    M.Post (opAssign v e g) (s, m)
      (fun _ t => CanCast e v.dims ∧ ∃ ys, Ran step (size v.dims) s ys t.1 ∧ Written v m ys t.2)
      (fun t => (¬ CanCast e v.dims ∧ t = (s, m)) ∨ (CanCast e v.dims ∧ ∃ k ys,
        Stopped step (size v.dims) s k ys t.1 ∧ Written v m ys t.2)) := by
  intro step
  have hsome := zipNew_view_isSome (σ := σ) hv.1 hb
  unfold opAssign
  rw [show (view false v : Expr (σ × List T) Int) = (view false v : Expr σ Int).up from rfl,
    up_zipNew]
  cases hz : zipNew (view false v : Expr σ Int) e with
  | none =>
    rw [hz] at hsome
    exact Or.inl ⟨fun h => by simpa using hsome.2 h, rfl⟩
  | some z =>
    rw [hz] at hsome
    have hcc : CanCast e v.dims := hsome.1 rfl
    obtain ⟨hd, hi⟩ := zip_view hz
    have helem : ∀ n, n < size v.dims → ∃ (p : Nat) (x : T), v.index (unrank v.dims n) = some (p : Int) ∧
        m[p]? = some x ∧ elemAt v m n = some x := by
      intro n hn
      obtain ⟨p, hpl, hp⟩ := hv.2.1 _ (unrank_valid hn)
      refine ⟨p, m[p], hp, List.getElem?_eq_getElem hpl, ?_⟩
      unfold elemAt
      rw [hp]
      exact List.getElem?_eq_getElem hpl
    refine M.Post.mono (write_loop hv (.zip (.view hv.1) hb hz) (hs z hz).1 (hs z hz).2 hd
      (step := step) ?_ ?_ s) ?_ ?_
    · intro n hn
      refine M.Tame.bind (ht n _ ?_) ?_
      · rw [List.suffix_iff_eq_drop.1 hcc.1]
        have hl : e.dims.length ≤ v.dims.length := hcc.1.length_le
        rw [List.length_drop, show v.dims.length - (v.dims.length - (v.dims.length - e.dims.length)) =
          v.dims.length - e.dims.length by omega]
        exact (unrank_valid hn).drop _
      · intro y
        obtain ⟨p, x, -, -, h3⟩ := helem n hn
        rw [h3]
        exact hg x y
    · intro n hn p hp s' m' hm
      obtain ⟨q, x, h1, h2, h3⟩ := helem n hn
      rw [hp] at h1
      have hpq : p = q := by injection h1 with h1; omega
      subst hpq
      rw [hi n p hp]
      simp only [step, h3, orUb, M.up_bind, M.bind_assoc, M.up_pure, M.pure_bind]
      unfold M.bind
      cases hc : (M.up (castItem v.dims e n) : M (σ × List T) β) (s', m') with
      | ok y t =>
        have : t.2 = m' := by
          unfold M.up at hc
          cases hc' : castItem v.dims e n s' <;> simp only [hc'] at hc <;> cases hc
          rfl
        obtain ⟨t1, t2⟩ := t
        simp only at this
        subst this
        simp only [readMem_eq (hm.trans h2)]
      | panic t => rfl
      | ub => rfl
      | abort => rfl
    · rintro - t ⟨ys, h⟩
      exact ⟨hcc, ys, h⟩
    · rintro t ⟨k, ys, h⟩
      exact Or.inr ⟨hcc, k, ys, h⟩

/-- Subtraction of a broadcast row from a 2 by 2 array, and the order of the operands. -/
example : opAssign (whole ⟨.static [.dyn, .dyn], [2, 2]⟩)
    (fromFn ⟨.static [.dyn], [2]⟩ [0] (fun j => M.pure (j.getD 0 0 : Int)) : Expr Unit Int)
    (fun x y => M.pure (x - y)) ((), [10, 20, 30, 40]) = .ok () ((), [10, 19, 30, 39]) := by
  decide +kernel

end Props
