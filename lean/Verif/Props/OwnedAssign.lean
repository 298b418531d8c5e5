import Verif.Lemmas.OwnedAssign
import Verif.Props.Owned
import Verif.Props.Assign

/-! Assignment of expressions that own arrays, with the item in which it panics (C75). -/

namespace Props
open Spec Model Model.Iter Model.Expr

variable {σ α β T : Type}

theorem tame_operand {v : View} (hv : v.map.WF) {e : Expr σ α} (hb : Built e) (ht : TameClosures e) {z}
    (hz : zipNew (view false v) e = some z) {n : Nat} (hn : n < size v.dims) : (operand z n).Tame := by
  have hbz : Built z := .zip (.view hv) hb hz
  have hd : z.dims = v.dims := (zip_view hz).1
  have htz : TameClosures z := by
    unfold zipNew at hz
    obtain ⟨z', -, rfl⟩ := Option.map_eq_some_iff.1 hz
    exact ⟨trivial, ht⟩
  exact (tameRaw_of_closures hbz htz n (hd ▸ hn)).bind fun _ => M.tame_pure _

/-- Assignment to a view whose indices are distinct elements of the memory. If it returns then all elements of the
arrays in the expression have been moved out, and the items are written. If it panics in item `k`, then the items
before are written, the arrays drop exactly the elements that have not been moved out, and these are the ones after
item `k` or up from item `k`. There is no undefined behaviour. Missing: expressions with phantom rows. -/
theorem C75_assign_item_partial (v : View) (m : List T) (hv : Exclusive v m.length) (e : Expr σ α) (hb : Built e)
    (ht : TameClosures e) (c : α → M σ T) (hc : ∀ y, (c y).Tame)
    (hp : ∀ z, zipNew (view false v) e = some z → NoPhantomRows z) (s : σ) :
    match assignE v e c (s, m) with
    | .ok _ l t => AllMoved e l ∧ Disposed l.expr ∧ ∃ z, zipNew (view false v) e = some z ∧
        ∃ ys, Ran (fun n => M.bind (operand z n) c) (size v.dims) s ys t.1 ∧ Written v m ys t.2
    | .panic l t => Disposed l.expr ∧ ((¬ CanCast e v.dims ∧ NoneMoved e l ∧ t = (s, m)) ∨
        ∃ z, zipNew (view false v) e = some z ∧ ((BadFn z ∧ size v.dims = 0 ∧ NoneMoved e l ∧ t = (s, m)) ∨
          ∃ k ys, SomeMoved e k l ∧ Stopped (fun n => M.bind (operand z n) c) (size v.dims) s k ys t.1 ∧
            Written v m ys t.2))
    | .ub => False
    | .abort => False := by
  have h := post_viewLoop hv hb hp (body := fun py => M.bind (M.up (c py.2)) fun x => writeMem py.1 x)
    (step := fun z n => M.bind (operand z n) c) (fun z hz n hn => (tame_operand hv.1 hb ht hz hn).bind hc)
    (fun z hz n hn p hpi s' m' _ => by
      rw [rawNth_zipView hv.1 hz hn hpi]
      simp only [M.up_bind, M.bind_assoc, M.up_pure, M.pure_bind]) s
  have e1 : assignE v e c (s, m) =
      viewLoop v e e.up (fun py => M.bind (M.up (c py.2)) fun x => writeMem py.1 x) (s, m) := by
    unfold viewLoop assignE
    cases zipNew (view false v) (e.up : Expr (σ × List T) _) <;> rfl
  rw [← e1] at h
  unfold Out.Post at h
  cases hx : assignE v e c (s, m) with
  | ok x l t => rw [hx] at h; exact ⟨h.1, disposed_all h.1, h.2⟩
  | panic l t => rw [hx] at h; exact h
  | ub => rw [hx] at h; exact h
  | abort => rw [hx] at h; exact h

/-- The second element makes the closure of the expression panic: the first is written, and the first two are
moved out. -/
example : Exclusive (swapped 2 2) 4 ∧ Built halting ∧ TameClosures halting ∧
    (∀ z, zipNew (view false (swapped 2 2)) halting = some z → NoPhantomRows z) ∧
    ∃ l m, assignE (swapped 2 2) halting M.pure ((), [0, 0, 0, 0]) = .panic l ((), m) ∧
      l.expr.owned = [(2, 4)] ∧ l.expr.dropE = some [[2, 3]] ∧ m = [10, 0, 0, 0] :=
  ⟨C29_reachable ⟨.static [.dyn, .dyn], [2, 2]⟩ (by decide) (fun d hd => by simp at hd; subst hd; decide)
    (by decide) true _
    (.call .refl (.inr (by decide)) (.reorder (by decide))) [0, 0, 0, 0] rfl, halting_built, halting_tame,
    fun z hz h => absurd h (by cases hz; decide), _, _, rfl, rfl, by decide, rfl⟩

/-- Compound assignment, in the same way; the function gets the old value and the item. Missing: expressions with
phantom rows. -/
theorem C75_opAssign_item_partial (v : View) (m : List T) (hv : Exclusive v m.length) (e : Expr σ β) (hb : Built e)
    (ht : TameClosures e) (g : T → β → M σ T) (hg : ∀ x y, (g x y).Tame)
    (hp : ∀ z, zipNew (view false v) e = some z → NoPhantomRows z) (s : σ) :
    let step := fun (z : Expr σ (Int × β)) n => M.bind (operand z n) fun y =>
      M.bind (orUb (elemAt v m n)) fun x => g x y
    match opAssignE v e g (s, m) with
    | .ok _ l t => AllMoved e l ∧ Disposed l.expr ∧ ∃ z, zipNew (view false v) e = some z ∧
        ∃ ys, Ran (step z) (size v.dims) s ys t.1 ∧ Written v m ys t.2
    | .panic l t => Disposed l.expr ∧ ((¬ CanCast e v.dims ∧ NoneMoved e l ∧ t = (s, m)) ∨
        ∃ z, zipNew (view false v) e = some z ∧ ((BadFn z ∧ size v.dims = 0 ∧ NoneMoved e l ∧ t = (s, m)) ∨
          ∃ k ys, SomeMoved e k l ∧ Stopped (step z) (size v.dims) s k ys t.1 ∧ Written v m ys t.2))
    | .ub => False
    | .abort => False := by
  intro step
  have helem : ∀ n, n < size v.dims → ∃ (p : Nat) (x : T), v.index (unrank v.dims n) = some (p : Int) ∧
      m[p]? = some x ∧ elemAt v m n = some x := by
    intro n hn
    obtain ⟨p, hpl, hp⟩ := hv.2.1 _ (unrank_valid hn)
    refine ⟨p, m[p], hp, List.getElem?_eq_getElem hpl, ?_⟩
    unfold elemAt
    rw [hp]
    exact List.getElem?_eq_getElem hpl
  have h := post_viewLoop hv hb hp (body := fun py => M.bind (readMem py.1) fun x => M.bind (M.up (g x py.2)) fun x' =>
      writeMem py.1 x') (step := step)
    (fun z hz n hn => (tame_operand hv.1 hb ht hz hn).bind fun y => by
      obtain ⟨p, x, -, -, h3⟩ := helem n hn
      rw [h3]
      exact hg x y)
    (fun z hz n hn p hpi s' m' hm => by
      obtain ⟨q, x, h1, h2, h3⟩ := helem n hn
      rw [hpi] at h1
      have hpq : p = q := by injection h1 with h1; omega
      subst hpq
      rw [rawNth_zipView hv.1 hz hn hpi]
      simp only [step, h3, orUb, M.up_bind, M.bind_assoc, M.up_pure, M.pure_bind]
      unfold M.bind
      cases hc : (M.up (operand z n) : M (σ × List T) β) (s', m') with
      | ok y t =>
        have : t.2 = m' := by
          unfold M.up at hc
          cases hc' : operand z n s' <;> simp only [hc'] at hc <;> cases hc
          rfl
        obtain ⟨t1, t2⟩ := t
        simp only at this
        subst this
        simp only [readMem_eq (hm.trans h2)]
      | panic t => rfl
      | ub => rfl
      | abort => rfl) s
  have e1 : opAssignE v e g (s, m) = viewLoop v e e.up (fun py => M.bind (readMem py.1) fun x =>
      M.bind (M.up (g x py.2)) fun x' => writeMem py.1 x') (s, m) := by
    unfold viewLoop opAssignE
    cases zipNew (view false v) (e.up : Expr (σ × List T) _) <;> rfl
  rw [← e1] at h
  unfold Out.Post at h
  cases hx : opAssignE v e g (s, m) with
  | ok x l t => rw [hx] at h; exact ⟨h.1, disposed_all h.1, h.2⟩
  | panic l t => rw [hx] at h; exact h
  | ub => rw [hx] at h; exact h
  | abort => rw [hx] at h; exact h

/-- The function panics when the old value is 7: the elements before are replaced, and all of the elements up to that
item are moved out. -/
example : ∃ l m, opAssignE (swapped 2 2) (intoExpr ⟨.static [.dyn, .dyn], [2, 2]⟩ [10, 20, 30, 40] 0 : Expr Unit Nat)
    (fun x y => if x = 7 then fun s => .panic s else M.pure (x + y)) ((), [1, 7, 2, 4]) = .panic l ((), m) ∧
      l.expr.owned = [(3, 4)] ∧ l.expr.dropE = some [[3]] ∧ m = [11, 7, 22, 4] :=
  ⟨_, _, rfl, rfl, by decide, rfl⟩

end Props
