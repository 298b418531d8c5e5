import Verif.Lemmas.UserZipEmpty
import Verif.Props.Assign
import Verif.Props.UserExpr

/-!
C84: mutable views together with expressions of types defined outside of the crate.
-/

namespace Props
open Model Spec

variable {σ T α : Type}

/-- If the shape and the inner rank of the expression never change, `expr_mut().zip(expr)` hands out each element of
the view once, in row-major order, each with the next value that the expression returns. A panic of the expression
ends this at some element. (Views without elements must have no elements in a row.) -/
theorem C84_zip_partial (v : View) (hv : v.map.WF) (rep : Bool) (u : UserExpr σ α) (s : Shape) (k : Nat)
    (h : SafeCode u) (hs : Steady { u with forEach := none } s k) (hp : EmptyRows v k) (w : σ) :
    M.Post (u.zipForEach v rep record) (w, [])
      (fun _ t => (s.dims <:+ v.dims ∧ (rep = false → s.dims = v.dims)) ∧
        t.2.map (fun x => some x.1) = positions v ∧ HandedOut u w (t.2.map Prod.snd) t.1)
      fun t => t.2.map (fun x => some x.1) <+: positions v ∧ HandedOut u w (t.2.map Prod.snd) t.1 := by
  refine (UserExpr.post_zipHanded (P := fun ys r => r.map Prod.snd = ys ∧
    r.map (fun x => some x.1) = (positions v).take r.length) h hs hv rep hp ?_ (w := w) (r := []) ⟨rfl, rfl⟩).mono ?_ ?_
  · rintro ys r hn ⟨rfl, h2⟩ p hpos x w
    rw [List.length_map] at hn hpos
    refine ⟨r ++ [(p, x)], rfl, by simp, ?_⟩
    have hl : (positions v)[r.length]? = some (some p) := by
      unfold positions
      rw [allIdx_eq_map_unrank, List.map_map, List.getElem?_map, List.getElem?_range hn]
      exact congrArg some hpos
    rw [List.map_append, h2, List.length_append, List.length_singleton, List.take_add_one, hl]
    rfl
  · rintro _ t ⟨hc, ys, hl, hh, rfl, h2⟩
    rw [List.length_map] at hl
    refine ⟨hc, ?_, hh⟩
    rw [h2, List.take_of_length_le]
    unfold positions
    rw [List.length_map, length_allIdx, hl]
  · rintro t ⟨ys, hl, hh, rfl, h2⟩
    refine ⟨?_, hh⟩
    rw [h2]
    exact List.take_prefix _ _

/-- `assign` of such an expression writes the values that it returns to the elements of the view in row-major order,
and changes nothing else, also if there is a panic. It succeeds only if the dimensions match. -/
theorem C84_assign_partial (v : View) (m : List T) (hv : Exclusive v m.length) (rep : Bool) (u : UserExpr σ T)
    (s : Shape) (k : Nat) (h : SafeCode u) (hs : Steady { u with forEach := none } s k) (hp : EmptyRows v k) (w : σ) :
    M.Post (u.assign v rep) (w, m)
      (fun _ t => (s.dims <:+ v.dims ∧ (rep = false → s.dims = v.dims)) ∧
        ∃ ys, ys.length = size v.dims ∧ HandedOut u w ys t.1 ∧ Written v m ys t.2)
      fun t => ∃ ys, ys.length ≤ size v.dims ∧ HandedOut u w ys t.1 ∧ Written v m ys t.2 := by
  refine UserExpr.post_zipHanded (P := fun ys m' => Written v m ys m') h hs hv.1 rep hp ?_ (written_nil v m)
  intro ys m' hn hw p hpos x w
  obtain ⟨q, hq, hq'⟩ := hv.2.1 _ (unrank_valid hn)
  rw [hpos] at hq'
  injection hq' with hq'
  subst hq'
  exact ⟨_, writeMem_eq (by rw [hw.1]; exact hq) x, hw.snoc hv hn hpos x⟩

/-- The condition about views without elements is needed: for functions that never panic, and dimensions that match, a
view without elements hands out an item exactly if there are elements in a row. Then `assign` is undefined behaviour,
unless the view starts at an element of the memory. -/
theorem C84_exact (v : View) (hv : v.map.WF) (hz : size v.dims = 0) (rep : Bool) (u : UserExpr σ T) (s : Shape) (k : Nat)
    (h : SafeCode u) (hn : NeverPanics u) (hs : Steady { u with forEach := none } s k) (hd : s.dims <:+ v.dims)
    (hr : rep = false → s.dims = v.dims) (w : σ) :
    (∀ m : List T, u.zipForEach v rep (fun _ => M.ub) (w, m) = .ub ↔
      0 < size (v.dims.drop (v.dims.length - rowRank v k))) ∧
    ∀ m : List T, v.ptr < 0 ∨ (m.length : Int) ≤ v.ptr →
      (u.assign v rep (w, m) = .ub ↔ 0 < size (v.dims.drop (v.dims.length - rowRank v k))) := by
  have none : ∀ (f : Int × T → M (σ × List T) Unit) m, u.zipForEach v rep f (w, m) = .ub →
      0 < size (v.dims.drop (v.dims.length - rowRank v k)) := by
    intro f m e
    by_contra hp
    have := UserExpr.post_zipHanded (P := fun _ _ => True) h hs hv rep (fun _ => Nat.eq_zero_of_not_pos hp) (f := f)
      (fun ys r hl => absurd hl (by omega)) (w := w) (r := m) trivial
    unfold M.Post at this
    rw [e] at this
    exact this
  refine ⟨fun m => ⟨none _ m, fun hp => ?_⟩, fun m hm => ⟨none _ m, fun hp => ?_⟩⟩
  · rw [UserExpr.rowRank_eq] at hp
    exact UserExpr.zipForEach_ub hn hs hv hd hr hp (fun _ _ => rfl) w
  · rw [UserExpr.rowRank_eq] at hp
    refine UserExpr.zipForEach_ub hn hs hv hd hr hp (fun x w => ?_) w
    show (if 0 ≤ v.ptr ∧ v.ptr.toNat < m.length then _ else _) = _
    exact if_neg (by omega)

/-- A two-dimensional expression with the given shape, with inner rank `a` in the first `n` calls of `inner_rank`, and
`b` later. -/
def unranked (dims : List Nat) (n a b : Nat) : UserExpr Nat Nat where
  ty := .static [.dyn, .dyn]
  shape := M.pure ⟨.static [.dyn, .dyn], dims⟩
  innerRank := fun w => .ok (if w < n then a else b) (w + 1)
  get i := M.pure i
  resetDim _ _ := M.pure ()
  stepDim _ := M.pure ()
  forEach := none

/-- An expression of dynamic rank, with dimensions `a` in the first `n` calls of `shape`, and `b` later. -/
def reranked (n : Nat) (a b : List Nat) : UserExpr Nat Nat where
  ty := .dynRank
  shape := fun w => .ok ⟨.dynRank, if w < n then a else b⟩ (w + 1)
  innerRank := M.pure 1
  get i := M.pure i
  resetDim _ _ := M.pure ()
  stepDim _ := M.pure ()
  forEach := none

/-- An array of shape `[2, 2]`. -/
def square : View := ⟨0, .dense ⟨.static [.dyn, .dyn], [2, 2]⟩⟩

/-- An array with one element. -/
def point : View := ⟨0, .dense ⟨.static [.dyn], [1]⟩⟩

/-- Safe code can make `assign` write outside of the array, with an expression whose shape is constant but whose inner
rank is not, or with no elements but two elements in each row; and it can get two mutable references to one element,
with an expression whose rank changes. -/
theorem C84_violated :
    (∀ dims n a b, SafeCode (unranked dims n a b)) ∧ (∀ n a b, SafeCode (reranked n a b)) ∧
    Exclusive square 4 ∧ (unranked [2, 2] 1 1 0).assign square false (0, [5, 6, 7, 8]) = .ub ∧
    (∀ w, (unranked [0, 2] 0 1 1).assign ⟨0, .dense ⟨.static [.dyn, .dyn], [0, 2]⟩⟩ false (w, []) = .ub) ∧
    (reranked 1 [1] [2, 1]).zipForEach point true record (0, []) = .ok () (10, [(0, 0), (0, 0)]) := by
  refine ⟨fun dims n a b => ⟨fun _ => trivial, fun _ => trivial, fun _ _ => trivial, fun _ _ _ => trivial,
    fun _ _ => trivial, nofun⟩, fun n a b => ⟨fun _ => trivial, fun _ => trivial, fun _ _ => trivial,
    fun _ _ _ => trivial, fun _ _ => trivial, nofun⟩,
    C29_reachable ⟨.static [.dyn, .dyn], [2, 2]⟩ (by decide) (fun d hd => by simp at hd; subst hd; decide)
      (by decide) true _ .refl [5, 6, 7, 8] rfl, by decide +kernel, fun _ => rfl, by decide +kernel⟩

/-- The hypotheses hold for a transposed array and the expressions of C83. All four elements are assigned, and two
if the expression then panics. -/
example : (∀ p, SafeCode (counting p) ∧ Steady { counting p with forEach := none } ⟨.static [.dyn, .dyn], [2, 2]⟩ 1) ∧
    Exclusive (swapped 2 2) 4 ∧ EmptyRows (swapped 2 2) 1 ∧
    positions (swapped 2 2) = [some 0, some 2, some 1, some 3] ∧
    (counting 100).assign (swapped 2 2) false ((0, []), [5, 6, 7, 8]) =
      .ok () ((22, [40, 51, 130, 141]), [40, 130, 51, 141]) ∧
    (counting 10).assign (swapped 2 2) false ((0, []), [5, 6, 7, 8]) = .panic ((10, [40, 51]), [40, 6, 51, 8]) := by
  have post : ∀ {β : Type} {p : Nat} {w w' : Nat × List Nat} {b : β},
      M.Post (fun v => if v.1 = p then .panic v else .ok b w') w (fun _ _ => True) fun _ => True := by
    intro β p w w' b
    unfold M.Post
    dsimp only
    by_cases h : w.1 = p
    · rw [if_pos h]; trivial
    · rw [if_neg h]; trivial
  have ret : ∀ {β : Type} {p : Nat} {w w' v : Nat × List Nat} {a b : β},
      (if w.1 = p then Res.panic w else .ok b v) = .ok a w' → a = b := by
    intro β p w w' v a b e
    split at e
    · cases e
    · injection e with e; exact e.symm
  refine ⟨fun p => ⟨⟨fun w => post, fun w => post, fun i w => post, fun i n w => post, fun i w => post, nofun⟩,
    ⟨by decide, rfl, fun w a w' e => ret e, fun w a w' e => ret e, rfl⟩⟩,
    C29_reachable ⟨.static [.dyn, .dyn], [2, 2]⟩ (by decide) (fun d hd => by simp at hd; subst hd; decide)
      (by decide) true _ (.call .refl (.inr (by decide)) (.reorder (by decide))) [0, 0, 0, 0] rfl,
    (fun h => absurd h (by decide)), by decide, by decide +kernel, by decide +kernel⟩

/-- The hypotheses of `C84_exact`: a view of shape `[0, 2]` and an expression with this shape, with rows of one
dimension, or of two dimensions. -/
example (k : Nat) : SafeCode (unranked [0, 2] 0 k k) ∧ NeverPanics (unranked [0, 2] 0 k k) ∧
    Steady { unranked [0, 2] 0 k k with forEach := none } ⟨.static [.dyn, .dyn], [0, 2]⟩ k ∧
    size (([0, 2] : List Nat).drop (2 - rowRank ⟨0, .dense ⟨.static [.dyn, .dyn], [0, 2]⟩⟩ 1)) = 2 ∧
    size (([0, 2] : List Nat).drop (2 - rowRank ⟨0, .dense ⟨.static [.dyn, .dyn], [0, 2]⟩⟩ 2)) = 0 := by
  refine ⟨⟨fun _ => trivial, fun _ => trivial, fun _ _ => trivial, fun _ _ _ => trivial, fun _ _ => trivial, nofun⟩,
    ⟨fun _ => ⟨_, _, rfl⟩, fun _ => ⟨_, _, rfl⟩, fun _ _ => ⟨_, _, rfl⟩, fun _ _ _ => ⟨_, _, rfl⟩,
      fun _ _ => ⟨_, _, rfl⟩⟩, ⟨by decide, rfl, ?_, ?_, rfl⟩, by decide, by decide⟩
  · rintro w a w' ⟨⟩
    rfl
  · intro w a w' e
    injection e with e
    rw [← e]
    exact ite_self k

end Props
