import Verif.Lemmas.UserExprOwn

/-!
C83: expressions of types defined outside of the crate.
-/

namespace Props
open Model Spec

variable {σ T α τ : Type}

/-- Iterating over an expression whose functions are safe code is safe and ends, whatever they return in each call
(also if `shape` and `inner_rank` return something else every time), for every closure. -/
theorem C83_fold (u : UserExpr σ α) (h : SafeCode u) (init : τ) (f : τ → α → M σ τ) (hf : ∀ a x, (f a x).Tame) :
    (u.fold init f).Tame := UserExpr.SafeCode.fold h hf init

/-- The same for `for_each`, also if it is overridden. -/
theorem C83_for_each (u : UserExpr σ α) (h : SafeCode u) (f : α → M σ Unit) (hf : ∀ x, (f x).Tame) :
    (u.runForEach f).Tame := UserExpr.SafeCode.runForEach h hf

/-- `Tensor::from_expr` of an expression whose shape and inner rank never change (and which, if it has no elements,
has no elements in a row either) is safe, whatever its other functions do and wherever they panic. The array has
exactly the values that the expression has returned, in this order. If there is a panic, these values are dropped
once each. -/
theorem C83_tensor_partial (u : UserExpr σ T) (s : Shape) (k : Nat) (h : SafeCode u) (hs : Steady u s k)
    (hp : size s.dims = 0 → size (s.dims.drop (s.dims.length - k)) = 0) (w : σ) (o : Own T) :
    M.Post u.tensorFrom (w, o)
      (fun _ t => ∃ ys, Holds t.2 ys ∧ t.2.shape = s ∧ t.2.log = o.log ∧ HandedOut u w ys t.1)
      fun t => ∃ ys, ys.length ≤ size s.dims ∧ t.2.log = o.log ++ ys ∧ HandedOut u w ys t.1 :=
  UserExpr.post_tensorFrom h hs hp w o

/-- The same for `Array::from_expr`, which panics if the dimensions are not those of the array type. -/
theorem C83_array_partial (u : UserExpr σ T) (s : Shape) (k : Nat) (h : SafeCode u) (hs : Steady u s k)
    (hp : size s.dims = 0 → size (s.dims.drop (s.dims.length - k)) = 0) (ty : ShapeTy) (w : σ) (o : Own T) :
    M.Post (u.arrayFrom ty) (w, o)
      (fun _ t => ty.Conforms s.dims ∧ ∃ ys, Holds t.2 ys ∧ t.2.cells = ys.map some ∧ t.2.shape = ⟨ty, s.dims⟩ ∧
        t.2.log = o.log ∧ HandedOut u w ys t.1)
      fun t => ∃ ys, ys.length ≤ size s.dims ∧ t.2.log = o.log ++ ys ∧ HandedOut u w ys t.1 :=
  UserExpr.post_arrayFrom h hs hp ty w o

/-- `expand` with such an expression appends exactly the values that it has returned. If there is a panic, the tensor
is still valid and each value is an element or was dropped once. -/
theorem C83_expand_partial (u : UserExpr σ T) (s : Shape) (k : Nat) (h : SafeCode u) (hs : Steady u s k)
    (w : σ) (o : Own T) (xs : List T) (ho : Holds o xs) :
    M.Post u.expand (w, o)
      (fun _ t => ∃ ys, Holds t.2 (xs ++ ys) ∧ ys.length = size s.dims ∧ t.2.log = o.log ∧
        t.2.shape.ty = o.shape.ty ∧ HandedOut u w ys t.1 ∧ (size s.dims = 0 → t.2 = o) ∧
        (0 < size s.dims → Fits o.shape s.dims ∧ t.2.shape.dims = if size o.shape.dims = 0 then s.dims else
          (o.shape.dims.getD 0 0 + s.dims.getD 0 0) :: o.shape.dims.tail))
      fun t => ∃ zs ds ys, Holds t.2 zs ∧ t.2.shape.ty = o.shape.ty ∧ t.2.log = o.log ++ ds ∧
        zs ++ ds = xs ++ ys ∧ (zs = [] ∨ ds = []) ∧ HandedOut u w ys t.1 :=
  UserExpr.post_expandU h hs ho

/-- The condition about expressions without elements is needed: for functions that never panic, creating an array is
undefined behaviour exactly if there are no elements but there are elements in a row (rows are `inner_rank` many of
the last dimensions). -/
theorem C83_exact (u : UserExpr σ T) (s : Shape) (k : Nat) (h : SafeCode u) (hn : NeverPanics u) (hs : Steady u s k)
    (w : σ) (o : Own T) :
    (u.tensorFrom (w, o) = .ub ↔ size s.dims = 0 ∧ 0 < size (s.dims.drop (s.dims.length - k))) ∧
    ∀ ty : ShapeTy, ty.Conforms s.dims →
      (u.arrayFrom ty (w, o) = .ub ↔ size s.dims = 0 ∧ 0 < size (s.dims.drop (s.dims.length - k))) := by
  constructor
  · refine ⟨fun hu => ?_, fun hp => UserExpr.tensorFrom_ub hn hs hp.1 hp.2 w o⟩
    by_contra hp
    have := UserExpr.post_tensorFrom h hs (fun hz => Nat.eq_zero_of_not_pos fun h => hp ⟨hz, h⟩) w o
    unfold M.Post at this
    rw [hu] at this
    exact this
  · intro ty hc
    refine ⟨fun hu => ?_, fun hp => UserExpr.arrayFrom_ub hn hs hc hp.1 hp.2 w o⟩
    by_contra hp
    have := UserExpr.post_arrayFrom h hs (fun hz => Nat.eq_zero_of_not_pos fun h => hp ⟨hz, h⟩) ty w o
    unfold M.Post at this
    rw [hu] at this
    exact this

/-- Every expression can keep a record of the values that it has returned, so that the statements about them are not
empty; keeping it changes nothing else that they assume. -/
theorem C83_noting (u : UserExpr σ T) (s : Shape) (k : Nat) (h : SafeCode u) (hs : Steady u s k) :
    SafeCode (noting u) ∧ Steady (noting u) s k ∧ Notes (noting u) Prod.snd := by
  have up : ∀ {β : Type} {x : M σ β} (_ : x.Tame) (w : σ × List T),
      M.Post (M.up x) w (fun _ w' => w'.2 = w.2) fun w' => w'.2 = w.2 := fun hx w =>
    M.post_up ((hx w.1).mono (fun _ _ _ => rfl) fun _ _ => rfl)
  have tame : ∀ {β : Type} {x : M σ β} (_ : x.Tame), (M.up x : M (σ × List T) β).Tame := fun hx w =>
    (up hx w).mono (fun _ _ _ => trivial) fun _ _ => trivial
  have got : ∀ i w, M.Post ((noting u).get i) w (fun x w' => w'.2 = w.2 ++ [x]) fun w' => w'.2 = w.2 := fun i w =>
    M.Post.bind (up (h.get i) w) fun x w' hw' => by
      show w'.2 ++ [x] = _
      rw [hw']
  refine ⟨⟨tame h.shape, tame h.innerRank, fun i w => (got i w).mono (fun _ _ _ => trivial) fun _ _ => trivial,
    fun i n => tame (h.resetDim i n), fun i => tame (h.stepDim i), nofun⟩, ⟨hs.wf, hs.ty, ?_, ?_, rfl⟩,
    ⟨up h.shape, up h.innerRank, got, fun i n => up (h.resetDim i n), fun i => up (h.stepDim i)⟩⟩
  · intro w a w' e
    have e : M.up u.shape w = .ok a w' := e
    unfold M.up at e
    cases hx : u.shape w.1 <;> rw [hx] at e <;> cases e
    exact hs.shape _ _ _ hx
  · intro w a w' e
    have e : M.up u.innerRank w = .ok a w' := e
    unfold M.up at e
    cases hx : u.innerRank w.1 <;> rw [hx] at e <;> cases e
    exact hs.innerRank _ _ _ hx

/-- A one-dimensional expression with `a` elements in the first `n` calls of `shape`, and with `b` elements later. -/
def fickle (n a b : Nat) : UserExpr Nat Nat where
  ty := .static [.dyn]
  shape := fun w => .ok ⟨.static [.dyn], [if w < n then a else b]⟩ (w + 1)
  innerRank := M.pure 1
  get i := M.pure i
  resetDim _ _ := M.pure ()
  stepDim _ := M.pure ()
  forEach := none

/-- A one-dimensional expression with one element, whose `for_each` passes two values to the closure. -/
def talkative : UserExpr Nat Nat := { fickle 0 1 1 with forEach := some [M.pure 5, M.pure 6] }

/-- A tensor with one element and no spare capacity. -/
def single : Own Nat := ⟨[some 7], 1, ⟨.static [.dyn], [1]⟩, [], 100⟩

/-- Safe code can make the crate write outside of the allocation and expose uninitialised memory: with an expression
whose shape changes between the calls, or with an expression which overrides `for_each`. -/
theorem C83_violated :
    (∀ n a b, SafeCode (fickle n a b)) ∧ SafeCode talkative ∧
    -- the vector is allocated for one element, three are written
    (fickle 2 1 3).tensorFrom (0, single) = .ub ∧
    -- a tensor of three elements, two of which are uninitialised
    (fickle 2 3 1).tensorFrom (0, single) = .ok () (7, ⟨[some 0, none, none], 1, ⟨.static [.dyn], [3]⟩, [], 100⟩) ∧
    -- arrays with one and three elements
    (fickle 1 1 3).arrayFrom (.static [.const 1]) (0, single) = .ub ∧
    (fickle 1 3 1).arrayFrom (.static [.const 3]) (0, single) = .ub ∧
    -- space for one more element, three are written
    (fickle 3 1 3).expand (0, single) = .ub ∧
    -- an expression with a constant shape, which only overrides `for_each`
    Steady { talkative with forEach := none } ⟨.static [.dyn], [1]⟩ 1 ∧
    talkative.tensorFrom (0, single) = .ub ∧ talkative.arrayFrom (.static [.const 1]) (0, single) = .ub ∧
    talkative.expand (0, single) = .ub := by
  refine ⟨fun n a b => ⟨fun _ => trivial, fun _ => trivial, fun _ _ => trivial, fun _ _ _ => trivial, fun _ _ => trivial, nofun⟩,
    ⟨fun _ => trivial, fun _ => trivial, fun _ _ => trivial, fun _ _ _ => trivial, fun _ _ => trivial, ?_⟩,
    by decide, by decide, by decide, by decide, by decide, ⟨by decide, rfl, ?_, ?_, rfl⟩, by decide, by decide, by decide⟩
  · intro xs hx x hm w
    have hx : [M.pure 5, M.pure 6] = xs := by injection hx
    subst hx
    simp only [List.mem_cons, List.not_mem_nil, or_false] at hm
    rcases hm with rfl | rfl <;> trivial
  · intro w a w' e
    injection e with e
    rw [← e]
    simp
  · intro w a w' e
    injection e with e
    exact e.symm

/-- An expression with shape `[2, 2]` and rows of one dimension, whose functions count their calls. The world is this
number, and the record of values. The call number `p` panics. -/
def counting (p : Nat) : UserExpr (Nat × List Nat) Nat where
  ty := .static [.dyn, .dyn]
  shape := fun w => if w.1 = p then .panic w else .ok ⟨.static [.dyn, .dyn], [2, 2]⟩ (w.1 + 1, w.2)
  innerRank := fun w => if w.1 = p then .panic w else .ok 1 (w.1 + 1, w.2)
  get i := fun w => if w.1 = p then .panic w else .ok (10 * w.1 + i) (w.1 + 1, w.2 ++ [10 * w.1 + i])
  resetDim _ _ := fun w => if w.1 = p then .panic w else .ok () (w.1 + 1, w.2)
  stepDim _ := fun w => if w.1 = p then .panic w else .ok () (w.1 + 1, w.2)
  forEach := none

/-- Tensor `[[1, 2]]`. -/
def row12 : Own Nat := ⟨[some 1, some 2, none], 2, ⟨.static [.dyn, .dyn], [1, 2]⟩, [], 100⟩

/-- The hypotheses hold for these expressions. Evaluating one of them, panics after two items, and a panic after the
last item. -/
example : (∀ p, SafeCode (counting p) ∧ Steady (counting p) ⟨.static [.dyn, .dyn], [2, 2]⟩ 1 ∧
      Notes (counting p) Prod.snd) ∧
    (counting 100).tensorFrom ((0, []), single) = .ok () ((23, [70, 81, 150, 161]),
      ⟨[some 70, some 81, some 150, some 161], 4, ⟨.static [.dyn, .dyn], [2, 2]⟩, [], 100⟩) ∧
    (counting 11).tensorFrom ((0, []), single) = .panic ((11, [70, 81]),
      ⟨[none, none, none, none], 2, ⟨.static [.dyn, .dyn], [2, 2]⟩, [70, 81], 100⟩) ∧
    Holds row12 [1, 2] ∧
    (counting 12).expand ((0, []), row12) = .panic ((12, [80, 91]),
      ⟨[none, none, none, none, none, none], 4, ⟨.static [.dyn, .dyn], [0, 0]⟩, [1, 2, 80, 91], 100⟩) ∧
    (counting 21).expand ((0, []), row12) = .panic ((21, [80, 91, 160, 171]),
      ⟨[some 1, some 2, some 80, some 91, some 160, some 171], 6, ⟨.static [.dyn, .dyn], [3, 2]⟩, [], 100⟩) := by
  have post : ∀ {β : Type} {p : Nat} {w w' : Nat × List Nat} {b : β} {Q : β → Nat × List Nat → Prop}
      {R : Nat × List Nat → Prop}, R w → Q b w' →
      M.Post (fun v => if v.1 = p then .panic v else .ok b w') w Q R := by
    intro β p w w' b Q R h1 h2
    unfold M.Post
    dsimp only
    by_cases h : w.1 = p
    · rw [if_pos h]; exact h1
    · rw [if_neg h]; exact h2
  have ret : ∀ {β : Type} {p : Nat} {w w' v : Nat × List Nat} {a b : β},
      (if w.1 = p then Res.panic w else .ok b v) = .ok a w' → a = b := by
    intro β p w w' v a b e
    split at e
    · cases e
    · injection e with e; exact e.symm
  refine ⟨fun p => ⟨⟨fun w => post trivial trivial, fun w => post trivial trivial, fun i w => post trivial trivial,
    fun i n w => post trivial trivial, fun i w => post trivial trivial, nofun⟩,
    ⟨by decide, rfl, fun w a w' e => ret e, fun w a w' e => ret e, rfl⟩,
    ⟨fun w => post (w' := (w.1 + 1, w.2)) rfl rfl, fun w => post (w' := (w.1 + 1, w.2)) rfl rfl,
      fun i w => post (w' := (w.1 + 1, w.2 ++ [10 * w.1 + i])) rfl rfl,
      fun i n w => post (w' := (w.1 + 1, w.2)) rfl rfl, fun i w => post (w' := (w.1 + 1, w.2)) rfl rfl⟩⟩,
    by decide +kernel, by decide +kernel, ⟨by decide, rfl, [none], rfl⟩, by decide +kernel, by decide +kernel⟩

/-- The case excluded in the partial statements, no elements but two elements in each row. -/
example : (({ fickle 0 1 1 with
      ty := .static [.dyn, .dyn]
      shape := M.pure ⟨.static [.dyn, .dyn], [0, 2]⟩ } : UserExpr Nat Nat)).tensorFrom (0, single) = .ub := by decide

end Props
