import Verif.Lemmas.Adapt
import Verif.Props.Exact

/-!
C24 and C25 for all expressions, including those for which iteration itself is wrong: pairing, mapping and
numbering never add an error of their own.
-/

namespace Props
open Model Spec
open Model.Expr Model.Iter

variable {σ α β τ : Type}

/-! ### C24 -/

/-- C24, exactly: unless there is a `from_fn` with a dynamic rank and the rows are empty, the pairs are those of
the items of the operands at the trailing parts of each index that is visited. Zero outer dimensions count
as one. In the excluded case there is a panic right away. -/
theorem C24_exact (a : Expr σ α) (b : Expr σ β) (ha : Built a) (hb : Built b) {e}
    (he : zipNew a b = some e) (f : τ → α × β → M σ τ) (init : τ) :
    (¬ ((BadFn a ∨ BadFn b) ∧ size (e.dims.drop e.outerRank) = 0) →
      e.fold init f = (allIdx (visited e)).zipIdx.foldlM (fun acc jn =>
        M.bind (rawItem (e.dims.length - e.outerRank) a jn.2 (jn.1.drop (e.dims.length - a.dims.length)))
          fun x => M.bind (rawItem (e.dims.length - e.outerRank) b jn.2
            (jn.1.drop (e.dims.length - b.dims.length))) fun y => f acc (x, y)) init) ∧
    ((BadFn a ∨ BadFn b) ∧ size (e.dims.drop e.outerRank) = 0 → e.fold init f = M.panic) := by
  have h := C19_exact e (Built.zip ha hb he) f init
  unfold zipNew at he
  rw [Option.map_eq_some_iff] at he
  obtain ⟨s, hs, rfl⟩ := he
  refine ⟨fun hn => ?_, h.2⟩
  rw [h.1 hn]
  congr 1
  funext acc jn
  simp only [rawItem, M.bind_assoc, M.pure_bind]
  rfl

/-- An empty strided view with a phantom row of 3 items, zipped with a vector of 3 elements. -/
example : ((zipNew (.view true (swapped 3 0) : Expr Unit Int)
      (.view true (whole ⟨.static [.const 3], [3]⟩))).map fun e =>
      (e.dims, visited e, e.fold [] (fun acc x => M.pure (acc ++ [x])) ())) =
    some ([0, 3], [1, 3], .ok [(0, 0), (0, 1), (0, 2)] ()) := by rfl

/-! ### C25 -/

/-- C25, exactly, for all expressions: iterating `e.map(g)` is iterating `e` and calling `g` for each item that
it yields, right after the item is produced. -/
theorem C25_map_exact (e : Expr σ α) (g : α → M σ β) (f : τ → β → M σ τ) (init : τ) :
    (Expr.map e g).fold init f = e.fold init fun acc x => M.bind (g x) fun y => f acc y :=
  foldLoop_map g f _ (Iter.new e) init

/-- The same for calls of `next`. -/
theorem C25_map_next (e : Expr σ α) (g : α → M σ β) (f : τ → β → M σ τ) (k : Nat) (init : τ) :
    (M.bind (driveNext f k (Iter.new (Expr.map e g)) init) fun p => M.pure p.1) =
      M.bind (driveNext (fun acc x => M.bind (g x) fun y => f acc y) k (Iter.new e) init) fun p =>
        M.pure p.1 := by
  rw [new_map]
  generalize Iter.new e = it
  induction k generalizing it init with
  | zero => rfl
  | succ k ih =>
    simp only [driveNext, next_map, M.bind_assoc]
    congr 1
    funext p
    obtain ⟨x, it'⟩ := p
    cases x with
    | none => rfl
    | some x => simp only [M.bind_assoc, M.pure_bind, ih]

/-- C25, exactly, for all expressions: iterating `e.enumerate()` is iterating `e` and counting the items that it
yields from 0. -/
theorem C25_enumerate_exact (e : Expr σ α) (f : τ → Nat × α → M σ τ) (init : τ) :
    (enumerateNew e).fold init f =
      M.bind (e.fold (0, init) fun p x => M.bind (f p.2 (p.1, x)) fun acc => M.pure (p.1 + 1, acc)) fun p =>
        M.pure p.2 :=
  foldLoop_enumerate f _ (Iter.new e) 0 init

/-- The same for calls of `next`. -/
theorem C25_enumerate_next (e : Expr σ α) (f : τ → Nat × α → M σ τ) (k : Nat) (init : τ) :
    (M.bind (driveNext f k (Iter.new (enumerateNew e)) init) fun p => M.pure p.1) =
      M.bind (driveNext (fun p x => M.bind (f p.2 (p.1, x)) fun acc => M.pure (p.1 + 1, acc)) k
        (Iter.new e) (0, init)) fun p => M.pure p.1.2 := by
  unfold enumerateNew
  rw [new_enumerate]
  generalize Iter.new e = it
  generalize 0 = n
  induction k generalizing it init n with
  | zero => rfl
  | succ k ih =>
    simp only [driveNext, next_enumerate, M.bind_assoc]
    congr 1
    funext p
    obtain ⟨x, it'⟩ := p
    cases x with
    | none => rfl
    | some x => simp only [M.bind_assoc, M.pure_bind, ih]

/-- Numbering the three phantom items of an empty view, and the elements of a 3 by 2 view with a closure that
counts its calls. -/
example : (enumerateNew (.view true (swapped 3 0) : Expr Unit Int)).fold [] (fun acc x => M.pure (acc ++ [x])) () =
      .ok [(0, 0), (1, 0), (2, 0)] () ∧
    (Expr.map (.view true (swapped 2 3) : Expr Nat Int) fun x => fun s => .ok (x + 10) (s + 1)).fold []
      (fun acc x => M.pure (acc ++ [x])) 0 = .ok [10, 13, 11, 14, 12, 15] 6 := ⟨rfl, rfl⟩

end Props
