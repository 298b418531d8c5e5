import Verif.Model.Expr
import Verif.Lemmas.Mapping
import Verif.Spec.View
import Verif.Spec.Conform
import Verif.Spec.Reshape

/-!
Specification of expressions: the item at each multi-index, without any reference to iteration,
pointers or stepping.
-/

namespace Spec
open Model

/-- An optional value that is known to exist. -/
def orUb {σ : Type} {α : Type} : Option α → M σ α
  | some x => M.pure x
  | none => M.ub

/-- The one-dimensional lane of `v` along axis `a` at the position `j` of the other axes. -/
def laneAt (v : View) (a : Axis) (j : List Nat) : Option View := do
  let p ← axisPos a v.dims.length
  let item ← a.get v.map
  let base ← if v.dims.getD p 0 = 0 then some v.ptr else v.index (j.insertIdx p 0)
  pure ⟨base, item⟩

/-- The item of an expression at its own multi-index `j`, as the `n`-th item of the iteration.
Broadcasting uses the trailing part of the index. -/
def item {σ : Type} : {α : Type} → Expr σ α → (n : Nat) → (j : List Nat) → M σ α
  | _, .view _ v, _, j => orUb (v.index j)
  | _, .axis _ v a _ _, _, j => orUb (v.axisAt a (j.getD 0 0))
  | _, .lanes _ v a _ _, _, j => orUb (laneAt v a j)
  | _, .fill f, _, _ => f
  | _, .fromElem _ f, _, _ => f
  | _, .fromFn _ _ f, _, j => f j
  | _, .intoExpr s buf _, _, j => orUb buf[rowMajor s.dims j]?
  | _, .map e f, n, j => M.bind (item e n j) f
  | _, .enumerate e _, n, j => M.bind (item e n j) fun x => M.pure (n, x)
  | _, .zip a b s, n, j =>
    M.bind (item a n (j.drop (s.dims.length - a.dims.length))) fun x =>
      M.bind (item b n (j.drop (s.dims.length - b.dims.length))) fun y => M.pure (x, y)

/-- Expressions that the public interface can build. -/
inductive Built {σ : Type} : {α : Type} → Expr σ α → Prop
  | view {r v} : v.map.WF → Built (.view r v)
  | axis {r v a e} : v.map.WF → Expr.axisNew r v a = some e → Built e
  | lanes {r v a e} : v.map.WF → Expr.lanesNew r v a = some e → Built e
  | fill {α} {f : M σ α} : Built (.fill f)
  | fromElem {α} {s} {f : M σ α} {e} : s.WF → Expr.fromElemNew s f = some e → Built e
  | fromFn {α} {s} {f : List Nat → M σ α} {e} : s.WF → Expr.fromFnNew s f = some e → Built e
  | intoExpr {α} {s} {buf : List α} : s.WF → buf.length = size s.dims → Built (.intoExpr s buf 0)
  | map {α β} {e : Expr σ α} {f : α → M σ β} : Built e → Built (.map e f)
  | enumerate {α} {e : Expr σ α} : Built e → Built (Expr.enumerateNew e)
  | zip {α β} {a : Expr σ α} {b : Expr σ β} {e} : Built a → Built b → Expr.zipNew a b = some e →
      Built e

/-- Exclusions for the known defects, for an expression iterated within an expression of rank `R`
with `O` outer dimensions:
- `from_fn` with a dynamic rank must have rank 0 (otherwise it panics),
- lanes must not be stepped along an outer dimension (the step is ignored),
- the items of `axis_expr` must have a length that does not overflow (otherwise it panics). -/
def Regular {σ : Type} : {α : Type} → Expr σ α → (R O : Nat) → Prop
  | _, .view _ _, _, _ => True
  | _, .axis _ v a _ _, _, _ =>
    ∀ p, axisPos a v.dims.length = some p → 0 < v.dims.getD p 0 →
      NoOverflow usizeMax (v.dims.eraseIdx p)
  | _, .lanes _ _ _ m _, R, O => O ≤ R - m.dims.length
  | _, .fill _, _, _ => True
  | _, .fromElem _ _, _, _ => True
  | _, .fromFn s _ _, _, _ => s.ty = .dynRank → s.dims = []
  | _, .intoExpr _ _ _, _, _ => True
  | _, .map e _, R, O => Regular e R O
  | _, .enumerate e _, R, O => Regular e R O
  | _, .zip a b _, R, O => Regular a R O ∧ Regular b R O

/-- An expression without the known defects. -/
def Sound {σ : Type} {α : Type} (e : Expr σ α) : Prop := Regular e e.dims.length e.outerRank

/-- Visiting all items in row-major order: the specification of `fold`. -/
def foldItems {σ : Type} {α τ : Type} (e : Expr σ α) (f : τ → α → M σ τ) (init : τ) : M σ τ :=
  (allIdx e.dims).zipIdx.foldlM (fun acc jn => M.bind (item e jn.2 jn.1) fun x => f acc x) init

/-- An expression that `next` iterates correctly: if it is empty then a row is empty and there are no
further rows (the iterator does not check the outer dimensions for emptiness, and after an empty row it
continues with the next one). See `Props.C20_exact` for the necessity of this condition. -/
def Plain {σ : Type} {α : Type} (e : Expr σ α) : Prop :=
  0 < size e.dims ∨
    (size (e.dims.drop e.outerRank) = 0 ∧ ∀ d ∈ e.dims.take e.outerRank, d ≤ 1)

/-- The first `k` items in row-major order. -/
def firstItems {σ : Type} {α : Type} (e : Expr σ α) (k : Nat) : M σ (List α) :=
  ((allIdx e.dims).zipIdx.take k).mapM fun jn => item e jn.2 jn.1

/-- The results of `k` calls of `next`, and the iterator afterwards. -/
def runNext {σ : Type} {α : Type} : Nat → Iter σ α → M σ (List (Option α) × Iter σ α)
  | 0, it => M.pure ([], it)
  | k + 1, it => M.bind it.next fun p => M.bind (runNext k p.2) fun q => M.pure (p.1 :: q.1, q.2)

/-- Up to `k` calls of `next`, each item being passed on to `f`. -/
def driveNext {σ : Type} {α τ : Type} (f : τ → α → M σ τ) : Nat → Iter σ α → τ → M σ (τ × Iter σ α)
  | 0, it, acc => M.pure (acc, it)
  | k + 1, it, acc => M.bind it.next fun p =>
    match p.1 with
    | some x => M.bind (f acc x) fun acc' => driveNext f k p.2 acc'
    | none => M.pure (acc, p.2)

/-- Up to `k` calls of `next`, each item being passed on to `f`, and then a `fold` over the remaining items
unless the end was reached. -/
def driveThenFold {σ : Type} {α τ : Type} (f : τ → α → M σ τ) : Nat → Iter σ α → τ → M σ τ
  | 0, it, acc => it.fold acc f
  | k + 1, it, acc => M.bind it.next fun p =>
    match p.1 with
    | some x => M.bind (f acc x) fun acc' => driveThenFold f k p.2 acc'
    | none => M.pure acc

end Spec
