import Verif.Model.Serde

/-!
Model of `Serialize` (src/serde.rs:117-157) as the calls that it makes to a serialiser, each of which can
fail with an error or panic. `Model/Serde.lean` describes the value that is written if nothing fails.
-/

namespace Model

/-- A call to the serialiser: `serialize_seq(Some(len))`, the begin of `serialize_element`, the
serialisation of the element at position `pos` by its own type, the end of `serialize_element`, and
`SerializeSeq::end`. `serialize_element` is assumed to call `serialize` for its argument exactly once,
between its begin and its end. -/
inductive SerCall
  | start (len : Nat)
  | element
  | leaf (pos : Int)
  | finish
  | stop
  deriving DecidableEq, Repr

variable {σ α ε : Type}

/-- The operator `?`: an error of `x` is returned, otherwise `k` runs. The value that is returned on
success is not modelled. -/
def tryThen (x k : M σ (Option ε)) : M σ (Option ε) :=
  M.bind x fun r =>
    match r with
    | some e => M.pure (some e)
    | none => k

/-- A `for` loop through `next` with `?` in its body; fuel as in `iterEq`. -/
def forTry (f : α → M σ (Option ε)) : (fuel : Nat) → Iter σ α → M σ (Option ε)
  | 0, _ => M.ub
  | fuel + 1, it => M.bind it.next fun p =>
    match p.1 with
    | none => M.pure none
    | some x => tryThen (f x) (forTry f fuel p.2)

/-- `Serialize` for `Slice` of a static rank, src/serde.rs:123-139, by recursion on the rank; `act` is
the serialiser. -/
def serCallsRank (act : SerCall → M σ (Option ε)) : (rank : Nat) → View → M σ (Option ε)
  | 0, v => M.bind (M.lift (v.index [])) fun p => act (.leaf p)
  | rank + 1, v =>
    M.bind (M.lift (v.map.dim 0)) fun d =>
      tryThen (act (.start d)) (M.bind (M.lift (Expr.axisNew true v (.const 0))) fun e =>
        let it := Iter.new e
        tryThen (forTry (fun w => tryThen (act .element) (tryThen (serCallsRank act rank w) (act .finish)))
          (it.outerCount * it.innerLimit + 1) it) (act .stop))

/-- `Serialize` for `Slice`, src/serde.rs:123-139, and for the types that forward to it,
src/serde.rs:117-121 and 141-157. A dynamic rank panics. -/
def serializeCalls (act : SerCall → M σ (Option ε)) (v : View) : M σ (Option ε) :=
  match v.ty.rank? with
  | some rank => serCallsRank act rank v
  | none => M.panic

end Model
