import Verif.Model.SerdeCalls
import Verif.Spec.Serde

/-! What the calls to a serialiser should be. -/

namespace Spec
open Model

variable {σ ε : Type}

/-- The calls for an array with dimensions `ds`, whose element with index `j` is at position `g j`. -/
def callsOf : List Nat → (List Nat → Int) → List SerCall
  | [], g => [.leaf (g [])]
  | d :: ds, g =>
    .start d :: (List.range d).flatMap (fun i => .element :: callsOf ds (fun j => g (i :: j)) ++ [.finish]) ++
      [.stop]

/-- Make the calls one after the other until one of them fails. -/
def runCalls (act : SerCall → M σ (Option ε)) : List SerCall → M σ (Option ε)
  | [] => M.pure none
  | c :: cs => M.bind (act c) fun r =>
    match r with
    | some e => M.pure (some e)
    | none => runCalls act cs

/-- What a serialiser waits for: a value, or the next element or the end of a sequence; or it has got a
value. -/
inductive Waiting
  | value
  | next
  | got (v : Val Int)

/-- A serialiser that follows the protocol of serde strictly and builds a value from the calls, or fails
(`none`): calls out of order, and sequences whose length is not the one announced. The stack has the
sequences that have begun. -/
def accept : List SerCall → List (Nat × List (Val Int)) → Waiting → Option (Val Int)
  | [], [], .got v => some v
  | .leaf p :: cs, st, .value => accept cs st (.got (.leaf p))
  | .start n :: cs, st, .value => accept cs ((n, []) :: st) .next
  | .element :: cs, q :: st, .next => accept cs (q :: st) .value
  | .finish :: cs, q :: st, .got v => accept cs ((q.1, q.2 ++ [v]) :: st) .next
  | .stop :: cs, q :: st, .next => if q.2.length = q.1 then accept cs st (.got (.seq q.1 q.2)) else none
  | _, _, _ => none

/-- The serialiser `act`, with a record of the calls made to it. -/
def recorded (act : SerCall → M σ (Option ε)) (c : SerCall) : M (σ × List SerCall) (Option ε) := fun s =>
  M.up (act c) (s.1, s.2 ++ [c])

/-- A serialiser that fails at the call with number `n`. -/
def failsAt (n : Nat) (_ : SerCall) : M Nat (Option Unit) := fun k =>
  .ok (if k = n then some () else none) (k + 1)

end Spec
