import Verif.Model.Format
import Verif.Spec.Conform
import Verif.Spec.Convert
import Verif.Spec.Compare

/-!
Specification for texts given by `Debug`.
-/

namespace Spec
open Model

/-- How many brackets are open after a text if `d` were open before. None if a bracket is closed that was not opened, or if
there is a comma outside of brackets. -/
def openAfter : Nat → Text → Option Nat
  | d, [] => some d
  | d, c :: cs =>
    if c = '[' ∨ c = '(' ∨ c = '{' then openAfter (d + 1) cs
    else if c = ']' ∨ c = ')' ∨ c = '}' then (if d = 0 then none else openAfter (d - 1) cs)
    else if c = ',' ∧ d = 0 then none
    else openAfter d cs

/-- A text with matching brackets and without commas outside of them, like those of numbers, tuples and structures. -/
def Closed (t : Text) : Prop := t ≠ [] ∧ openAfter 0 t = some 0

instance (t : Text) : Decidable (Closed t) := inferInstanceAs (Decidable (_ ∧ _))

/-- What nested lists show of the dimensions: those up to the first that is zero. -/
def shownDims : List Nat → List Nat
  | [] => []
  | 0 :: _ => [0]
  | (d + 1) :: ds => (d + 1) :: shownDims ds

/-- Nested lists in one line. -/
def nestedText : List Nat → (List Nat → Text) → Text
  | [], f => f []
  | d :: ds, f =>
    ['['] ++ [',', ' '].intercalate ((List.range d).map fun i => nestedText ds fun j => f (i :: j)) ++ [']']

/-- Nested lists with one line for each bracket and each element, indented by four spaces for each level. -/
def prettyText (k : Nat) : List Nat → (List Nat → Text) → Text
  | [], f => f []
  | 0 :: _, _ => ['[', ']']
  | (d + 1) :: ds, f =>
    ['['] ++ ((List.range (d + 1)).map fun i =>
      ['\n'] ++ List.replicate (4 * (k + 1)) ' ' ++ prettyText (k + 1) ds (fun j => f (i :: j)) ++ [',']).flatten ++
    ['\n'] ++ List.replicate (4 * k) ' ' ++ [']']

/-- The text of the element at an index. -/
def elemText (f : Int → Text) (v : View) (j : List Nat) : Text :=
  match v.index j with
  | some p => f p
  | none => []

/-- Expressions made of the same adapters. -/
def SameForm : Shown → Shown → Prop
  | .array _, .array _ => True
  | .axis l m _ _, .axis l' m' _ _ => l = l' ∧ m = m'
  | .intoExpr _, .intoExpr _ => True
  | .fill _, .fill _ => True
  | .fillWith, .fillWith => True
  | .fromElem _ _, .fromElem _ _ => True
  | .fromFn _, .fromFn _ => True
  | .cloned e, .cloned e' => SameForm e e'
  | .copied e, .copied e' => SameForm e e'
  | .enumerate e, .enumerate e' => SameForm e e'
  | .map e, .map e' => SameForm e e'
  | .zip a b, .zip a' b' => SameForm a a' ∧ SameForm b b'
  | .iter e, .iter e' => SameForm e e'
  | _, _ => False

/-- The texts in an expression have matching brackets, and shapes are possible ones. -/
def ShownFine : Shown → Prop
  | .array t | .axis _ _ _ t | .intoExpr t | .fill t => Closed t
  | .fillWith => True
  | .fromElem s t => s.WF ∧ Closed t
  | .fromFn s => s.WF
  | .cloned e | .copied e | .enumerate e | .map e | .iter e => ShownFine e
  | .zip a b => ShownFine a ∧ ShownFine b

/-- The arrays in an expression show as lists: they have at least one dimension. -/
def ListsInside : Shown → Prop
  | .array t => t.head? = some '['
  | .axis _ _ _ _ | .intoExpr _ | .fill _ | .fillWith | .fromElem _ _ | .fromFn _ => True
  | .cloned e | .copied e | .enumerate e | .map e | .iter e => ListsInside e
  | .zip a b => ListsInside a ∧ ListsInside b

end Spec
