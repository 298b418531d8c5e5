import Verif.Model.Slice

/-!
Model of the texts that `Debug` gives, for `{:?}` and for `{:#?}` (`alt`). A text is a list of characters. The builders of
std (`DebugList`, `DebugTuple`, `DebugStruct`) are modelled as functions of the texts of their entries; errors of the
formatter are not modelled.
-/

namespace Model

abbrev Text := List Char

/-- `PadAdapter::write_str` (std): four spaces at the begin of each line. The argument says if the last character was a line
break. -/
def padText : Bool → Text → Text
  | _, [] => []
  | true, c :: cs => ' ' :: ' ' :: ' ' :: ' ' :: c :: padText (c == '\n') cs
  | false, c :: cs => c :: padText (c == '\n') cs

/-- The entries of a list, of a tuple or of a structure (std, `DebugInner::entry`, `DebugTuple::field`,
`DebugStruct::field`), without the opening bracket. -/
def entriesText (alt : Bool) (es : List Text) : Text :=
  if alt then (if es = [] then [] else '\n' :: (es.flatMap fun e => padText true (e ++ [',', '\n'])))
  else [',', ' '].intercalate es

/-- `f.debug_list().entries(…).finish()` (std). -/
def debugList (alt : Bool) (es : List Text) : Text := '[' :: (entriesText alt es ++ [']'])

/-- `f.debug_tuple(name).field(…)….finish()` (std). A tuple with one field and without a name has a comma. -/
def debugTuple (alt : Bool) (name : Text) (es : List Text) : Text :=
  if es = [] then name
  else name ++ '(' :: (entriesText alt es ++ (if es.length = 1 ∧ name = [] ∧ ¬ alt then [',', ')'] else [')']))

/-- `f.debug_struct(name).field(…)….finish()` (std), and derived implementations. -/
def debugStruct (alt : Bool) (name : Text) (fs : List (Text × Text)) : Text :=
  if fs = [] then name
  else
    let body := entriesText alt (fs.map fun f => f.1 ++ ':' :: ' ' :: f.2)
    name ++ (if alt then ' ' :: '{' :: (body ++ ['}']) else ' ' :: '{' :: ' ' :: (body ++ [' ', '}']))

/-- The digits of a number, most significant first, in front of `acc`. -/
def digits : (fuel : Nat) → Nat → Text → Text
  | 0, _, acc => acc
  | fuel + 1, n, acc =>
    let acc := Char.ofNat (48 + n % 10) :: acc
    if n < 10 then acc else digits fuel (n / 10) acc

/-- `Debug` for `usize` (std). -/
def natText (n : Nat) : Text := digits (n + 1) n []

/-- `Debug` for `isize` (std). -/
def intText : Int → Text
  | .ofNat n => natText n
  | .negSucc n => '-' :: natText (n + 1)

/-- `Debug` for `Const<N>`, src/dim.rs:53-57, and for `Dyn`, which is `usize`. -/
def dimText (alt : Bool) : DimTy → Nat → Text
  | .const n, _ => debugTuple alt "Const".toList [natText n]
  | .dyn, d => natText d

/-- `Debug` for shapes: tuples of dimensions (std) and `DynRank`, src/shape.rs:255-259. -/
def shapeText (alt : Bool) (s : Shape) : Text :=
  match s.ty with
  | .static ds => if ds = [] then ['(', ')'] else debugTuple alt [] (List.zipWith (dimText alt) ds s.dims)
  | .dynRank => debugTuple alt "DynRank".toList [debugList alt (s.dims.map natText)]

/-- `Debug` for `DenseMapping` and `StridedMapping`, derived, src/mapping.rs:111-121. -/
def mappingText (alt : Bool) : Mapping → Text
  | .dense s => debugStruct alt "DenseMapping".toList [("shape".toList, shapeText alt s)]
  | .strided s st => debugStruct alt "StridedMapping".toList
      [("shape".toList, shapeText alt s), ("strides".toList, debugList alt (st.map intText))]

mutual

/-- The text of a nested list. -/
def arrText (alt : Bool) : Arr Text → Text
  | .elem t => t
  | .arr xs => debugList alt (arrTexts alt xs)

/-- The texts of nested lists. -/
def arrTexts (alt : Bool) : List (Arr Text) → List Text
  | [] => []
  | x :: xs => arrText alt x :: arrTexts alt xs

end

/-- The text of `Debug` for `Slice`, src/slice.rs:813-821; the same for views (src/view.rs:333-337), tensors
(src/tensor.rs:673-677) and arrays (src/array.rs:205-209). `fmt` gives the text of the element at a position. -/
def sliceText (alt : Bool) (fmt : Int → Text) (v : View) : Option Text :=
  match debug (σ := Unit) (fun p => M.pure (fmt p)) v () with
  | .ok a _ => some (arrText alt a)
  | _ => none

/-- What `Debug` shows of an expression. Views are expressions that show as arrays. -/
inductive Shown
  | array (t : Text)
  | axis (lanes isMut : Bool) (index : Nat) (t : Text)
  | intoExpr (t : Text)
  | fill (t : Text)
  | fillWith
  | fromElem (s : Shape) (t : Text)
  | fromFn (s : Shape)
  | cloned (e : Shown)
  | copied (e : Shown)
  | enumerate (e : Shown)
  | map (e : Shown)
  | zip (a b : Shown)
  | iter (e : Shown)

/-- `Debug` for expressions: `AxisExpr` and `Lanes` (src/expr/sources.rs:147-153, 424-430, where the index of the axis is
computed), `IntoExpr` (src/expr/into_expr.rs:58-62), `Fill`, `FillWith`, `FromElem`, `FromFn` (src/expr/sources.rs:227-231,
269-273, 313-317, 357-361), `Cloned`, `Copied` (derived, src/expr/adapters.rs:8-17), `Enumerate`, `Map`, `Zip`
(src/expr/adapters.rs:217-221, 270-274, 336-340), and `Iter` (src/expr/iter.rs:66-72, after the assertion in
`iterDebug`). -/
def exprText (alt : Bool) : Shown → Text
  | .array t => t
  | .axis lanes isMut i t => debugTuple alt ((if lanes then "Lanes" else "AxisExpr").toList ++ if isMut then "Mut".toList else [])
      [natText i, t]
  | .intoExpr t => debugTuple alt "IntoExpr".toList [t]
  | .fill t => debugTuple alt "Fill".toList [t]
  | .fillWith => debugTuple alt "FillWith".toList []
  | .fromElem s t => debugTuple alt "FromElem".toList [shapeText alt s, t]
  | .fromFn s => debugTuple alt "FromFn".toList [shapeText alt s]
  | .cloned e => debugStruct alt "Cloned".toList [("expr".toList, exprText alt e)]
  | .copied e => debugStruct alt "Copied".toList [("expr".toList, exprText alt e)]
  | .enumerate e => debugStruct alt "Enumerate".toList [("expr".toList, exprText alt e)]
  | .map e => debugStruct alt "Map".toList [("expr".toList, exprText alt e)]
  | .zip a b => debugStruct alt "Zip".toList [("a".toList, exprText alt a), ("b".toList, exprText alt b)]
  | .iter e => debugTuple alt "Iter".toList [exprText alt e]

end Model
