import Verif.Lemmas.FormatText

/-!
Names in the texts of expressions.
-/

namespace Spec
open Model

/-- The letters at the begin of a text. -/
def letters (t : Text) : Text := t.takeWhile fun c => c.isAlpha

theorem letters_name {name r : Text} (hn : ∀ c ∈ name, c.isAlpha = true) (hr : ∀ c ∈ r.head?, c.isAlpha = false) :
    letters (name ++ r) = name := by
  induction name with
  | nil => cases r with
    | nil => rfl
    | cons c r => simp [letters, hr c (by simp)]
  | cons c n ih =>
    have := ih fun d hd => hn d (List.mem_cons_of_mem _ hd)
    simp only [letters] at this ⊢
    rw [List.cons_append, List.takeWhile_cons, hn c (by simp), if_pos rfl, this]

theorem letters_tuple (alt : Bool) {name : Text} (hn : ∀ c ∈ name, c.isAlpha = true) (es : List Text) :
    letters (debugTuple alt name es) = name := by
  unfold debugTuple
  split
  · simpa using letters_name (r := []) hn (by simp)
  · exact letters_name hn (by simp)

theorem letters_struct (alt : Bool) {name : Text} (hn : ∀ c ∈ name, c.isAlpha = true) (fs : List (Text × Text)) :
    letters (debugStruct alt name fs) = name := by
  unfold debugStruct
  split
  · simpa using letters_name (r := []) hn (by simp)
  · refine letters_name hn ?_
    cases alt <;> simp

/-- Name of an expression. -/
def exprName : Shown → Text
  | .array _ => []
  | .axis l m _ _ => (if l then "Lanes" else "AxisExpr").toList ++ if m then "Mut".toList else []
  | .intoExpr _ => "IntoExpr".toList
  | .fill _ => "Fill".toList
  | .fillWith => "FillWith".toList
  | .fromElem _ _ => "FromElem".toList
  | .fromFn _ => "FromFn".toList
  | .cloned _ => "Cloned".toList
  | .copied _ => "Copied".toList
  | .enumerate _ => "Enumerate".toList
  | .map _ => "Map".toList
  | .zip _ _ => "Zip".toList
  | .iter _ => "Iter".toList

theorem letters_expr (alt : Bool) (e : Shown) (h : ListsInside e) : letters (exprText alt e) = exprName e := by
  cases e with
  | array t =>
    cases t with
    | nil => rfl
    | cons c t =>
      obtain rfl : c = '[' := by simpa [ListsInside] using h
      rfl
  | axis l m i t => exact letters_tuple alt (by cases l <;> cases m <;> decide) _
  | intoExpr t => exact letters_tuple alt (by decide) _
  | fill t => exact letters_tuple alt (by decide) _
  | fillWith => exact letters_tuple alt (by decide) _
  | fromElem s t => exact letters_tuple alt (by decide) _
  | fromFn s => exact letters_tuple alt (by decide) _
  | cloned e => exact letters_struct alt (by decide) _
  | copied e => exact letters_struct alt (by decide) _
  | enumerate e => exact letters_struct alt (by decide) _
  | map e => exact letters_struct alt (by decide) _
  | zip a b => exact letters_struct alt (by decide) _
  | iter e => exact letters_tuple alt (by decide) _

/-- A number for each name. -/
def kind : Shown → Nat
  | .array _ => 0
  | .axis l m _ _ => 20 + (if l then 2 else 0) + if m then 1 else 0
  | .intoExpr _ => 1
  | .fill _ => 2
  | .fillWith => 3
  | .fromElem _ _ => 4
  | .fromFn _ => 5
  | .cloned _ => 6
  | .copied _ => 7
  | .enumerate _ => 8
  | .map _ => 9
  | .zip _ _ => 10
  | .iter _ => 11

/-- The number for a name. -/
def nameKind (t : Text) : Nat :=
  (["".toList, "IntoExpr".toList, "Fill".toList, "FillWith".toList, "FromElem".toList, "FromFn".toList, "Cloned".toList,
    "Copied".toList, "Enumerate".toList, "Map".toList, "Zip".toList, "Iter".toList, [], [], [], [], [], [], [], [],
    "AxisExpr".toList, "AxisExprMut".toList, "Lanes".toList, "LanesMut".toList].idxOf t)

theorem nameKind_expr (e : Shown) : nameKind (exprName e) = kind e := by
  cases e with
  | axis l m i t =>
    exact (by decide +kernel : ∀ l m : Bool, nameKind ((if l then "Lanes" else "AxisExpr").toList ++ if m then "Mut".toList else []) =
      20 + (if l then 2 else 0) + if m then 1 else 0) l m
  | array => exact (by decide +kernel : nameKind [] = 0)
  | intoExpr => exact (by decide +kernel : nameKind "IntoExpr".toList = 1)
  | fill => exact (by decide +kernel : nameKind "Fill".toList = 2)
  | fillWith => exact (by decide +kernel : nameKind "FillWith".toList = 3)
  | fromElem => exact (by decide +kernel : nameKind "FromElem".toList = 4)
  | fromFn => exact (by decide +kernel : nameKind "FromFn".toList = 5)
  | cloned => exact (by decide +kernel : nameKind "Cloned".toList = 6)
  | copied => exact (by decide +kernel : nameKind "Copied".toList = 7)
  | enumerate => exact (by decide +kernel : nameKind "Enumerate".toList = 8)
  | map => exact (by decide +kernel : nameKind "Map".toList = 9)
  | zip => exact (by decide +kernel : nameKind "Zip".toList = 10)
  | iter => exact (by decide +kernel : nameKind "Iter".toList = 11)

theorem kind_eq {alt : Bool} {e e' : Shown} (h : ListsInside e) (h' : ListsInside e')
    (he : exprText alt e = exprText alt e') : kind e = kind e' := by
  rw [← nameKind_expr, ← nameKind_expr, ← letters_expr alt e h, ← letters_expr alt e' h', he]

theorem sameForm {alt : Bool} : ∀ {e e' : Shown}, ListsInside e → ListsInside e' → ShownFine e → ShownFine e' →
    exprText alt e = exprText alt e' → SameForm e e' := by
  have one : ∀ {name t t' : Text}, name ≠ [] → Closed t → Closed t' → debugTuple alt name [t] = debugTuple alt name [t'] →
      t = t' := by
    intro name t t' hn h h' he
    simpa using tuple_inj_name hn (by simpa using h) (by simpa using h') (by simp) (by simp) he
  have field : ∀ {name t t' : Text}, Closed t → Closed t' →
      debugStruct alt name [("expr".toList, t)] = debugStruct alt name [("expr".toList, t')] → t = t' := by
    intro name t t' h h' he
    simpa using struct_inj (by simpa using ⟨by decide, h⟩) (by simpa using ⟨by decide, h'⟩) (by simp) (by simp) he
  intro e
  induction e with
  | array t | intoExpr t | fill t | fillWith | fromElem s t | fromFn s =>
    intro e' l l' h h' he
    have hk := kind_eq l l' he
    cases e' <;> simp only [kind] at hk <;> first | trivial | omega
  | axis a b i t =>
    intro e' l l' h h' he
    have hk := kind_eq l l' he
    cases e' with
    | axis a' b' i' t' => revert hk; cases a <;> cases b <;> cases a' <;> cases b' <;> simp [kind, SameForm]
    | _ => simp only [kind] at hk; omega
  | cloned e ih | copied e ih | enumerate e ih | map e ih =>
    intro e' l l' h h' he
    have hk := kind_eq l l' he
    cases e' <;> simp only [kind] at hk <;>
      first
      | omega
      | exact ih l l' h h' (field (closed_expr alt _ h) (closed_expr alt _ h') he)
  | zip a b iha ihb =>
    intro e' l l' h h' he
    have hk := kind_eq l l' he
    cases e' with
    | zip a' b' =>
      have := struct_inj (by simpa using ⟨⟨by decide, closed_expr alt _ h.1⟩, by decide, closed_expr alt _ h.2⟩)
        (by simpa using ⟨⟨by decide, closed_expr alt _ h'.1⟩, by decide, closed_expr alt _ h'.2⟩) (by simp) (by simp) he
      simp only [List.map_cons, List.map_nil, List.cons.injEq, and_true, List.append_cancel_left_eq, true_and] at this
      exact ⟨iha l.1 l'.1 h.1 h'.1 this.1, ihb l.2 l'.2 h.2 h'.2 this.2⟩
    | _ => simp only [kind] at hk; omega
  | iter e ih =>
    intro e' l l' h h' he
    have hk := kind_eq l l' he
    cases e' <;> simp only [kind] at hk <;>
      first
      | omega
      | exact ih l l' h h' (one (by decide) (closed_expr alt _ h) (closed_expr alt _ h') he)

end Spec
