import Verif.Lemmas.Format
import Verif.Lemmas.ViewOps
import Mathlib.Tactic.IntervalCases

/-!
Texts given by `Debug`: numbers, shapes, mappings, nested lists and expressions.
-/

namespace Spec
open Model

/-! Tuples and structures. -/

theorem openAfter_tuple (alt : Bool) {name : Text} (hn : openAfter 0 name = some 0) {es : List Text}
    (h : ∀ e ∈ es, Closed e) : openAfter 0 (debugTuple alt name es) = some 0 := by
  rw [debugTuple]
  split
  · exact hn
  · rw [openAfter_append, hn, Option.bind_some]
    have e : ∀ t : Text, openAfter 0 ('(' :: t) = openAfter 1 t := by
      intro t
      conv_lhs => rw [openAfter]
      simp
    rw [e, openAfter_append, openAfter_entries alt (fun e he => (h e he).2) 0, Option.bind_some]
    split <;> rfl

theorem closed_tuple (alt : Bool) {name : Text} (hn : openAfter 0 name = some 0) {es : List Text}
    (h : ∀ e ∈ es, Closed e) (he : es ≠ [] ∨ name ≠ []) : Closed (debugTuple alt name es) := by
  refine ⟨?_, openAfter_tuple alt hn h⟩
  rw [debugTuple]
  split
  · rename_i h0
    exact he.resolve_left (absurd h0)
  · simp

theorem tuple_inj_name {alt : Bool} {name : Text} (hn : name ≠ []) {es es' : List Text}
    (h : ∀ e ∈ es, Closed e) (h' : ∀ e ∈ es', Closed e) (h0 : es ≠ []) (h0' : es' ≠ [])
    (he : debugTuple alt name es = debugTuple alt name es') : es = es' := by
  simp only [debugTuple, if_neg h0, if_neg h0', hn, false_and, and_false, if_false, List.append_cancel_left_eq,
    List.cons.injEq, true_and, List.append_left_inj] at he
  exact entriesText_inj h h' he

theorem tuple_inj {alt : Bool} {es es' : List Text}
    (h : ∀ e ∈ es, Closed e) (h' : ∀ e ∈ es', Closed e) (h0 : es ≠ []) (h0' : es' ≠ [])
    (he : debugTuple alt [] es = debugTuple alt [] es') : es = es' := by
  simp only [debugTuple, if_neg h0, if_neg h0', true_and, List.nil_append, List.cons.injEq] at he
  -- one field and several fields
  have mixed : ∀ {es es' : List Text}, (∀ e ∈ es, Closed e) → (∀ e ∈ es', Closed e) → es.length = 1 → es'.length ≠ 1 →
      es' ≠ [] → entriesText false es ++ [',', ')'] = entriesText false es' ++ [')'] → False := by
    intro es es' h h' h1 h1' h0' he
    obtain ⟨x, rfl⟩ := List.length_eq_one_iff.1 h1
    obtain ⟨y, z, l, rfl⟩ : ∃ y z l, es' = y :: z :: l := by
      match es', h0', h1' with
      | [_], _, h => exact absurd rfl h
      | y :: z :: l, _, _ => exact ⟨y, z, l, rfl⟩
    simp only [entriesText, Bool.false_eq_true, if_false, intercalate_one, intercalate_cons, List.append_assoc,
      List.cons_append] at he
    have := (split_unique (h x (by simp)).2 (h' y (by simp)).2 (by decide) (by decide) he).2
    simp at this
  by_cases ha : alt = true
  · simp only [ha, not_true_eq_false, and_false, if_false, List.append_left_inj] at he
    exact entriesText_inj h h' he
  · obtain rfl : alt = false := by simpa using ha
    simp only [Bool.false_eq_true, not_false_eq_true, and_true] at he
    split at he
    · rename_i h1
      split at he
      · exact entriesText_inj h h' (List.append_left_inj _ |>.1 he)
      · rename_i h1'
        exact (mixed h h' h1 h1' h0' he).elim
    · rename_i h1
      split at he
      · rename_i h1'
        exact (mixed h' h h1' h1 h0 he.symm).elim
      · exact entriesText_inj h h' (List.append_left_inj _ |>.1 he)

theorem closed_field {k v : Text} (hk : openAfter 0 k = some 0) (hv : Closed v) : Closed (k ++ ':' :: ' ' :: v) := by
  refine ⟨by simp, ?_⟩
  rw [openAfter_append, hk, Option.bind_some, ← hv.2]
  simp [openAfter]

theorem closed_struct (alt : Bool) {name : Text} (hn : openAfter 0 name = some 0) {fs : List (Text × Text)}
    (h : ∀ f ∈ fs, openAfter 0 f.1 = some 0 ∧ Closed f.2) (h0 : fs ≠ []) : Closed (debugStruct alt name fs) := by
  have hb : ∀ e ∈ fs.map fun f => f.1 ++ ':' :: ' ' :: f.2, openAfter 0 e = some 0 := by
    intro e he
    obtain ⟨f, hf, rfl⟩ := List.mem_map.1 he
    exact (closed_field (h f hf).1 (h f hf).2).2
  have hb' := openAfter_entries alt hb 0
  have e : ∀ t : Text, openAfter 0 (' ' :: '{' :: t) = openAfter 1 t := by
    intro t
    conv_lhs => rw [openAfter]
    simp only [Char.reduceEq, or_self, if_false, false_and]
    conv_lhs => rw [openAfter]
    simp
  have e' : ∀ t : Text, openAfter 1 (' ' :: t) = openAfter 1 t := by
    intro t
    conv_lhs => rw [openAfter]
    simp
  refine ⟨?_, ?_⟩
  · rw [debugStruct, if_neg h0]
    cases alt <;> simp
  · rw [debugStruct, if_neg h0]
    simp only [openAfter_append, hn, Option.bind_some]
    split
    · rw [e, openAfter_append, hb']; rfl
    · rw [e, e', openAfter_append, hb']; rfl

theorem struct_inj {alt : Bool} {name : Text} {fs fs' : List (Text × Text)}
    (h : ∀ f ∈ fs, openAfter 0 f.1 = some 0 ∧ Closed f.2) (h' : ∀ f ∈ fs', openAfter 0 f.1 = some 0 ∧ Closed f.2)
    (h0 : fs ≠ []) (h0' : fs' ≠ []) (he : debugStruct alt name fs = debugStruct alt name fs') :
    (fs.map fun f => f.1 ++ ':' :: ' ' :: f.2) = fs'.map fun f => f.1 ++ ':' :: ' ' :: f.2 := by
  have hb : ∀ {fs : List (Text × Text)}, (∀ f ∈ fs, openAfter 0 f.1 = some 0 ∧ Closed f.2) →
      ∀ e ∈ fs.map fun f => f.1 ++ ':' :: ' ' :: f.2, Closed e := by
    intro fs h e he
    obtain ⟨f, hf, rfl⟩ := List.mem_map.1 he
    exact closed_field (h f hf).1 (h f hf).2
  rw [debugStruct, debugStruct, if_neg h0, if_neg h0'] at he
  refine entriesText_inj (alt := alt) (hb h) (hb h') ?_
  cases alt <;> simpa using he

/-! Numbers. -/

/-- Characters that are neither brackets nor commas. -/
def Neutral (c : Char) : Prop :=
  ¬ (c = '[' ∨ c = '(' ∨ c = '{') ∧ ¬ (c = ']' ∨ c = ')' ∨ c = '}') ∧ c ≠ ','

instance (c : Char) : Decidable (Neutral c) := inferInstanceAs (Decidable (_ ∧ _))

theorem openAfter_neutral {t : Text} (h : ∀ c ∈ t, Neutral c) (d : Nat) : openAfter d t = some d := by
  induction t with
  | nil => rfl
  | cons c t ih =>
    have hc := h c (by simp)
    rw [openAfter, if_neg hc.1, if_neg hc.2.1, if_neg (fun e => hc.2.2 e.1)]
    exact ih fun c hc => h c (by simp [hc])

def isDigit (c : Char) : Prop := ∃ k, k < 10 ∧ c = Char.ofNat (48 + k)

theorem isDigit.facts {c : Char} (h : isDigit c) : Neutral c ∧ c ≠ '-' ∧ c ≠ 'C' := by
  obtain ⟨k, hk, rfl⟩ := h
  interval_cases k <;> decide

theorem digits_all : ∀ (fuel n : Nat) (acc : Text), (∀ c ∈ acc, isDigit c) → ∀ c ∈ digits fuel n acc, isDigit c := by
  intro fuel
  induction fuel with
  | zero => intro n acc h; exact h
  | succ fuel ih =>
    intro n acc h
    have h' : ∀ c ∈ Char.ofNat (48 + n % 10) :: acc, isDigit c := by
      intro c hc
      rcases List.mem_cons.1 hc with rfl | hc
      · exact ⟨n % 10, Nat.mod_lt _ (by decide), rfl⟩
      · exact h c hc
    simp only [digits]
    split
    · exact h'
    · exact ih _ _ h'

theorem natText_all (n : Nat) : ∀ c ∈ natText n, isDigit c := digits_all _ _ _ nofun

/-- The value of a decimal number. -/
def decimal (start : Nat) (t : Text) : Nat := t.foldl (fun a c => a * 10 + (c.toNat - 48)) start

theorem digits_decimal : ∀ (fuel n : Nat) (acc : Text), n < fuel → decimal 0 (digits fuel n acc) = decimal n acc := by
  have digit : ∀ k, k < 10 → (Char.ofNat (48 + k)).toNat - 48 = k := by
    intro k hk
    interval_cases k <;> decide
  intro fuel
  induction fuel with
  | zero => intro n acc h; omega
  | succ fuel ih =>
    intro n acc h
    have hd := digit (n % 10) (Nat.mod_lt _ (by decide))
    simp only [digits]
    split
    · rw [decimal, List.foldl_cons, hd, Nat.mod_eq_of_lt (by assumption)]
      simp [decimal]
    · rw [ih _ _ (by omega), decimal, List.foldl_cons, hd]
      rw [show n / 10 * 10 + n % 10 = n by omega]
      rfl

theorem natText_inj {m n : Nat} (h : natText m = natText n) : m = n := by
  have key : ∀ n, decimal 0 (natText n) = n := fun n => by rw [natText, digits_decimal _ _ _ (by omega)]; rfl
  rw [← key m, ← key n, h]

theorem natText_ne (n : Nat) : natText n ≠ [] := by
  intro h
  have : ∀ (fuel n : Nat) (acc : Text), acc ≠ [] → digits fuel n acc ≠ [] := by
    intro fuel
    induction fuel with
    | zero => intro n acc h; exact h
    | succ fuel ih => intro n acc _; simp only [digits]; split <;> simp_all
  rw [natText, digits] at h
  split at h
  · cases h
  · exact this _ _ _ (by simp) h

theorem closed_nat (n : Nat) : Closed (natText n) :=
  ⟨natText_ne n, openAfter_neutral (fun c hc => (natText_all n c hc).facts.1) 0⟩

theorem closed_int (z : Int) : Closed (intText z) := by
  cases z with
  | ofNat n => exact closed_nat n
  | negSucc n =>
    refine ⟨by simp [intText], ?_⟩
    rw [intText]
    refine openAfter_neutral (fun c hc => ?_) 0
    rcases List.mem_cons.1 hc with rfl | hc
    · decide
    · exact (natText_all _ c hc).facts.1

theorem intText_inj {x y : Int} (h : intText x = intText y) : x = y := by
  have neg : ∀ m t, natText m ≠ '-' :: t := by
    intro m t e
    exact (natText_all m '-' (by rw [e]; simp)).facts.2.1 rfl
  cases x <;> cases y <;> simp only [intText] at h
  · rw [natText_inj h]
  · exact absurd h (neg _ _)
  · exact absurd h.symm (neg _ _)
  · have := natText_inj (List.cons.inj h).2
    rw [Nat.succ.inj this]

/-! Shapes and mappings. -/

theorem closed_dim (alt : Bool) (ty : DimTy) (d : Nat) : Closed (dimText alt ty d) := by
  cases ty with
  | const n => exact closed_tuple alt (by decide) (by simpa using closed_nat n) (.inl (by simp))
  | dyn => exact closed_nat d

theorem dimText_inj {alt : Bool} {ty ty' : DimTy} {d d' : Nat} (h : ty.Fits d) (h' : ty'.Fits d')
    (he : dimText alt ty d = dimText alt ty' d') : ty = ty' ∧ d = d' := by
  have mixed : ∀ n m, dimText alt (.const n) n ≠ natText m := by
    intro n m e
    have : 'C' ∈ natText m := by rw [← e]; simp [dimText, debugTuple]
    exact (natText_all m _ this).facts.2.2 rfl
  cases ty with
  | const n =>
    obtain rfl : d = n := h
    cases ty' with
    | const n' =>
      obtain rfl : d' = n' := h'
      have := tuple_inj_name (by decide) (by simpa using closed_nat d) (by simpa using closed_nat d') (by simp) (by simp) he
      simp only [List.cons.injEq, and_true] at this
      rw [natText_inj this]
      exact ⟨rfl, rfl⟩
    | dyn => exact absurd he (mixed _ _)
  | dyn =>
    cases ty' with
    | const n' =>
      obtain rfl : d' = n' := h'
      exact absurd he.symm (mixed _ _)
    | dyn => exact ⟨rfl, natText_inj he⟩

theorem mem_zipWith {α β γ : Type} {f : α → β → γ} {P : γ → Prop} (h : ∀ a b, P (f a b)) :
    ∀ (l : List α) (m : List β), ∀ x ∈ List.zipWith f l m, P x := by
  intro l
  induction l with
  | nil => intro m x hx; simp at hx
  | cons a l ih =>
    intro m x hx
    cases m with
    | nil => simp at hx
    | cons b m =>
      rw [List.zipWith_cons_cons] at hx
      rcases List.mem_cons.1 hx with rfl | hx
      · exact h a b
      · exact ih m x hx

theorem closed_shape (alt : Bool) {s : Shape} (hs : s.WF) : Closed (shapeText alt s) := by
  obtain ⟨ty, dims⟩ := s
  cases ty with
  | static ds =>
    simp only [shapeText]
    split
    · exact ⟨by simp, by decide⟩
    · rename_i hd
      refine closed_tuple alt (by decide) (mem_zipWith (fun a b => closed_dim alt a b) _ _) (.inl ?_)
      have hl : ds.length = dims.length := List.Forall₂.length_eq hs
      intro e
      have := congrArg List.length e
      simp only [List.length_zipWith, List.length_nil] at this
      exact hd (List.length_eq_zero_iff.1 (by omega))
  | dynRank =>
    refine closed_tuple alt (by decide) ?_ (.inl (by simp))
    simp only [List.mem_cons, List.not_mem_nil, or_false, forall_eq]
    refine closed_debugList alt fun e he => ?_
    obtain ⟨n, -, rfl⟩ := List.mem_map.1 he
    exact closed_nat n

theorem zipWith_dim_inj {alt : Bool} : ∀ {ds ds' : List DimTy} {dims dims' : List Nat},
    List.Forall₂ DimTy.Fits ds dims → List.Forall₂ DimTy.Fits ds' dims' →
    List.zipWith (dimText alt) ds dims = List.zipWith (dimText alt) ds' dims' → ds = ds' ∧ dims = dims' := by
  intro ds
  induction ds with
  | nil =>
    intro ds' dims dims' h h' he
    cases h
    cases h' with
    | nil => exact ⟨rfl, rfl⟩
    | cons _ _ => simp at he
  | cons t ds ih =>
    intro ds' dims dims' h h' he
    cases h with
    | cons h1 h2 =>
      cases h' with
      | nil => simp at he
      | cons h1' h2' =>
        simp only [List.zipWith_cons_cons, List.cons.injEq] at he
        obtain ⟨rfl, rfl⟩ := dimText_inj h1 h1' he.1
        obtain ⟨rfl, rfl⟩ := ih h2 h2' he.2
        exact ⟨rfl, rfl⟩

theorem map_inj' {α β : Type} {f : α → β} (hf : ∀ a b, f a = f b → a = b) {l m : List α} (h : l.map f = m.map f) : l = m :=
  List.map_injective_iff.2 (fun a b => hf a b) h

theorem shapeText_inj {alt : Bool} {s s' : Shape} (hs : s.WF) (hs' : s'.WF) (he : shapeText alt s = shapeText alt s') :
    s = s' := by
  obtain ⟨ty, dims⟩ := s
  obtain ⟨ty', dims'⟩ := s'
  have nonempty : ∀ {ds : List DimTy} {dims : List Nat}, List.Forall₂ DimTy.Fits ds dims → ds ≠ [] →
      List.zipWith (dimText alt) ds dims ≠ [] := by
    intro ds dims h hn e
    cases h with
    | nil => exact hn rfl
    | cons _ _ => simp at e
  have short : ∀ {es : List Text}, (∀ e ∈ es, Closed e) → es ≠ [] → debugTuple alt [] es ≠ ['(', ')'] := by
    intro es h h0 e
    rw [debugTuple, if_neg h0] at e
    simp only [List.nil_append, List.cons.injEq, true_and] at e
    have hl : 2 ≤ (entriesText alt es ++ [')']).length := by
      have : entriesText alt es ≠ [] := by
        intro e
        exact h0 (entriesText_inj h (by simp) (e.trans (entriesText_nil alt).symm))
      have := List.length_pos_iff.2 this
      simp only [List.length_append, List.length_cons, List.length_nil]
      omega
    split at e
    · have := congrArg List.length e
      simp at this
    · rw [e] at hl
      simp at hl
  cases ty with
  | static ds =>
    cases ty' with
    | static ds' =>
      simp only [shapeText] at he
      have c : ∀ ds dims, ∀ e ∈ List.zipWith (dimText alt) ds dims, Closed e :=
        mem_zipWith (fun a b => closed_dim alt a b)
      split at he
      · rename_i h0
        split at he
        · rename_i h0'
          subst h0 h0'
          cases hs
          cases hs'
          rfl
        · rename_i h0'
          exact absurd he.symm (short (c _ _) (nonempty hs' h0'))
      · rename_i h0
        split at he
        · exact absurd he (short (c _ _) (nonempty hs h0))
        · rename_i h0'
          have := tuple_inj (c _ _) (c _ _) (nonempty hs h0) (nonempty hs' h0') he
          obtain ⟨rfl, rfl⟩ := zipWith_dim_inj hs hs' this
          rfl
    | dynRank =>
      simp only [shapeText] at he
      split at he
      · simp [debugTuple] at he
      · rename_i h0
        simp [debugTuple, nonempty hs h0] at he
  | dynRank =>
    have cl : ∀ dims : List Nat, ∀ e ∈ dims.map natText, Closed e := by
      intro dims e he
      obtain ⟨n, -, rfl⟩ := List.mem_map.1 he
      exact closed_nat n
    cases ty' with
    | static ds =>
      simp only [shapeText] at he
      split at he
      · simp [debugTuple] at he
      · rename_i h0
        simp [debugTuple, nonempty hs' h0] at he
    | dynRank =>
      have := tuple_inj_name (by decide) (by simpa using closed_debugList alt (cl dims))
        (by simpa using closed_debugList alt (cl dims')) (by simp) (by simp) he
      simp only [List.cons.injEq, and_true] at this
      rw [map_inj' (fun _ _ => natText_inj) (debugList_inj (cl _) (cl _) this)]

theorem mappingText_inj {alt : Bool} {m m' : Mapping} (hm : m.shape.WF) (hm' : m'.shape.WF)
    (he : mappingText alt m = mappingText alt m') : m = m' := by
  have cl : ∀ st : List Int, Closed (debugList alt (st.map intText)) := by
    intro st
    refine closed_debugList alt fun e he => ?_
    obtain ⟨n, -, rfl⟩ := List.mem_map.1 he
    exact closed_int n
  have ci : ∀ st : List Int, ∀ e ∈ st.map intText, Closed e := by
    intro st e he
    obtain ⟨n, -, rfl⟩ := List.mem_map.1 he
    exact closed_int n
  cases m with
  | dense s =>
    cases m' with
    | dense s' =>
      have := struct_inj (by simpa using ⟨by decide, closed_shape alt hm⟩) (by simpa using ⟨by decide, closed_shape alt hm'⟩)
        (by simp) (by simp) he
      simp only [List.map_cons, List.map_nil, List.cons.injEq, and_true, List.append_cancel_left_eq, true_and] at this
      rw [shapeText_inj (s := s) (s' := s') hm hm' this]
    | strided s' st' => simp [mappingText, debugStruct] at he
  | strided s st =>
    cases m' with
    | dense s' => simp [mappingText, debugStruct] at he
    | strided s' st' =>
      have := struct_inj (by simpa using ⟨⟨by decide, closed_shape alt hm⟩, by decide, by simpa using cl st⟩)
        (by simpa using ⟨⟨by decide, closed_shape alt hm'⟩, by decide, by simpa using cl st'⟩) (by simp) (by simp) he
      simp only [List.map_cons, List.map_nil, List.cons.injEq, and_true, List.append_cancel_left_eq, true_and] at this
      rw [shapeText_inj (s := s) (s' := s') hm hm' this.1, map_inj' (fun _ _ => intText_inj) (debugList_inj (ci _) (ci _) this.2)]

/-! Nested lists. -/

theorem arrTexts_eq (alt : Bool) : ∀ xs : List (Arr Text), arrTexts alt xs = xs.map (arrText alt)
  | [] => by rw [arrTexts]; rfl
  | x :: xs => by rw [arrTexts, arrTexts_eq alt xs]; rfl

/-- All elements have matching brackets. -/
def ClosedElems (a : Arr Text) : Prop := ∀ j t, nestedGet a j = some t → Closed t

theorem ClosedElems.mem {xs : List (Arr Text)} (h : ClosedElems (.arr xs)) {x : Arr Text} (hx : x ∈ xs) : ClosedElems x := by
  intro j t ht
  obtain ⟨i, hi, rfl⟩ := List.mem_iff_getElem.1 hx
  refine h (i :: j) t ?_
  rw [nestedGet, List.getElem?_eq_getElem hi]
  exact ht

theorem closed_arr (alt : Bool) : ∀ (ds : List Nat) (a : Arr Text), HasDims ds a → ClosedElems a → Closed (arrText alt a) := by
  intro ds
  induction ds with
  | nil =>
    intro a hd hc
    cases a with
    | elem t => rw [arrText]; exact hc [] t (by rw [nestedGet])
    | arr xs => exact absurd hd (by simp [HasDims])
  | cons d ds ih =>
    intro a hd hc
    cases a with
    | elem t => exact absurd hd (by simp [HasDims])
    | arr xs =>
      rw [HasDims] at hd
      rw [arrText, arrTexts_eq]
      refine closed_debugList alt fun e he => ?_
      obtain ⟨x, hx, rfl⟩ := List.mem_map.1 he
      exact ih x (hd.2 x hx) (hc.mem hx)

theorem arrText_inj {alt : Bool} : ∀ {ds es : List Nat} {a b : Arr Text}, ds.length = es.length → HasDims ds a → HasDims es b →
    ClosedElems a → ClosedElems b → arrText alt a = arrText alt b → a = b := by
  intro ds
  induction ds with
  | nil =>
    intro es a b hl ha hb _ _ he
    obtain rfl : es = [] := List.length_eq_zero_iff.1 hl.symm
    cases a with
    | arr xs => exact absurd ha (by simp [HasDims])
    | elem t =>
      cases b with
      | arr xs => exact absurd hb (by simp [HasDims])
      | elem u => rw [arrText, arrText] at he; rw [he]
  | cons d ds ih =>
    intro es a b hl ha hb hca hcb he
    cases es with
    | nil => simp at hl
    | cons e es =>
      cases a with
      | elem t => exact absurd ha (by simp [HasDims])
      | arr xs =>
        cases b with
        | elem t => exact absurd hb (by simp [HasDims])
        | arr ys =>
          rw [HasDims] at ha hb
          rw [arrText, arrText, arrTexts_eq, arrTexts_eq] at he
          have cl : ∀ {ds : List Nat} {xs : List (Arr Text)}, (∀ x ∈ xs, HasDims ds x) → ClosedElems (.arr xs) →
              ∀ e ∈ xs.map (arrText alt), Closed e := by
            intro ds xs h hc e he
            obtain ⟨x, hx, rfl⟩ := List.mem_map.1 he
            exact closed_arr alt ds x (h x hx) (hc.mem hx)
          have hm := debugList_inj (cl ha.2 hca) (cl hb.2 hcb) he
          have hlen : xs.length = ys.length := by simpa using congrArg List.length hm
          congr 1
          refine List.ext_getElem hlen fun i h1 h2 => ?_
          refine ih (by simpa using hl) (ha.2 _ (List.getElem_mem h1)) (hb.2 _ (List.getElem_mem h2))
            (hca.mem (List.getElem_mem h1)) (hcb.mem (List.getElem_mem h2)) ?_
          have := congrArg (fun l => l[i]?) hm
          simpa [h1, h2] using this

/-- Nested lists are the same if they show the same dimensions and the same elements. -/
theorem arr_ext : ∀ {ds es : List Nat} {a b : Arr Text}, ds.length = es.length → HasDims ds a → HasDims es b →
    (a = b ↔ shownDims ds = shownDims es ∧ ∀ j, Valid ds j → nestedGet a j = nestedGet b j) := by
  intro ds
  induction ds with
  | nil =>
    intro es a b hl ha hb
    obtain rfl : es = [] := List.length_eq_zero_iff.1 hl.symm
    refine ⟨fun h => ⟨rfl, fun j _ => by rw [h]⟩, fun ⟨_, h⟩ => ?_⟩
    cases a with
    | arr xs => exact absurd ha (by simp [HasDims])
    | elem t =>
      cases b with
      | arr xs => exact absurd hb (by simp [HasDims])
      | elem u =>
        have := h [] .nil
        rw [nestedGet, nestedGet] at this
        rw [Option.some.inj this]
  | cons d ds ih =>
    intro es a b hl ha hb
    cases es with
    | nil => simp at hl
    | cons e es =>
      cases a with
      | elem t => exact absurd ha (by simp [HasDims])
      | arr xs =>
        cases b with
        | elem t => exact absurd hb (by simp [HasDims])
        | arr ys =>
          rw [HasDims] at ha hb
          have hl' : ds.length = es.length := by simpa using hl
          constructor
          · intro h
            refine ⟨?_, fun j _ => by rw [h]⟩
            cases h
            obtain rfl : d = e := ha.1.symm.trans hb.1
            cases d with
            | zero => rfl
            | succ d =>
              have hx : xs[0] ∈ xs := List.getElem_mem (by omega)
              have := ((ih hl' (ha.2 _ hx) (hb.2 _ hx)).1 rfl).1
              rw [shownDims, shownDims, this]
          · rintro ⟨hs, hg⟩
            have hde : d = e ∧ (d ≠ 0 → shownDims ds = shownDims es) := by
              cases d <;> cases e <;> simp_all [shownDims]
            obtain ⟨rfl, hs'⟩ := hde
            congr 1
            refine List.ext_getElem (ha.1.trans hb.1.symm) fun i h1 h2 => ?_
            refine (ih hl' (ha.2 _ (List.getElem_mem h1)) (hb.2 _ (List.getElem_mem h2))).2
              ⟨hs' (by omega), fun j hj => ?_⟩
            have := hg (i :: j) (.cons (by omega) hj)
            rw [nestedGet, nestedGet, List.getElem?_eq_getElem h1, List.getElem?_eq_getElem h2] at this
            exact this

theorem map_range_get {d : Nat} {xs : List (Arr Text)} (hl : xs.length = d) (g : Arr Text → Text) (h : Nat → Text)
    (hg : ∀ i (hi : i < xs.length), g xs[i] = h i) : xs.map g = (List.range d).map h := by
  refine List.ext_getElem (by simp [hl]) fun i h1 h2 => ?_
  simpa using hg i (by simpa using h1)

theorem nestedText_eq : ∀ {ds : List Nat} {a : Arr Text} {f : List Nat → Text}, HasDims ds a →
    (∀ j, Valid ds j → nestedGet a j = some (f j)) → arrText false a = nestedText ds f := by
  intro ds
  induction ds with
  | nil =>
    intro a f ha hf
    cases a with
    | arr xs => exact absurd ha (by simp [HasDims])
    | elem t =>
      have := hf [] .nil
      rw [nestedGet] at this
      rw [arrText, nestedText, Option.some.inj this]
  | cons d ds ih =>
    intro a f ha hf
    cases a with
    | elem t => exact absurd ha (by simp [HasDims])
    | arr xs =>
      rw [HasDims] at ha
      rw [arrText, arrTexts_eq, nestedText, map_range_get ha.1 (arrText false) (fun i => nestedText ds fun j => f (i :: j))]
      · simp [debugList, entriesText]
      · intro i hi
        refine ih (ha.2 _ (List.getElem_mem hi)) fun j hj => ?_
        have := hf (i :: j) (.cons (by omega) hj)
        rw [nestedGet, List.getElem?_eq_getElem hi] at this
        exact this

theorem prettyText_eq : ∀ {ds : List Nat} {a : Arr Text} {f : List Nat → Text} (k : Nat), HasDims ds a →
    (∀ j, Valid ds j → nestedGet a j = some (f j) ∧ '\n' ∉ f j) → shift (4 * k) (arrText true a) = prettyText k ds f := by
  intro ds
  induction ds with
  | nil =>
    intro a f k ha hf
    cases a with
    | arr xs => exact absurd ha (by simp [HasDims])
    | elem t =>
      have := hf [] .nil
      rw [nestedGet] at this
      rw [arrText, prettyText, Option.some.inj this.1, shift_of_not_mem _ this.2]
  | cons d ds ih =>
    intro a f k ha hf
    cases a with
    | elem t => exact absurd ha (by simp [HasDims])
    | arr xs =>
      rw [HasDims] at ha
      rw [arrText, arrTexts_eq]
      cases d with
      | zero =>
        obtain rfl : xs = [] := List.length_eq_zero_iff.1 ha.1
        rw [prettyText]
        exact shift_of_not_mem _ (by decide)
      | succ d =>
        have hx : xs.map (arrText true) ≠ [] := by
          intro e
          have := congrArg List.length e
          simp only [List.length_map, ha.1, List.length_nil] at this
          omega
        rw [debugList, entriesText_alt hx, prettyText, List.flatMap_map, shift_cons, if_neg (by decide), shift_append,
          shift_append, shift_of_not_mem (4 * k) (t := [']']) (by decide), shift_cons (4 * k) '\n' [], if_pos rfl]
        have hm : xs.map (fun x => shift (4 * k) ('\n' :: (List.replicate 4 ' ' ++ shift 4 (arrText true x) ++ [',']))) =
            (List.range (d + 1)).map fun i => ['\n'] ++ List.replicate (4 * (k + 1)) ' ' ++
              prettyText (k + 1) ds (fun j => f (i :: j)) ++ [','] := by
          refine map_range_get ha.1 _ _ fun i hi => ?_
          have h1 := ih (f := fun j => f (i :: j)) (k + 1) (ha.2 _ (List.getElem_mem hi)) (fun j hj => by
            have := hf (i :: j) (.cons (by omega) hj)
            rw [nestedGet, List.getElem?_eq_getElem hi] at this
            exact this)
          rw [← h1, shift_cons, if_pos rfl, shift_append, shift_append, shift_shift, show 4 * k + 4 = 4 * (k + 1) by omega,
            shift_of_not_mem (4 * k) (t := [',']) (by decide),
            shift_of_not_mem (4 * k) (t := List.replicate 4 ' ') (by decide),
            show 4 * (k + 1) = 4 * k + 4 by omega, List.replicate_add]
          simp
        have hf' : shift (4 * k) (xs.flatMap fun x => '\n' :: (List.replicate 4 ' ' ++ shift 4 (arrText true x) ++ [','])) =
            (xs.map fun x => shift (4 * k) ('\n' :: (List.replicate 4 ' ' ++ shift 4 (arrText true x) ++ [',']))).flatten := by
          clear hm hx ha hf
          induction xs with
          | nil => rfl
          | cons x xs ih => rw [List.flatMap_cons, shift_append, ih]; rfl
        rw [hf', hm]
        simp [shift]

theorem nestedGet_valid : ∀ {ds : List Nat} {a : Arr Text} {j : List Nat} {t : Text}, HasDims ds a → nestedGet a j = some t →
    Valid ds j := by
  intro ds
  induction ds with
  | nil =>
    intro a j t ha h
    cases a with
    | arr xs => exact absurd ha (by simp [HasDims])
    | elem x =>
      cases j with
      | nil => exact .nil
      | cons i j => simp [nestedGet] at h
  | cons d ds ih =>
    intro a j t ha h
    cases a with
    | elem x => exact absurd ha (by simp [HasDims])
    | arr xs =>
      rw [HasDims] at ha
      cases j with
      | nil => simp [nestedGet] at h
      | cons i j =>
        rw [nestedGet] at h
        obtain ⟨x, hx, hj⟩ := Option.bind_eq_some_iff.1 h
        obtain ⟨hi, rfl⟩ := List.getElem?_eq_some_iff.1 hx
        exact .cons (by omega) (ih (ha.2 _ (List.getElem_mem hi)) hj)

theorem nestedGet_index {f : Int → Text} {v : View} (hv : v.map.WF) {a : Arr Text} (ha : HasDims v.dims a)
    (h : ∀ j, Valid v.dims j → nestedGet a j = some (elemText f v j)) (j : List Nat) :
    nestedGet a j = (v.index j).map f := by
  by_cases hj : Valid v.dims j
  · rw [h j hj, elemText]
    obtain ⟨p, hp⟩ := Option.isSome_iff_exists.1 ((View.index_isSome v hv j).2 hj)
    rw [hp]
    rfl
  · have h1 : v.index j = none := by
      rw [← Option.not_isSome_iff_eq_none, View.index_isSome v hv j]
      exact hj
    rw [h1]
    cases hg : nestedGet a j with
    | none => rfl
    | some t => exact absurd (nestedGet_valid ha hg) hj

/-! Expressions. -/

theorem closed_axisName (l m : Bool) :
    openAfter 0 ((if l then "Lanes" else "AxisExpr").toList ++ if m then "Mut".toList else []) = some 0 := by
  cases l <;> cases m <;> decide

theorem closed_expr (alt : Bool) : ∀ e : Shown, ShownFine e → Closed (exprText alt e) := by
  intro e
  induction e with
  | array t => exact id
  | axis l m i t => intro h; exact closed_tuple alt (closed_axisName l m) (by simpa using ⟨closed_nat i, h⟩) (.inl (by simp))
  | intoExpr t => intro h; exact closed_tuple alt (by decide) (by simpa [ShownFine] using h) (.inl (by simp))
  | fill t => intro h; exact closed_tuple alt (by decide) (by simpa [ShownFine] using h) (.inl (by simp))
  | fillWith => intro _; exact closed_tuple alt (by decide) (by simp) (.inr (by decide))
  | fromElem s t =>
    intro h; exact closed_tuple alt (by decide) (by simpa using ⟨closed_shape alt h.1, h.2⟩) (.inl (by simp))
  | fromFn s => intro h; exact closed_tuple alt (by decide) (by simpa using closed_shape alt h) (.inl (by simp))
  | cloned e ih => intro h; exact closed_struct alt (by decide) (by simpa using ⟨by decide, ih h⟩) (by simp)
  | copied e ih => intro h; exact closed_struct alt (by decide) (by simpa using ⟨by decide, ih h⟩) (by simp)
  | enumerate e ih => intro h; exact closed_struct alt (by decide) (by simpa using ⟨by decide, ih h⟩) (by simp)
  | map e ih => intro h; exact closed_struct alt (by decide) (by simpa using ⟨by decide, ih h⟩) (by simp)
  | zip a b iha ihb =>
    intro h
    exact closed_struct alt (by decide) (by simpa using ⟨⟨by decide, iha h.1⟩, by decide, ihb h.2⟩) (by simp)
  | iter e ih => intro h; exact closed_tuple alt (by decide) (by simpa using ih h) (.inl (by simp))

theorem exprText_inj {alt : Bool} : ∀ {e e' : Shown}, SameForm e e' → ShownFine e → ShownFine e' →
    exprText alt e = exprText alt e' → e = e' := by
  have one : ∀ {name t t' : Text}, name ≠ [] → Closed t → Closed t' → debugTuple alt name [t] = debugTuple alt name [t'] →
      t = t' := by
    intro name t t' hn h h' he
    simpa using tuple_inj_name hn (by simpa using h) (by simpa using h') (by simp) (by simp) he
  have two : ∀ {name t u t' u' : Text}, name ≠ [] → Closed t → Closed u → Closed t' → Closed u' →
      debugTuple alt name [t, u] = debugTuple alt name [t', u'] → t = t' ∧ u = u' := by
    intro name t u t' u' hn h k h' k' he
    simpa using tuple_inj_name hn (by simpa using ⟨h, k⟩) (by simpa using ⟨h', k'⟩) (by simp) (by simp) he
  have field : ∀ {name t t' : Text}, Closed t → Closed t' →
      debugStruct alt name [("expr".toList, t)] = debugStruct alt name [("expr".toList, t')] → t = t' := by
    intro name t t' h h' he
    simpa using struct_inj (by simpa using ⟨by decide, h⟩) (by simpa using ⟨by decide, h'⟩) (by simp) (by simp) he
  intro e
  induction e with
  | array t => intro e' hs _ _ he; cases e' <;> simp only [SameForm] at hs; exact congrArg _ he
  | axis l m i t =>
    intro e' hs h h' he
    cases e' <;> simp only [SameForm] at hs
    obtain ⟨rfl, rfl⟩ := hs
    obtain ⟨h1, h2⟩ := two (by cases l <;> simp) (closed_nat _) h (closed_nat _) h' he
    rw [natText_inj h1, h2]
  | intoExpr t => intro e' hs h h' he; cases e' <;> simp only [SameForm] at hs; rw [one (by decide) h h' he]
  | fill t => intro e' hs h h' he; cases e' <;> simp only [SameForm] at hs; rw [one (by decide) h h' he]
  | fillWith => intro e' hs _ _ _; cases e' <;> simp only [SameForm] at hs; rfl
  | fromElem s t =>
    intro e' hs h h' he
    cases e' <;> simp only [SameForm] at hs
    obtain ⟨h1, h2⟩ := two (by decide) (closed_shape alt h.1) h.2 (closed_shape alt h'.1) h'.2 he
    rw [shapeText_inj h.1 h'.1 h1, h2]
  | fromFn s =>
    intro e' hs h h' he
    cases e' <;> simp only [SameForm] at hs
    rw [shapeText_inj h h' (one (by decide) (closed_shape alt h) (closed_shape alt h') he)]
  | cloned e ih =>
    intro e' hs h h' he
    cases e' <;> simp only [SameForm] at hs
    rw [ih hs h h' (field (closed_expr alt _ h) (closed_expr alt _ h') he)]
  | copied e ih =>
    intro e' hs h h' he
    cases e' <;> simp only [SameForm] at hs
    rw [ih hs h h' (field (closed_expr alt _ h) (closed_expr alt _ h') he)]
  | enumerate e ih =>
    intro e' hs h h' he
    cases e' <;> simp only [SameForm] at hs
    rw [ih hs h h' (field (closed_expr alt _ h) (closed_expr alt _ h') he)]
  | map e ih =>
    intro e' hs h h' he
    cases e' <;> simp only [SameForm] at hs
    rw [ih hs h h' (field (closed_expr alt _ h) (closed_expr alt _ h') he)]
  | zip a b iha ihb =>
    intro e' hs h h' he
    cases e' <;> simp only [SameForm] at hs
    have := struct_inj (by simpa using ⟨⟨by decide, closed_expr alt _ h.1⟩, by decide, closed_expr alt _ h.2⟩)
      (by simpa using ⟨⟨by decide, closed_expr alt _ h'.1⟩, by decide, closed_expr alt _ h'.2⟩) (by simp) (by simp) he
    simp only [List.map_cons, List.map_nil, List.cons.injEq, and_true, List.append_cancel_left_eq, true_and] at this
    rw [iha hs.1 h.1 h'.1 this.1, ihb hs.2 h.2 h'.2 this.2]
  | iter e ih =>
    intro e' hs h h' he
    cases e' <;> simp only [SameForm] at hs
    rw [ih hs h h' (one (by decide) (closed_expr alt _ h) (closed_expr alt _ h') he)]

end Spec
