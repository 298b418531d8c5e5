import Verif.Spec.Format

/-!
Texts given by `Debug`.
-/

namespace Spec
open Model

theorem openAfter_append (s t : Text) : ∀ d, openAfter d (s ++ t) = (openAfter d s).bind fun e => openAfter e t := by
  induction s with
  | nil => intro d; rfl
  | cons c cs ih =>
    intro d
    simp only [List.cons_append, openAfter]
    split
    · exact ih _
    · split
      · split
        · rfl
        · exact ih _
      · split
        · rfl
        · exact ih _

theorem openAfter_add (t : Text) : ∀ d e k, openAfter d t = some e → openAfter (d + k) t = some (e + k) := by
  induction t with
  | nil => intro d e k h; simp only [openAfter, Option.some.injEq] at h ⊢; omega
  | cons c cs ih =>
    intro d e k h
    simp only [openAfter] at h ⊢
    split at h
    · rename_i hc; rw [if_pos hc]; have := ih _ _ k h; rwa [show d + 1 + k = d + k + 1 by omega] at this
    · rename_i hc; rw [if_neg hc]
      split at h
      · rename_i hc'; rw [if_pos hc']
        split at h
        · cases h
        · rename_i hd
          rw [if_neg (by omega), show d + k - 1 = d - 1 + k by omega]
          exact ih _ _ k h
      · rename_i hc'; rw [if_neg hc']
        split at h
        · cases h
        · rename_i hd
          rw [if_neg fun e => hd ⟨e.1, by have := e.2; omega⟩]
          exact ih _ _ k h

/-- Inside of brackets. -/
theorem openAfter_inside {t : Text} (h : openAfter 0 t = some 0) (d : Nat) : openAfter d t = some d := by
  simpa using openAfter_add t 0 0 d h

theorem Closed.ne {t : Text} (h : Closed t) : t ≠ [] := h.1

/-- The end of a text with matching brackets is found by the next comma or closing bracket. -/
theorem split_unique {t t' : Text} (h : openAfter 0 t = some 0) (h' : openAfter 0 t' = some 0) {c c' : Char} {r r' : Text}
    (hc : openAfter 0 [c] = none) (hc' : openAfter 0 [c'] = none) (he : t ++ c :: r = t' ++ c' :: r') :
    t = t' ∧ c :: r = c' :: r' := by
  have none : ∀ {c : Char}, openAfter 0 [c] = none → ∀ u, openAfter 0 (c :: u) = none := by
    intro c hc u
    rw [show c :: u = [c] ++ u from rfl, openAfter_append, hc]
    rfl
  rcases List.append_eq_append_iff.1 he with ⟨u, rfl, hu⟩ | ⟨u, rfl, hu⟩
  · cases u with
    | nil => simp_all
    | cons x xs =>
      cases hu
      rw [openAfter_append, h] at h'
      simp [none hc] at h'
  · cases u with
    | nil => simp_all
    | cons x xs =>
      cases hu
      rw [openAfter_append, h'] at h
      simp [none hc'] at h

theorem intercalate_cons (s x y : Text) (l : List Text) :
    s.intercalate (x :: y :: l) = x ++ (s ++ s.intercalate (y :: l)) := by
  simp [List.intercalate, List.intersperse]

theorem intercalate_one (s x : Text) : s.intercalate [x] = x := by simp [List.intercalate, List.intersperse]

theorem oneLine_inj : ∀ {es es' : List Text}, (∀ e ∈ es, Closed e) → (∀ e ∈ es', Closed e) →
    [',', ' '].intercalate es ++ [']'] = [',', ' '].intercalate es' ++ [']'] → es = es' := by
  have key : ∀ {x : Text} {l : List Text}, ∃ c r, openAfter 0 [c] = none ∧
      [',', ' '].intercalate (x :: l) ++ [']'] = x ++ c :: r ∧ (l = [] → c = ']') ∧
      (l ≠ [] → c = ',' ∧ r = ' ' :: ([',', ' '].intercalate l ++ [']'])) := by
    intro x l
    cases l with
    | nil => exact ⟨']', [], by decide, by rw [intercalate_one], fun _ => rfl, fun h => absurd rfl h⟩
    | cons y l =>
      exact ⟨',', _, by decide, by rw [intercalate_cons]; simp; rfl, nofun, fun _ => ⟨rfl, by simp⟩⟩
  intro es
  induction es with
  | nil =>
    intro es' _ h' he
    cases es' with
    | nil => rfl
    | cons x l =>
      obtain ⟨c, r, _, h1, -⟩ := @key x l
      rw [h1] at he
      have hx := (h' x (by simp)).1
      cases x with
      | nil => exact absurd rfl hx
      | cons a x =>
        simp only [List.intercalate, List.intersperse, List.flatten_nil, List.nil_append, List.cons_append, List.cons.injEq] at he
        have := congrArg List.length he.2
        simp at this
  | cons x l ih =>
    intro es' h h' he
    cases es' with
    | nil =>
      obtain ⟨c, r, _, h1, -⟩ := @key x l
      rw [h1] at he
      have hx := (h x (by simp)).1
      cases x with
      | nil => exact absurd rfl hx
      | cons a x =>
        simp only [List.intercalate, List.intersperse, List.flatten_nil, List.nil_append, List.cons_append, List.cons.injEq] at he
        have := congrArg List.length he.2
        simp at this
    | cons y m =>
      obtain ⟨c, r, hc, h1, h2, h3⟩ := @key x l
      obtain ⟨c', r', hc', h1', h2', h3'⟩ := @key y m
      rw [h1, h1'] at he
      obtain ⟨rfl, hr⟩ := split_unique (h x (by simp)).2 (h' y (by simp)).2 hc hc' he
      cases hr
      by_cases hl : l = []
      · by_cases hm : m = []
        · rw [hl, hm]
        · exact absurd ((h2 hl).symm.trans (h3' hm).1) (by decide)
      · by_cases hm : m = []
        · exact absurd ((h2' hm).symm.trans (h3 hl).1) (by decide)
        · have e := (h3 hl).2.symm.trans (h3' hm).2
          simp only [List.cons.injEq, true_and] at e
          rw [ih (fun e he => h e (by simp [he])) (fun e he => h' e (by simp [he])) e]

/-! Indentation. -/

/-- Put `k` spaces after each line break. -/
def shift (k : Nat) (t : Text) : Text := t.flatMap fun c => if c = '\n' then '\n' :: List.replicate k ' ' else [c]

theorem shift_append (k : Nat) (s t : Text) : shift k (s ++ t) = shift k s ++ shift k t := by simp [shift]

theorem shift_cons (k : Nat) (c : Char) (t : Text) :
    shift k (c :: t) = (if c = '\n' then '\n' :: List.replicate k ' ' else [c]) ++ shift k t := by simp [shift]

theorem shift_of_not_mem (k : Nat) {t : Text} (h : '\n' ∉ t) : shift k t = t := by
  induction t with
  | nil => rfl
  | cons c t ih =>
    simp only [List.mem_cons, not_or] at h
    rw [shift_cons, if_neg (fun e => h.1 e.symm), ih h.2]
    rfl

theorem shift_shift (j k : Nat) (t : Text) : shift j (shift k t) = shift (j + k) t := by
  induction t with
  | nil => rfl
  | cons c t ih =>
    rw [shift_cons, shift_append, ih, shift_cons]
    split
    · rw [shift_cons, if_pos rfl, shift_of_not_mem j (t := List.replicate k ' ') (by simp [List.mem_replicate])]
      rw [List.replicate_add]
      simp
    · rename_i hc
      rw [shift_cons, if_neg hc]
      rfl

theorem shift_inj (k : Nat) : ∀ {s t : Text}, shift k s = shift k t → s = t := by
  intro s
  induction s with
  | nil =>
    intro t h
    cases t with
    | nil => rfl
    | cons c t => rw [shift_cons] at h; split at h <;> cases h
  | cons c s ih =>
    intro t h
    cases t with
    | nil => rw [shift_cons] at h; split at h <;> cases h
    | cons c' t =>
      rw [shift_cons, shift_cons] at h
      split at h
      · rename_i hc
        split at h
        · rename_i hc'
          simp only [List.cons_append, List.cons.injEq, true_and, List.append_cancel_left_eq] at h
          rw [hc, hc', ih h]
        · rename_i hc'
          simp only [List.cons_append, List.cons.injEq] at h
          exact absurd h.1.symm hc'
      · rename_i hc
        split at h
        · simp only [List.cons_append, List.cons.injEq] at h
          exact absurd h.1 hc
        · simp only [List.cons_append, List.cons.injEq, List.nil_append] at h
          rw [h.1, ih h.2]

theorem openAfter_spaces (k d : Nat) : openAfter d (List.replicate k ' ') = some d := by
  induction k with
  | zero => rfl
  | succ k ih => rw [List.replicate_succ]; simp only [openAfter]; simpa using ih

theorem openAfter_shift (k : Nat) (t : Text) : ∀ d, openAfter d (shift k t) = openAfter d t := by
  induction t with
  | nil => intro d; rfl
  | cons c t ih =>
    intro d
    rw [shift_cons]
    split
    · rename_i hc
      subst hc
      rw [openAfter_append]
      have : openAfter d ('\n' :: List.replicate k ' ') = some d := by
        simp only [openAfter]
        simpa using openAfter_spaces k d
      rw [this]
      simp only [Option.bind_some, ih, openAfter]
      simp
    · simp only [List.cons_append, List.nil_append, openAfter, ih]

theorem padText_eq (t : Text) :
    padText false (t ++ [',', '\n']) = shift 4 t ++ [',', '\n'] ∧
    padText true (t ++ [',', '\n']) = ' ' :: ' ' :: ' ' :: ' ' :: (shift 4 t ++ [',', '\n']) := by
  induction t with
  | nil => exact ⟨rfl, rfl⟩
  | cons c t ih =>
    have h : padText (c == '\n') (t ++ [',', '\n']) =
        (if c = '\n' then List.replicate 4 ' ' else []) ++ (shift 4 t ++ [',', '\n']) := by
      by_cases hc : c = '\n'
      · subst hc; exact ih.2
      · rw [if_neg hc, beq_eq_false_iff_ne.2 hc]; exact ih.1
    have hs : c :: ((if c = '\n' then List.replicate 4 ' ' else []) ++ (shift 4 t ++ [',', '\n'])) =
        shift 4 (c :: t) ++ [',', '\n'] := by
      rw [shift_cons]
      split
      · rename_i hc; subst hc; simp
      · simp
    simp only [List.cons_append, padText, h, hs, and_self]

/-- The entries in the alternate format. -/
theorem entriesText_alt {es : List Text} (h : es ≠ []) :
    entriesText true es = (es.flatMap fun e => '\n' :: (List.replicate 4 ' ' ++ shift 4 e ++ [','])) ++ ['\n'] := by
  rw [entriesText, if_pos rfl, if_neg h]
  simp only [padText_eq]
  clear h
  have : ∀ l : List Text, '\n' :: (l.flatMap fun e => ' ' :: ' ' :: ' ' :: ' ' :: (shift 4 e ++ [',', '\n'])) =
      (l.flatMap fun e => '\n' :: (List.replicate 4 ' ' ++ shift 4 e ++ [','])) ++ ['\n'] := by
    intro l
    induction l with
    | nil => rfl
    | cons e l ih =>
      rw [List.flatMap_cons, List.flatMap_cons, List.append_assoc, ← ih]
      simp
  exact this es

theorem entriesText_nil (alt : Bool) : entriesText alt [] = [] := by cases alt <;> rfl

/-- Entries are found again in the text. -/
theorem entriesText_inj {alt : Bool} {es es' : List Text} (h : ∀ e ∈ es, Closed e) (h' : ∀ e ∈ es', Closed e)
    (he : entriesText alt es = entriesText alt es') : es = es' := by
  cases alt with
  | false => exact oneLine_inj h h' (by simpa [entriesText] using he)
  | true =>
    by_cases hn : es = []
    · subst hn
      by_cases hn' : es' = []
      · exact hn'.symm
      · rw [entriesText_alt hn', entriesText_nil] at he
        have := congrArg List.length he
        simp at this
    · by_cases hn' : es' = []
      · subst hn'
        rw [entriesText_alt hn, entriesText_nil] at he
        have := congrArg List.length he
        simp at this
      · rw [entriesText_alt hn, entriesText_alt hn'] at he
        clear hn hn'
        induction es generalizing es' with
        | nil =>
          cases es' with
          | nil => rfl
          | cons x l => simp [List.replicate] at he
        | cons x l ih =>
          cases es' with
          | nil => simp [List.replicate] at he
          | cons y m =>
            simp only [List.flatMap_cons, List.cons_append, List.append_assoc, List.cons.injEq, true_and,
              List.append_cancel_left_eq, List.nil_append] at he
            obtain ⟨h1, h2⟩ := split_unique (by rw [openAfter_shift]; exact (h x (by simp)).2)
              (by rw [openAfter_shift]; exact (h' y (by simp)).2) (by decide) (by decide) he
            rw [shift_inj 4 h1, ih (fun e he => h e (by simp [he])) (fun e he => h' e (by simp [he])) (List.cons.inj h2).2]

/-- Entries keep the number of open brackets. -/
theorem openAfter_entries (alt : Bool) {es : List Text} (h : ∀ e ∈ es, openAfter 0 e = some 0) (d : Nat) :
    openAfter (d + 1) (entriesText alt es) = some (d + 1) := by
  cases alt with
  | false =>
    rw [entriesText, if_neg (by simp)]
    induction es with
    | nil => rfl
    | cons x l ih =>
      cases l with
      | nil => rw [intercalate_one]; exact openAfter_inside (h x (by simp)) _
      | cons y l =>
        rw [intercalate_cons, openAfter_append, openAfter_inside (h x (by simp)), Option.bind_some, openAfter_append]
        have : openAfter (d + 1) [',', ' '] = some (d + 1) := by simp [openAfter]
        rw [this, Option.bind_some]
        exact ih fun e he => h e (by simp [he])
  | true =>
    by_cases hn : es = []
    · subst hn; rfl
    · rw [entriesText_alt hn, openAfter_append]
      have : openAfter (d + 1) (es.flatMap fun e => '\n' :: (List.replicate 4 ' ' ++ shift 4 e ++ [','])) = some (d + 1) := by
        clear hn
        induction es with
        | nil => rfl
        | cons x l ih =>
          rw [List.flatMap_cons, openAfter_append]
          have : openAfter (d + 1) ('\n' :: (List.replicate 4 ' ' ++ shift 4 x ++ [','])) = some (d + 1) := by
            have e : openAfter (d + 1) ('\n' :: (List.replicate 4 ' ' ++ shift 4 x ++ [','])) =
                openAfter (d + 1) (List.replicate 4 ' ' ++ shift 4 x ++ [',']) := by
              conv_lhs => rw [openAfter]
              simp
            rw [e, openAfter_append, openAfter_append, openAfter_spaces, Option.bind_some, openAfter_shift,
              openAfter_inside (h x (by simp)), Option.bind_some]
            simp [openAfter]
          rw [this, Option.bind_some]
          exact ih fun e he => h e (by simp [he])
      rw [this]
      simp [openAfter]

theorem closed_debugList (alt : Bool) {es : List Text} (h : ∀ e ∈ es, Closed e) : Closed (debugList alt es) := by
  refine ⟨by simp [debugList], ?_⟩
  have : openAfter 0 (debugList alt es) = openAfter 1 (entriesText alt es ++ [']']) := by
    rw [debugList]
    conv_lhs => rw [openAfter]
    simp
  rw [this, openAfter_append, openAfter_entries alt (fun e he => (h e he).2) 0]
  rfl

theorem debugList_inj {alt : Bool} {es es' : List Text} (h : ∀ e ∈ es, Closed e) (h' : ∀ e ∈ es', Closed e)
    (he : debugList alt es = debugList alt es') : es = es' := by
  simp only [debugList, List.cons.injEq, true_and, List.append_left_inj] at he
  exact entriesText_inj h h' he

end Spec
