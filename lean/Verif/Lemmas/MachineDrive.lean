import Verif.Lemmas.MachineEmpty
import Verif.Spec.MachineSim
import Verif.Model.MachineHint

/-! Mixes of `next` and `fold` with 64-bit integers. -/

namespace Model
open Spec
namespace Machine
variable {σ α : Type}

section
variable {checks : Bool} {e : Expr σ α} (hw : e.Wf) (h64 : OkSim e) (hD : 0 < size e.dims)
include hw h64 hD
open Iter

theorem fold_badSim (hb : BadFn e) {τ : Type} (f : τ → α → M σ τ) (acc : τ) :
    fold checks (Iter.new e) acc f = (Iter.new e).fold acc f := by
  have hr : 0 < Iter.row e := by
    have := hD
    rw [size_split hD] at this
    exact Nat.pos_of_mul_pos_left this
  unfold fold Iter.fold
  rw [outerCount_new]
  obtain ⟨k, hk⟩ := Nat.exists_eq_succ_of_ne_zero (show rows e ≠ 0 by have := rows_pos e; omega)
  rw [hk]
  unfold foldLoop Iter.foldLoop
  rw [innerLimit_new]
  obtain ⟨l, hl⟩ := Nat.exists_eq_succ_of_ne_zero (show Iter.row e ≠ 0 by omega)
  change M.bind (innerLoop checks f (List.range' 0 (Iter.row e)) e acc) _ =
    M.bind (Iter.innerLoop f (List.range' 0 (Iter.row e)) e acc) _
  rw [hl, List.range'_succ]
  unfold innerLoop Iter.innerLoop
  rw [get_first hw h64, M.bind_assoc, M.bind_assoc]
  exact bind_never (get_never hw hD hb) _ _

theorem next_badSim : next checks (Iter.new e) = (Iter.new e).next := by
  have hr : 0 < Iter.row e := by
    have := hD
    rw [size_split hD] at this
    exact Nat.pos_of_mul_pos_left this
  have hne : ¬ (Iter.new e).innerIndex = (Iter.new e).innerLimit := by
    rw [innerLimit_new]; change ¬ 0 = _; omega
  unfold next Iter.next
  rw [if_neg hne, if_neg hne]
  unfold take
  change M.bind (M.lift (retU checks (0 + 1))) (fun k => M.bind (get checks e 0) _) = M.bind (e.get 0) _
  rw [retU_fit (by unfold usizeMax; omega), M.lift_some, M.pure_bind, get_first hw h64]
  rfl

omit h64 in
theorem next_never (hb : BadFn e) (s : σ) (x t) : (Iter.new e).next s ≠ .ok x t := by
  have hr : 0 < Iter.row e := by
    have := hD
    rw [size_split hD] at this
    exact Nat.pos_of_mul_pos_left this
  have hne : ¬ (Iter.new e).innerIndex = (Iter.new e).innerLimit := by
    rw [innerLimit_new]; change ¬ 0 = _; omega
  unfold Iter.next
  rw [if_neg hne]
  change M.bind (e.get 0) _ s ≠ _
  intro h
  unfold M.bind at h
  split at h
  · exact get_never hw hD hb _ _ _ (by assumption)
  all_goals simp at h

theorem drive_bad (hb : BadFn e) {τ : Type} (f : τ → α → M σ τ) (k : Nat) (acc : τ) :
    driveThenFold64 checks f k (Iter.new e) acc = driveThenFold f k (Iter.new e) acc := by
  cases k with
  | zero => exact fold_badSim hw h64 hD hb f acc
  | succ k =>
    unfold driveThenFold64 driveThenFold
    rw [next_badSim hw h64 hD]
    exact bind_never (next_never hw hD hb) _ _

theorem drive_here (hu : size e.dims ≤ usizeMax) (hb : ¬ BadFn e) {τ : Type} (f : τ → α → M σ τ) (k : Nat) :
    ∀ (q c : Nat) (acc : τ) (it' : Iter σ α), q < rows e → c ≤ Iter.row e →
    SameIter (iterAt e q c (q * Iter.row e + c)) it' →
    SimM checks Eq (driveThenFold64 checks f k it' acc)
      (driveThenFold f k (iterAt e q c (q * Iter.row e + c)) acc) := by
  induction k with
  | zero => intro q c acc it' hq hc hs; exact fold_here hw h64 hD hu hb f acc hq hc hs
  | succ k ih =>
    intro q c acc it' hq hc hs
    unfold driveThenFold64 driveThenFold
    refine SimM.bind (next_here hw h64 hD hu hb hq hc hs) ?_
    rintro ⟨a, ia⟩ ⟨b, ib⟩ ⟨h1, h2⟩
    change a = b at h1
    subst h1
    cases a with
    | none => exact SimM.refl _
    | some x =>
      obtain ⟨q', c', hq', hc', h3, h4⟩ := h2 nofun
      change ib = _ at h3
      subst h3
      refine SimM.bind (SimM.refl (f acc x)) ?_
      rintro y _ rfl
      exact ih q' c' y ia hq' hc' h4

end

theorem drive_sim {checks : Bool} {e : Expr σ α} (hw : e.Wf) (h64 : 0 < size e.dims → OkSim e ∧ size e.dims ≤ usizeMax)
    (hu : Usize e.dims) (hp : NoPhantomRows e) {τ : Type} (f : τ → α → M σ τ) (k : Nat) (acc : τ)
    (hk : k = 0 ∨ Plain e) :
    SimM checks Eq (M.bind (M.lift (iterNew checks e)) fun it => driveThenFold64 checks f k it acc)
      (driveThenFold f k (Iter.new e) acc) := by
  rcases Nat.eq_zero_or_pos (size e.dims) with h0 | hD
  · have hr : Iter.row e = 0 := hp h0
    have : SimM checks Eq (M.bind (M.lift (iterNew checks e)) fun it => driveThenFold64 checks f k it acc)
        (M.bind (M.lift (some (Iter.new e))) fun it => driveThenFold f k it acc) := by
      refine SimM.bind (SimM.lift (iterNew_empty hr)) ?_
      rintro it' it ⟨h', rfl⟩
      have h : Iter.At e 0 0 (Iter.new e) := Iter.at_new e
      cases k with
      | zero => exact fold_empty hw hr hu f acc h h'
      | succ k =>
        have h1 : Iter.rows e = 1 := by
          rcases hk with hk | hk | hk
          · omega
          · omega
          · exact Iter.rows_eq_one hk.2
        unfold driveThenFold64 driveThenFold
        refine SimM.bind (next_empty hw hr hu h1 h h') ?_
        rintro ⟨a, ia⟩ ⟨b, ib⟩ ⟨h1, h2⟩
        change a = none at h1
        change b = none at h2
        subst h1 h2
        exact SimM.refl _
    rwa [M.lift_some, M.pure_bind] at this
  · obtain ⟨h64, hs⟩ := h64 hD
    rw [iterNew_eq hD hs, M.lift_some, M.pure_bind]
    by_cases hb : BadFn e
    · exact SimM.of_eq (drive_bad hw h64 hD hb f k acc)
    · rw [Iter.new_eq_of (Expr.adv_init_raw hw hb (Iter.outerRank_le e) (le_refl _))]
      have := drive_here (checks := checks) hw h64 hD hs hb f k 0 0 acc (Iter.iterAt e 0 0 0) (Iter.rows_pos e)
        (Nat.zero_le _) (by rw [Nat.zero_mul]; exact .refl _)
      rwa [Nat.zero_mul] at this

theorem hintLoop_zero {checks : Bool} (ls : List Nat) (is : List Nat) (hi : ∀ i ∈ is, i = 0) (len : Nat)
    (h : hintLoop checks len ls is = none) : checks = true := by
  induction ls generalizing is len with
  | nil => cases h
  | cons l ls ih =>
    cases is with
    | nil => cases h
    | cons i is =>
      obtain rfl := hi i (by simp)
      unfold hintLoop at h
      rcases bind_none h with h | ⟨p, -, h⟩
      · exact retU_none h
      · simp only [subU, Nat.zero_le, if_true, Option.bind_eq_bind, Option.bind_some] at h
        exact ih is (fun i hi' => hi i (List.mem_cons_of_mem _ hi')) _ h

theorem sizeHint_empty {checks : Bool} {e : Expr σ α} (h0 : size (e.dims.drop e.outerRank) = 0) {it : Iter σ α}
    (h : iterNew checks e = some it) :
    sizeHint checks it = some 0 ∨ (checks = true ∧ sizeHint checks it = none) := by
  obtain ⟨n, hn, rfl⟩ := Option.map_eq_some_iff.1 h
  obtain rfl := product_zero h0 hn
  unfold sizeHint
  simp only [Option.bind_eq_bind, Nat.mul_zero]
  cases hh : hintLoop checks 1 (List.take e.outerRank _) (List.take e.outerRank _) with
  | none =>
    refine Or.inr ⟨hintLoop_zero _ _ ?_ _ hh, by rfl⟩
    intro i hi
    have := List.mem_of_mem_take hi
    split at this
    · simp at this; exact this.2
    · simp at this
  | some n =>
    refine Or.inl ?_
    rw [Option.bind_some, retU_fit (Nat.zero_le _)]
    rfl

theorem bsize_filter (l : List Nat) : bsize l = size (l.filter (0 < ·)) := by
  induction l with
  | nil => rfl
  | cons d l ih =>
    rw [bsize_cons, ih]
    rcases Nat.eq_zero_or_pos d with rfl | h
    · simp
    · rw [List.filter_cons_of_pos (by simpa using h), size_cons]
      congr 1
      omega

theorem placed_bsize {checks : Bool} {v : View} (hm : InMemory checks v)
    (h : size v.dims = 0 → size (v.dims.filter (0 < ·)) < 2 ^ 63) :
    bsize v.dims < 9223372036854775808 ∧ (0 < size v.dims → ∃ N, VFits N v) := by
  obtain ⟨s, b, h1, h2, h3, h4⟩ := hm
  have hk := known_reach h1 h2 (by norm_num at h3; exact h3) h4
  rcases Nat.eq_zero_or_pos (size v.dims) with h0 | h0
  · rw [bsize_filter]
    have := h h0
    norm_num at this
    exact ⟨this, fun h => absurd h (by omega)⟩
  · have hv : VFits _ v := hk.vfits h0
    rw [bsize_eq h0]
    exact ⟨hv.2.lt, fun _ => ⟨_, hv⟩⟩

theorem ok_of_placed {checks : Bool} {e : Expr σ α} (hw : e.Wf) (h : Placed checks e) {D : List Nat}
    (hs : e.dims = D.drop (D.length - e.dims.length)) (hD : 0 < size D) : OkSim e := by
  have hne : ∀ ds : List Nat, ds = D.drop (D.length - ds.length) → 0 < size ds := by
    intro ds h
    rw [size_pos_iff]
    intro d hd
    rw [h] at hd
    exact size_pos_iff.1 hD d (List.mem_of_mem_drop hd)
  induction e with
  | view r v =>
    obtain ⟨s, b, h1, h2, h3, h4⟩ := h
    exact ⟨_, (known_reach h1 h2 (by norm_num at h3; exact h3) h4).vfits (hne _ hs)⟩
  | axis r v a m off => exact placed_bsize h.1 h.2
  | lanes r v a m off => exact placed_bsize h.1 h.2
  | map e f ih => exact ih hw h hs
  | enumerate e k ih => exact ih hw.1 h hs
  | zip a b s iha ihb =>
    obtain ⟨-, sa, sb, -, -⟩ := Expr.zipShape_spec hw.2.2
    exact ⟨iha hw.1 h.1 (Expr.drop_suffix sa hs), ihb hw.2.1 h.2 (Expr.drop_suffix sb hs)⟩
  | _ => exact trivial

theorem size_of_placed {checks : Bool} {e : Expr σ α} (hb : Built e) (h : Placed checks e)
    (hD : 0 < size e.dims) : size e.dims ≤ usizeMax := by
  have hck : ∀ {s : Shape} {k}, s.checkedLen = some k → size s.dims ≤ usizeMax := by
    intro s k hk
    rw [Shape.checkedLen_eq] at hk
    split at hk
    · rename_i hno
      by_cases h0 : size s.dims = 0
      · rw [h0]; exact Nat.zero_le _
      · exact hno.size_le
    · simp at hk
  induction hb with
  | @view r v hw =>
    obtain ⟨s, b, h1, h2, h3, h4⟩ := h
    exact usizeMax_lt ((known_reach h1 h2 (by norm_num at h3; exact h3) h4).vfits (v := ⟨v.ptr - b, v.map⟩) hD).2.lt
  | @axis r v a e hw he =>
    simp only [Expr.axisNew, Option.map_eq_some_iff] at he
    obtain ⟨m, hm, rfl⟩ := he
    obtain ⟨p, -, hp2, hmd, -⟩ := Expr.axis_dims hw hm
    change size m.dims ≤ usizeMax
    have h1 := (placed_bsize h.1 h.2).1
    have h2 := le_bsize (List.getElem_mem hp2)
    rw [hmd, size_cons, size_nil, mul_one, List.getD_eq_getElem?_getD, List.getElem?_eq_getElem hp2, Option.getD_some]
    exact usizeMax_lt (lt_of_le_of_lt h2 h1)
  | @lanes r v a e hw he =>
    simp only [Expr.lanesNew, Option.bind_eq_some_iff, Option.map_eq_some_iff] at he
    obtain ⟨m, hm, k, hk, rfl⟩ := he
    exact hck hk
  | fill => change size [] ≤ usizeMax; rw [size_nil]; unfold usizeMax; omega
  | fromElem _ he =>
    simp only [Expr.fromElemNew, Option.map_eq_some_iff] at he
    obtain ⟨_, hk, rfl⟩ := he
    exact hck hk
  | fromFn _ he =>
    simp only [Expr.fromFnNew, Option.map_eq_some_iff] at he
    obtain ⟨_, hk, rfl⟩ := he
    exact hck hk
  | intoExpr => exact h
  | map _ ih => exact ih h hD
  | enumerate _ ih => exact ih h hD
  | zip _ _ he iha ihb =>
    simp only [Expr.zipNew, Option.map_eq_some_iff] at he
    obtain ⟨s, hs, rfl⟩ := he
    obtain ⟨h1, -⟩ := Expr.zipShape_spec hs
    change 0 < size s.dims at hD
    change size s.dims ≤ usizeMax
    rw [h1] at hD ⊢
    split at hD
    · rename_i hlt; rw [if_pos hlt]; exact ihb h.2 hD
    · rename_i hlt; rw [if_neg hlt]; exact iha h.1 hD

end Machine
end Model
