import Verif.Lemmas.Reach

/-! Machine arithmetic while addressing elements of reachable views. -/

namespace Spec

theorem dot_set (st : List Int) (l : List Nat) (c x : Nat) (hc : c < l.length) (hs : c < st.length) :
    dot st (l.set c x) = dot st l + st[c] * ((x : Int) - (l[c] : Int)) := by
  induction l generalizing st c with
  | nil => simp at hc
  | cons a l ih =>
    cases st with
    | nil => simp at hs
    | cons s st =>
      cases c with
      | zero => simp; ring
      | succ c =>
        simp at hc hs
        simp only [List.set_cons_succ, dot_cons, List.getElem_cons_succ]
        rw [ih _ _ hc hs]; ring

theorem dot_zeros (st : List Int) (n : Nat) : dot st (List.replicate n 0) = 0 := by
  induction n generalizing st with
  | zero => simp [dot_nil_right]
  | succ n ih =>
    cases st with
    | nil => rw [dot_nil_left]
    | cons s st => simp [List.replicate_succ, ih]

theorem valid_set {ds is : List Nat} (h : Valid ds is) (c x : Nat) (hx : x < ds.getD c 0) :
    Valid ds (is.set c x) := by
  rw [valid_iff] at h ⊢
  refine ⟨by simpa using h.1, fun i h1 h2 => ?_⟩
  simp at h1
  rw [List.getElem_set]
  split
  · rename_i e; subst e; simpa [h2] using hx
  · exact h.2 i h1 h2

end Spec

namespace Model
open Spec
namespace Mapping

theorem isz_ok {x : Int} (h1 : -9223372036854775808 ≤ x) (h2 : x < 9223372036854775808) :
    isz x = some x := if_pos ⟨h1, h2⟩

theorem usz_ok {x : Nat} (h : x < 9223372036854775808) : usz x = some x :=
  if_pos (by unfold usizeMax; omega)

/-- Partial sums over any calls with distinct positions are offsets of valid indices. -/
theorem foldChk (isz : Int → Option Int)
    (isz_ok : ∀ {x : Int}, -9223372036854775808 ≤ x → x < 9223372036854775808 → isz x = some x)
    (st : List Int) (ds idx : List Nat) (N : Nat) (hN : (N : Int) ≤ 9223372036854775808)
    (hv : Valid ds idx) (hl : st.length = ds.length)
    (hb : ∀ i, Valid ds i → -(N : Int) < dot st i ∧ dot st i < N)
    (hi : ∀ d ∈ ds, d ≤ N)
    (calls : List (Nat × Int)) (hc : ∀ c ∈ calls, st[c.1]? = some c.2)
    (hn : (calls.map (·.1)).Nodup) (off : Int) (cur : List Nat) (hcur : Valid ds cur)
    (hz : ∀ c ∈ calls, cur[c.1]? = some 0) (hoff : off = dot st cur) :
    ∃ r, calls.foldlM (fun off c => do
      let i : Nat ← idx[c.1]?
      let i' ← isz (i : Int)
      let p ← isz (c.2 * i')
      isz (off + p)) off = some r ∧
      calls.foldlM (fun off c => do
        let i : Nat ← idx[c.1]?
        pure (off + c.2 * (i : Int))) off = some r := by
  induction calls generalizing off cur with
  | nil => exact ⟨off, rfl, rfl⟩
  | cons c calls ih =>
    obtain ⟨c, s⟩ := c
    have hst := hc (c, s) (by simp)
    have hclt : c < st.length := (List.getElem?_eq_some_iff.1 hst).1
    have hse : st[c] = s := (List.getElem?_eq_some_iff.1 hst).2
    have hci : c < idx.length := by rw [hv.length, ← hl]; exact hclt
    have hcd : c < ds.length := by rw [← hl]; exact hclt
    have hcc : c < cur.length := by rw [hcur.length]; exact hcd
    have hzc : cur[c] = 0 := (List.getElem?_eq_some_iff.1 (hz (c, s) (by simp))).2
    have hlt : idx[c] < ds[c] := (valid_iff.1 hv).2 c hci hcd
    have hdN : ds[c] ≤ N := hi _ (List.getElem_mem _)
    have hlt' : idx[c] < ds.getD c 0 := by simpa [hcd] using hlt
    have hcur' := valid_set hcur c idx[c] hlt'
    have hzero : Valid ds (List.replicate ds.length 0) := valid_zeros hv.size_pos
    have hsingle := valid_set hzero c idx[c] hlt'
    have e1 : dot st (cur.set c idx[c]) = off + s * (idx[c] : Int) := by
      rw [dot_set st cur c _ hcc hclt, hzc, hse, hoff]; simp
    have e2 : dot st ((List.replicate ds.length 0).set c idx[c]) = s * (idx[c] : Int) := by
      rw [dot_set st _ c _ (by simpa using hcd) hclt, dot_zeros, hse]; simp
    have b1 := hb _ hcur'
    have b2 := hb _ hsingle
    rw [e1] at b1; rw [e2] at b2
    have i1 : isz (idx[c] : Int) = some (idx[c] : Int) := isz_ok (by omega) (by omega)
    have i2 : isz (s * (idx[c] : Int)) = some (s * (idx[c] : Int)) := isz_ok (by omega) (by omega)
    have i3 : isz (off + s * (idx[c] : Int)) = some (off + s * (idx[c] : Int)) := isz_ok (by omega) (by omega)
    simp only [List.map_cons, List.nodup_cons] at hn
    obtain ⟨r, hr1, hr2⟩ := ih (fun c' hc' => hc c' (by simp [hc'])) hn.2
      (off + s * (idx[c] : Int)) (cur.set c idx[c]) hcur' (fun c' hc' => by
        have hne : c ≠ c'.1 := fun e => hn.1 (e ▸ List.mem_map_of_mem hc')
        rw [List.getElem?_set_ne hne]
        exact hz c' (by simp [hc'])) e1.symm
    refine ⟨r, ?_, ?_⟩
    · simp only [List.foldlM_cons, List.getElem?_eq_getElem hci, Option.bind_eq_bind,
        Option.bind_some, i1, i2, i3]
      simpa [Option.bind_eq_bind] using hr1
    · simp only [List.foldlM_cons, List.getElem?_eq_getElem hci, Option.bind_eq_bind,
        Option.bind_some, Option.pure_def]
      simpa [Option.bind_eq_bind] using hr2

theorem denseCallsChk_aux (isz : Int → Option Int)
    (isz_ok : ∀ {x : Int}, -9223372036854775808 ≤ x → x < 9223372036854775808 → isz x = some x)
    (usz : Nat → Option Nat) (usz_ok : ∀ {x : Nat}, x < 9223372036854775808 → usz x = some x)
    (ds : List Nat) (k : Nat) (hs : ∀ t, size (ds.drop t) < 9223372036854775808) :
    (ds.zipIdx k).foldr (fun x acc => do
      let ((calls : List (Nat × Int)), (stride : Nat)) ← acc
      let s ← isz (stride : Int)
      let stride' ← usz (stride * x.1)
      pure (calls ++ [(x.2, s)], stride')) (some ([], 1)) =
    some ((ds.zipIdx k).foldr (fun x (acc : List (Nat × Int) × Nat) =>
      (acc.1 ++ [(x.2, (acc.2 : Int))], acc.2 * x.1)) ([], 1)) := by
  induction ds generalizing k with
  | nil => rfl
  | cons d ds ih =>
    have hd := ih (k + 1) (fun t => by simpa using hs (t + 1))
    rw [List.zipIdx_cons, List.foldr_cons, List.foldr_cons, hd, denseCalls_aux]
    have h1 : size ds < 9223372036854775808 := by simpa using hs 1
    have h0 : size ds * d < 9223372036854775808 := by rw [mul_comm]; simpa using hs 0
    have i1 : isz ((size ds : Nat) : Int) = some ((size ds : Nat) : Int) := isz_ok (by omega) (by omega)
    have i2 : usz (size ds * d) = some (size ds * d) := usz_ok h0
    simp [i1, i2]

theorem forEachStride_nodup (m : Mapping) : (m.forEachStride.map (·.1)).Nodup := by
  have : ((m.strides.zipIdx.map fun x => (x.2, x.1)).map (·.1)).Nodup := by
    rw [List.map_map]
    show (m.strides.zipIdx.map (fun x => x.2)).Nodup
    rw [show (fun x : Int × Nat => x.2) = Prod.snd from rfl, List.zipIdx_map_snd]
    exact List.nodup_range'
  rcases forEachStride_perm m with h | h
  · rw [h]; exact this
  · rw [h, List.map_reverse, List.nodup_reverse]; exact this

theorem offsetChk_eq (m : Mapping) (hw : m.WF) (N : Nat) (hN : (N : Int) < 9223372036854775808)
    (hb : ∀ i, Valid m.dims i → -(N : Int) < dot m.strides i ∧ dot m.strides i < N)
    (hd : m.layout = .dense → ∀ t, size (m.dims.drop t) ≤ N)
    (hi : ∀ d ∈ m.dims, d ≤ N) {idx} (hv : Valid m.dims idx) :
    m.offsetChk idx = m.offset idx := by
  have hcalls : m.callsChk = some m.forEachStride := by
    cases m with
    | strided s st => rfl
    | dense s =>
      have := denseCallsChk_aux isz isz_ok usz usz_ok s.dims 0 (fun t => by
        have h2 : size (s.dims.drop t) ≤ N := hd rfl t
        omega)
      unfold callsChk denseCallsChk
      dsimp only
      rw [this]; rfl
  unfold offsetChk
  rw [hcalls]
  obtain ⟨r, h1, h2⟩ := foldChk isz isz_ok m.strides m.dims idx N (by omega) hv hw.len hb hi m.forEachStride
    (fun c hc => mem_forEachStride.1 hc) (forEachStride_nodup m) 0
    (List.replicate m.dims.length 0) (valid_zeros hv.size_pos)
    (fun c hc => by
      have := (List.getElem?_eq_some_iff.1 (mem_forEachStride.1 hc)).1
      rw [hw.len] at this
      simp [this]) (dot_zeros _ _).symm
  show m.forEachStride.foldlM _ 0 = _
  rw [h1]; unfold offset; rw [h2]

/-- Mixed-radix digits of `k`. -/
def digits : List Nat → Nat → List Nat
  | [], _ => []
  | d :: ds, k => (k / size ds % d) :: digits ds k

theorem digits_eq {ds : List Nat} {k : Nat} (h : k < size ds) : digits ds k = unrank ds k := by
  have aux : ∀ ds k, digits ds (k % size ds) = digits ds k := by
    intro ds
    induction ds with
    | nil => intro k; rfl
    | cons d ds ih =>
      intro k
      simp only [digits, size_cons]
      rw [← ih (k % (d * size ds)), ← ih k, Nat.mod_mul_left_mod]
      congr 1
      rw [mul_comm d, Nat.mod_mul_right_div_self, Nat.mod_mod]
  induction ds generalizing k with
  | nil => rfl
  | cons d ds ih =>
    have hp : 0 < size ds := by
      by_contra hh
      simp [show size ds = 0 by omega] at h
    simp only [digits, unrank]
    rw [← aux ds k, ih (Nat.mod_lt _ hp), Nat.mod_eq_of_lt]
    rw [Nat.div_lt_iff_lt_mul hp]; simpa using h

theorem linearLoopChk_aux (N : Nat) (hN : (N : Int) < 9223372036854775808) (ds : List Nat) (st : List Int)
    (hl : st.length = ds.length) (hpos : 0 < size ds)
    (hi : ∀ d ∈ ds, d ≤ N)
    (hb : ∀ i, Valid ds i → -(N : Int) < dot st i ∧ dot st i < N) (k : Nat) (rest) :
    linearLoopChk ((ds.zip st).reverse ++ rest) k 0 =
        linearLoopChk rest (k / size ds) (dot st (digits ds k)) ∧
    linearLoop ((ds.zip st).reverse ++ rest) k 0 =
        linearLoop rest (k / size ds) (dot st (digits ds k)) ∧ Valid ds (digits ds k) := by
  induction ds generalizing st rest with
  | nil =>
    cases st with
    | nil => simp [digits]
    | cons s st => simp at hl
  | cons d ds ih =>
    cases st with
    | nil => simp at hl
    | cons s st =>
      simp at hl hpos
      have hdp : 0 < d := by omega
      obtain ⟨e1, e2, e3⟩ := ih st hl (by omega) (fun x hx => hi x (by simp [hx]))
        (fun i hv => by have := hb (0 :: i) (by simp [hdp, hv]); simpa using this) ((d, s) :: rest)
      have hm : k / size ds % d < d := Nat.mod_lt _ hdp
      have hvd : Valid (d :: ds) (digits (d :: ds) k) := by simp [digits, hm, e3]
      have b1 := hb _ hvd
      have b2 := hb ((k / size ds % d) :: List.replicate ds.length 0)
        (by simp [hm]; exact valid_zeros (by omega))
      have hdN := hi d (by simp)
      simp only [digits, dot_cons, dot_zeros] at b1 b2
      have i1 : isz ((k / size ds % d : Nat) : Int) = some _ := isz_ok (by omega) (by omega)
      have i2 : isz (s * ((k / size ds % d : Nat) : Int)) = some _ := isz_ok (by omega) (by omega)
      have i3 : isz (dot st (digits ds k) + s * ((k / size ds % d : Nat) : Int)) = some _ :=
        isz_ok (by omega) (by omega)
      have e4 : dot (s :: st) (digits (d :: ds) k)
          = dot st (digits ds k) + s * ((k / size ds % d : Nat) : Int) := by
        simp [digits]; ring
      have e5 : k / size (d :: ds) = k / size ds / d := by
        rw [size_cons, mul_comm, Nat.div_div_eq_div_mul]
      refine ⟨?_, ?_, hvd⟩
      · rw [List.zip_cons_cons, List.reverse_cons, List.append_assoc, List.singleton_append, e1]
        unfold linearLoopChk
        rw [check_pos (by omega)]
        simp only [i1, i2, i3, Option.bind_eq_bind, Option.bind_some]
        rw [e4, e5]
        cases rest <;> rfl
      · rw [List.zip_cons_cons, List.reverse_cons, List.append_assoc, List.singleton_append, e2]
        rw [e4, e5]
        conv_lhs => unfold linearLoop
        rw [check_pos (by omega)]

theorem linearOffsetChk_eq (m : Mapping) (hw : m.WF) (N : Nat) (hN : (N : Int) < 9223372036854775808)
    (hb : ∀ i, Valid m.dims i → -(N : Int) < dot m.strides i ∧ dot m.strides i < N)
    (hs : size m.dims ≤ N)
    (hi : ∀ d ∈ m.dims, d ≤ N) {k} (hk : k < size m.dims) :
    m.linearOffsetChk k = m.linearOffset k := by
  cases m with
  | dense s =>
    have hs : size s.dims ≤ N := hs
    have hk : k < size s.dims := hk
    exact isz_ok (by omega) (by omega)
  | strided s st =>
    have h := linearLoopChk_aux N hN s.dims st hw.len (by
      have hk : k < size s.dims := hk
      omega) hi hb k []
    simp only [List.append_nil] at h
    unfold linearOffsetChk linearOffset
    dsimp only
    rw [h.1, h.2.1]; rfl

end Mapping
end Model
