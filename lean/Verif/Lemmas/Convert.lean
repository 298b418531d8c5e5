import Verif.Spec.Convert
import Verif.Lemmas.Drain
import Verif.Lemmas.ShapeReshape

namespace Model
open Spec

variable {σ T α β : Type}

theorem length_flatMap_const {f : α → List β} {n : Nat} {xs : List α} (h : ∀ x ∈ xs, (f x).length = n) :
    (xs.flatMap f).length = xs.length * n := by
  induction xs with
  | nil => simp
  | cons x xs ih =>
    rw [List.flatMap_cons, List.length_append, h x (by simp), ih fun y hy => h y (by simp [hy]),
      List.length_cons, Nat.succ_mul]
    omega

theorem drop_flatMap_const {f : α → List β} {n : Nat} {xs : List α} (h : ∀ x ∈ xs, (f x).length = n)
    (i : Nat) : (xs.flatMap f).drop (i * n) = (xs.drop i).flatMap f := by
  induction xs generalizing i with
  | nil => simp
  | cons x xs ih =>
    cases i with
    | zero => simp
    | succ i =>
      have hx := h x (by simp)
      rw [List.flatMap_cons, Nat.succ_mul, Nat.add_comm, List.drop_append,
        List.drop_eq_nil_of_le (by omega), List.nil_append, hx, Nat.add_sub_cancel_left,
        ih fun y hy => h y (by simp [hy])]
      rfl

theorem getElem?_flatMap_const {f : α → List β} {n : Nat} {xs : List α}
    (h : ∀ x ∈ xs, (f x).length = n) {i r : Nat} (hr : r < n) :
    (xs.flatMap f)[i * n + r]? = xs[i]?.bind fun x => (f x)[r]? := by
  have h1 := drop_flatMap_const h i
  have h2 : (xs.flatMap f)[i * n + r]? = ((xs.flatMap f).drop (i * n))[r]? := by
    rw [List.getElem?_drop]
  rw [h2, h1]
  by_cases hi : i < xs.length
  · rw [List.drop_eq_getElem_cons hi, List.flatMap_cons,
      List.getElem?_append_left (by rw [h _ (List.getElem_mem hi)]; exact hr),
      List.getElem?_eq_getElem hi]
    rfl
  · rw [List.drop_eq_nil_of_le (by omega), List.getElem?_eq_none (by omega : xs.length ≤ i)]
    rfl

theorem length_flat : ∀ {dims : List Nat} {a : Arr T}, HasDims dims a → (a.flat dims).length = size dims
  | [], .elem x, _ => rfl
  | [], .arr _, h => by simp [HasDims] at h
  | _ :: _, .elem _, h => by simp [HasDims] at h
  | d :: ds, .arr xs, h => by
    simp only [HasDims] at h
    rw [Arr.flat, length_flatMap_const fun x hx => length_flat (h.2 x hx), h.1, size_cons]

theorem getElem?_flat : ∀ {dims : List Nat} {a : Arr T} {j : List Nat}, HasDims dims a → Valid dims j →
    (a.flat dims)[rowMajor dims j]? = nestedGet a j
  | [], .elem x, [], _, _ => by simp [Arr.flat, rowMajor, nestedGet]
  | [], .elem x, _ :: _, _, h => by simp at h
  | [], .arr _, _, h, _ => by simp [HasDims] at h
  | _ :: _, .elem _, _, h, _ => by simp [HasDims] at h
  | _ :: _, .arr _, [], _, h => by simp at h
  | d :: ds, .arr xs, i :: j, h, hj => by
    simp only [HasDims] at h
    rw [valid_cons] at hj
    have hr := rowMajor_lt hj.2
    rw [Arr.flat, rowMajor, getElem?_flatMap_const (fun x hx => length_flat (h.2 x hx)) hr, nestedGet]
    have hi : i < xs.length := by omega
    rw [List.getElem?_eq_getElem hi]
    exact getElem?_flat (h.2 _ (List.getElem_mem hi)) hj.2

theorem foldl_size (ds : List Nat) : ds.foldl (· * ·) 1 = size ds := Shape.len_eq ⟨.dynRank, ds⟩

theorem mapM_option_range {g : Nat → Option α} {as : List α} :
    ∀ {n : Nat}, as.length = n → (∀ i (h : i < as.length), g i = some as[i]) →
    (List.range n).mapM g = some as := by
  induction as generalizing g with
  | nil => rintro _ rfl _; rfl
  | cons a as ih =>
    rintro _ rfl h
    rw [List.length_cons, List.range_succ_eq_map, List.mapM_cons, h 0 (by simp)]
    simp only [List.getElem_cons_zero, Option.bind_eq_bind, Option.bind_some]
    rw [List.mapM_map, ih (g := g ∘ Nat.succ) rfl fun i hi => by
      have := h (i + 1) (by simpa using hi)
      simpa using this]
    rfl

theorem unflat_flat : ∀ {dims : List Nat} {a : Arr T}, HasDims dims a →
    Arr.unflat dims (a.flat dims) = some a
  | [], .elem x, _ => rfl
  | [], .arr _, h => by simp [HasDims] at h
  | _ :: _, .elem _, h => by simp [HasDims] at h
  | d :: ds, .arr xs, h => by
    simp only [HasDims] at h
    have hl : ∀ x ∈ xs, (Arr.flat ds x).length = size ds := fun x hx => length_flat (h.2 x hx)
    rw [Arr.flat, Arr.unflat]
    simp only [foldl_size]
    rw [mapM_option_range h.1]
    · rfl
    · intro i hi
      rw [drop_flatMap_const hl, List.drop_eq_getElem_cons hi, List.flatMap_cons,
        List.take_append_of_le_length (by rw [hl _ (List.getElem_mem hi)]),
        List.take_of_length_le (by rw [hl _ (List.getElem_mem hi)])]
      exact unflat_flat (h.2 _ (List.getElem_mem hi))

theorem flatten_chunks {n : Nat} : ∀ {d : Nat} {xs : List T}, xs.length = d * n →
    ((List.range d).map fun i => (xs.drop (i * n)).take n).flatten = xs := by
  intro d
  induction d with
  | zero => intro xs h; simp at h; simp [h]
  | succ d ih =>
    intro xs h
    rw [Nat.succ_mul] at h
    rw [List.range_succ_eq_map, List.map_cons, List.flatten_cons, List.map_map]
    have := ih (xs := xs.drop n) (by simp; omega)
    have e : ((fun i => (xs.drop (i * n)).take n) ∘ Nat.succ) =
        fun i => ((xs.drop n).drop (i * n)).take n := by
      funext i
      simp only [Function.comp, List.drop_drop, Nat.succ_mul, Nat.add_comm]
    rw [e, this]
    simp

theorem unflat_exists : ∀ (dims : List Nat) (xs : List T), xs.length = size dims →
    ∃ a, Arr.unflat dims xs = some a ∧ HasDims dims a ∧ a.flat dims = xs := by
  intro dims
  induction dims with
  | nil =>
    intro xs h
    rw [show size [] = 1 from rfl, List.length_eq_one_iff] at h
    obtain ⟨x, rfl⟩ := h
    exact ⟨.elem x, rfl, by simp [HasDims], rfl⟩
  | cons d ds ih =>
    intro xs h
    rw [size_cons] at h
    have hc : ∀ i, i < d → ((xs.drop (i * size ds)).take (size ds)).length = size ds := by
      intro i hi
      have : (i + 1) * size ds ≤ d * size ds := Nat.mul_le_mul_right _ hi
      rw [Nat.succ_mul] at this
      simp only [List.length_take, List.length_drop]
      omega
    have hex : ∀ i, ∃ a, i < d → Arr.unflat ds ((xs.drop (i * size ds)).take (size ds)) = some a ∧
        HasDims ds a ∧ a.flat ds = (xs.drop (i * size ds)).take (size ds) := by
      intro i
      by_cases hi : i < d
      · obtain ⟨a, ha⟩ := ih _ (hc i hi)
        exact ⟨a, fun _ => ha⟩
      · exact ⟨.arr [], fun h => absurd h hi⟩
    choose as has using hex
    refine ⟨.arr ((List.range d).map as), ?_, ?_, ?_⟩
    · rw [Arr.unflat]
      simp only [foldl_size]
      rw [mapM_option_range (as := (List.range d).map as) (by simp)]
      · rfl
      · intro i hi
        have hi : i < d := by simpa using hi
        simpa using (has i hi).1
    · simp only [HasDims]
      refine ⟨by simp, fun x hx => ?_⟩
      obtain ⟨i, hi, rfl⟩ := List.mem_map.1 hx
      exact (has i (List.mem_range.1 hi)).2.1
    · rw [Arr.flat, List.flatMap_def, List.map_map]
      rw [← flatten_chunks (n := size ds) h]
      congr 1
      refine List.map_congr_left fun i hi => ?_
      have hi := List.mem_range.1 hi
      rw [Function.comp, (has i hi).2.2]

end Model
