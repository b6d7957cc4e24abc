import Verif.Lemmas.Index
import Mathlib.Data.List.InsertIdx
import Mathlib.Data.List.Perm.Basic
import Mathlib.Data.List.Perm.Subperm
import Mathlib.Data.List.Nodup
/-!
# Moving an axis of an array
-/
namespace Sofar.Arr

theorem prod_perm {s t : List Nat} (h : s.Perm t) : prod s = prod t := by
  induction h with
  | nil => rfl
  | cons x _ ih => simp only [prod, List.foldr_cons] at ih ⊢; rw [ih]
  | swap x y l => simp only [prod, List.foldr_cons]; rw [← Nat.mul_assoc, ← Nat.mul_assoc, Nat.mul_comm y x]
  | trans _ _ h1 h2 => exact h1.trans h2

/-- the multi-indices are listed in the order of their positions -/
theorem indices_at {s ix : List Nat} (h : ix ∈ indices s) : (indices s)[offset s ix]? = some ix := by
  obtain ⟨i, hi, he⟩ := List.getElem_of_mem h
  have h1 := congrArg (fun l => l[i]?) (indices_offset s)
  simp only [List.getElem?_map, List.getElem?_eq_getElem hi, he, Option.map_some] at h1
  rw [length_indices] at hi
  rw [List.getElem?_range hi] at h1
  cases h1
  rw [List.getElem?_eq_getElem (by rw [length_indices]; exact hi), he]

theorem offset_lt {s ix : List Nat} (h : ix ∈ indices s) : offset s ix < prod s := by
  have h1 : offset s ix ∈ (indices s).map (offset s) := List.mem_map_of_mem h
  rw [indices_offset] at h1
  exact List.mem_range.1 h1

theorem at?_some {a : Arr} (ha : a.WF) {ix : List Nat} (h : ix ∈ indices a.shape) : ∃ e, a.at? ix = some e := by
  have h1 := offset_lt h
  have h2 : prod a.shape = a.data.length := by rw [WF] at ha; rw [ha]; rfl
  rw [h2] at h1
  exact ⟨_, List.getElem?_eq_getElem h1⟩

theorem length_of_mem_indices {s ix : List Nat} (h : ix ∈ indices s) : ix.length = s.length :=
  (mem_indices.1 h).length_eq

/-- an index after permuting the axes -/
def permute (order ix : List Nat) : List Nat := order.map (fun i => ix.getD i 0)

theorem transpose_shape (a : Arr) (order : List Nat) :
    (a.transpose order).shape = order.map (fun i => a.shape.getD i 1) := rfl

theorem getD_lt {s ix : List Nat} (h : List.Forall₂ (· < ·) ix s) {i : Nat} (hi : i < s.length) :
    ix.getD i 0 < s.getD i 1 := by
  have hl := h.length_eq
  rw [List.getD_eq_getElem?_getD, List.getD_eq_getElem?_getD, List.getElem?_eq_getElem hi,
    List.getElem?_eq_getElem (by omega)]
  exact h.get (by omega) hi

theorem permute_mem {s order ix : List Nat} (ho : ∀ i ∈ order, i < s.length) (h : ix ∈ indices s) :
    permute order ix ∈ indices (order.map (fun i => s.getD i 1)) := by
  rw [mem_indices] at h ⊢
  unfold permute
  induction order with
  | nil => exact .nil
  | cons i l ih =>
    exact .cons (getD_lt h (ho i (by simp))) (ih (fun j hj => ho j (by simp [hj])))

theorem map_getD_range (l : List Nat) (d : Nat) : (List.range l.length).map (fun i => l.getD i d) = l := by
  apply List.ext_getElem
  · simp
  · intro i h1 h2
    simp [h2]

theorem permute_inverse {order ix : List Nat} (ho : order.Perm (List.range ix.length)) :
    (List.range order.length).map (fun j => (permute order ix).getD (order.idxOf j) 0) = ix := by
  have hl : order.length = ix.length := by simpa using ho.length_eq
  rw [hl]
  conv => rhs; rw [← map_getD_range ix 0]
  apply List.map_congr_left
  intro j hj
  have hm : j ∈ order := ho.mem_iff.2 hj
  have hi : order.idxOf j < order.length := List.idxOf_lt_length_iff.2 hm
  unfold permute
  rw [List.getD_eq_getElem?_getD, List.getElem?_map, List.getElem?_eq_getElem hi, List.getElem_idxOf]
  rfl

/-- every element of the array is found at the permuted index -/
theorem transpose_at {a : Arr} (ha : a.WF) {order : List Nat} (ho : order.Perm (List.range a.shape.length))
    {ix : List Nat} (h : ix ∈ indices a.shape) : (a.transpose order).at? (permute order ix) = a.at? ix := by
  have hlen := length_of_mem_indices h
  have hm := permute_mem (order := order) (fun i hi => List.mem_range.1 (ho.mem_iff.1 hi)) h
  obtain ⟨e, he⟩ := at?_some ha h
  unfold transpose at?
  simp only [List.getElem?_map]
  rw [indices_at hm]
  simp only [Option.map_some]
  rw [permute_inverse (by rw [hlen]; exact ho)]
  unfold at? at he
  rw [he]
  rfl

theorem transpose_size {a : Arr} {order : List Nat} (ho : order.Perm (List.range a.shape.length)) :
    prod (a.transpose order).shape = prod a.shape := by
  rw [transpose_shape]
  apply prod_perm
  have := ho.map (fun i => a.shape.getD i 1)
  rwa [map_getD_range] at this

theorem nodup_indices (s : List Nat) : (indices s).Nodup :=
  List.Nodup.of_map (offset s) (by rw [indices_offset]; exact List.nodup_range)

theorem map_at_indices {a : Arr} (ha : a.WF) :
    (indices a.shape).map (fun ix => (a.at? ix).getD .masked) = a.data := by
  have h := broadcastTo_self a ha
  unfold broadcastTo at h
  rw [← h]
  simp only [h]
  conv => rhs; rw [← h]
  apply List.map_congr_left
  intro ix hix
  rw [sourceIndex_self hix]

/-- no element is lost or duplicated -/
theorem transpose_perm {a : Arr} (ha : a.WF) {order : List Nat} (ho : order.Perm (List.range a.shape.length)) :
    (a.transpose order).data.Perm a.data := by
  have hp : ((indices a.shape).map (permute order)).Perm (indices (a.transpose order).shape) := by
    apply List.Subperm.perm_of_length_le
    · apply List.subperm_of_subset
      · apply List.Nodup.map_on _ (nodup_indices _)
        intro x hx y hy hxy
        rw [← permute_inverse (order := order) (ix := x) (by rw [length_of_mem_indices hx]; exact ho),
          ← permute_inverse (order := order) (ix := y) (by rw [length_of_mem_indices hy]; exact ho), hxy]
      · intro x hx
        obtain ⟨y, hy, rfl⟩ := List.mem_map.1 hx
        exact permute_mem (fun i hi => List.mem_range.1 (ho.mem_iff.1 hi)) hy
    · rw [List.length_map, length_indices, length_indices, transpose_size ho]
      exact Nat.le_refl _
  have h2 := (hp.map (fun ix => (a.at? ((List.range order.length).map (fun j => ix.getD (order.idxOf j) 0))).getD
    .masked)).symm
  refine List.Perm.trans h2 ?_
  rw [List.map_map]
  conv => rhs; rw [← map_at_indices ha]
  apply List.Perm.of_eq
  apply List.map_congr_left
  intro ix hix
  simp only [Function.comp]
  rw [permute_inverse (by rw [length_of_mem_indices hix]; exact ho)]

theorem transpose_wf {a : Arr} (order : List Nat) : (a.transpose order).WF := by
  unfold WF transpose
  simp only [List.length_map, length_indices]
  rfl

theorem range_filter (n s : Nat) : (List.range n).filter (fun i => i ≠ s) = (List.range n).eraseIdx s := by
  rw [List.eraseIdx_eq_take_drop_succ]
  by_cases h : s < n
  · have h1 : List.range n = List.range s ++ s :: (List.range (n - s - 1)).map (fun i => s + (1 + i)) := by
      have : n = s + (1 + (n - s - 1)) := by omega
      conv => lhs; rw [this, List.range_add, List.range_add]
      simp [Function.comp_def]
    rw [h1, List.filter_append, List.filter_cons]
    have h2 : (List.range s).filter (fun i => decide (i ≠ s)) = List.range s := by
      apply List.filter_eq_self.2
      intro i hi
      have := List.mem_range.1 hi
      simp; omega
    have h3 : ((List.range (n - s - 1)).map (fun i => s + (1 + i))).filter (fun i => decide (i ≠ s)) =
        (List.range (n - s - 1)).map (fun i => s + (1 + i)) := by
      apply List.filter_eq_self.2
      intro i hi
      obtain ⟨j, _, rfl⟩ := List.mem_map.1 hi
      simp
    rw [h2, h3]
    simp [List.drop_append]
  · have h2 : (List.range n).filter (fun i => decide (i ≠ s)) = List.range n := by
      apply List.filter_eq_self.2
      intro i hi
      have := List.mem_range.1 hi
      simp; omega
    rw [h2, List.take_of_length_le (by simp; omega), List.drop_of_length_le (by simp; omega)]
    simp

theorem moveOrder_perm {nd s d : Nat} (hs : s < nd) (hd : d < nd) :
    (moveOrder nd s d).Perm (List.range nd) := by
  unfold moveOrder
  rw [range_filter]
  have hl : ((List.range nd).eraseIdx s).length = nd - 1 := by
    rw [List.length_eraseIdx]; simp [hs]
  refine (List.perm_insertIdx s _ (by rw [hl]; omega)).trans ?_
  have := List.getElem_cons_eraseIdx_perm (l := List.range nd) (n := s) (by simpa using hs)
  simpa using this

theorem map_moveOrder (l : List Nat) (s d : Nat) (e : Nat) :
    (moveOrder l.length s d).map (fun i => l.getD i e) = (l.eraseIdx s).insertIdx d (l.getD s e) := by
  unfold moveOrder
  rw [range_filter, List.map_insertIdx, ← List.eraseIdx_map, map_getD_range]

end Sofar.Arr
