import Verif.Model.Index
import Mathlib.Data.List.Forall2
/-!
# Row-major indices and broadcasting
-/
namespace Sofar.Arr

/-- number of elements -/
abbrev prod (s : List Nat) : Nat := s.foldr (· * ·) 1

theorem flatMap_range (n P : Nat) :
    (List.range n).flatMap (fun i => (List.range P).map (fun j => i * P + j)) = List.range (n * P) := by
  induction n with
  | zero => simp
  | succ n ih =>
    rw [List.range_succ, List.flatMap_append, ih, Nat.succ_mul, List.range_add]
    simp

theorem indices_offset (s : List Nat) : (indices s).map (offset s) = List.range (prod s) := by
  induction s with
  | nil => rfl
  | cons n s ih =>
    simp only [indices, List.map_flatMap, List.map_map]
    have : ∀ i, (indices s).map (offset (n :: s) ∘ (i :: ·)) = (List.range (prod s)).map (fun j => i * prod s + j) := by
      intro i
      rw [← ih, List.map_map]
      rfl
    simp only [this]
    exact flatMap_range n (prod s)

theorem mem_indices {s ix : List Nat} : ix ∈ indices s ↔ List.Forall₂ (· < ·) ix s := by
  induction s generalizing ix with
  | nil =>
    simp only [indices, List.mem_singleton]
    constructor
    · rintro rfl; exact .nil
    · intro h; cases h; rfl
  | cons n s ih =>
    simp only [indices, List.mem_flatMap, List.mem_range, List.mem_map]
    constructor
    · rintro ⟨i, hi, jx, hj, rfl⟩
      exact .cons hi (ih.1 hj)
    · intro h
      cases h with
      | cons h1 h2 => exact ⟨_, h1, _, ih.2 h2, rfl⟩

theorem sourceIndex_self {s ix : List Nat} (h : ix ∈ indices s) : sourceIndex s ix = ix := by
  replace h := mem_indices.1 h
  have hl : ix.length = s.length := by
    induction h with
    | nil => rfl
    | cons _ _ ih => simp [ih]
  unfold sourceIndex
  simp only [hl, Nat.sub_self, List.drop_zero]
  clear hl
  induction h with
  | nil => rfl
  | cons h1 _ ih =>
    simp only [List.zip_cons_cons, List.map_cons, ih]
    congr 1
    split
    · omega
    · rfl

theorem broadcastTo_self (a : Arr) (h : a.WF) : a.broadcastTo a.shape = a.data := by
  unfold broadcastTo
  have : (indices a.shape).map (fun ix => (a.at? (sourceIndex a.shape ix)).getD .masked) =
      (indices a.shape).map (fun ix => (a.data[offset a.shape ix]?).getD .masked) := by
    apply List.map_congr_left
    intro ix hix
    rw [sourceIndex_self hix]
    rfl
  rw [this]
  have h2 : (indices a.shape).map (fun ix => (a.data[offset a.shape ix]?).getD .masked) =
      ((indices a.shape).map (offset a.shape)).map (fun i => (a.data[i]?).getD .masked) := by
    rw [List.map_map]; rfl
  rw [h2, indices_offset]
  have h3 : prod a.shape = a.data.length := by
    rw [WF] at h; rw [h]; rfl
  rw [h3]
  apply List.ext_getElem
  · simp
  · intro i h1 h2
    simp [h2]

theorem length_indices (s : List Nat) : (indices s).length = prod s := by
  have := congrArg List.length (indices_offset s)
  simpa using this

theorem broadcastTo_scalar (a : Arr) (e : Elem) (hs : a.shape = []) (hd : a.data = [e]) (t : List Nat) :
    a.broadcastTo t = List.replicate (prod t) e := by
  unfold broadcastTo
  rw [← length_indices]
  apply List.ext_getElem
  · simp
  · intro i h1 h2
    simp [sourceIndex, hs, at?, offset, hd]

theorem broadcastDim_comm (m n : Nat) : broadcastDim m n = broadcastDim n m := by
  unfold broadcastDim
  grind

theorem broadcastRev_comm (s t : List Nat) : broadcastRev s t = broadcastRev t s := by
  induction s generalizing t with
  | nil => cases t <;> simp [broadcastRev]
  | cons m s ih =>
    cases t with
    | nil => simp [broadcastRev]
    | cons n t => simp only [broadcastRev]; rw [broadcastDim_comm, ih]

theorem broadcastShape_comm (s t : List Nat) : broadcastShape s t = broadcastShape t s := by
  unfold broadcastShape
  rw [broadcastRev_comm]

theorem broadcastRev_self (s : List Nat) : broadcastRev s s = some s := by
  induction s with
  | nil => rfl
  | cons m s ih => simp [broadcastRev, ih, broadcastDim]

theorem broadcastShape_self (s : List Nat) : broadcastShape s s = some s := by
  simp [broadcastShape, broadcastRev_self]

theorem broadcastShape_nil (s : List Nat) : broadcastShape [] s = some s := by
  simp [broadcastShape, broadcastRev]

theorem zip_swap {α β} (l : List α) (m : List β) : (l.zip m).map Prod.swap = m.zip l := by
  induction l generalizing m with
  | nil => simp
  | cons x l ih => cases m <;> simp [ih]

theorem pairs_comm (a b : Arr) : b.pairs a = (a.pairs b).map (fun l => l.map Prod.swap) := by
  unfold pairs
  rw [broadcastShape_comm]
  simp only [Option.map_map]
  congr 1
  funext s
  simp [zip_swap]

theorem pairs_same {a b : Arr} (ha : a.WF) (hb : b.WF) (hs : a.shape = b.shape) :
    a.pairs b = some (a.data.zip b.data) := by
  unfold pairs
  rw [← hs, broadcastShape_self]
  simp only [Option.map_some]
  rw [broadcastTo_self a ha, hs, broadcastTo_self b hb]

theorem pairs_scalar {a b : Arr} {e : Elem} (hs : a.shape = []) (hd : a.data = [e]) (hb : b.WF) :
    a.pairs b = some (b.data.map (fun x => (e, x))) := by
  unfold pairs
  rw [hs, broadcastShape_nil]
  simp only [Option.map_some]
  rw [broadcastTo_scalar a e hs hd, broadcastTo_self b hb]
  congr 1
  have : prod b.shape = b.data.length := by rw [WF] at hb; rw [hb]; rfl
  rw [this]
  clear this hb
  generalize b.data = l
  induction l with
  | nil => rfl
  | cons x l ih => simp [List.replicate_succ, ih]

theorem mem_broadcastTo {a : Arr} {s : List Nat} {e : Elem} (h : e ∈ a.broadcastTo s) :
    e = .masked ∨ e ∈ a.data := by
  unfold broadcastTo at h
  obtain ⟨ix, _, rfl⟩ := List.mem_map.1 h
  unfold at?
  cases hg : a.data[offset a.shape (sourceIndex a.shape ix)]? with
  | none => left; rfl
  | some x => right; simp only [Option.getD_some]; exact List.mem_of_getElem? hg

theorem mem_pairs {a b : Arr} {l : List (Elem × Elem)} (h : a.pairs b = some l) {p : Elem × Elem} (hp : p ∈ l) :
    (p.1 = .masked ∨ p.1 ∈ a.data) ∧ (p.2 = .masked ∨ p.2 ∈ b.data) := by
  unfold pairs at h
  simp only [Option.map_eq_some_iff] at h
  obtain ⟨s, _, rfl⟩ := h
  obtain ⟨x, y⟩ := p
  have := List.of_mem_zip hp
  exact ⟨mem_broadcastTo this.1, mem_broadcastTo this.2⟩

end Sofar.Arr
