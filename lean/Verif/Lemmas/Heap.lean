import Verif.Spec.Heap
import Verif.Lemmas.Dict
import Mathlib.Data.List.Forall2
/-!
# Deep copies
-/
namespace Sofar

/-- `w` is the copy of `v` according to `memo` -/
def Img (m : List (Ref × Ref)) : HVal → HVal → Prop
  | .imm v, .imm w => v = w
  | .ref r, .ref r' => seen m r = some r'
  | _, _ => False

/-- the cell at `r'` of `H` is the copy of the cell at `r` of `h0` -/
def CellCopy (h0 H : Heap) (m : List (Ref × Ref)) (lo : Nat) (r r' : Ref) : Prop :=
  lo ≤ r' ∧ r' < H.length ∧ ∃ c, h0[r]? = some c ∧
    ((∃ k s b idx es b', c = .arr k s b idx ∧ gather h0 b idx = some es ∧ lo ≤ b' ∧ b' < H.length ∧
        H[r']? = some (.arr k s b' (List.range es.length)) ∧ H[b']? = some (.buf es)) ∨
     ((∀ k s b idx, c ≠ .arr k s b idx) ∧ ∃ vs, List.Forall₂ (Img m) c.vals vs ∧ H[r']? = some (c.withVals vs)))

/-- what holds between two calls of `deepcopy` -/
structure MemoOk (h0 : Heap) (st : Memo) : Prop where
  len : h0.length ≤ st.heap.length
  old : ∀ a, a < h0.length → st.heap[a]? = h0[a]?
  memo : ∀ r x, seen st.memo r = some x → h0.length ≤ x ∧ x < st.heap.length

/-- what a call of `deepcopy` does -/
structure Grows (h0 : Heap) (st st' : Memo) : Prop where
  len : st.heap.length ≤ st'.heap.length
  old : ∀ a, a < st.heap.length → st'.heap[a]? = st.heap[a]?
  memo : ∀ r x, seen st.memo r = some x → seen st'.memo r = some x
  copied : ∀ r r', seen st.memo r = none → seen st'.memo r = some r' →
    CellCopy h0 st'.heap st'.memo st.heap.length r r'
  closed : ∀ a c, st.heap.length ≤ a → st'.heap[a]? = some c → ∀ r ∈ Spec.refs c, h0.length ≤ r ∧ r < st'.heap.length

theorem Img.mono {m m' : List (Ref × Ref)} (h : ∀ r x, seen m r = some x → seen m' r = some x) {v w : HVal}
    (hv : Img m v w) : Img m' v w := by
  cases v <;> cases w <;> simp only [Img] at hv ⊢
  · exact hv
  · exact h _ _ hv

theorem CellCopy.mono {h0 H H' : Heap} {m m' : List (Ref × Ref)} {lo lo' : Nat} {r r' : Ref}
    (hm : ∀ r x, seen m r = some x → seen m' r = some x) (hl : H.length ≤ H'.length)
    (hH : ∀ a, lo ≤ a → a < H.length → H'[a]? = H[a]?) (hlo : lo' ≤ lo)
    (h : CellCopy h0 H m lo r r') : CellCopy h0 H' m' lo' r r' := by
  obtain ⟨h1, h2, c, h3, h4⟩ := h
  refine ⟨Nat.le_trans hlo h1, Nat.lt_of_lt_of_le h2 hl, c, h3, ?_⟩
  rcases h4 with ⟨k, s, b, idx, es, b', e1, e2, e3, e4, e5, e6⟩ | ⟨e1, vs, e2, e3⟩
  · exact Or.inl ⟨k, s, b, idx, es, b', e1, e2, Nat.le_trans hlo e3, Nat.lt_of_lt_of_le e4 hl, by rw [hH _ h1 h2, e5],
      by rw [hH _ e3 e4, e6]⟩
  · exact Or.inr ⟨e1, vs, e2.imp (fun _ _ => Img.mono hm), by rw [hH _ h1 h2, e3]⟩

theorem Grows.refl (h0 : Heap) (st : Memo) : Grows h0 st st where
  len := Nat.le_refl _
  old := fun _ _ => rfl
  memo := fun _ _ h => h
  copied := fun r r' h h' => by rw [h] at h'; cases h'
  closed := fun a c h hc => by
    rw [List.getElem?_eq_none h] at hc
    cases hc

theorem Grows.trans {h0 : Heap} {a b c : Memo} (h1 : Grows h0 a b) (h2 : Grows h0 b c) : Grows h0 a c where
  len := Nat.le_trans h1.len h2.len
  old := fun x hx => by rw [h2.old x (Nat.lt_of_lt_of_le hx h1.len), h1.old x hx]
  memo := fun r x h => h2.memo _ _ (h1.memo _ _ h)
  copied := fun r r' h h' => by
    cases hb : seen b.memo r with
    | none => exact (h2.copied r r' hb h').mono (fun _ _ h => h) (Nat.le_refl _) (fun _ _ _ => rfl) h1.len
    | some x =>
      have := h2.memo _ _ hb
      rw [this] at h'
      cases h'
      exact (h1.copied r _ h hb).mono h2.memo h2.len (fun y _ hy => h2.old y hy) (Nat.le_refl _)
  closed := fun x cl hx hc r hr => by
    by_cases hxb : x < b.heap.length
    · rw [h2.old x hxb] at hc
      have := h1.closed x cl hx hc r hr
      exact ⟨this.1, Nat.lt_of_lt_of_le this.2 h2.len⟩
    · exact h2.closed x cl (by omega) hc r hr

theorem MemoOk.grows {h0 : Heap} {st st' : Memo} (h : MemoOk h0 st) (hg : Grows h0 st st') : MemoOk h0 st' where
  len := Nat.le_trans h.len hg.len
  old := fun a ha => by rw [hg.old a (Nat.lt_of_lt_of_le ha h.len), h.old a ha]
  memo := fun r x hx => by
    cases hb : seen st.memo r with
    | none =>
      have := hg.copied r x hb hx
      exact ⟨Nat.le_trans h.len this.1, this.2.1⟩
    | some y =>
      have h2 := hg.memo _ _ hb
      rw [h2] at hx
      cases hx
      have := h.memo _ _ hb
      exact ⟨this.1, Nat.lt_of_lt_of_le this.2 hg.len⟩

theorem mem_refs_vals {c : HCell} (hc : ∀ k s b idx, c ≠ .arr k s b idx) {r : Ref} :
    r ∈ Spec.refs c ↔ HVal.ref r ∈ c.vals := by
  cases c with
  | arr k s b idx => exact absurd rfl (hc k s b idx)
  | buf d => simp [Spec.refs, HCell.vals]
  | list l =>
    simp only [Spec.refs, HCell.vals, List.mem_filterMap]
    constructor
    · rintro ⟨v, hv, h⟩
      cases v with
      | imm v => simp at h
      | ref x => simp at h; subst h; exact hv
    · intro h; exact ⟨_, h, rfl⟩
  | inst d =>
    simp only [Spec.refs, HCell.vals, List.mem_filterMap, List.mem_map]
    constructor
    · rintro ⟨⟨k, v⟩, hv, h⟩
      cases v with
      | imm v => simp at h
      | ref x => simp at h; subst h; exact ⟨_, hv, rfl⟩
    · rintro ⟨p, h, hp⟩; exact ⟨p, h, by rw [hp]⟩
  | dict d =>
    simp only [Spec.refs, HCell.vals, List.mem_filterMap, List.mem_map]
    constructor
    · rintro ⟨⟨k, v⟩, hv, h⟩
      cases v with
      | imm v => simp at h
      | ref x => simp at h; subst h; exact ⟨_, hv, rfl⟩
    · rintro ⟨p, h, hp⟩; exact ⟨p, h, by rw [hp]⟩

theorem mem_refs_withVals {c : HCell} (hc : ∀ k s b idx, c ≠ .arr k s b idx) {vs : List HVal} {r : Ref}
    (h : r ∈ Spec.refs (c.withVals vs)) : HVal.ref r ∈ vs := by
  have hc' : ∀ k s b idx, c.withVals vs ≠ .arr k s b idx := by
    cases c with
    | arr k s b idx => exact absurd rfl (hc k s b idx)
    | _ => intro k s b idx h; simp [HCell.withVals] at h
  rw [mem_refs_vals hc'] at h
  cases c with
  | arr k s b idx => exact absurd rfl (hc k s b idx)
  | buf d => simp [HCell.vals, HCell.withVals] at h
  | list l => exact h
  | inst d =>
    simp only [HCell.vals, HCell.withVals, List.mem_map] at h
    obtain ⟨p, hp, e⟩ := h
    rw [← e]; exact (List.of_mem_zip hp).2
  | dict d =>
    simp only [HCell.vals, HCell.withVals, List.mem_map] at h
    obtain ⟨p, hp, e⟩ := h
    rw [← e]; exact (List.of_mem_zip hp).2

theorem seen_cons {m : List (Ref × Ref)} {r r' x : Ref} :
    seen ((r, r') :: m) x = if r = x then some r' else seen m x := by
  unfold seen
  by_cases h : r = x <;> simp [h]

theorem deepAll_spec {h0 : Heap} {f : HVal → Memo → Option (HVal × Memo)}
    (hf : ∀ v st w st', MemoOk h0 st → (∀ r, v = .ref r → r < h0.length) → f v st = some (w, st') →
      Grows h0 st st' ∧ Img st'.memo v w) :
    ∀ (l : List HVal) (st : Memo) (ws : List HVal) (st' : Memo), MemoOk h0 st → (∀ r, HVal.ref r ∈ l → r < h0.length) →
      deepAll f l st = some (ws, st') → Grows h0 st st' ∧ List.Forall₂ (Img st'.memo) l ws := by
  intro l
  induction l with
  | nil =>
    intro st ws st' _ _ h
    simp only [deepAll, Option.some.injEq, Prod.mk.injEq] at h
    obtain ⟨rfl, rfl⟩ := h
    exact ⟨Grows.refl _ _, List.Forall₂.nil⟩
  | cons v l ih =>
    intro st ws st' hst hr h
    simp only [deepAll] at h
    cases h1 : f v st with
    | none => simp [h1] at h
    | some p =>
      obtain ⟨w, st1⟩ := p
      simp only [h1] at h
      cases h2 : deepAll f l st1 with
      | none => simp [h2] at h
      | some q =>
        obtain ⟨ws2, st2⟩ := q
        simp only [h2, Option.some.injEq, Prod.mk.injEq] at h
        obtain ⟨rfl, rfl⟩ := h
        obtain ⟨g1, i1⟩ := hf v st w st1 hst (fun r e => hr r (by rw [e]; exact List.mem_cons_self ..)) h1
        obtain ⟨g2, i2⟩ := ih st1 ws2 st2 (hst.grows g1) (fun r e => hr r (List.mem_cons_of_mem _ e)) h2
        exact ⟨g1.trans g2, List.Forall₂.cons (i1.mono g2.memo) i2⟩

/-- all addresses in the memory are valid -/
def InRange (h : Heap) : Prop := ∀ (a : Ref) (c : HCell), h[a]? = some c → ∀ r ∈ Spec.refs c, r < h.length

theorem gather_congr {h h' : Heap} {b : Ref} {idx : List Nat} (hb : h'[b]? = h[b]?) : gather h' b idx = gather h b idx := by
  unfold gather; rw [hb]

theorem deepcopy_spec {h0 : Heap} (hI : InRange h0) :
    ∀ (n : Nat) (v : HVal) (st : Memo) (w : HVal) (st' : Memo), MemoOk h0 st → (∀ r, v = .ref r → r < h0.length) →
      deepcopy n v st = some (w, st') → Grows h0 st st' ∧ Img st'.memo v w := by
  intro n
  induction n with
  | zero =>
    intro v st w st' hst hr h
    cases v with
    | imm v =>
      simp only [deepcopy, Option.some.injEq, Prod.mk.injEq] at h
      obtain ⟨rfl, rfl⟩ := h
      exact ⟨Grows.refl _ _, rfl⟩
    | ref r => simp [deepcopy] at h
  | succ n ih =>
    intro v st w st' hst hr h
    cases v with
    | imm v =>
      simp only [deepcopy, Option.some.injEq, Prod.mk.injEq] at h
      obtain ⟨rfl, rfl⟩ := h
      exact ⟨Grows.refl _ _, rfl⟩
    | ref r =>
      have hr0 : r < h0.length := hr r rfl
      simp only [deepcopy] at h
      cases hs : seen st.memo r with
      | some r' =>
        simp only [hs, Option.some.injEq, Prod.mk.injEq] at h
        obtain ⟨rfl, rfl⟩ := h
        exact ⟨Grows.refl _ _, hs⟩
      | none =>
        simp only [hs] at h
        rw [hst.old r hr0] at h
        cases hc : h0[r]? with
        | none => simp [hc] at h
        | some c =>
          simp only [hc] at h
          have hmono : ∀ x y, seen st.memo x = some y → seen ((r, st.heap.length) :: st.memo) x = some y := by
            intro x y hx
            rw [seen_cons]
            have : r ≠ x := by rintro rfl; rw [hs] at hx; cases hx
            simp [this, hx]
          by_cases harr : ∃ k s b idx, c = .arr k s b idx
          · obtain ⟨k, s, b, idx, rfl⟩ := harr
            simp only at h
            have hb : b < h0.length := hI r _ hc b (by simp [Spec.refs])
            rw [gather_congr (hst.old b hb)] at h
            cases hg : gather h0 b idx with
            | none => simp [hg] at h
            | some es =>
              simp only [hg, Option.some.injEq, Prod.mk.injEq] at h
              obtain ⟨rfl, rfl⟩ := h
              refine ⟨⟨by simp, ?_, hmono, ?_, ?_⟩, by simp [Img, seen_cons]⟩
              · intro a ha
                exact List.getElem?_append_left ha
              · intro x y hx hy
                simp only [seen_cons] at hy
                by_cases hrx : r = x
                · subst hrx
                  simp only [if_true, Option.some.injEq] at hy
                  subst hy
                  refine ⟨Nat.le_refl _, by simp, _, hc, Or.inl ⟨k, s, b, idx, es, st.heap.length + 1, rfl, hg, by omega,
                    by simp, ?_, ?_⟩⟩
                  · simp
                  · simp [List.getElem?_append_right]
                · simp only [hrx, if_false] at hy
                  rw [hx] at hy; cases hy
              · intro a cl ha hcl x hx
                have : a = st.heap.length ∨ a = st.heap.length + 1 := by
                  have := (List.getElem?_eq_some_iff.mp hcl).1
                  simp at this; omega
                rcases this with rfl | rfl
                · simp at hcl
                  subst hcl
                  simp only [Spec.refs, List.mem_singleton] at hx
                  subst hx
                  have := hst.len
                  simp; omega
                · simp [List.getElem?_append_right] at hcl
                  subst hcl
                  simp [Spec.refs] at hx
          · have hna : ∀ k s b idx, c ≠ .arr k s b idx := fun k s b idx e => harr ⟨k, s, b, idx, e⟩
            have h' : (match deepAll (deepcopy n) c.vals ⟨st.heap ++ [c.withVals []], (r, st.heap.length) :: st.memo⟩ with
                | none => none
                | some (vs, st1) => some (HVal.ref st.heap.length, (⟨st1.heap.set st.heap.length (c.withVals vs), st1.memo⟩ : Memo)))
                = some (w, st') := by
              cases c with
              | arr k s b idx => exact absurd rfl (hna k s b idx)
              | _ => exact h
            clear h
            have hok : MemoOk h0 ⟨st.heap ++ [c.withVals []], (r, st.heap.length) :: st.memo⟩ := by
              refine ⟨?_, ?_, ?_⟩
              · have := hst.len; simp; omega
              · intro a ha
                have := hst.len
                simp only
                rw [List.getElem?_append_left (by omega), hst.old a ha]
              · intro x y hx
                simp only [seen_cons] at hx
                have := hst.len
                by_cases hrx : r = x
                · simp only [hrx, if_true, Option.some.injEq] at hx
                  subst hx; simp; omega
                · simp only [hrx, if_false] at hx
                  have h2 := hst.memo x y hx
                  simp only [List.length_append, List.length_singleton]
                  exact ⟨h2.1, Nat.lt_succ_of_lt h2.2⟩
            cases hd : deepAll (deepcopy n) c.vals ⟨st.heap ++ [c.withVals []], (r, st.heap.length) :: st.memo⟩ with
            | none => simp [hd] at h'
            | some q =>
              obtain ⟨vs, st1⟩ := q
              simp only [hd, Option.some.injEq, Prod.mk.injEq] at h'
              obtain ⟨rfl, rfl⟩ := h'
              obtain ⟨g, im⟩ := deepAll_spec (h0 := h0) ih c.vals _ vs st1 hok
                (fun x hx => hI r c hc x ((mem_refs_vals hna).mpr hx)) hd
              have hlen : st.heap.length + 1 ≤ st1.heap.length := by
                have := g.len; simp at this; omega
              have hok1 := hok.grows g
              have hself : seen st1.memo r = some st.heap.length := g.memo _ _ (by simp [seen_cons])
              have himg : ∀ x, HVal.ref x ∈ vs → h0.length ≤ x ∧ x < st1.heap.length := by
                intro x hx
                obtain ⟨i, hi, he⟩ := List.mem_iff_getElem.mp hx
                have := im.get (i := i) (by rw [im.length_eq]; exact hi) hi
                simp only [List.get_eq_getElem] at this
                rw [he] at this
                generalize c.vals[i]'(by rw [im.length_eq]; exact hi) = z at this
                cases z with
                | imm z => simp [Img] at this
                | ref z => exact hok1.memo z x this
              refine ⟨⟨?_, ?_, ?_, ?_, ?_⟩, hself⟩
              · simp; omega
              · intro a ha
                simp only
                rw [List.getElem?_set_ne (by omega), g.old a (by simp; omega), List.getElem?_append_left ha]
              · intro x y hx
                exact g.memo _ _ (hmono x y hx)
              · intro x y hx hy
                simp only at hy
                by_cases hrx : r = x
                · subst hrx
                  rw [hself] at hy
                  cases hy
                  refine ⟨Nat.le_refl _, by rw [List.length_set]; exact hlen, c, hc, Or.inr ⟨hna, vs, im, ?_⟩⟩
                  simp only
                  rw [List.getElem?_set_self (by omega)]
                · have := g.copied x y (by simp [seen_cons, hrx, hx]) hy
                  refine this.mono (fun _ _ h => h) (by simp) ?_ (by simp)
                  intro a ha _
                  simp only
                  rw [List.getElem?_set_ne (by simp at ha; omega)]
              · intro a cl ha hcl x hx
                simp only at hcl
                simp only [List.length_set]
                by_cases hal : a = st.heap.length
                · subst hal
                  rw [List.getElem?_set_self (by omega)] at hcl
                  cases hcl
                  exact himg x (mem_refs_withVals hna hx)
                · rw [List.getElem?_set_ne (by omega)] at hcl
                  exact g.closed a cl (by simp; omega) hcl x hx

/-! ## The copy shows the same data -/

theorem gather_bufElem {h : Heap} {b : Ref} {idx : List Nat} {es : List Elem} (hg : gather h b idx = some es) :
    idx.map (Spec.bufElem h b) = es.map some := by
  unfold gather at hg
  unfold Spec.bufElem
  cases hb : h[b]? with
  | none => simp [hb] at hg
  | some c =>
    cases c with
    | buf data =>
      simp only [hb] at hg ⊢
      induction idx generalizing es with
      | nil => simp at hg; subst hg; rfl
      | cons i idx ih =>
        rw [List.mapM_cons] at hg
        cases h1 : data[i]? with
        | none => simp [h1] at hg
        | some e =>
          cases h2 : idx.mapM (fun i => data[i]?) with
          | none => simp [h1, h2] at hg
          | some es' =>
            simp [h1, h2] at hg
            subst hg
            simp only [List.map_cons, h1]
            rw [ih h2]
    | _ => simp [hb] at hg

theorem map_range_getElem? (es : List Elem) : (List.range es.length).map (fun i => es[i]?) = es.map some := by
  apply List.ext_getElem?
  intro i
  by_cases hi : i < es.length
  · simp [hi]
  · simp [hi]

theorem get?_zip {d : Dict HVal} {vs : List HVal} {R : HVal → HVal → Prop} (h : List.Forall₂ R (d.map Prod.snd) vs) (k : Str) :
    (Dict.get? d k = none ∧ Dict.get? ((d.map Prod.fst).zip vs) k = none) ∨
    ∃ v w, Dict.get? d k = some v ∧ Dict.get? ((d.map Prod.fst).zip vs) k = some w ∧ R v w := by
  induction d generalizing vs with
  | nil => left; constructor <;> rfl
  | cons p d ih =>
    rw [List.map_cons, List.forall₂_cons_left_iff] at h
    obtain ⟨w, vs', h1, h2, rfl⟩ := h
    obtain ⟨a, v⟩ := p
    by_cases hk : a = k
    · right
      refine ⟨v, w, ?_, ?_, h1⟩ <;> simp [Dict.get?, hk]
    · rcases ih h2 with ⟨e1, e2⟩ | ⟨x, y, e1, e2, e3⟩
      · left
        constructor
        · simpa [Dict.get?, hk] using e1
        · simpa [Dict.get?, hk] using e2
      · right
        refine ⟨x, y, ?_, ?_, e3⟩
        · simpa [Dict.get?, hk] using e1
        · simpa [Dict.get?, hk] using e2

theorem keys_zip {d : Dict HVal} {vs : List HVal} (h : (d.map Prod.snd).length = vs.length) :
    Dict.keys ((d.map Prod.fst).zip vs) = Dict.keys d := by
  unfold Dict.keys
  rw [List.map_fst_zip]
  simp at h ⊢; omega

theorem forall₂_get? {R : HVal → HVal → Prop} {l ws : List HVal} (h : List.Forall₂ R l ws) (i : Nat) :
    (l[i]? = none ∧ ws[i]? = none) ∨ ∃ v w, l[i]? = some v ∧ ws[i]? = some w ∧ R v w := by
  induction h generalizing i with
  | nil => left; simp
  | cons h1 _ ih =>
    cases i with
    | zero => right; exact ⟨_, _, rfl, rfl, h1⟩
    | succ i => simpa using ih i

theorem copied_item {h0 H : Heap} {m : List (Ref × Ref)} {lo : Nat} {r r' : Ref} (h : CellCopy h0 H m lo r r') (k : Spec.Key) :
    (Spec.item h0 r k = none ∧ Spec.item H r' k = none) ∨
    ∃ v w, Spec.item h0 r k = some v ∧ Spec.item H r' k = some w ∧ Img m v w := by
  obtain ⟨_, _, c, h3, h4⟩ := h
  rcases h4 with ⟨k', s, b, idx, es, b', rfl, e2, e3, e4, e5, e6⟩ | ⟨e1, vs, e2, e3⟩
  · left
    cases k <;> simp [Spec.item, h3, e5]
  · cases c with
    | arr k s b idx => exact absurd rfl (e1 k s b idx)
    | buf d => left; cases k <;> simp [Spec.item, h3, e3, HCell.withVals]
    | list l =>
      cases k with
      | name s => left; simp [Spec.item, h3, e3, HCell.withVals]
      | idx i =>
        simp only [Spec.item, h3, e3, HCell.withVals]
        exact forall₂_get? e2 i
    | inst d =>
      cases k with
      | idx s => left; simp [Spec.item, h3, e3, HCell.withVals]
      | name i =>
        simp only [Spec.item, h3, e3, HCell.withVals]
        exact get?_zip e2 i
    | dict d =>
      cases k with
      | idx s => left; simp [Spec.item, h3, e3, HCell.withVals]
      | name i =>
        simp only [Spec.item, h3, e3, HCell.withVals]
        exact get?_zip e2 i

theorem copied_leaf {h0 H : Heap} {m : List (Ref × Ref)} {lo : Nat} {r r' : Ref} (h : CellCopy h0 H m lo r r') :
    Spec.leaf H (.ref r') = Spec.leaf h0 (.ref r) := by
  obtain ⟨_, _, c, h3, h4⟩ := h
  rcases h4 with ⟨k', s, b, idx, es, b', rfl, e2, e3, e4, e5, e6⟩ | ⟨e1, vs, e2, e3⟩
  · simp only [Spec.leaf, h3, e5]
    rw [gather_bufElem e2, ← map_range_getElem? es]
    simp [Spec.bufElem, e6]
  · cases c with
    | arr k s b idx => exact absurd rfl (e1 k s b idx)
    | buf d => simp [Spec.leaf, h3, e3, HCell.withVals]
    | list l => simp only [Spec.leaf, h3, e3, HCell.withVals]; rw [← e2.length_eq]; rfl
    | inst d => simp only [Spec.leaf, h3, e3, HCell.withVals]; rw [keys_zip e2.length_eq]
    | dict d => simp only [Spec.leaf, h3, e3, HCell.withVals]; rw [keys_zip e2.length_eq]

theorem copied_see {h0 H : Heap} {m : List (Ref × Ref)} {lo : Nat}
    (hm : ∀ r r', seen m r = some r' → CellCopy h0 H m lo r r') (p : List Spec.Key) :
    ∀ v w, Img m v w → Spec.see H w p = Spec.see h0 v p := by
  induction p with
  | nil =>
    intro v w h
    cases v <;> cases w <;> simp only [Img] at h
    · subst h; rfl
    · exact copied_leaf (hm _ _ h)
  | cons k p ih =>
    intro v w h
    cases v <;> cases w <;> simp only [Img] at h
    · rfl
    · simp only [Spec.see]
      rcases copied_item (hm _ _ h) k with ⟨e1, e2⟩ | ⟨x, y, e1, e2, e3⟩
      · rw [e1, e2]
      · rw [e1, e2]; exact ih x y e3

/-! ## Programs -/

/-- `P` is a set of existing addresses that can not be left by following references -/
structure World (h : Heap) (P : Ref → Prop) : Prop where
  valid : ∀ a, P a → a < h.length
  closed : ∀ a c, P a → h[a]? = some c → ∀ r ∈ Spec.refs c, P r

theorem World.same {h h' : Heap} {P : Ref → Prop} (hw : World h P) (hl : h.length ≤ h'.length)
    (hs : ∀ a, P a → h'[a]? = h[a]?) : World h' P where
  valid := fun a ha => Nat.lt_of_lt_of_le (hw.valid a ha) hl
  closed := fun a c ha hc => hw.closed a c ha (by rw [← hs a ha]; exact hc)

theorem item_ref {h : Heap} {x r : Ref} {k : Spec.Key} (hi : Spec.item h x k = some (.ref r)) :
    ∃ c, h[x]? = some c ∧ r ∈ Spec.refs c := by
  unfold Spec.item at hi
  cases k with
  | name s =>
    cases hx : h[x]? with
    | none => simp [hx] at hi
    | some c =>
      refine ⟨c, rfl, ?_⟩
      cases c with
      | inst d =>
        simp only [hx] at hi
        exact List.mem_filterMap.mpr ⟨_, Dict.mem_of_get? hi, rfl⟩
      | dict d =>
        simp only [hx] at hi
        exact List.mem_filterMap.mpr ⟨_, Dict.mem_of_get? hi, rfl⟩
      | _ => simp [hx] at hi
  | idx i =>
    cases hx : h[x]? with
    | none => simp [hx] at hi
    | some c =>
      refine ⟨c, rfl, ?_⟩
      cases c with
      | list l =>
        simp only [hx] at hi
        exact List.mem_filterMap.mpr ⟨_, List.mem_of_getElem? hi, rfl⟩
      | _ => simp [hx] at hi

/-- what is seen from inside of a set of addresses depends on these addresses only -/
theorem see_congr {h h' : Heap} {P : Ref → Prop} (hw : World h P) (hs : ∀ a, P a → h'[a]? = h[a]?) (p : List Spec.Key) :
    ∀ v : HVal, (∀ r, v = .ref r → P r) → Spec.see h' v p = Spec.see h v p := by
  induction p with
  | nil =>
    intro v hv
    cases v with
    | imm v => rfl
    | ref r =>
      have hr := hv r rfl
      simp only [Spec.see, Spec.leaf, hs r hr]
      cases hc : h[r]? with
      | none => rfl
      | some c =>
        cases c with
        | arr k s b idx =>
          have hb : P b := hw.closed r _ hr hc b (by simp [Spec.refs])
          have e : Spec.bufElem h' b = Spec.bufElem h b := by funext i; simp only [Spec.bufElem, hs b hb]
          simp only [e]
        | _ => rfl
  | cons k p ih =>
    intro v hv
    cases v with
    | imm v => rfl
    | ref r =>
      have hr := hv r rfl
      have hi : Spec.item h' r k = Spec.item h r k := by
        unfold Spec.item; rw [hs r hr]
      simp only [Spec.see, hi]
      cases hw' : Spec.item h r k with
      | none => rfl
      | some w =>
        simp only
        apply ih
        rintro x rfl
        obtain ⟨c, hc, hx⟩ := item_ref hw'
        exact hw.closed r c hr hc x hx

/-- the addresses `P` and the addresses that are new in `h'` -/
def Plus (h h' : Heap) (P : Ref → Prop) : Ref → Prop := fun a => P a ∨ (h.length ≤ a ∧ a < h'.length)

/-- what an operation of a program does, if the program holds addresses from `P` only -/
structure Local (h h' : Heap) (P : Ref → Prop) (held' : List Ref) : Prop where
  len : h.length ≤ h'.length
  outside : ∀ a, a < h.length → ¬ P a → h'[a]? = h[a]?
  world : World h' (Plus h h' P)
  held : ∀ r ∈ held', Plus h h' P r

theorem World.plus_self {h : Heap} {P : Ref → Prop} (hw : World h P) : World h (Plus h h P) where
  valid := fun a ha => by
    rcases ha with ha | ha
    · exact hw.valid a ha
    · exact absurd ha.2 (Nat.not_lt.mpr ha.1)
  closed := fun a c ha hc r hr => by
    rcases ha with ha | ha
    · exact Or.inl (hw.closed a c ha hc r hr)
    · exact absurd ha.2 (Nat.not_lt.mpr ha.1)

theorem Local.same {h : Heap} {P : Ref → Prop} {held : List Ref} (hw : World h P) (hh : ∀ r ∈ held, P r) : Local h h P held :=
  ⟨Nat.le_refl _, fun _ _ _ => rfl, hw.plus_self, fun r hr => Or.inl (hh r hr)⟩

theorem Local.set {h : Heap} {P : Ref → Prop} {held : List Ref} (hw : World h P) (hh : ∀ r ∈ held, P r) {x : Ref} {c : HCell}
    (hx : P x) (hc : ∀ r ∈ Spec.refs c, P r) : Local h (h.set x c) P held where
  len := by simp
  outside := fun a _ hp => by
    rw [List.getElem?_set_ne]
    rintro rfl; exact hp hx
  world := by
    have key : World (h.set x c) P := by
      refine ⟨fun a ha => by rw [List.length_set]; exact hw.valid a ha, ?_⟩
      intro a d ha hd r hr
      by_cases hax : x = a
      · subst hax
        rw [List.getElem?_set_self (hw.valid x hx)] at hd
        cases hd
        exact hc r hr
      · rw [List.getElem?_set_ne hax] at hd
        exact hw.closed a d ha hd r hr
    refine ⟨fun a ha => ?_, fun a d ha hd r hr => ?_⟩
    · rcases ha with ha | ha
      · exact key.valid a ha
      · exact ha.2
    · rcases ha with ha | ha
      · exact Or.inl (key.closed a d ha hd r hr)
      · have h1 := ha.2
        rw [List.length_set] at h1
        exact absurd h1 (Nat.not_lt.mpr ha.1)
  held := fun r hr => Or.inl (hh r hr)

theorem Local.append {h : Heap} {P : Ref → Prop} {held : List Ref} (hw : World h P) (hh : ∀ r ∈ held, P r) {l : List HCell} {x : Ref}
    (hx1 : h.length ≤ x) (hx2 : x < (h ++ l).length)
    (hl : ∀ c ∈ l, ∀ r ∈ Spec.refs c, P r ∨ (h.length ≤ r ∧ r < (h ++ l).length)) :
    Local h (h ++ l) P (x :: held) where
  len := by simp
  outside := fun a ha _ => List.getElem?_append_left ha
  world := by
    refine ⟨fun a ha => ?_, fun a d ha hd r hr => ?_⟩
    · rcases ha with ha | ha
      · have := hw.valid a ha
        rw [List.length_append]; exact Nat.lt_add_right _ this
      · exact ha.2
    · rcases ha with ha | ha
      · rw [List.getElem?_append_left (hw.valid a ha)] at hd
        exact Or.inl (hw.closed a d ha hd r hr)
      · rw [List.getElem?_append_right ha.1] at hd
        exact hl d (List.mem_of_getElem? hd) r hr
  held := fun r hr => by
    rcases List.mem_cons.mp hr with rfl | hr
    · exact Or.inr ⟨hx1, hx2⟩
    · exact Or.inl (hh r hr)

theorem mem_refs_dict {d : Dict HVal} {r : Ref}
    (h : r ∈ d.filterMap (fun p => match p.2 with | .ref r => some r | .imm _ => none)) : ∃ k, (k, HVal.ref r) ∈ d := by
  obtain ⟨⟨k, v⟩, hp, he⟩ := List.mem_filterMap.mp h
  cases v with
  | imm v => simp at he
  | ref x => simp at he; subst he; exact ⟨k, hp⟩

theorem mem_put_heap {d : Dict HVal} {k k' : Str} {v w : HVal} (h : (k', w) ∈ Dict.put d k v) : (k', w) ∈ d ∨ w = v := by
  induction d with
  | nil => simp [Dict.put] at h; exact Or.inr h.2
  | cons p d ih =>
    obtain ⟨a, b⟩ := p
    simp only [Dict.put] at h
    split at h
    · rcases List.mem_cons.mp h with h | h
      · simp only [Prod.mk.injEq] at h; exact Or.inr h.2
      · exact Or.inl (List.mem_cons_of_mem _ h)
    · rcases List.mem_cons.mp h with h | h
      · exact Or.inl (by rw [h]; exact List.mem_cons_self ..)
      · rcases ih h with h | h
        · exact Or.inl (List.mem_cons_of_mem _ h)
        · exact Or.inr h

theorem mem_del {d : Dict HVal} {k : Str} {p : Str × HVal} (h : p ∈ Dict.del d k) : p ∈ d := by
  unfold Dict.del at h
  exact (List.mem_filter.mp h).1

theorem holds_ref {held : List Ref} {P : Ref → Prop} (hh : ∀ r ∈ held, P r) {v : HVal} (h : Spec.holds held v = true) {r : Ref}
    (hv : v = .ref r) : P r := by
  subst hv
  simp only [Spec.holds, List.contains_eq_mem, decide_eq_true_eq] at h
  exact hh r h

/-- A program that holds addresses from `P` only changes `P` only. -/
theorem exec_local {h : Heap} {P : Ref → Prop} {held : List Ref} (hw : World h P) (hh : ∀ r ∈ held, P r) (op : Spec.Op) :
    Local h (Spec.exec h held op).1 P (Spec.exec h held op).2 := by
  have same := Local.same hw hh
  cases op with
  | get x k =>
    simp only [Spec.exec]
    split
    · rename_i hx
      simp only [List.contains_eq_mem, decide_eq_true_eq] at hx
      split
      · rename_i r hi
        refine ⟨same.len, same.outside, same.world, ?_⟩
        intro a ha
        rcases List.mem_cons.mp ha with rfl | ha
        · obtain ⟨c, hc, hr⟩ := item_ref hi
          exact Or.inl (hw.closed x c (hh x hx) hc _ hr)
        · exact same.held a ha
      · exact same
    · exact same
  | view x s idx =>
    simp only [Spec.exec]
    split
    · rename_i hx
      simp only [List.contains_eq_mem, decide_eq_true_eq] at hx
      split
      · rename_i k s' b idx' hc
        refine Local.append hw hh (Nat.le_refl _) (by simp) ?_
        intro c hcm r hr
        simp only [List.mem_singleton] at hcm
        subst hcm
        simp only [Spec.refs, List.mem_singleton] at hr
        subst hr
        exact Or.inl (hw.closed x _ (hh x hx) hc _ (by simp [Spec.refs]))
      · exact same
    · exact same
  | put x k v =>
    simp only [Spec.exec]
    split
    · rename_i hx
      simp only [Bool.and_eq_true, List.contains_eq_mem, decide_eq_true_eq] at hx
      split
      · rename_i d hc
        refine Local.set hw hh (hh x hx.1) ?_
        intro r hr
        obtain ⟨k', hk⟩ := mem_refs_dict hr
        rcases mem_put_heap hk with hk | hk
        · exact hw.closed x _ (hh x hx.1) hc r (List.mem_filterMap.mpr ⟨_, hk, rfl⟩)
        · exact holds_ref hh hx.2 hk.symm
      · rename_i d hc
        refine Local.set hw hh (hh x hx.1) ?_
        intro r hr
        obtain ⟨k', hk⟩ := mem_refs_dict hr
        rcases mem_put_heap hk with hk | hk
        · exact hw.closed x _ (hh x hx.1) hc r (List.mem_filterMap.mpr ⟨_, hk, rfl⟩)
        · exact holds_ref hh hx.2 hk.symm
      · exact same
    · exact same
  | del x k =>
    simp only [Spec.exec]
    split
    · rename_i hx
      simp only [List.contains_eq_mem, decide_eq_true_eq] at hx
      split
      · rename_i d hc
        refine Local.set hw hh (hh x hx) ?_
        intro r hr
        obtain ⟨k', hk⟩ := mem_refs_dict hr
        exact hw.closed x _ (hh x hx) hc r (List.mem_filterMap.mpr ⟨_, mem_del hk, rfl⟩)
      · rename_i d hc
        refine Local.set hw hh (hh x hx) ?_
        intro r hr
        obtain ⟨k', hk⟩ := mem_refs_dict hr
        exact hw.closed x _ (hh x hx) hc r (List.mem_filterMap.mpr ⟨_, mem_del hk, rfl⟩)
      · exact same
    · exact same
  | items x l =>
    simp only [Spec.exec]
    split
    · rename_i hx
      simp only [Bool.and_eq_true, List.contains_eq_mem, decide_eq_true_eq, List.all_eq_true] at hx
      split
      · refine Local.set hw hh (hh x hx.1) ?_
        intro r hr
        obtain ⟨v, hv, he⟩ := List.mem_filterMap.mp hr
        cases v with
        | imm v => simp at he
        | ref y => simp at he; subst he; exact holds_ref hh (hx.2 _ hv) rfl
      · exact same
    · exact same
  | fill x data =>
    simp only [Spec.exec]
    split
    · rename_i hx
      simp only [List.contains_eq_mem, decide_eq_true_eq] at hx
      split
      · rename_i k s b idx hc
        split
        · refine Local.set hw hh (hw.closed x _ (hh x hx) hc b (by simp [Spec.refs])) ?_
          intro r hr
          simp [Spec.refs] at hr
        · exact same
      · exact same
    · exact same
  | shape x s =>
    simp only [Spec.exec]
    split
    · rename_i hx
      simp only [List.contains_eq_mem, decide_eq_true_eq] at hx
      split
      · rename_i k s' b idx hc
        refine Local.set hw hh (hh x hx) ?_
        intro r hr
        exact hw.closed x _ (hh x hx) hc r hr
      · exact same
    · exact same
  | newDict d =>
    simp only [Spec.exec]
    split
    · rename_i hx
      simp only [List.all_eq_true] at hx
      refine Local.append hw hh (Nat.le_refl _) (by simp) ?_
      intro c hcm r hr
      simp only [List.mem_singleton] at hcm
      subst hcm
      obtain ⟨k', hk⟩ := mem_refs_dict hr
      exact Or.inl (holds_ref hh (hx _ hk) rfl)
    · exact same
  | newList l =>
    simp only [Spec.exec]
    split
    · rename_i hx
      simp only [List.all_eq_true] at hx
      refine Local.append hw hh (Nat.le_refl _) (by simp) ?_
      intro c hcm r hr
      simp only [List.mem_singleton] at hcm
      subst hcm
      obtain ⟨v, hv, he⟩ := List.mem_filterMap.mp hr
      cases v with
      | imm v => simp at he
      | ref y => simp at he; subst he; exact Or.inl (holds_ref hh (hx _ hv) rfl)
    · exact same
  | newInst d =>
    simp only [Spec.exec]
    split
    · rename_i hx
      simp only [List.all_eq_true] at hx
      refine Local.append hw hh (Nat.le_refl _) (by simp) ?_
      intro c hcm r hr
      simp only [List.mem_singleton] at hcm
      subst hcm
      obtain ⟨k', hk⟩ := mem_refs_dict hr
      exact Or.inl (holds_ref hh (hx _ hk) rfl)
    · exact same
  | newArr k s data =>
    simp only [Spec.exec]
    refine Local.append hw hh (Nat.le_succ _) (by simp) ?_
    intro c hcm r hr
    simp only [List.mem_cons, List.not_mem_nil, or_false] at hcm
    rcases hcm with rfl | rfl
    · simp [Spec.refs] at hr
    · simp only [Spec.refs, List.mem_singleton] at hr
      subst hr
      exact Or.inr ⟨Nat.le_refl _, by simp⟩

/-- the memory is divided into two parts, one for each program -/
structure Apart (t : Spec.Two) (P Q : Ref → Prop) : Prop where
  a : World t.heap P
  b : World t.heap Q
  disjoint : ∀ x, P x → ¬ Q x
  heldA : ∀ r ∈ t.a, P r
  heldB : ∀ r ∈ t.b, Q r

theorem apart_step_true {t : Spec.Two} {P Q : Ref → Prop} (h : Apart t P Q) (op : Spec.Op) :
    (∃ P', Apart (Spec.step2 t true op) P' Q) ∧ ∀ x, Q x → (Spec.step2 t true op).heap[x]? = t.heap[x]? := by
  have l := exec_local h.a h.heldA op
  have hq : ∀ x, Q x → (Spec.exec t.heap t.a op).1[x]? = t.heap[x]? :=
    fun x hx => l.outside x (h.b.valid x hx) (fun hp => h.disjoint x hp hx)
  refine ⟨⟨Plus t.heap (Spec.exec t.heap t.a op).1 P, l.world, h.b.same l.len hq, ?_, l.held, h.heldB⟩, hq⟩
  rintro x (hx | hx) hqx
  · exact h.disjoint x hx hqx
  · exact absurd (h.b.valid x hqx) (Nat.not_lt.mpr hx.1)

theorem Apart.swap {t : Spec.Two} {P Q : Ref → Prop} (h : Apart t P Q) : Apart ⟨t.heap, t.b, t.a⟩ Q P :=
  ⟨h.b, h.a, fun x hq hp => h.disjoint x hp hq, h.heldB, h.heldA⟩

theorem apart_step_false {t : Spec.Two} {P Q : Ref → Prop} (h : Apart t P Q) (op : Spec.Op) :
    (∃ Q', Apart (Spec.step2 t false op) P Q') ∧ ∀ x, P x → (Spec.step2 t false op).heap[x]? = t.heap[x]? := by
  obtain ⟨⟨Q', h1⟩, h2⟩ := apart_step_true h.swap op
  exact ⟨⟨Q', h1.swap⟩, h2⟩

theorem apart_run {t : Spec.Two} {P Q : Ref → Prop} (h : Apart t P Q) (l : List (Bool × Spec.Op)) :
    ∃ P' Q', Apart (Spec.run2 t l) P' Q' := by
  induction l generalizing t P Q with
  | nil => exact ⟨P, Q, h⟩
  | cons x l ih =>
    obtain ⟨b, op⟩ := x
    cases b with
    | true => obtain ⟨⟨P', h'⟩, _⟩ := apart_step_true h op; exact ih h'
    | false => obtain ⟨⟨Q', h'⟩, _⟩ := apart_step_false h op; exact ih h'

/-! ## The copy is always made -/

/-- number of objects that were not copied yet -/
def unseen (h0 : Heap) (m : List (Ref × Ref)) : Nat :=
  ((List.range h0.length).filter (fun r => (seen m r).isNone)).length

theorem unseen_mono {h0 : Heap} {m m' : List (Ref × Ref)} (h : ∀ r x, seen m r = some x → seen m' r = some x) :
    unseen h0 m' ≤ unseen h0 m := by
  unfold unseen
  apply List.Sublist.length_le
  apply List.monotone_filter_right
  intro r hr
  cases hs : seen m r with
  | none => rfl
  | some x => rw [h r x hs] at hr; simp at hr

theorem unseen_cons {h0 : Heap} {m : List (Ref × Ref)} {r r' : Ref} (hr : r < h0.length) (hs : seen m r = none) :
    unseen h0 ((r, r') :: m) < unseen h0 m := by
  unfold unseen
  have e : (List.range h0.length).filter (fun x => (seen ((r, r') :: m) x).isNone)
      = ((List.range h0.length).filter (fun x => (seen m x).isNone)).filter (fun x => ! decide (r = x)) := by
    rw [List.filter_filter]
    apply List.filter_congr
    intro x _
    rw [seen_cons]
    by_cases h : r = x <;> simp [h]
  rw [e]
  apply List.length_filter_lt_length_iff_exists.mpr
  exact ⟨r, by simp [hr, hs], by simp⟩

theorem deepAll_total {h0 : Heap} (hI : InRange h0) {n : Nat}
    (hf : ∀ v st, MemoOk h0 st → (∀ r, v = .ref r → r < h0.length) → unseen h0 st.memo < n →
      ∃ p, deepcopy n v st = some p) :
    ∀ (l : List HVal) (st : Memo), MemoOk h0 st → (∀ r, HVal.ref r ∈ l → r < h0.length) → unseen h0 st.memo < n →
      ∃ p, deepAll (deepcopy n) l st = some p := by
  intro l
  induction l with
  | nil => intro st _ _ _; exact ⟨_, rfl⟩
  | cons v l ih =>
    intro st hst hr hn
    have hv : ∀ r, v = .ref r → r < h0.length := fun r e => hr r (by rw [e]; exact List.mem_cons_self ..)
    obtain ⟨⟨w, st1⟩, h1⟩ := hf v st hst hv hn
    obtain ⟨g, _⟩ := deepcopy_spec hI n v st w st1 hst hv h1
    obtain ⟨⟨ws, st2⟩, h2⟩ := ih st1 (hst.grows g) (fun r e => hr r (List.mem_cons_of_mem _ e))
      (Nat.lt_of_le_of_lt (unseen_mono g.memo) hn)
    exact ⟨_, by simp only [deepAll, h1, h2]; rfl⟩

theorem gather_total {h : Heap} {b : Ref} {idx : List Nat} {data : List Elem} (hb : h[b]? = some (.buf data))
    (hi : ∀ i ∈ idx, i < data.length) : ∃ es, gather h b idx = some es := by
  unfold gather
  simp only [hb]
  induction idx with
  | nil => exact ⟨[], rfl⟩
  | cons i idx ih =>
    obtain ⟨es, he⟩ := ih (fun j hj => hi j (List.mem_cons_of_mem _ hj))
    have hlt := hi i (List.mem_cons_self ..)
    have h1 : data[i]? = some data[i] := List.getElem?_eq_getElem hlt
    refine ⟨data[i] :: es, ?_⟩
    rw [List.mapM_cons, h1, he]
    rfl

theorem Sound_inRange {h : Heap} (hs : Spec.Sound h) : InRange h :=
  fun _ c hc => (hs c (List.mem_of_getElem? hc)).1

theorem deepcopy_total {h0 : Heap} (hS : Spec.Sound h0) :
    ∀ (n : Nat) (v : HVal) (st : Memo), MemoOk h0 st → (∀ r, v = .ref r → r < h0.length) → unseen h0 st.memo < n →
      ∃ p, deepcopy n v st = some p := by
  intro n
  induction n with
  | zero => intro v st _ _ h; omega
  | succ n ih =>
    intro v st hst hr hn
    cases v with
    | imm v => exact ⟨_, rfl⟩
    | ref r =>
      have hr0 := hr r rfl
      simp only [deepcopy]
      cases hs : seen st.memo r with
      | some r' => exact ⟨_, rfl⟩
      | none =>
        simp only
        rw [hst.old r hr0, List.getElem?_eq_getElem hr0]
        generalize hc : h0[r] = c
        have hc' : h0[r]? = some c := by rw [List.getElem?_eq_getElem hr0, hc]
        by_cases harr : ∃ k s b idx, c = .arr k s b idx
        · obtain ⟨k, s, b, idx, rfl⟩ := harr
          obtain ⟨data, hd, hi⟩ := (hS _ (List.mem_of_getElem? hc')).2 k s b idx rfl
          have hb : b < h0.length := (List.getElem?_eq_some_iff.mp hd).1
          obtain ⟨es, he⟩ := gather_total hd hi
          rw [← gather_congr (hst.old b hb)] at he
          exact ⟨_, by simp only [he]; rfl⟩
        · have hna : ∀ k s b idx, c ≠ .arr k s b idx := fun k s b idx e => harr ⟨k, s, b, idx, e⟩
          have hok : MemoOk h0 ⟨st.heap ++ [c.withVals []], (r, st.heap.length) :: st.memo⟩ := by
            refine ⟨?_, ?_, ?_⟩
            · have := hst.len; simp; omega
            · intro a ha
              have := hst.len
              simp only
              rw [List.getElem?_append_left (by omega), hst.old a ha]
            · intro x y hx
              simp only [seen_cons] at hx
              have := hst.len
              by_cases hrx : r = x
              · simp only [hrx, if_true, Option.some.injEq] at hx
                subst hx; simp; omega
              · simp only [hrx, if_false] at hx
                have h2 := hst.memo x y hx
                simp only [List.length_append, List.length_singleton]
                exact ⟨h2.1, Nat.lt_succ_of_lt h2.2⟩
          obtain ⟨⟨vs, st1⟩, hd⟩ := deepAll_total (Sound_inRange hS) ih c.vals _ hok
            (fun x hx => (Sound_inRange hS) r c hc' x ((mem_refs_vals hna).mpr hx))
            (Nat.lt_of_lt_of_le (unseen_cons hr0 hs) (Nat.le_of_lt_succ hn))
          refine ⟨(HVal.ref st.heap.length, ⟨st1.heap.set st.heap.length (c.withVals vs), st1.memo⟩), ?_⟩
          cases c with
          | arr k s b idx => exact absurd rfl (hna k s b idx)
          | _ => simp only [hd]

end Sofar
