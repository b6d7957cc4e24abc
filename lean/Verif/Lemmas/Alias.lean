import Verif.Lemmas.Heap
import Verif.Lemmas.Dict
import Verif.Lemmas.Attr
import Verif.Model.Alias
import Verif.Spec.Alias
/-!
# Lemmas about assignments in memory
-/
namespace Sofar

/-! ## Dictionaries -/

theorem map_put_val {V W : Type} (g : V → W) (d : Dict V) (k : Str) (v : V) :
    (Dict.put d k v).map (fun p => (p.1, g p.2)) = Dict.put (d.map (fun p => (p.1, g p.2))) k (g v) := by
  induction d with
  | nil => rfl
  | cons p d ih =>
    obtain ⟨k', v'⟩ := p
    simp only [Dict.put, List.map_cons]
    split
    · rfl
    · simp only [List.map_cons, ih]

theorem filter_put_key {V : Type} (f : Str → Bool) (d : Dict V) {k : Str} (v : V) (hk : f k = true) :
    (Dict.put d k v).filter (fun p => f p.1) = Dict.put (d.filter (fun p => f p.1)) k v := by
  induction d with
  | nil => simp [Dict.put, hk]
  | cons p d ih =>
    obtain ⟨k', v'⟩ := p
    simp only [Dict.put]
    split
    · rename_i e
      subst e
      simp [hk, Dict.put]
    · rename_i e
      simp only [List.filter_cons, ih]
      split
      · simp [Dict.put, e]
      · rfl

/-! ## Looking at values -/

theorem mapM_bufElem {h : Heap} {b : Ref} {idx : List Nat} {es : List Elem} (hg : gather h b idx = some es) :
    idx.mapM (Spec.bufElem h b) = some es := by
  have := gather_bufElem hg
  clear hg
  induction idx generalizing es with
  | nil => cases es with
    | nil => rfl
    | cons e es => simp at this
  | cons i idx ih =>
    cases es with
    | nil => simp at this
    | cons e es =>
      simp only [List.map_cons, List.cons.injEq] at this
      rw [List.mapM_cons, this.1, ih this.2]
      rfl

theorem bufElem_set_inst {h : Heap} {s : Ref} {d d' : Dict HVal} (hs : h[s]? = some (.inst d)) (b : Ref) :
    Spec.bufElem (h.set s (.inst d')) b = Spec.bufElem h b := by
  funext i
  unfold Spec.bufElem
  by_cases e : s = b
  · subst e
    have : s < h.length := by
      rcases List.getElem?_eq_some_iff.1 hs with ⟨x, _⟩; exact x
    rw [List.getElem?_set_self this, hs]
  · rw [List.getElem?_set_ne e]

theorem look_set_inst {h : Heap} {s : Ref} {d d' : Dict HVal} (hs : h[s]? = some (.inst d)) (v : HVal) :
    Spec.look (h.set s (.inst d')) v = Spec.look h v := by
  cases v with
  | imm v => rfl
  | ref r =>
    unfold Spec.look
    by_cases e : s = r
    · subst e
      have : s < h.length := by
        rcases List.getElem?_eq_some_iff.1 hs with ⟨x, _⟩; exact x
      simp only [List.getElem?_set_self this, hs]
    · simp only [List.getElem?_set_ne e]
      cases h[r]? with
      | none => rfl
      | some c => cases c <;> simp only [bufElem_set_inst hs]

theorem mapM_bufElem_append {h l : Heap} {b : Ref} {idx : List Nat} {es : List Elem}
    (hg : idx.mapM (Spec.bufElem h b) = some es) : idx.mapM (Spec.bufElem (h ++ l) b) = some es := by
  induction idx generalizing es with
  | nil => exact hg
  | cons i idx ih =>
    rw [List.mapM_cons] at hg ⊢
    cases h1 : Spec.bufElem h b i with
    | none => simp [h1] at hg
    | some e =>
      have hb : b < h.length := by
        refine Classical.byContradiction fun hn => ?_
        unfold Spec.bufElem at h1
        rw [List.getElem?_eq_none (Nat.le_of_not_lt hn)] at h1
        cases h1
      have h1' : Spec.bufElem (h ++ l) b i = some e := by
        unfold Spec.bufElem at h1 ⊢
        rw [List.getElem?_append_left hb]; exact h1
      cases h2 : idx.mapM (Spec.bufElem h b) with
      | none => simp [h1, h2] at hg
      | some es' =>
        rw [h1', ih h2]
        simpa [h1, h2] using hg

theorem look_append {h l : Heap} {v : HVal} {w : Val} (hv : Spec.look h v = some w) : Spec.look (h ++ l) v = some w := by
  cases v with
  | imm v => exact hv
  | ref r =>
    have hr : r < h.length := by
      refine Classical.byContradiction fun hn => ?_
      simp only [Spec.look] at hv
      rw [List.getElem?_eq_none (Nat.le_of_not_lt hn)] at hv
      cases hv
    simp only [Spec.look] at hv ⊢
    rw [List.getElem?_append_left hr]
    cases hc : h[r]? with
    | none => rw [hc] at hv; cases hv
    | some c =>
      rw [hc] at hv
      cases c with
      | arr k s b idx =>
        simp only [Option.map_eq_some_iff] at hv ⊢
        obtain ⟨es, h1, h2⟩ := hv
        exact ⟨es, mapM_bufElem_append h1, h2⟩
      | dict d => exact hv
      | inst d => cases hv
      | list d => cases hv
      | buf d => cases hv

/-- the new array shows the elements it was made of -/
theorem look_new (h : Heap) (a : Arr) :
    Spec.look (h ++ [.buf a.data, .arr a.kind a.shape h.length (List.range a.data.length)]) (.ref (h.length + 1)) =
      some (.arr a) := by
  have h1 : (h ++ [HCell.buf a.data, .arr a.kind a.shape h.length (List.range a.data.length)])[h.length + 1]? =
      some (.arr a.kind a.shape h.length (List.range a.data.length)) := by
    rw [List.getElem?_append_right (by omega)]; simp
  have h0 : (h ++ [HCell.buf a.data, .arr a.kind a.shape h.length (List.range a.data.length)])[h.length]? =
      some (.buf a.data) := by
    rw [List.getElem?_append_right (by omega)]; simp
  have hg : gather (h ++ [HCell.buf a.data, .arr a.kind a.shape h.length (List.range a.data.length)]) h.length
      (List.range a.data.length) = some a.data := by
    unfold gather
    rw [h0]
    obtain ⟨es, he⟩ := gather_total (h := [HCell.buf a.data]) (b := 0) (idx := List.range a.data.length) (data := a.data) rfl
      (fun i hi => by simpa using hi)
    have e2 := gather_bufElem he
    have e3 : (List.range a.data.length).map (Spec.bufElem [HCell.buf a.data] 0) = a.data.map some := map_range_getElem? a.data
    rw [e3] at e2
    have : es = a.data := by
      have := congrArg (List.filterMap id) e2
      simpa [List.filterMap_map] using this.symm
    subst this
    exact he
  simp only [Spec.look]
  rw [h1]
  simp only [mapM_bufElem hg, Option.map_some]

/-! ## Objects -/

theorem publicName_iff (n : Str) : Spec.publicName n ↔ isPrivate n = false := by
  unfold Spec.publicName isPrivate Str.startsWith
  cases n with
  | nil => simp
  | cons c n =>
    simp [List.isPrefixOf]
    exact ⟨fun h e => h e.symm, fun h e => h e.symm⟩

theorem shows_put {h : Heap} {s : Ref} {attrs : Dict Val} (hs : Spec.Shows h s attrs) {name : Str} {v : HVal} {w : Val}
    (hn : isPrivate name = false) (hv : Spec.look h v = some w) :
    Spec.Shows (heapPut h s name v) s (Dict.put attrs name w) := by
  obtain ⟨d, hd, ha⟩ := hs
  have hlt : s < h.length := by rcases List.getElem?_eq_some_iff.1 hd with ⟨x, _⟩; exact x
  refine ⟨Dict.put d name v, ?_, ?_⟩
  · unfold heapPut
    simp only [hd]
    rw [List.getElem?_set_self hlt]
  · have hput : heapPut h s name v = h.set s (.inst (Dict.put d name v)) := by
      unfold heapPut; simp only [hd]
    rw [hput]
    have hl : Spec.look (h.set s (.inst (Dict.put d name v))) = Spec.look h := funext (look_set_inst hd)
    rw [hl, filter_put_key (fun k => decide (Spec.publicName k)) d v (by simpa using (publicName_iff name).2 hn),
      map_put_val, ha, hv, ← map_put_val]

theorem shows_append {h : Heap} {s : Ref} {attrs : Dict Val} (hs : Spec.Shows h s attrs) (l : Heap) :
    Spec.Shows (h ++ l) s attrs := by
  obtain ⟨d, hd, ha⟩ := hs
  have hlt : s < h.length := by rcases List.getElem?_eq_some_iff.1 hd with ⟨x, _⟩; exact x
  refine ⟨d, by rw [List.getElem?_append_left hlt]; exact hd, ?_⟩
  rw [← ha]
  refine List.map_congr_left fun p hp => ?_
  have hm : (p.1, Spec.look h p.2) ∈ attrs.map (fun p => (p.1, some p.2)) := by
    rw [← ha]; exact List.mem_map_of_mem hp
  obtain ⟨q, _, hq⟩ := List.mem_map.1 hm
  have : Spec.look h p.2 = some q.2 := by simpa using (congrArg Prod.snd hq).symm
  rw [this, look_append this]

theorem shows_put_other {h : Heap} {s t : Ref} {attrs : Dict Val} (ht : Spec.Shows h t attrs) (hne : t ≠ s) (name : Str)
    (v : HVal) : Spec.Shows (heapPut h s name v) t attrs := by
  unfold heapPut
  split
  · rename_i d hd
    obtain ⟨e, he, ha⟩ := ht
    refine ⟨e, by rw [List.getElem?_set_ne (Ne.symm hne)]; exact he, ?_⟩
    rw [← ha]
    exact List.map_congr_left fun p _ => by rw [look_set_inst hd]
  · exact ht

end Sofar
