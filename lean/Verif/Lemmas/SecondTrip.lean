import Verif.Lemmas.Stored
import Verif.Lemmas.Adding
import Verif.Lemmas.Conforms
import Verif.Spec.SecondTrip
/-!
# Writing and reading data that was read

The shape, the type and the elements of data that was read do not change any more when it is written and read again.
-/
namespace Sofar

/-! ## Shapes -/

theorem axes_length (b : Bool) (n : Nat) (s : List Nat) : (axes b n s).length = n := by simp [axes]

theorem axes_eq_of {b : Bool} {n : Nat} {t A : List Nat} (hA : A.length = n)
    (h : ∀ i, i < n → Spec.axisSize b n t i = A.getD i 1) : axes b n t = A := by
  apply List.ext_getElem
  · rw [axes_length, hA]
  · intro i h1 h2
    simp only [axes, List.getElem_map, List.getElem_range]
    rw [h i (hA ▸ h2), List.getD_eq_getElem?_getD, List.getElem?_eq_getElem h2]
    rfl

theorem foldr_one {l : List Nat} (h : l.foldr (· * ·) 1 = 1) : ∀ x ∈ l, x = 1 := by
  induction l with
  | nil => simp
  | cons a l ih =>
    simp only [List.foldr_cons] at h
    intro x hx
    rcases List.mem_cons.1 hx with rfl | hx
    · exact Nat.dvd_one.1 ⟨_, h.symm⟩
    · exact ih (Nat.dvd_one.1 ⟨_, h.symm.trans (Nat.mul_comm _ _)⟩) x hx

theorem axisSize_ones {b : Bool} {n : Nat} {t : List Nat} (hn : b = true ∨ 2 ≤ n) (h : ∀ x ∈ t, x = 1) (i : Nat) :
    Spec.axisSize b n t i = 1 := by
  unfold Spec.axisSize
  split
  · exact getD_ones h i
  · rename_i hb
    have hn : 2 ≤ n := hn.resolve_left hb
    rw [if_neg (by omega)]
    split
    · split
      · exact h _ (by simp)
      · rfl
    · exact getD_ones h i

theorem prod_foldr (l : List Nat) : Spec.prod l = l.foldr (· * ·) 1 := by
  induction l with
  | nil => rfl
  | cons a l ih => simp only [Spec.prod, List.foldr_cons, ih]

/-- the shape of numbers that were read belongs to the same axes -/
theorem axes_numbers {n : Nat} (hn : 1 ≤ n) (s : List Nat) :
    axes false n (if (axes false n s).foldr (· * ·) 1 = 1 then (axes false n s).tail else axes false n s) =
      axes false n s := by
  have hlen := axes_length false n s
  by_cases h1 : n = 1
  · subst h1
    have hA : axes false 1 s = [Spec.prod s] := rfl
    rw [hA]
    split
    · rename_i h
      have hp : Spec.prod s = 1 := by simpa using h
      rw [hp]
      rfl
    · show [Spec.prod [Spec.prod s]] = _
      simp [Spec.prod]
  · generalize axes false n s = A at *
    apply axes_eq_of hlen
    intro i hi
    split
    · rename_i h
      have ho := foldr_one h
      rw [axisSize_ones (Or.inr (by omega)) (fun x hx => ho x (List.mem_of_mem_tail hx)), getD_ones ho]
    · unfold Spec.axisSize
      rw [if_neg (by decide), if_neg (by omega)]
      split
      · simp at hlen; omega
      · rfl

/-- the shape of text that was read belongs to the same axes -/
theorem axes_text {n : Nat} {s r : List Nat} (h : axes true n s = r ++ [1]) :
    axes true n (if r.foldr (· * ·) 1 = 1 then r.tail else r) = r ++ [1] := by
  have hlen := axes_length true n s
  rw [h] at hlen
  apply axes_eq_of hlen
  intro i hi
  split
  · rename_i h1
    have ho := foldr_one h1
    rw [axisSize_ones (Or.inl rfl) (fun x hx => ho x (List.mem_of_mem_tail hx)), getD_ones]
    intro x hx
    rcases List.mem_append.1 hx with hx | hx
    · exact ho x hx
    · simpa using hx
  · simp only [Spec.axisSize, if_true]
    rw [List.getD_eq_getElem?_getD, List.getD_eq_getElem?_getD]
    simp only [List.length_append, List.length_singleton] at hlen
    by_cases hi' : i < r.length
    · rw [List.getElem?_append_left hi']
    · have : i = r.length := by omega
      subst this
      simp

/-! ## Text -/

theorem mem_stripNul {s : Str} {c : Char} (hc : c ∈ s) (hn : c ≠ Char.ofNat 0) : c ∈ stripNul s := by
  obtain ⟨m, hm⟩ := stripNul_spec s
  rw [hm] at hc
  rcases List.mem_append.1 hc with h | h
  · exact h
  · exact absurd (List.eq_of_mem_replicate h) hn

theorem stripNul_stripNul (s : Str) : stripNul (stripNul s) = stripNul s := by
  unfold stripNul
  rw [List.reverse_reverse]
  congr 1
  generalize s.reverse = l
  induction l with
  | nil => rfl
  | cons c l ih =>
    by_cases hc : c = Char.ofNat 0
    · simp only [List.dropWhile_cons, hc, decide_true, if_true, ih]
    · simp only [List.dropWhile_cons, hc, decide_false, Bool.false_eq_true, if_false]

theorem map_strip_strip (l : List Elem) :
    (l.map (fun e => Elem.str (stripElem e))).map (fun e => Elem.str (stripElem e)) = l.map (fun e => Elem.str (stripElem e)) := by
  rw [List.map_map]
  apply List.map_congr_left
  intro e _
  cases e <;> simp [stripElem, stripNul_stripNul] <;> rfl

/-! ## Dimensions of custom data -/

theorem customDims_again (d : Str) : customDims (Str.upper (customDims (Str.upper d))) = customDims (Str.upper d) := by
  rw [customDims_upper, customDims_upper]
  exact customDims_stored (given := d) (by simp [Spec.CustomLetters, customDims, standardDims])

theorem customDims_length (d : Str) : (customDims (Str.upper d)).length = d.length := by
  simp [customDims, Str.upper]

theorem customDims_letters {d : Str} {c : Char} (h : c ∈ customDims (Str.upper d)) :
    ∃ a ∈ d, (c = Str.upperC a ∧ Str.upperC a ∈ standardDims) ∨ (c = Str.lowerC a ∧ Str.upperC a ∉ standardDims) := by
  rw [customDims_upper] at h
  obtain ⟨a, ha, rfl⟩ := List.mem_map.1 h
  refine ⟨a, ha, ?_⟩
  simp only [List.contains_iff_mem]
  split
  · rename_i h; exact Or.inl ⟨rfl, h⟩
  · rename_i h; exact Or.inr ⟨rfl, h⟩

theorem customDims_S {d : Str} (h : 'S' ∉ d) (h' : 's' ∉ d) : 'S' ∉ customDims (Str.upper d) := by
  intro hm
  obtain ⟨a, ha, ⟨h1, _⟩ | ⟨h1, h2⟩⟩ := customDims_letters hm
  · rcases upperC_S h1.symm with rfl | rfl
    · exact h ha
    · exact h' ha
  · have : Str.upperC a = 'S' := by rw [← upperC_lowerC, ← h1]; rfl
    rw [this] at h2
    exact h2 (by decide)

theorem customDims_comma {d : Str} (h : ',' ∉ d) : ',' ∉ customDims (Str.upper d) := by
  intro hm
  obtain ⟨a, ha, ⟨h1, h2⟩ | ⟨h1, h2⟩⟩ := customDims_letters hm
  · rw [← h1] at h2; exact absurd h2 (by decide)
  · have hA : 'A'.toNat = 65 := rfl
    have hZ : 'Z'.toNat = 90 := rfl
    unfold Str.lowerC at h1
    split at h1
    · rename_i hc
      have h3 := congrArg Char.toNat h1
      have e : ','.toNat = 44 := rfl
      rw [ofNat_toNat (n := a.toNat + 32) (by omega), e] at h3
      omega
    · rw [h1] at h; exact h ha

theorem alternative_subset {d alt : Str} (h : Spec.IsAlternative d alt) : ∀ {c}, c ∈ alt → c ∈ d := by
  obtain ⟨before, after, rfl, hno⟩ := h
  clear hno
  intro c hc
  induction before with
  | nil =>
    cases after with
    | nil => exact hc
    | cons b l => simp only [List.nil_append, Str.join, List.mem_append]; exact Or.inl (Or.inl hc)
  | cons b l ih =>
    cases l with
    | nil => simp only [List.cons_append, List.nil_append, Str.join, List.mem_append] at ih ⊢; exact Or.inr ih
    | cons b' l => simp only [List.cons_append, Str.join, List.mem_append] at ih ⊢; exact Or.inr ih

/-! ## Two round trips -/

/-- how a variable of the object that was read is related to the object that was written -/
theorem second_storable {env : Env} {nc : Nc} {o' o2' : Obj} (hs : Spec.Storable env.rnd nc.isFill o')
    (hrep : Spec.Repeatable o')
    (hdata : ∀ k, Spec.IsData o' k ↔ Spec.IsData o2' k)
    (hitem : ∀ k v w, Dict.get? o'.attrs k = some v → Dict.get? o2'.attrs k = some w →
      ∃ e e2, Dict.get? o'.conv k = some e ∧ Dict.get? o2'.conv k = some e2 ∧ e2.typ = e.typ ∧
        Spec.SameValue e.typ v w ∧ Spec.ComparableType e.typ w ∧ ExactItem nc.isFill v e w ∧
        (e2 = e ∨ (e.typ ≠ py% "attribute" → ∃ d alt, e.dims = some d ∧ Spec.IsAlternative d alt ∧
          e2.dims = some (customDims (Str.upper alt))))) :
    Spec.Storable env.rnd nc.isFill o2' := by
  have hvar : ∀ k w e2, Spec.IsVariable o2' k w e2 → ∃ v e, Spec.IsVariable o' k v e ∧ e2.typ = e.typ ∧
      Spec.SameValue e.typ v w ∧ Spec.ComparableType e.typ w ∧ ExactItem nc.isFill v e w ∧
        (e2 = e ∨ ∃ d alt, e.dims = some d ∧ Spec.IsAlternative d alt ∧ e2.dims = some (customDims (Str.upper alt))) := by
    rintro k w e2 ⟨h1, h2, h3⟩
    obtain ⟨v, hv⟩ := get_of_mem_keys ((hdata k).2 (mem_keys_of_get h1))
    obtain ⟨e, e2', g1, g2, g3, g4, g5, g6, g7⟩ := hitem k v w hv h1
    rw [h2] at g2
    cases g2
    have hne : e.typ ≠ py% "attribute" := g3 ▸ h3
    exact ⟨v, e, ⟨hv, g1, hne⟩, g3, g4, g5, g6, g7.imp_right (fun h => h hne)⟩
  have hvar' : ∀ k v e, Spec.IsVariable o' k v e → ∃ w e2, Spec.IsVariable o2' k w e2 ∧ e2.typ = e.typ ∧
      ExactItem nc.isFill v e w := by
    rintro k v e ⟨h1, h2, h3⟩
    obtain ⟨w, hw⟩ := get_of_mem_keys ((hdata k).1 (mem_keys_of_get h1))
    obtain ⟨e', e2, g1, g2, g3, g4, g5, g6, g7⟩ := hitem k v w h1 hw
    rw [h2] at g1
    cases g1
    exact ⟨w, e2, ⟨hw, g2, g3 ▸ h3⟩, g3, g6⟩
  refine ⟨fun k hk => hs.names k ((hdata k).2 hk), ?_, ?_, ?_, ?_, ?_⟩
  · intro k w e2 hk
    obtain ⟨v, e, h1, _⟩ := hvar k w e2 hk
    refine ⟨(hs.separate k v e h1).1, fun x wx ex hx => ?_⟩
    obtain ⟨vx, ex', h2, _⟩ := hvar x wx ex hx
    exact (hs.separate k v e h1).2 x vx ex' h2
  · rintro k w ⟨h1, e2, h2, h3⟩
    obtain ⟨v, hv⟩ := get_of_mem_keys ((hdata k).2 (mem_keys_of_get h1))
    obtain ⟨e, e2', g1, g2, g3, g4, g5, g6, g7⟩ := hitem k v w hv h1
    rw [h2] at g2
    cases g2
    have hat : e.typ = py% "attribute" := g3 ▸ h3
    obtain ⟨a1, a2⟩ := hs.attributes k v ⟨hv, e, g1, hat⟩
    obtain ⟨t, t1, t2⟩ := g6.attr hat
    refine ⟨?_, ?_⟩
    · rcases a1 with a1 | ⟨x, a, vx, ex, rfl, hx⟩
      · exact Or.inl a1
      · obtain ⟨wx, ex2, hx2, _⟩ := hvar' x vx ex hx
        exact Or.inr ⟨x, a, wx, ex2, rfl, hx2⟩
    · intro t' ht'
      rw [t2] at ht'
      cases ht'
      exact a2 _ t1
  · intro k w e2 hk
    obtain ⟨v, e, h1, h2, h3, h4, h5, h6⟩ := hvar k w e2 hk
    obtain ⟨s1, s2, d, n, s3, s4, s5, s6⟩ := hs.shapes k v e h1
    have hproper : Spec.Proper w := by
      rcases h4 with ⟨h, _⟩ | ⟨_, h⟩ | ⟨_, h⟩
      · exact absurd h h1.2.2
      · exact h.1
      · exact h.1
    have hne : Spec.elems w ≠ [] := by
      rcases h3 with ⟨h, _⟩ | ⟨_, _, h⟩ | ⟨_, _, h⟩
      · exact absurd h h1.2.2
      · intro h0; rw [h0] at h; cases hv : Spec.elems v with
        | nil => exact s2 hv
        | cons a l => rw [hv] at h; cases h
      · intro h0; rw [h0] at h; cases hv : Spec.elems v with
        | nil => exact s2 hv
        | cons a l => rw [hv] at h; cases h
    have hlen : (Spec.shapeOf w).length ≤ n := by
      rcases h3 with ⟨h, _⟩ | ⟨h, _, _⟩ | ⟨h, _, _⟩
      · exact absurd h h1.2.2
      · rw [(h5.num h).2.2.2 d n s3 s4]
        split
        · rw [List.length_tail, axes_length]; omega
        · rw [axes_length]; exact Nat.le_refl _
      · obtain ⟨r, r1, r2⟩ := (h5.str h).2.2 d n s3 s4
        have := axes_length true n (Spec.shapeOf v)
        rw [r1] at this
        simp only [List.length_append, List.length_singleton] at this
        rw [r2]
        split
        · rw [List.length_tail]; omega
        · omega
    refine ⟨hproper, hne, ?_⟩
    rcases h6 with rfl | ⟨d', alt, d1, d2, d3⟩
    · exact ⟨d, n, s3, s4, s5, hlen⟩
    · rw [s3] at d1
      cases d1
      obtain ⟨u1, u2⟩ := s4 alt d2
      have hcomma : ',' ∉ customDims (Str.upper alt) := customDims_comma u2
      refine ⟨_, n, d3, fun a ha => ?_, s5, hlen⟩
      rw [(alternatives_single hcomma).1] at ha
      subst ha
      exact ⟨by rw [customDims_length, u1], hcomma⟩
  · intro k w e2 hk ht
    obtain ⟨v, e, h1, h2, h3, h4, h5, h6⟩ := hvar k w e2 hk
    obtain ⟨s1, s2, d, n, s3, s4, s5, s6⟩ := hs.shapes k v e h1
    have ht' : e.typ = py% "double" := h2 ▸ ht
    obtain ⟨n1, n2, n3, n4⟩ := h5.num ht'
    obtain ⟨d1, _, _⟩ := hs.doubles k v e h1 ht'
    refine ⟨?_, fun x _ hx => n3 x hx, fun x hx => absurd n1 hx⟩
    rcases h6 with rfl | ⟨d', alt, g1, g2, g3⟩
    · exact d1
    · intro d2 alt2 hd2 ha2
      rw [g3] at hd2
      cases hd2
      rw [s3] at g1
      cases g1
      rw [(alternatives_single (customDims_comma (s4 alt g2).2)).1] at ha2
      subst ha2
      exact customDims_S (d1 d alt s3 g2) (fun hm => hrep.dims k v e d h1 s3 (alternative_subset g2 hm))
  · intro k w e2 hk ht
    obtain ⟨v, e, h1, h2, h3, h4, h5, h6⟩ := hvar k w e2 hk
    obtain ⟨s1, s2, d, n, s3, s4, s5, s6⟩ := hs.shapes k v e h1
    have ht' : e.typ = py% "string" := h2 ▸ ht
    obtain ⟨d1, _⟩ := hs.strings k v e h1 ht'
    refine ⟨?_, ?_⟩
    · rcases h6 with rfl | ⟨d', alt, g1, g2, g3⟩
      · exact d1
      · intro d2 alt2 hd2 ha2
        rw [g3] at hd2
        cases hd2
        rw [s3] at g1
        cases g1
        rw [(alternatives_single (customDims_comma (s4 alt g2).2)).1] at ha2
        subst ha2
        obtain ⟨al, rfl, hal⟩ := d1 d alt s3 g2
        refine ⟨customDims (Str.upper al), ?_, ?_⟩
        · simp only [customDims, Str.upper, List.map_append]
          rfl
        · exact customDims_S hal (fun hm => hrep.dims k v e d h1 s3 (alternative_subset g2 (by simp [hm])))
    · obtain ⟨k', v', e', s, c, t1, t2, t3, t4, t5⟩ := hrep.texts k v e h1 ht'
      obtain ⟨w', e2', r1, r2, r3⟩ := hvar' k' v' e' t1
      refine ⟨k', w', e2', stripNul s, r1, r2 ▸ t2, ?_, List.ne_nil_of_mem (mem_stripNul t4 t5)⟩
      rw [(r3.str t2).2.1]
      exact List.mem_map.2 ⟨_, t3, rfl⟩

/-- data that was read is read again, also after it was written once more -/
theorem exact_again {isFill : Kind → Num → Bool} {v w x : Val} {e e2 : Entry} {d d2 : Str} {n : Nat}
    (h1 : ExactItem isFill v e w) (h2 : ExactItem isFill w e2 x) (ht : e2.typ = e.typ)
    (htyp : e.typ = py% "attribute" ∨ e.typ = py% "double" ∨ e.typ = py% "string")
    (hd : e.typ ≠ py% "attribute" → e.dims = some d ∧ e2.dims = some d2 ∧ Spec.UniformDims d n ∧ Spec.UniformDims d2 n ∧ 1 ≤ n) :
    x = w := by
  rcases htyp with h | h | h
  · obtain ⟨t, t1, rfl⟩ := h1.attr h
    obtain ⟨t', t1', rfl⟩ := h2.attr (ht.trans h)
    cases t1'
    rfl
  · have hne : e.typ ≠ py% "attribute" := by rw [h]; decide
    obtain ⟨d1, d2, d3, d4, d5⟩ := hd hne
    obtain ⟨a1, a2, a3, a4⟩ := h1.num h
    obtain ⟨b1, b2, b3, b4⟩ := h2.num (ht.trans h)
    refine AsRead.ext (h2.form (ht ▸ hne)) (h1.form hne) (b1.trans a1.symm) ?_ (b2 a1)
    rw [b4 _ _ d2 d4, a4 _ _ d1 d3, axes_numbers d5]
  · have hne : e.typ ≠ py% "attribute" := by rw [h]; decide
    obtain ⟨d1, d2, d3, d4, d5⟩ := hd hne
    obtain ⟨a1, a2, a3⟩ := h1.str h
    obtain ⟨b1, b2, b3⟩ := h2.str (ht.trans h)
    refine AsRead.ext (h2.form (ht ▸ hne)) (h1.form hne) (b1.trans a1.symm) ?_ ?_
    · obtain ⟨r, r1, r2⟩ := a3 _ _ d1 d3
      obtain ⟨q, q1, q2⟩ := b3 _ _ d2 d4
      rw [r2, axes_text r1] at q1
      have : r = q := List.append_cancel_right q1
      rw [q2, r2, this]
    · rw [b2, a2, map_strip_strip]

end Sofar
