import Verif.Lemmas.SecondTrip
import Verif.Spec.Trips
/-!
# Verification of objects that were read from files

An object that was written passed the verification. The object that is read from the file has the same names and attributes,
and its variables have the same axes; hence it passes the verification, too.
-/
namespace Sofar

/-- how an object that was read (with its convention loaded) is related to the object that was written -/
structure Resembles (nc : Nc) (o' r : Obj) (ds : Dict Str) : Prop where
  keys : ∀ k, Spec.IsData o' k ↔ Spec.IsData r k
  item : ∀ k v w, Dict.get? o'.attrs k = some v → Dict.get? r.attrs k = some w →
    ∃ e e2, Dict.get? o'.conv k = some e ∧ Dict.get? r.conv k = some e2 ∧ e2.typ = e.typ ∧ ExactItem nc.isFill v e w ∧
      Spec.ComparableType e.typ w ∧ Spec.SameValue e.typ v w ∧
      (e2 = e ∨ ((∃ c', o'.custom = some c' ∧ (k, e) ∈ c') ∧
        e2.flags = none ∧ (e.typ = py% "attribute" → e2.dims = none) ∧
        (e.typ ≠ py% "attribute" → ∃ d alt, e.dims = some d ∧ Spec.IsAlternative d alt ∧
          Dict.get? ds k = some (Str.upper alt) ∧ e2.dims = some (customDims (Str.upper alt)))))
  conv : ∀ k e2, (k, e2) ∈ r.conv → (k, e2) ∈ o'.conv ∨ (Spec.IsData r k ∧ e2.flags = none)
  entries : ∀ k e2, Dict.get? r.conv k = some e2 → Dict.get? o'.conv k = some e2 ∨ Spec.IsData r k
  back : ∀ k, k ∈ Dict.keys o'.conv → k ∈ Dict.keys r.conv
  custom : ∀ c, r.custom = some c → (∀ k e, (k, e) ∈ c → Spec.IsData r k ∧ Dict.get? r.conv k = some e ∧
    ∃ c' e', o'.custom = some c' ∧ (k, e') ∈ c' ∧ Dict.get? o'.conv k = some e')
  plain : o'.custom = none → r.custom = none

theorem shape_shapeOf (v : Val) : v.shape = Spec.shapeOf v := by cases v <;> rfl

/-- the shape of data that was read gives the size of every axis directly -/
theorem read_shape {isFill : Kind → Num → Bool} {v w : Val} {e : Entry} {d : Str} {n : Nat} (h : ExactItem isFill v e w)
    (ht : e.typ = py% "double" ∨ e.typ = py% "string") (hd : e.dims = some d) (hu : Spec.UniformDims d n) (hn : 1 ≤ n) :
    axes (decide (e.typ = py% "attribute" ∨ e.typ = py% "string")) n (Spec.shapeOf w) =
      axes (decide (e.typ = py% "attribute" ∨ e.typ = py% "string")) n (Spec.shapeOf v) ∧
    ∀ i, (Spec.shapeOf w).getD i 1 =
      (axes (decide (e.typ = py% "attribute" ∨ e.typ = py% "string")) n (Spec.shapeOf v)).getD i 1 := by
  rcases ht with ht | ht
  · have hb : decide (e.typ = py% "attribute" ∨ e.typ = py% "string") = false := by rw [ht]; decide
    rw [hb]
    have hsh := (h.num ht).2.2.2 d n hd hu
    refine ⟨by rw [hsh]; exact axes_numbers hn _, fun i => ?_⟩
    rw [hsh]
    split
    · rename_i h1
      have ho := foldr_one h1
      rw [getD_ones ho, getD_ones (fun x hx => ho x (List.mem_of_mem_tail hx))]
    · rfl
  · have hb : decide (e.typ = py% "attribute" ∨ e.typ = py% "string") = true := by rw [ht]; decide
    rw [hb]
    obtain ⟨s, hs1, hs2⟩ := (h.str ht).2.2 d n hd hu
    refine ⟨by rw [hs2, hs1]; exact axes_text hs1, fun i => ?_⟩
    rw [hs2, hs1]
    have happ : ∀ t : List Nat, (t ++ [1]).getD i 1 = t.getD i 1 := by
      intro t
      rw [List.getD_eq_getElem?_getD, List.getD_eq_getElem?_getD]
      by_cases hi : i < t.length
      · rw [List.getElem?_append_left hi]
      · rw [List.getElem?_append_right (by omega), List.getElem?_eq_none (l := t) (by omega)]
        cases hj : i - t.length with
        | zero => rfl
        | succ j => rfl
    rw [happ]
    split
    · rename_i h1
      have ho := foldr_one h1
      rw [getD_ones ho, getD_ones (fun x hx => ho x (List.mem_of_mem_tail hx))]
    · rfl

theorem axes_getElem (b : Bool) (n : Nat) (s : List Nat) (i : Nat) (hi : i < n) :
    (axes b n s)[i]? = some (Spec.axisSize b n s i) := by
  rw [List.getElem?_eq_getElem (by rw [axes_length]; exact hi)]
  simp [axes]

theorem customDims_getElem {d : Str} {i : Nat} {x : Char} (h : (customDims (Str.upper d))[i]? = some x) :
    ∃ y, d[i]? = some y ∧ Str.upperC x = Str.upperC y ∧ (x = 'S' ↔ Str.upperC y = 'S') := by
  rw [customDims_upper] at h
  simp only [customDims, List.getElem?_map, Option.map_eq_some_iff] at h
  obtain ⟨y, hy, rfl⟩ := h
  refine ⟨y, hy, ?_, ?_⟩
  · split
    · exact upperC_upperC y
    · exact upperC_lowerC y
  · split
    · rfl
    · rename_i hn
      constructor
      · intro h
        have : Str.upperC y = Str.upperC 'S' := by rw [← h, upperC_lowerC]
        exact this
      · intro h
        rw [h] at hn
        exact absurd (by decide) hn

theorem first_is_alternative {d a : Str} (h : Spec.IsFirstAlternative d a) : Spec.IsAlternative d a := by
  obtain ⟨after, h1, h2⟩ := h
  exact ⟨[], after, h1, h2⟩

section
variable {env : Env} {nc : Nc} {o o1 o' r : Obj} {api : Dict Nat} {ds : Dict Str}

/-- everything about a variable with dimensions that was read -/
structure ReadVar (api : Dict Nat) (o' : Obj) (k : Str) (w : Val) (e2 : Entry) (d2 : Str) (v : Val) (e : Entry) (d : Str)
    (n : Nat) (alt : Str) : Prop where
  var : Spec.IsVariable o' k v e
  dims : e.dims = some d
  uniform : Spec.UniformDims d n
  pos : 1 ≤ n
  isAlt : Spec.IsAlternative d alt
  typ : e2.typ = e.typ
  types : e.typ = py% "double" ∨ e.typ = py% "string"
  sizes : axes (decide (e.typ = py% "attribute" ∨ e.typ = py% "string")) n (Spec.shapeOf w) =
    alt.map (fun c => if c = 'S' then 1 else sizeIn api (Str.upperC c))
  shape : ∀ i, (Spec.shapeOf w).getD i 1 = (alt.map (fun c => if c = 'S' then 1 else sizeIn api (Str.upperC c))).getD i 1
  which : d2 = d ∨ (d2 = customDims (Str.upper alt) ∧ ∃ c', o'.custom = some c' ∧ (k, e) ∈ c')
  known : ∀ c ∈ alt, c ≠ 'S' → ∃ n, Dict.get? api [Str.upperC c] = some n

theorem Resembles.readVar (h : Resembles nc o' r ds) (hV : Verified env o o1 api ds .write o')
    (hs : Spec.Storable env.rnd nc.isFill o') (hx : Spec.Exchangeable env o') {k : Str} {w : Val} {e2 : Entry} {d2 : Str}
    (hk : Spec.VariableWith r k w e2 d2) : ∃ v e d n alt, ReadVar api o' k w e2 d2 v e d n alt ∧ ExactItem nc.isFill v e w ∧
      Spec.ComparableType e.typ w ∧ Spec.SameValue e.typ v w := by
  obtain ⟨v, hv⟩ := get_of_mem_keys ((h.keys k).2 (mem_keys_of_get hk.value))
  obtain ⟨e, e2', g1, g2, g3, g4, g5, g6, g7⟩ := h.item k v w hv hk.value
  rw [hk.entry] at g2
  cases g2
  have hne : e.typ ≠ py% "attribute" := by
    rcases g7 with rfl | ⟨_, _, ga, _⟩
    · exact hx.dimensioned k _ d2 g1 hk.dims
    · intro ht
      have hd := hk.dims
      rw [ga ht] at hd
      cases hd
  have ht : e.typ = py% "double" ∨ e.typ = py% "string" := by
    rcases g6 with ⟨h, _⟩ | ⟨h, _⟩ | ⟨h, _⟩ <;> simp [h]
    exact absurd h hne
  have hvar : Spec.IsVariable o' k v e := ⟨hv, g1, hne⟩
  obtain ⟨s1, s2, d, n, s3, s4, s5, s6⟩ := hs.shapes k v e hvar
  obtain ⟨alt, a1, a2, a3, _, a5, a6⟩ := verified_axes hV hvar s3 s4 s5 s6
  obtain ⟨r1, r2⟩ := read_shape g4 ht s3 s4 s5
  refine ⟨v, e, d, n, alt, ⟨hvar, s3, s4, s5, a1, g3, ht, by rw [r1, a6], fun i => by rw [r2 i, a6], ?_, a5⟩, g4, g5, g6⟩
  rcases g7 with rfl | ⟨gc, _, _, g8⟩
  · left
    have := hk.dims
    rw [s3] at this
    cases this
    rfl
  · right
    obtain ⟨d', alt', b1, b2, b3, b4⟩ := g8 hne
    rw [a2] at b3
    have hup : Str.upper alt = Str.upper alt' := by simpa using b3
    have := hk.dims
    rw [b4, ← hup] at this
    cases this
    exact ⟨rfl, gc⟩

theorem Resembles.var' (h : Resembles nc o' r ds) (hx : Spec.Exchangeable env o') {k : Str} {v : Val} {e : Entry} {d : Str}
    (hk : Spec.VariableWith o' k v e d) : ∃ w e2, Dict.get? r.attrs k = some w ∧ Dict.get? r.conv k = some e2 ∧
      e2.typ = e.typ ∧ (e2.dims = some d ∨ ∃ alt, Spec.IsAlternative d alt ∧ e2.dims = some (customDims (Str.upper alt)) ∧
        ∃ c', o'.custom = some c' ∧ (k, e) ∈ c') := by
  obtain ⟨w, hw⟩ := get_of_mem_keys ((h.keys k).1 (mem_keys_of_get hk.value))
  obtain ⟨e', e2, g1, g2, g3, g4, g5, g6, g7⟩ := h.item k v w hk.value hw
  rw [hk.entry] at g1
  cases g1
  refine ⟨w, e2, hw, g2, g3, ?_⟩
  rcases g7 with rfl | ⟨gc, _, _, g8⟩
  · exact Or.inl hk.dims
  · obtain ⟨d', alt', b1, b2, b3, b4⟩ := g8 (hx.dimensioned k e d hk.entry hk.dims)
    rw [hk.dims] at b1
    cases b1
    exact Or.inr ⟨alt', b2, b4, gc⟩

theorem Resembles.sized (h : Resembles nc o' r ds) (hs : Spec.Storable env.rnd nc.isFill o') (hx : Spec.Exchangeable env o')
    {c : Char} (hc : Spec.Sized o' c) : Spec.Sized r c := by
  rcases hc with hc | hc | hc | ⟨k, v, e, d, a, x, hk, ha, hxa, hl, hu⟩
  · exact Or.inl hc
  · exact Or.inr (Or.inl hc)
  · exact Or.inr (Or.inr (Or.inl hc))
  · refine Or.inr (Or.inr (Or.inr ?_))
    obtain ⟨w, e2, w1, w2, w3, w4⟩ := h.var' hx hk
    rcases w4 with w4 | ⟨alt, b1, b2, b3⟩
    · exact ⟨k, w, e2, d, a, x, ⟨w1, w2, w4⟩, ha, hxa, hl, hu⟩
    · have hvar : Spec.IsVariable o' k v e := ⟨hk.value, hk.entry, hx.dimensioned k e d hk.entry hk.dims⟩
      obtain ⟨i, hi⟩ := List.getElem?_of_mem hxa
      obtain ⟨y, y1, y2⟩ := hx.steady k v e d hvar hk.dims a alt i x ha b1 hi hl
      -- custom letters: `x` is not one of the standard dimensions
      obtain ⟨c', hc', b3⟩ := b3
      have hlet := (hx.custom c' k e hc' b3).2 d hk.dims
      have hxd : x ∈ d := alternative_subset (first_is_alternative ha) hxa
      have hfix : x = if Str.upperC x ∈ py% "ERMNCIS" then Str.upperC x else Str.lowerC x := by
        unfold Spec.CustomLetters at hlet
        have : ∀ (l : Str), l = l.map (fun c => if Str.upperC c ∈ py% "ERMNCIS" then Str.upperC c else Str.lowerC c) →
            ∀ z ∈ l, z = if Str.upperC z ∈ py% "ERMNCIS" then Str.upperC z else Str.lowerC z := by
          intro l
          induction l with
          | nil => simp
          | cons q l ih =>
            intro he z hz
            simp only [List.map_cons, List.cons.injEq] at he
            rcases List.mem_cons.1 hz with rfl | hz
            · exact he.1
            · exact ih he.2 z hz
        exact this d hlet x hxd
      have hnot : Str.upperC x ∉ py% "ERMNCIS" := by
        intro hm
        rw [if_pos hm] at hfix
        rw [← hfix] at hm
        revert hl
        simp only [List.mem_cons, List.not_mem_nil, or_false] at hm
        rcases hm with rfl | rfl | rfl | rfl | rfl | rfl | rfl <;> decide
      rw [if_neg hnot] at hfix
      refine ⟨k, w, e2, customDims (Str.upper alt), customDims (Str.upper alt), x, ⟨w1, w2, b2⟩, ?_, ?_, hl, hu⟩
      · obtain ⟨s1, s2, d', n, s3, s4, s5, s6⟩ := hs.shapes k v e hvar
        rw [hk.dims] at s3
        cases s3
        exact (alternatives_single (customDims_comma (s4 alt b1).2)).2.2 rfl
      · rw [customDims_upper]
        refine List.mem_map.2 ⟨y, List.mem_of_getElem? y1, ?_⟩
        have hn : Str.upperC y ∉ standardDims := by rw [y2]; exact hnot
        simp only [List.contains_iff_mem]
        rw [if_neg hn]
        rw [← lowerC_upperC, y2, lowerC_upperC, ← hfix]

theorem lower_not_S {c : Char} (h : Str.isLowerC c = true) (hs : c ≠ 's') : Str.upperC c ≠ 'S' := by
  intro hu
  rcases upperC_S hu with rfl | rfl
  · revert h; decide
  · exact hs rfl

theorem Resembles.fits (h : Resembles nc o' r ds) (hV : Verified env o o1 api ds .write o')
    (hs : Spec.Storable env.rnd nc.isFill o') (hrep : Spec.Repeatable o') (hx : Spec.Exchangeable env o') :
    Spec.FitsSizes r (sizeIn api) := by
  refine ⟨?_, ?_, ?_, ?_⟩
  · rw [sizeIn, hV.apiOk.I]; rfl
  · rw [sizeIn, hV.apiOk.C]; rfl
  · intro k w e2 d2 a i x hk ha hi hl
    obtain ⟨v, e, d, n, alt, q, _⟩ := h.readVar hV hs hx hk
    have hnos : ∀ c, c ∈ alt → c ≠ 's' := by
      rintro c hc rfl
      exact hrep.dims k v e d q.var q.dims (alternative_subset q.isAlt hc)
    rw [shape_shapeOf, q.shape i]
    suffices hy : ∃ y, alt[i]? = some y ∧ Str.upperC y = Str.upperC x ∧ y ≠ 'S' by
      obtain ⟨y, y1, y2, y3⟩ := hy
      rw [List.getD_eq_getElem?_getD, List.getElem?_map, y1]
      simp only [Option.map_some, Option.getD_some]
      rw [if_neg y3, y2]
    have hup : ∀ y, y ∈ alt → Str.upperC y = Str.upperC x → x ≠ 's' → y ≠ 'S' := by
      rintro y hy hyx hxs rfl
      exact lower_not_S hl hxs hyx.symm
    rcases q.which with rfl | ⟨rfl, _⟩
    · obtain ⟨y, y1, y2⟩ := hx.steady k v e d2 q.var q.dims a alt i x ha q.isAlt hi hl
      refine ⟨y, y1, y2, hup y (List.mem_of_getElem? y1) y2 ?_⟩
      rintro rfl
      exact hrep.dims k v e d2 q.var q.dims (alternative_subset (first_is_alternative ha) (List.mem_of_getElem? hi))
    · rw [(alternatives_single (customDims_comma (q.uniform alt q.isAlt).2)).2] at ha
      subst ha
      obtain ⟨y, y1, y2, y3⟩ := customDims_getElem hi
      refine ⟨y, y1, y2.symm, ?_⟩
      rintro rfl
      rw [y3.2 (by decide)] at hl
      revert hl
      decide
  · intro k w e2 d2 first hk hf
    obtain ⟨v, e, d, n, alt, q, _⟩ := h.readVar hV hs hx hk
    have hnos : ∀ c, c ∈ alt → c ≠ 's' := by
      rintro c hc rfl
      exact hrep.dims k v e d q.var q.dims (alternative_subset q.isAlt hc)
    have hlen : alt.length = n := (q.uniform alt q.isAlt).1
    have key : ∀ i y, alt[i]? = some y → Spec.axisSize (decide (e2.typ = py% "attribute" ∨ e2.typ = py% "string")) n w.shape i =
        (if y = 'S' then 1 else sizeIn api (Str.upperC y)) := by
      intro i y hy
      have hi : i < n := by
        rw [← hlen]
        exact (List.getElem?_eq_some_iff.1 hy).1
      have h1 := axes_getElem (decide (e.typ = py% "attribute" ∨ e.typ = py% "string")) n (Spec.shapeOf w) i hi
      rw [q.sizes, List.getElem?_map, hy] at h1
      simp only [Option.map_some, Option.some.injEq] at h1
      rw [q.typ, shape_shapeOf, ← h1]
    rcases q.which with rfl | ⟨rfl, _⟩
    · rw [(q.uniform first (first_is_alternative hf)).1]
      exact ⟨alt, q.isAlt, fun hm => hnos _ hm rfl, key⟩
    · have hcomma := customDims_comma (q.uniform alt q.isAlt).2
      rw [(alternatives_single hcomma).2] at hf
      subst hf
      rw [customDims_length, hlen]
      refine ⟨_, (alternatives_single hcomma).1.2 rfl, ?_, ?_⟩
      · intro hm
        obtain ⟨a, ha, ⟨h1, h2⟩ | ⟨h1, h2⟩⟩ := customDims_letters hm
        · rw [← h1] at h2; revert h2; decide
        · have : Str.upperC a = 'S' := by rw [← upperC_lowerC, ← h1]; rfl
          rw [this] at h2
          exact h2 (by decide)
      · intro i c hc
        obtain ⟨y, y1, y2, y3⟩ := customDims_getElem hc
        rw [key i y y1, y2]
        by_cases hcS : c = 'S'
        · rw [if_pos hcS]
          rcases upperC_S (y3.1 hcS) with rfl | rfl
          · rfl
          · exact absurd rfl (hnos _ (List.mem_of_getElem? y1))
        · rw [if_neg hcS]
          rw [if_neg]
          rintro rfl
          exact hcS (y3.2 (by decide))

theorem prod_ne_zero {n : Nat} {l : List Nat} (h : (n :: l).foldr (· * ·) 1 ≠ 0) : n ≠ 0 ∧ Spec.prod l ≠ 0 := by
  simp only [List.foldr_cons] at h
  rw [prod_foldr]
  exact ⟨fun h0 => h (by rw [h0, Nat.zero_mul]), fun h0 => h (by rw [h0, Nat.mul_zero])⟩

/-- text that was read has at most one axis if this is so for the text that was written -/
theorem read_column {isFill : Kind → Num → Bool} {v w : Val} {e : Entry} {d : Str} {n : Nat} (h : ExactItem isFill v e w)
    (ht : e.typ = py% "string") (hd : e.dims = some d) (hu : Spec.UniformDims d n) (hw : Spec.Proper w)
    (hne : Spec.elems w ≠ []) (hv : Spec.TextColumn v) : Spec.TextColumn w := by
  have hform := h.form (by rw [ht]; decide)
  obtain ⟨hk, hel, hsh⟩ := h.str ht
  obtain ⟨s, hs1, hs2⟩ := hsh d n hd hu
  cases w with
  | npstr t => exact Or.inl (Or.inr ⟨t, rfl⟩)
  | arr a =>
    right
    have hdata : a.data ≠ [] := hne
    have hrect : a.data.length = a.shape.foldr (· * ·) 1 := hw.1
    have hstr : ∀ x ∈ a.data, ∃ s, x = .str s := by
      intro x hx
      have : x ∈ (Spec.elems v).map (fun e => Elem.str (stripElem e)) := hel ▸ hx
      obtain ⟨y, _, rfl⟩ := List.mem_map.1 this
      exact ⟨_, rfl⟩
    cases hshape : a.shape with
    | nil =>
      exfalso
      have := (hform hshape).1
      have hk' : a.kind = .U := hk
      rw [this] at hk'
      cases hk'
    | cons m rest =>
      have hnz : (m :: rest).foldr (· * ·) 1 ≠ 0 := by
        rw [← hshape, ← hrect]
        intro h0
        exact hdata (List.length_eq_zero_iff.1 h0)
      obtain ⟨z1, z2⟩ := prod_ne_zero hnz
      refine ⟨a, m, rest, rfl, hshape, z1, z2, ?_, hstr⟩
      have hs2' : a.shape = if s.foldr (· * ·) 1 = 1 then s.tail else s := hs2
      rw [hshape] at hs2'
      by_cases h1 : s.foldr (· * ·) 1 = 1
      · rw [if_pos h1] at hs2'
        left
        exact foldr_one h1 m (List.mem_of_mem_tail (by rw [← hs2']; simp))
      · rw [if_neg h1] at hs2'
        have hget : ∀ i x, (m :: rest)[i]? = some x → x = (Spec.shapeOf v).getD i 1 := by
          intro i x hi
          have hlen := axes_length true n (Spec.shapeOf v)
          rw [hs1, ← hs2'] at hlen
          have hil := (List.getElem?_eq_some_iff.1 hi).1
          simp only [List.length_append, List.length_singleton] at hlen
          have h2 := axes_getElem true n (Spec.shapeOf v) i (by omega)
          rw [hs1, ← hs2', List.getElem?_append_left hil, hi] at h2
          simp only [Spec.axisSize, if_true, Option.some.injEq] at h2
          exact h2
        have hones : (∀ i, (Spec.shapeOf v).getD (i + 1) 1 = 1) → Spec.prod rest = 1 := by
          intro hall
          have : ∀ x ∈ rest, x = 1 := by
            intro x hx
            obtain ⟨i, hi⟩ := List.getElem?_of_mem hx
            rw [hget (i + 1) x (by simpa using hi)]
            exact hall i
          clear hget hs2' hshape hnz z2
          induction rest with
          | nil => rfl
          | cons y l ih => simp only [Spec.prod]; rw [this y (by simp), ih (fun x hx => this x (by simp [hx]))]
        rcases hv with (⟨t, rfl⟩ | ⟨t, rfl⟩) | ⟨b, p, q, rfl, hb, _, _, hor, _⟩
        · right; exact hones (fun i => rfl)
        · right; exact hones (fun i => rfl)
        · have hb' : Spec.shapeOf (.arr b) = p :: q := hb
          rcases hor with rfl | hq
          · left
            have := hget 0 m rfl
            rw [hb'] at this
            simpa using this
          · right
            apply hones
            intro i
            rw [hb']
            show q.getD i 1 = 1
            exact getD_ones (foldr_one (by rw [← prod_foldr]; exact hq)) i
  | num q x => have hk' : q = .U := hk; rw [hform.1] at hk'; cases hk'
  | _ => exact absurd hform (by simp [AsRead])

theorem Resembles.text (h : Resembles nc o' r ds) {k : Str} {v w : Val} (hv : Dict.get? o'.attrs k = some v)
    (hw : Dict.get? r.attrs k = some w) {e : Entry} (he : Dict.get? o'.conv k = some e) (ht : e.typ = py% "attribute") :
    ∃ t, Spec.text v = some t ∧ w = .str t := by
  obtain ⟨e', e2, g1, _, _, g4, _⟩ := h.item k v w hv hw
  rw [he] at g1
  cases g1
  exact g4.attr ht

theorem elems_ne_nil {v w : Val} {typ : Str} (ht : typ ≠ py% "attribute") (h : Spec.SameValue typ v w)
    (hv : Spec.elems v ≠ []) : Spec.elems w ≠ [] := by
  rcases h with ⟨h, _⟩ | ⟨_, _, h⟩ | ⟨_, _, h⟩
  · exact absurd h ht
  · intro h0; rw [h0] at h; cases hv' : Spec.elems v with
    | nil => exact hv hv'
    | cons a l => rw [hv'] at h; cases h
  · intro h0; rw [h0] at h; cases hv' : Spec.elems v with
    | nil => exact hv hv'
    | cons a l => rw [hv'] at h; cases h

theorem Resembles.checkable (h : Resembles nc o' r ds) (hV : Verified env o o1 api ds .write o')
    (hs : Spec.Storable env.rnd nc.isFill o') (hrep : Spec.Repeatable o') (hx : Spec.Exchangeable env o') :
    Spec.Checkable r := by
  have withVar : ∀ {k w e2 d2 v e d n alt}, ReadVar api o' k w e2 d2 v e d n alt → Spec.VariableWith o' k v e d :=
    fun q => ⟨q.var.1, q.var.2.1, q.dims⟩
  refine ⟨?_, ?_, ?_, ?_, ?_, ?_⟩
  · intro k hk
    obtain ⟨w, hw⟩ := get_of_mem_keys hk
    obtain ⟨v, hv⟩ := get_of_mem_keys ((h.keys k).2 hk)
    obtain ⟨e, e2, _, g2, _⟩ := h.item k v w hv hw
    exact ⟨e2, g2⟩
  · intro c k e hc hm hd
    obtain ⟨h1, h2, _⟩ := h.custom c hc k e hm
    obtain ⟨w, hw⟩ := get_of_mem_keys h1
    obtain ⟨d, hd⟩ := Option.ne_none_iff_exists'.1 hd
    exact ⟨w, e, d, hw, h2, hd⟩
  · intro k w e2 d2 a hk ha hor
    obtain ⟨v, e, d, n, alt, q, q1, q2, q3⟩ := h.readVar hV hs hx hk
    have ht : e.typ = py% "string" := by
      rcases q.types with ht | ht
      · exfalso
        have hd1 := (hs.doubles k v e q.var ht).1
        rcases hor with h1 | h1 | h1
        · rw [q.typ, ht] at h1; exact absurd h1 (by decide)
        · rw [q.typ, ht] at h1; exact absurd h1 (by decide)
        · rcases q.which with rfl | ⟨rfl, _⟩
          · exact hd1 _ _ q.dims (first_is_alternative ha) h1
          · rw [(alternatives_single (customDims_comma (q.uniform alt q.isAlt).2)).2] at ha
            subst ha
            exact customDims_S (hd1 _ _ q.dims q.isAlt)
              (fun hm => hrep.dims k v e d q.var q.dims (alternative_subset q.isAlt hm)) h1
      · exact ht
    obtain ⟨s1, s2, _⟩ := hs.shapes k v e q.var
    refine read_column q1 ht q.dims q.uniform ?_ (elems_ne_nil q.var.2.2 q3 s2)
      (hx.check.texts k v e d _ (withVar q) (isFirst_firstAlt d) (Or.inl ht))
    rcases q2 with ⟨h, _⟩ | ⟨_, h⟩ | ⟨_, h⟩
    · exact absurd h q.var.2.2
    · exact h.1
    · exact h.1
  · intro k w e2 d2 a hk ha
    obtain ⟨v, e, d, n, alt, q, _⟩ := h.readVar hV hs hx hk
    have h4 := hx.check.four k v e d _ (withVar q) (isFirst_firstAlt d)
    rw [(q.uniform _ (first_is_alternative (isFirst_firstAlt d))).1] at h4
    rcases q.which with rfl | ⟨rfl, _⟩
    · rw [(q.uniform _ (first_is_alternative ha)).1]; exact h4
    · rw [(alternatives_single (customDims_comma (q.uniform alt q.isAlt).2)).2] at ha
      subst ha
      rw [customDims_length, (q.uniform alt q.isAlt).1]
      exact h4
  · intro k w e2 d2 a hk ha c hc
    obtain ⟨v, e, d, n, alt, q, _⟩ := h.readVar hV hs hx hk
    rcases q.which with rfl | ⟨rfl, _⟩
    · exact h.sized hs hx (hx.check.sized k v e d2 a (withVar q) ha c hc)
    · rw [(alternatives_single (customDims_comma (q.uniform alt q.isAlt).2)).1] at ha
      subst ha
      obtain ⟨i, hi⟩ := List.getElem?_of_mem hc
      obtain ⟨y, y1, y2, _⟩ := customDims_getElem hi
      rw [y2]
      exact h.sized hs hx (hx.check.sized k v e d alt (withVar q) q.isAlt y (List.mem_of_getElem? y1))
  · obtain ⟨v, t, q, g1, g2, g3⟩ := hx.check.version
    obtain ⟨w, hw⟩ := get_of_mem_keys ((h.keys _).1 (mem_keys_of_get g1))
    obtain ⟨e, e2, i1, _, _, i4, _⟩ := h.item _ v w g1 hw
    have ht : e.typ = py% "attribute" := by
      refine Classical.byContradiction fun hne => ?_
      exact (hs.separate _ _ _ ⟨g1, i1, hne⟩).1 (by decide)
    obtain ⟨t', t1, t2⟩ := i4.attr ht
    rw [g2] at t1
    cases t1
    exact ⟨w, t, q, hw, by rw [t2]; rfl, g3⟩

theorem Resembles.typed (h : Resembles nc o' r ds) {k : Str} {e2 : Entry} (he : Dict.get? r.conv k = some e2) :
    ∃ e, Dict.get? o'.conv k = some e ∧ e2.typ = e.typ := by
  rcases h.entries k e2 he with h1 | h1
  · exact ⟨e2, h1, rfl⟩
  · obtain ⟨w, hw⟩ := get_of_mem_keys h1
    obtain ⟨v, hv⟩ := get_of_mem_keys ((h.keys k).2 h1)
    obtain ⟨e, e2', g1, g2, g3, _⟩ := h.item k v w hv hw
    rw [he] at g2
    cases g2
    exact ⟨e, g1, g3⟩

theorem Resembles.back' (h : Resembles nc o' r ds) {k : Str} {w : Val} (hw : Dict.get? r.attrs k = some w) :
    ∃ v e, Dict.get? o'.attrs k = some v ∧ Dict.get? o'.conv k = some e ∧
      (e.typ = py% "attribute" → Spec.text w = Spec.text v) := by
  obtain ⟨v, hv⟩ := get_of_mem_keys ((h.keys k).2 (mem_keys_of_get hw))
  obtain ⟨e, e2, g1, g2, g3, g4, _⟩ := h.item k v w hv hw
  refine ⟨v, e, hv, g1, fun ht => ?_⟩
  obtain ⟨t, t1, t2⟩ := g4.attr ht
  rw [t1, t2]
  rfl

theorem Resembles.regular (h : Resembles nc o' r ds) (hs : Spec.Storable env.rnd nc.isFill o')
    (hx : Spec.Exchangeable env o') : Spec.RegularRules env r := by
  have ht : ∀ k, (∀ e, Dict.get? o'.conv k = some e → e.typ = py% "attribute") →
      ∀ e2, Dict.get? r.conv k = some e2 → e2.typ = py% "attribute" := by
    intro k hall e2 he2
    obtain ⟨e, e1, e3⟩ := h.typed he2
    rw [e3]
    exact hall e e1
  refine ⟨hx.rules.ordinary, fun key rule hm hor => ht _ (hx.rules.typed key rule hm hor), hx.rules.unit, ?_, ?_⟩
  · intro key rule w t sp items hm hw htext hsp hit
    obtain ⟨v, e, v1, v2, v3⟩ := h.back' hw
    have hat := hx.rules.typed key rule hm (Or.inr (by rw [hsp]; simp)) e v2
    obtain ⟨i1, i2⟩ := hx.rules.items key rule v t sp items hm v1 (by rw [← v3 hat]; exact htext) hsp hit
    refine ⟨fun k l hk => ⟨ht _ (i1 k l hk).1, (i1 k l hk).2⟩, fun l d sizes str hl hd => ?_⟩
    obtain ⟨c, c1, c2⟩ := i2 l d sizes str hl hd
    exact ⟨c, c1, h.sized hs hx c2⟩
  · intro k e2 hk he2 hu
    obtain ⟨e, e1, e3⟩ := h.typed he2
    rw [e3]
    exact hx.rules.units k e ((h.keys k).2 hk) e1 hu

theorem Allowed.same {aliases : Dict Str} {key : Str} {v w : Val} {l : List Str} (h : Spec.text w = Spec.text v)
    (ha : Spec.Allowed aliases key v l) : Spec.Allowed aliases key w l := by
  obtain ⟨t, t1, t2⟩ := ha
  exact ⟨t, h.trans t1, t2⟩

theorem Resembles.obeyed (h : Resembles nc o' r ds) (hV : Verified env o o1 api ds .write o')
    (hs : Spec.Storable env.rnd nc.isFill o') (hx : Spec.Exchangeable env o') :
    ∀ key rule, (key, rule) ∈ env.rules → Spec.RuleObeyed env.aliases r (sizeIn api) key rule := by
  intro key rule hm w hw
  have hrule := (((phaseRules_nil hx.rules.ordinary).1 hV.passes.rules).1 (key, rule) hm).1
  obtain ⟨v, e, v1, v2, v3⟩ := h.back' hw
  obtain ⟨r1, r2, r3⟩ := hrule v v1
  refine ⟨?_, ?_, ?_⟩
  · intro l hl
    exact Allowed.same (v3 (hx.rules.typed key rule hm (Or.inl (by rw [hl]; simp)) e v2)) (r1 l hl)
  · intro g hg
    obtain ⟨x, hx'⟩ := r2 g hg
    exact get_of_mem_keys ((h.keys _).1 (mem_keys_of_get hx'))
  · intro sp t items hsp htext hit i hi
    have hat := hx.rules.typed key rule hm (Or.inr (by rw [hsp]; simp)) e v2
    have htv : Spec.text v = some t := by rw [← v3 hat]; exact htext
    have hold := r3 sp t items hsp htv hit i hi
    obtain ⟨i1, i2⟩ := hx.rules.items key rule v t sp items hm v1 htv hsp hit
    cases i with
    | dims l =>
      intro d sizes str hd
      obtain ⟨c, rfl, c2⟩ := i2 l d sizes str hi hd
      obtain ⟨m, m1, m2⟩ := hold _ sizes str hd
      refine ⟨c, rfl, ?_, h.sized hs hx c2, ?_⟩
      · rintro rfl
        exact hx.lengths key rule sp _ items l _ hm hsp hit hi (List.mem_map.2 ⟨_, hd, rfl⟩) rfl
      · have hapi : o'.api = some api := by rw [hV.obj]
        rw [hapi, Option.getD_some] at m1
        rw [sizeIn, m1]
        exact m2
    | dep k ref =>
      obtain ⟨x, x1, x2⟩ := hold
      obtain ⟨y, hy⟩ := get_of_mem_keys ((h.keys _).1 (mem_keys_of_get x1))
      refine ⟨y, hy, fun l hl => ?_⟩
      obtain ⟨v', e', w1, w2, w3⟩ := h.back' hy
      rw [x1] at w1
      cases w1
      exact Allowed.same (w3 ((i1 k l (by rw [← hl]; exact hi)).1 e' w2)) (x2 l hl)

theorem Resembles.conforms (h : Resembles nc o' r ds) (hV : Verified env o o1 api ds .write o')
    (hs : Spec.Storable env.rnd nc.isFill o') (hrep : Spec.Repeatable o') (hx : Spec.Exchangeable env o') (b : Bool) :
    Spec.Conforms env r b := by
  obtain ⟨a1, a2, a3, a4⟩ := hV.attrs
  refine ⟨?_, ?_, ?_, ⟨sizeIn api, h.fits hV hs hrep hx, h.obeyed hV hs hx⟩, ?_, ?_⟩
  · intro k e2 f hm hf hmem
    rcases h.conv k e2 hm with h1 | ⟨_, h1⟩
    · refine (h.keys k).1 ?_
      have := (isMandatory_iff o1).1 hV.passes.mandatory k e2 f (a3 ▸ h1) hf hmem
      unfold Spec.IsData
      rw [a1, ← a2]
      exact this
    · rw [hf] at h1; simp at h1
  · intro k w hw
    obtain ⟨v, hv⟩ := get_of_mem_keys ((h.keys k).2 (mem_keys_of_get hw))
    obtain ⟨e, e2, g1, g2, g3, g4, g5, g6, g7⟩ := h.item k v w hv hw
    refine ⟨e2, g2, ?_⟩
    rw [g3]
    rcases g6 with ⟨ht, _⟩ | ⟨ht, _⟩ | ⟨ht, _⟩
    · obtain ⟨t, _, t2⟩ := g4.attr ht
      exact Or.inl ⟨ht, Or.inl ⟨t, t2⟩⟩
    · refine Or.inr (Or.inl ⟨ht, ?_⟩)
      have hk := (g4.num ht).1
      have hf := g4.form (by rw [ht]; decide)
      cases w with
      | num q x => rw [hf.1]; exact Or.inr (Or.inl ⟨x, rfl⟩)
      | arr a => exact Or.inr (Or.inr ⟨a, rfl, Or.inr hk⟩)
      | npstr t => exact absurd hk (by simp [Spec.kindOf])
      | _ => exact absurd hf (by simp [AsRead])
    · refine Or.inr (Or.inr ⟨ht, ?_⟩)
      have hk := (g4.str ht).1
      have hf := g4.form (by rw [ht]; decide)
      cases w with
      | num q x => have hk' : q = .U := hk; rw [hf.1] at hk'; cases hk'
      | arr a => exact Or.inr ⟨a, rfl, hk⟩
      | npstr t => exact Or.inl (Or.inr ⟨t, rfl⟩)
      | _ => exact absurd hf (by simp [AsRead])
  · intro k e2 hk he2
    obtain ⟨w, hw⟩ := get_of_mem_keys hk
    obtain ⟨v, hv⟩ := get_of_mem_keys ((h.keys k).2 hk)
    obtain ⟨e, e2', g1, g2, g3, _⟩ := h.item k v w hv hw
    rw [he2] at g2
    cases g2
    have hall : ∀ j ∈ o1.keys, ∃ e, Dict.get? o1.conv j = some e := by
      intro j hj
      obtain ⟨w, hw⟩ := get_of_mem_keys hj
      rw [a2] at hw
      obtain ⟨e', he', _⟩ := hV.types hw
      exact ⟨e', a3 ▸ he'⟩
    have hn := (phaseNames_nil o1 o1.keys hall).1 hV.passes.names k (mem_keys_of_get (a2 ▸ a1 ▸ hv)) e (a3 ▸ g1)
    refine ⟨?_, ?_, ?_, ?_, ?_⟩
    · intro hty
      obtain ⟨var, hb, hor⟩ := hn.attr (g3 ▸ hty)
      obtain ⟨att, hka, hatt⟩ := beforeLast_some hb
      refine ⟨var, att, hka, hatt, ?_⟩
      rcases hor with hor | hor
      · exact Or.inl (by simpa [Str.startsWith] using hor)
      · right
        rw [Dict.has_iff_mem, ← a3] at hor
        exact h.back var hor
    · intro hty p s hps
      exact replace_data (hn.var (g3 ▸ hty)) p s hps
    · intro hp
      have := hn.notPrivate
      rw [Str.startsWith, List.isPrefixOf_iff_prefix.2 hp] at this
      cases this
    · intro hp
      have := hn.notApi
      rw [Str.startsWith, List.isPrefixOf_iff_prefix.2 hp] at this
      cases this
    · intro hp
      have := hn.glob (by simpa [Str.startsWith] using hp)
      rw [g3]
      simpa [Str.startsWith] using this
  · intro _ k w hw hu
    obtain ⟨v, e, v1, v2, v3⟩ := h.back' hw
    obtain ⟨u, u1, u2⟩ := ((phaseRules_nil hx.rules.ordinary).1 hV.passes.rules).2 rfl k v v1 hu
    exact ⟨u, by rw [v3 (hx.rules.units k e (mem_keys_of_get v1) v2 hu)]; exact u1, u2⟩
  · intro _ c w hw hc
    obtain ⟨v, e, v1, v2, v3⟩ := h.back' hw
    have hat : e.typ = py% "attribute" := by
      refine Classical.byContradiction fun hne => ?_
      exact (hs.separate _ _ _ ⟨v1, v2, hne⟩).1 (by decide)
    rw [v3 hat, ← asStr_text] at hc
    obtain ⟨w8, hw8⟩ := hV.passes.deprec
    unfold phaseDeprecations at hw8
    rw [getAttr_of_get v1] at hw8
    simp only [hc] at hw8
    split at hw8
    · simp at hw8
    · split at hw8
      · simp at hw8
      · cases hdep : Dict.get? env.deprecations c with
        | none => rfl
        | some y => simp [deprecationText, hdep] at hw8

end

/-! ## Objects that were read -/

theorem mem_put_cases {d : Dict Entry} {k n : Str} {e x : Entry} (h : (k, x) ∈ Dict.put d n e) :
    (k, x) ∈ d ∨ (k, x) = (n, e) := by
  induction d with
  | nil => simp only [Dict.put, List.mem_singleton] at h; exact Or.inr h
  | cons p d ih =>
    obtain ⟨a, b⟩ := p
    simp only [Dict.put] at h
    split at h
    · rename_i hq
      subst hq
      rcases List.mem_cons.1 h with h | h
      · exact Or.inr h
      · exact Or.inl (by simp [h])
    · rcases List.mem_cons.1 h with h | h
      · exact Or.inl (by simp [h])
      · rcases ih h with h | h
        · exact Or.inl (by simp [h])
        · exact Or.inr h

theorem mem_put_other {d : Dict Entry} {k n : Str} {e x : Entry} (h : (k, x) ∈ d) (hk : k ≠ n) : (k, x) ∈ Dict.put d n e := by
  induction d with
  | nil => simp at h
  | cons p d ih =>
    obtain ⟨a, b⟩ := p
    simp only [Dict.put]
    rcases List.mem_cons.1 h with h | h
    · cases h
      rw [if_neg (by simpa using hk)]
      simp
    · split
      · simp [h]
      · simp [ih h]

theorem mem_foldl_put_entry {l d : Dict Entry} {k : Str} {x : Entry} (h : (k, x) ∈ l.foldl (fun d p => Dict.put d p.1 p.2) d) :
    (k, x) ∈ d ∨ (k, x) ∈ l := by
  induction l generalizing d with
  | nil => exact Or.inl h
  | cons p l ih =>
    rcases ih h with h | h
    · rcases mem_put_cases h with h | h
      · exact Or.inl h
      · exact Or.inr (by simp [h])
    · exact Or.inr (by simp [h])

theorem mem_foldl_put_other {l d : Dict Entry} {k : Str} {x : Entry} (h : (k, x) ∈ d) (hk : k ∉ Dict.keys l) :
    (k, x) ∈ l.foldl (fun d p => Dict.put d p.1 p.2) d := by
  induction l generalizing d with
  | nil => exact h
  | cons p l ih =>
    simp only [Dict.keys, List.map_cons, List.mem_cons, not_or] at hk
    exact ih (mem_put_other h hk.1) hk.2

theorem mem_mergeCustom {conv cust : Dict Entry} {k : Str} {x : Entry} :
    ((k, x) ∈ (mergeCustom conv cust).1 → (k, x) ∈ conv ∨ (k, x) ∈ (mergeCustom conv cust).2) ∧
    ((k, x) ∈ conv → (k, x) ∈ (mergeCustom conv cust).1) := by
  constructor
  · exact mem_foldl_put_entry
  · intro h
    apply mem_foldl_put_other h
    intro hk
    obtain ⟨p, hp, rfl⟩ := List.mem_map.1 hk
    have := (List.mem_filter.1 hp).2
    rw [(Dict.has_iff_mem _ _).2 (List.mem_map.2 ⟨_, h, rfl⟩)] at this
    simp at this

/-- the convention of an object after loading it -/
theorem reset_form {env : Env} {o o1 : Obj} {c v : Str} {conv : Dict Entry} (h : resetConvention env o = .ok o1)
    (hc : Spec.HasText o (py% "GLOBAL_SOFAConventions") c) (hv : Spec.HasText o (py% "GLOBAL_SOFAConventionsVersion") v)
    (hl : loadConvention env c (.exact v) = .ok conv) :
    verifyConvention env v c = .ok () ∧ o1 = match o.custom with
      | none => { o with conv := conv }
      | some cust => { o with conv := (mergeCustom conv cust).1, custom := some (mergeCustom conv cust).2 } := by
  obtain ⟨cv, c', vv, conv', r1, r2, r3, r4, r5, r6⟩ := resetConvention_inv h
  obtain ⟨wc, hwc, htc⟩ := hc
  obtain ⟨wv, hwv, htv⟩ := hv
  rw [getAttr_of_get hwc] at r1
  rw [getAttr_of_get hwv] at r3
  cases r1
  cases r3
  rw [asStr_text, htc] at r2
  cases r2
  rw [pyStr_text htv] at r4 r5
  rw [hl] at r5
  cases r5
  exact ⟨r4, r6⟩

theorem reset_of {env : Env} {o : Obj} {c v : Str} {conv : Dict Entry} 
    (hc : Spec.HasText o (py% "GLOBAL_SOFAConventions") c) (hv : Spec.HasText o (py% "GLOBAL_SOFAConventionsVersion") v)
    (hk : verifyConvention env v c = .ok ()) (hl : loadConvention env c (.exact v) = .ok conv) :
    resetConvention env o = .ok (match o.custom with
      | none => { o with conv := conv }
      | some cust => { o with conv := (mergeCustom conv cust).1, custom := some (mergeCustom conv cust).2 }) := by
  obtain ⟨wc, hwc, htc⟩ := hc
  obtain ⟨wv, hwv, htv⟩ := hv
  unfold resetConvention
  simp only [getAttr_of_get hwc, getAttr_of_get hwv, asStr_text, htc, pyStr_text htv, hk, hl]
  cases o.custom <;> rfl

/-- an object that was read resembles the object that was written -/
theorem resembles_of_read {env : Env} {nc : Nc} {fs : FS} {filename : Str} {o : Obj} {compression : Nat} {c v : Str}
    {arg : VerifyArg} {verbose : Bool} {new o2 : Obj} {path' : Str} {f' : NcFile} {c' v' : Str} {new' o0 : Obj}
    (hw : (writeSofa env nc fs filename o compression).out = .ok ())
    (hs : Spec.Storable env.rnd nc.isFill (writeSofa env nc fs filename o compression).obj)
    (hx : Spec.Exchangeable env (writeSofa env nc fs filename o compression).obj)
    (hc : Spec.HasText o (py% "GLOBAL_SOFAConventions") c) (hv : Spec.HasText o (py% "GLOBAL_SOFAConventionsVersion") v)
    (hnew : (initSofa env c false (.exact v) arg).out = .ok new) (hd : Spec.DescribesItself c v new)
    (hR : ReadOk env nc (writeSofa env nc fs filename o compression).fs filename arg verbose o2 path' f' c' v' new' o0) :
    ∃ o1 api ds r, Verified env o o1 api ds .write (writeSofa env nc fs filename o compression).obj ∧
      resetConvention env o2 = .ok r ∧ Resembles nc (writeSofa env nc fs filename o compression).obj r ds ∧
      r.attrs = o2.attrs ∧ Spec.HasText o2 (py% "GLOBAL_SOFAConventions") c ∧
      Spec.HasText o2 (py% "GLOBAL_SOFAConventionsVersion") v := by
  obtain ⟨o1, api, ds, hV, ⟨hnd2, hcn2, hsub2, hmade2⟩, hIs, htyp⟩ := round_trip_of hw hs hc hv hnew hd hR
  generalize (writeSofa env nc fs filename o compression).obj = o' at *
  obtain ⟨hstd, _⟩ := newSofa_conv hnew hd.name hd.version
  have hat := hV.attrs
  -- name and version are still the same
  have htext : ∀ k t, (py% "GLOBAL_") <+: k → Spec.HasText o k t → Spec.HasText o2 k t := by
    rintro k t hpre ⟨x, hx, ht⟩
    rw [← hat.1] at hx
    obtain ⟨w, hw⟩ := get_of_mem_keys ((hIs k).1 (mem_keys_of_get hx))
    obtain ⟨i, e, e2, rfl, rfl, hg, _⟩ := htyp k x w hx hw
    have h4 : e.typ = py% "attribute" := by
      refine Classical.byContradiction fun hne => ?_
      exact (hs.separate _ _ _ ⟨hg.value, hg.entry, hne⟩).1 hpre
    obtain ⟨t', t1, t2⟩ := hg.exact.attr h4
    rw [ht] at t1
    cases t1
    exact ⟨_, hw, by rw [t2]; rfl⟩
  have hc2 := htext _ _ (by decide) hc
  have hv2 := htext _ _ (by decide) hv
  obtain ⟨hvc, ho1⟩ := reset_form hV.reset hc hv hstd
  have hreset := reset_of hc2 hv2 hvc hstd
  refine ⟨o1, api, ds, _, hV, hreset, ?_, ?_, hc2, hv2⟩
  · have hcv : o'.conv = o1.conv := hat.2.2.1
    have hcu : o'.custom = o1.custom := hat.2.2.2
    -- entries of the object that was written
    have hmem : ∀ k e, (k, e) ∈ new.conv → (k, e) ∈ o'.conv := by
      intro k e hm
      rw [hcv, ho1]
      cases o.custom with
      | none => exact hm
      | some cu => exact mem_mergeCustom.2 hm
    have hold : ∀ k e, (k, e) ∈ o'.conv → (k, e) ∈ new.conv ∨ ∃ c', o'.custom = some c' ∧ (k, e) ∈ c' := by
      intro k e hm
      rw [hcv, ho1] at hm
      rw [hcu, ho1]
      cases hc : o.custom with
      | none => rw [hc] at hm; exact Or.inl hm
      | some cu =>
        rw [hc] at hm
        rcases mem_mergeCustom.1 hm with h | h
        · exact Or.inl h
        · exact Or.inr ⟨_, rfl, h⟩
    -- entries of the object that was read
    have hget : ∀ k, Dict.get? ((match o2.custom with
        | none => { o2 with conv := new.conv }
        | some cust => { o2 with conv := (mergeCustom new.conv cust).1, custom := some (mergeCustom new.conv cust).2 } : Obj)).conv k
        = (match Dict.get? new.conv k with | some e => some e | none => Dict.get? (o2.custom.getD []) k) := by
      intro k
      cases hcc : o2.custom with
      | none =>
        simp only [Option.getD_none]
        cases Dict.get? new.conv k <;> rfl
      | some cu =>
        rw [hcc] at hcn2
        simp only [Option.getD_some] at hcn2 ⊢
        exact (get?_mergeCustom new.conv cu k hcn2).1
    have hitem : ∀ k v w, Dict.get? o'.attrs k = some v → Dict.get? o2.attrs k = some w →
        ∃ e e2, Dict.get? o'.conv k = some e ∧ (match Dict.get? new.conv k with | some e => some e | none => Dict.get? (o2.custom.getD []) k) = some e2 ∧ e2.typ = e.typ ∧ ExactItem nc.isFill v e w ∧
      Spec.ComparableType e.typ w ∧ Spec.SameValue e.typ v w ∧
      (e2 = e ∨ ((∃ c', o'.custom = some c' ∧ (k, e) ∈ c') ∧
        e2.flags = none ∧ (e.typ = py% "attribute" → e2.dims = none) ∧
        (e.typ ≠ py% "attribute" → ∃ d alt, e.dims = some d ∧ Spec.IsAlternative d alt ∧
          Dict.get? ds k = some (Str.upper alt) ∧ e2.dims = some (customDims (Str.upper alt))))) := by
      intro k x w hx hw
      obtain ⟨i, e, e2, rfl, rfl, hg, g1, g2, g3⟩ := htyp k x w hx hw
      refine ⟨e, e2, hg.entry, ?_, g2, hg.exact, hg.fits, hg.same, ?_⟩
      · rcases g3 with ⟨a1, rfl, _⟩ | ⟨a1, _, a3⟩
        · rw [a1]
        · rw [a1]; exact a3
      · rcases g3 with ⟨_, h, _⟩ | ⟨a1, ⟨cd, hcd, rfl⟩, _⟩
        · exact Or.inl h
        · right
          refine ⟨?_, rfl, ?_, ?_⟩
          · rcases hold _ _ (Dict.mem_of_get? hg.entry) with h | h
            · exact absurd (List.mem_map.2 ⟨_, h, rfl⟩) ((Dict.get?_eq_none_iff _ _).1 a1)
            · exact h
          · intro ht
            rcases hcd with ⟨_, rfl⟩ | ⟨h, _⟩
            · rfl
            · exact absurd ht h
          · intro ht
            rcases hcd with ⟨h, _⟩ | ⟨_, d, alt, d1, d2, d3, rfl⟩
            · exact absurd h ht
            · exact ⟨d, alt, d1, d2, d3, rfl⟩
    have hattr : ((match o2.custom with
        | none => { o2 with conv := new.conv }
        | some cust => { o2 with conv := (mergeCustom new.conv cust).1, custom := some (mergeCustom new.conv cust).2 } : Obj)).attrs
        = o2.attrs := by cases o2.custom <;> rfl
    have hdata : ∀ k e, Dict.get? (o2.custom.getD []) k = some e → Dict.get? new.conv k = none → e.flags = none ∧
        ∃ c' e', o'.custom = some c' ∧ (k, e') ∈ c' ∧ Dict.get? o'.conv k = some e' := by
      intro k e he hn
      have hk := hsub2 k e he
      obtain ⟨w, hw⟩ := get_of_mem_keys hk
      obtain ⟨x, hx⟩ := get_of_mem_keys ((hIs k).2 hk)
      obtain ⟨e', e2, g1, g2, g3, _, _, _, g7⟩ := hitem k x w hx hw
      rw [hn] at g2
      rw [he] at g2
      cases g2
      have hc' : ∃ c', o'.custom = some c' ∧ (k, e') ∈ c' := by
        rcases hold _ _ (Dict.mem_of_get? g1) with h | h
        · exact absurd (List.mem_map.2 ⟨_, h, rfl⟩) ((Dict.get?_eq_none_iff _ _).1 hn)
        · exact h
      obtain ⟨c', c1, c2⟩ := hc'
      refine ⟨?_, c', e', c1, c2, g1⟩
      obtain ⟨i, e'', e3, h1, _, _, g1', _, g3'⟩ := htyp k x w hx hw
      rcases g3' with ⟨a1, _⟩ | ⟨_, ⟨cd, _, rfl⟩, a3⟩
      · rw [hn] at a1; simp at a1
      · rw [he] at a3
        cases a3
        rfl
    have hmerged : ∀ cu, o2.custom = some cu → ∀ k e, (k, e) ∈ (mergeCustom new.conv cu).2 →
        Dict.get? new.conv k = none ∧ Dict.get? (o2.custom.getD []) k = some e := by
      intro cu hcc k e hm
      rw [hcc] at hcn2 ⊢
      simp only [Option.getD_some] at hcn2 ⊢
      have := Dict.get?_of_mem (Dict.nodup_filter _ hcn2) hm
      have h2 := (get?_mergeCustom new.conv cu k hcn2).2
      rw [show Dict.get? (mergeCustom new.conv cu).2 k = some e from this] at h2
      cases hn : Dict.get? new.conv k with
      | some e' => rw [hn] at h2; simp at h2
      | none => rw [hn] at h2; exact ⟨rfl, h2.symm⟩
    refine ⟨?_, ?_, ?_, ?_, ?_, ?_, ?_⟩
    · intro k
      rw [hIs]
      unfold Spec.IsData
      rw [hattr]
    · intro k x w hx hw
      rw [hattr] at hw
      rw [hget]
      exact hitem k x w hx hw
    · intro k e2 hm
      unfold Spec.IsData
      rw [hattr]
      cases hcc : o2.custom with
      | none => rw [hcc] at hm; exact Or.inl (hmem k e2 hm)
      | some cu =>
        rw [hcc] at hm
        rcases mem_mergeCustom.1 hm with h | h
        · exact Or.inl (hmem k e2 h)
        · obtain ⟨h1, h2⟩ := hmerged cu hcc k e2 h
          exact Or.inr ⟨hsub2 k e2 h2, (hdata k e2 h2 h1).1⟩
    · intro k e2 he2
      rw [hget] at he2
      cases hn : Dict.get? new.conv k with
      | some e =>
        rw [hn] at he2
        cases he2
        left
        rw [hcv]
        exact resetConvention_std hV.reset hc hv hstd hn
      | none =>
        rw [hn] at he2
        right
        unfold Spec.IsData
        rw [hattr]
        exact hsub2 k e2 he2
    · intro k hk
      obtain ⟨p, hp, rfl⟩ := List.mem_map.1 hk
      obtain ⟨k, e⟩ := p
      rw [← Dict.has_iff_mem, Dict.has_iff]
      rcases hold k e hp with h | ⟨c', h1, h2⟩
      · cases hn : Dict.get? new.conv k with
        | none => exact absurd (List.mem_map.2 ⟨_, h, rfl⟩) ((Dict.get?_eq_none_iff _ _).1 hn)
        | some e => exact ⟨e, by rw [hget, hn]⟩
      · have hk := (hx.custom c' k e h1 h2).1
        obtain ⟨x, hx⟩ := get_of_mem_keys hk
        obtain ⟨w, hw⟩ := get_of_mem_keys ((hIs k).1 hk)
        obtain ⟨e', e2, g1, g2, _⟩ := hitem k x w hx hw
        exact ⟨e2, by rw [hget]; exact g2⟩
    · intro c hc k e hm
      have : ∃ cu, o2.custom = some cu ∧ c = (mergeCustom new.conv cu).2 := by
        cases hcc : o2.custom with
        | none => rw [hcc] at hc; simp at hc
        | some cu => rw [hcc] at hc; exact ⟨cu, rfl, by simpa using hc.symm⟩
      obtain ⟨cu, hcc, rfl⟩ := this
      obtain ⟨h1, h2⟩ := hmerged cu hcc k e hm
      refine ⟨?_, ?_, (hdata k e h2 h1).2⟩
      · unfold Spec.IsData
        rw [hattr]
        exact hsub2 k e h2
      · rw [hget, h1]
        exact h2
    · intro hno
      cases hcc : o2.custom with
      | none => rfl
      | some cu =>
        exfalso
        obtain ⟨k, k1, k2⟩ := hmade2 (by rw [hcc]; simp)
        obtain ⟨w, hw⟩ := get_of_mem_keys k1
        obtain ⟨x, hx⟩ := get_of_mem_keys ((hIs k).2 k1)
        obtain ⟨e, e2, g1, _⟩ := hitem k x w hx hw
        rcases hold _ _ (Dict.mem_of_get? g1) with h | ⟨c', h, _⟩
        · exact absurd (List.mem_map.2 ⟨_, h, rfl⟩) ((Dict.get?_eq_none_iff _ _).1 k2)
        · rw [hno] at h; simp at h
  · cases o2.custom <;> rfl

end Sofar
