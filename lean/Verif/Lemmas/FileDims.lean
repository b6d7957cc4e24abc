import Verif.Lemmas.FileOrder
import Verif.Lemmas.Report
import Verif.Lemmas.Trips
/-!
# Verification of files with the same content in another order
-/
namespace Sofar

/-! ## Shapes of variables of the file -/

theorem lowerC_ne_comma {c : Char} (h : c ≠ ',') : Str.lowerC c ≠ ',' := by
  unfold Str.lowerC
  split
  · rename_i hc
    intro he
    have h1 : 65 ≤ c.toNat := hc.1
    have h2 : c.toNat ≤ 90 := hc.2
    have h3 := congrArg Char.toNat he
    rw [ofNat_toNat (by omega)] at h3
    have : (',' : Char).toNat = 44 := rfl
    omega
  · exact h

theorem customDims_noComma {d : Str} (h : ',' ∉ d) : ',' ∉ customDims d := by
  intro hm
  obtain ⟨c, hc, he⟩ := List.mem_map.1 hm
  split at he
  · rename_i hs
    rw [he] at hs
    exact absurd hs (by decide)
  · exact lowerC_ne_comma (fun e => h (e ▸ hc)) he

theorem single_alternative {d : Str} (h : ',' ∉ d) : Str.splitCommaSpace d = [d] := by
  symm
  apply alternatives_eq
  refine ⟨rfl, by simp, ?_⟩
  intro a ha hi
  simp only [List.mem_singleton] at ha
  subst ha
  exact h (hi.subset (by simp))

theorem ones_of_prod {l : List Nat} (h : l.foldr (· * ·) 1 = 1) : ∀ x ∈ l, x = 1 := by
  induction l with
  | nil => intro x hx; cases hx
  | cons a l ih =>
    simp only [List.foldr_cons] at h
    obtain ⟨h1, h2⟩ : a = 1 ∧ l.foldr (· * ·) 1 = 1 :=
      ⟨Nat.eq_one_of_mul_eq_one_right h, Nat.eq_one_of_mul_eq_one_left h⟩
    intro x hx
    rcases List.mem_cons.1 hx with rfl | hx
    · exact h1
    · exact ih h2 x hx

theorem getD_compare (act : List Nat) {len i : Nat} (hi : i < len) : (compareShape act len).getD i 1 = act.getD i 1 := by
  unfold compareShape
  rw [getD_padOnes, List.getD_eq_getElem?_getD, List.getD_eq_getElem?_getD, List.getElem?_take, if_pos hi]

theorem getD_atleast {s : List Nat} (h : 2 ≤ s.length ∨ ∀ x ∈ s, x = 1) (i : Nat) :
    (Arr.atleastNdShape 4 s).getD i 1 = s.getD i 1 := by
  unfold Arr.atleastNdShape
  rw [getD_padOnes]
  match s, h with
  | [], _ =>
    show [1, 1, 1].getD i 1 = _
    rw [getD_ones (by simp), getD_ones (by simp)]
  | [n], h =>
    have hn : n = 1 := (h.resolve_left (by simp)) n (by simp)
    subst hn
    show [1, 1, 1].getD i 1 = _
    rw [getD_ones (by simp), getD_ones (by simp)]
  | [m, n], _ =>
    show [m, n, 1].getD i 1 = _
    match i with
    | 0 => rfl
    | 1 => rfl
    | 2 => rfl
    | i + 3 => rfl
  | a :: b :: c :: t, _ => rfl

/-- shape of numbers from a file -/
theorem formatFrom_shape {nc : Nc} {n : Str} {a : Arr} {v : Val} (h : (formatFrom nc n a).1 = .ok v) (hk : a.kind ≠ .S) :
    v.shape = a.shape ∨ ((∀ x ∈ v.shape, x = 1) ∧ ∀ x ∈ a.shape, x = 1) := by
  have key : ∀ b : Arr, b.shape = a.shape → squeezeSingle n b = .ok v →
      v.shape = a.shape ∨ ((∀ x ∈ v.shape, x = 1) ∧ ∀ x ∈ a.shape, x = 1) := by
    intro b hb hs
    unfold squeezeSingle at hs
    split at hs
    · rename_i hc
      have hone : ∀ x ∈ b.shape, x = 1 := ones_of_prod hc.1
      right
      rw [← hb]
      refine ⟨?_, hone⟩
      unfold firstItem at hs
      split at hs
      · split at hs
        · cases hs; intro x hx; cases hx
        · cases hs
          rename_i k e _ _ _ _
          intro x hx
          unfold scalarOf at hx
          split at hx <;> cases hx
      · rename_i s1 s2 hsh _
        cases hs
        intro x hx
        exact hone x (by rw [hsh]; exact List.mem_cons_of_mem _ hx)
      · cases hs
    · cases hs
      exact Or.inl hb
  unfold formatFrom at h
  split at h
  · rename_i hS; exact absurd hS hk
  · split at h
    · simp only at h
      split at h
      · exact key ⟨a.kind, a.shape, a.data.map (maskFill nc a.kind)⟩ rfl h
      · exact key ⟨a.kind, a.shape, a.data.map (maskFill nc a.kind)⟩ rfl h
    · cases h

/-- The shape that is compared has the sizes of the axes. -/
theorem actualShape_sizes {nc : Nc} {n k d : Str} {x : NcVar} {v : Val} {act : List Nat}
    (hv : (formatFrom nc n x.data).1 = .ok v) (hl : d.length = x.data.shape.length) (hd : ',' ∉ d)
    {typ : Str}
    (ht : typ = if x.data.kind = .S then py% "string" else py% "double") (h : actualShape k typ d v = .ok act) {i : Nat} (hi : i < d.length) :
    (compareShape act d.length).getD i 1 = v.shape.getD i 1 := by
  rw [getD_compare _ hi]
  unfold actualShape at h
  split at h
  · cases hs : stringVar v k with
    | error e => simp [hs] at h
    | ok q =>
      obtain ⟨m, s⟩ := q
      simp only [hs, Except.ok.injEq] at h
      subst h
      unfold stringVar at hs
      split at hs
      · cases hs; rw [getD_ones (by simp)]; exact (getD_ones (s := []) (by simp) i).symm
      · cases hs; rw [getD_ones (by simp)]; exact (getD_ones (s := []) (by simp) i).symm
      · split at hs
        · cases hs
        · split at hs
          · cases hs
          · split at hs
            · cases hs
            · split at hs
              · cases hs; rfl
              · cases hs
      · cases hs
  · rename_i ht'
    have hk : x.data.kind ≠ .S := by
      intro he
      rw [if_pos he] at ht
      exact ht' (Or.inr ht)
    have hsh := formatFrom_shape hv hk
    have hone : (Str.splitChar ',' d).headD [] = d := by
      rw [splitChar_not_mem hd]; rfl
    rw [hone] at h
    split at h
    · cases h
      apply getD_atleast
      rcases hsh with hs | ⟨hs, _⟩
      · left; rw [hs, ← hl]; assumption
      · exact Or.inr hs
    · cases h
      have h1 : d.length = 1 := by omega
      have hi0 : i = 0 := by omega
      subst hi0
      rcases hsh with hs | ⟨hs, _⟩
      · rw [hl, ← hs] at h1
        obtain ⟨m, hm⟩ := List.length_eq_one_iff.1 h1
        rw [hm]
        simp
      · rw [getD_ones hs]
        have : v.shape.foldr (· * ·) 1 = 1 := by
          generalize v.shape = l at hs
          induction l with
          | nil => rfl
          | cons a l ih =>
            rw [List.foldr_cons, ih (fun y hy => hs y (by simp [hy])), hs a (by simp)]
        rw [this]
        rfl

/-! ## The data of the file behind the data of the convention -/

theorem loadItems_keys {l : List Item} : ∀ {st st' : Reading}, st.obj.prot = false → loadItems l st = .ok st' →
    ∃ X, Dict.keys st'.obj.attrs = Dict.keys st.obj.attrs ++ X ∧
      ∀ k ∈ X, k ∉ Dict.keys st.obj.attrs ∧ k ∈ l.map (·.name) := by
  induction l with
  | nil => intro st st' _ h; cases h; exact ⟨[], by simp, by simp⟩
  | cons i l ih =>
    intro st st' hp h
    simp only [loadItems] at h
    cases h1 : loadItem st i with
    | error e => simp [h1] at h
    | ok s1 =>
      simp only [h1] at h
      have hl := loadItem_ok hp h1
      obtain ⟨X, e1, e2⟩ := ih hl.prot h
      rw [hl.attrs, Dict.keys_put] at e1 e2
      by_cases hi : i.name ∈ Dict.keys st.obj.attrs
      · rw [if_pos hi] at e1 e2
        exact ⟨X, e1, fun k hk => ⟨(e2 k hk).1, List.mem_cons_of_mem _ (e2 k hk).2⟩⟩
      · rw [if_neg hi] at e1 e2
        refine ⟨i.name :: X, by rw [e1]; simp, ?_⟩
        intro k hk
        rcases List.mem_cons.1 hk with rfl | hk
        · exact ⟨hi, by simp⟩
        · obtain ⟨a, b⟩ := e2 k hk
          exact ⟨fun hm => a (List.mem_append_left _ hm), List.mem_cons_of_mem _ b⟩

/-- the variables among the data of the file -/
theorem fileItems_dims {nc : Nc} {f : NcFile} {l : List Item} (h : fileItems nc f = .ok l) {i : Item} (hi : i ∈ l) {d : Str}
    (hd : i.dims = some d) : ∃ n x, (n, x) ∈ f.vars ∧ (formatFrom nc n x.data).1 = .ok i.value ∧ d = x.dims.flatten ∧
      i.typ = if x.data.kind = .S then py% "string" else py% "double" := by
  have hvars : ∀ {vs : Dict NcVar} {l : List Item}, allVarItems nc vs = .ok l → i ∈ l →
      ∃ n x, (n, x) ∈ vs ∧ (formatFrom nc n x.data).1 = .ok i.value ∧ d = x.dims.flatten ∧
        i.typ = if x.data.kind = .S then py% "string" else py% "double" := by
    intro vs
    induction vs with
    | nil => intro l h hi; cases h; cases hi
    | cons p vs ih =>
      intro l h hi
      obtain ⟨n, x⟩ := p
      simp only [allVarItems] at h
      cases h1 : (varItems nc n x).1 with
      | error e => simp [h1] at h
      | ok a =>
        simp only [h1] at h
        cases h2 : allVarItems nc vs with
        | error e => simp [h2] at h
        | ok b =>
          simp only [h2, Except.ok.injEq] at h
          subst h
          rcases List.mem_append.1 hi with hi | hi
          · obtain ⟨v, e1, e2⟩ := varItems_ok h1
            rw [e2] at hi
            rcases List.mem_cons.1 hi with rfl | hi
            · cases hd
              exact ⟨n, x, by simp, e1, rfl, rfl⟩
            · obtain ⟨q, _, rfl⟩ := List.mem_map.1 hi
              cases hd
          · obtain ⟨m, y, g1, g2⟩ := ih h2 hi
            exact ⟨m, y, List.mem_cons_of_mem _ g1, g2⟩
  unfold fileItems at h
  cases h1 : attrItems nc (py% "GLOBAL_") f.attrs with
  | error e => simp [h1] at h
  | ok g =>
    simp only [h1] at h
    cases h2 : allVarItems nc f.vars with
    | error e => simp [h2] at h
    | ok b =>
      simp only [h2, Except.ok.injEq] at h
      subst h
      rcases List.mem_append.1 hi with hi | hi
      · rw [attrItems_ok h1] at hi
        obtain ⟨q, _, rfl⟩ := List.mem_map.1 hi
        cases hd
      · exact hvars h2 hi

/-- the sizes that a verified custom variable of the file defines -/
theorem custom_sizes {nc : Nc} {f : NcFile} {l : List Item} (hl : fileItems nc f = .ok l) (hf : Spec.LetterDimensions f)
    {i : Item} (hi : i ∈ l) {o1 : Obj} {api : Dict Nat} {m0 : Str} {pr : Bool} {ds : Option (Dict Str)} {ap : Option (Dict Nat)}
    (hs : ShapeOk { o1 with prot := pr, dims := ds, api := ap } api i.name m0)
    (hc : Dict.get? o1.conv i.name = some (customEntry none (i.dims.map customDims) i.typ))
    (hv : Dict.get? o1.attrs i.name = some i.value) {P : List (Str × Nat)} {s : Nat} (hP : keyPairs o1 i.name = .ok (P, s))
    {a : Str} {m : Nat} (hm : (a, m) ∈ P) : Dict.get? api a = some m := by
  obtain ⟨e, v, d, alt, act, g1, g2, g3, g4, g5, _, g7⟩ := hs.ex
  rw [show Dict.get? ({ o1 with prot := pr, dims := ds, api := ap } : Obj).conv i.name = _ from hc] at g1
  cases g1
  have hget : ({ o1 with prot := pr, dims := ds, api := ap } : Obj).getAttr i.name = .ok i.value := by
    unfold Obj.getAttr
    simp only [hv]
  rw [hget] at g2
  cases g2
  have hget1 : o1.getAttr i.name = .ok i.value := by unfold Obj.getAttr; simp only [hv]
  obtain ⟨d0, hd0, rfl⟩ := Option.map_eq_some_iff.1 (show i.dims.map customDims = some d from g3)
  obtain ⟨n, x, hx, hval, rfl, htyp⟩ := fileItems_dims hl hi hd0
  obtain ⟨hlen, hlet⟩ := hf n x hx
  have hflat : x.dims.flatten.length = x.dims.length ∧ ',' ∉ x.dims.flatten := by
    clear hlen hx hd0 g3 g4 g5
    generalize x.dims = ds at hlet
    induction ds with
    | nil => exact ⟨rfl, by simp⟩
    | cons d ds ih =>
      obtain ⟨c, rfl, hc⟩ := hlet d (by simp)
      obtain ⟨i1, i2⟩ := ih (fun y hy => hlet y (by simp [hy]))
      refine ⟨by simp [i1], ?_⟩
      simp only [List.flatten_cons, List.singleton_append, List.mem_cons, not_or]
      exact ⟨fun e => hc e.symm, i2⟩
  have hcom := customDims_noComma hflat.2
  rw [single_alternative hcom] at g5
  simp only [List.mem_singleton] at g5
  subst g5
  have hlen' : (customDims x.dims.flatten).length = x.data.shape.length := by
    unfold customDims
    rw [List.length_map, hflat.1, hlen]
  -- the pairs
  unfold keyPairs convEntry at hP
  simp only [hget1, hc] at hP
  unfold entryDims customEntry at hP
  simp only [hd0, Option.map_some] at hP
  have hfirst : firstAlt (customDims x.dims.flatten) = customDims x.dims.flatten := by
    unfold firstAlt
    rw [single_alternative hcom]
    rfl
  rw [hfirst] at hP
  obtain ⟨j, y, p1, p2, rfl, p4⟩ := letterPairs_mem _ 0 _ _ hP hm
  have hj : j < (customDims x.dims.flatten).length := (List.getElem?_eq_some_iff.1 p1).1
  have hsz := actualShape_sizes hval hlen' hcom htyp (show actualShape i.name i.typ _ _ = _ from g4) hj
  have hmv : i.value.shape.getD j 1 = m := by
    rw [Nat.zero_add] at p4
    have := getD_padOnes 4 i.value.shape j
    rw [← this, List.getD_eq_getElem?_getD]
    unfold Arr.ndNewaxisShape at p4
    rw [p4]
    rfl
  obtain ⟨r1, r2⟩ := refShape_ok g7
  have hyS : y ≠ 'S' := by rintro rfl; exact absurd p2 (by decide)
  obtain ⟨q, hq⟩ := r2 y (List.mem_of_getElem? p1) hyS
  have h9 : (compareShape act (customDims x.dims.flatten).length).getD j 1 = q := by
    rw [r1, List.getD_eq_getElem?_getD, List.getElem?_map, p1]
    simp only [Option.map_some, Option.getD_some, if_neg hyS]
    unfold sizeIn
    rw [hq]
    rfl
  rw [hq, ← h9, hsz, hmv]

/-- custom data of an object that was read -/
theorem registered {env : Env} {n o o1 : Obj} {l : List Item} {st : Reading} (hnd : (l.map (·.name)).Nodup)
    (hI : FromItems n l st o) (hc : n.custom = none) (h1 : resetConvention env o = .ok o1)
    (hconv : ∀ cv c v conv, o.getAttr (py% "GLOBAL_SOFAConventions") = .ok cv → cv.asStr = some c →
      o.getAttr (py% "GLOBAL_SOFAConventionsVersion") = .ok v → loadConvention env c (.exact (pyStr env v)) = .ok conv →
      ∀ k ∈ Dict.keys conv, k ∈ Dict.keys n.attrs) {k : Str} {e : Entry}
    (hk : (Dict.get? o1.conv k = some e ∧ k ∉ Dict.keys n.attrs) ∨ (k, e) ∈ o1.custom.getD []) :
    ∃ i ∈ l, i.name = k ∧ k ∉ Dict.keys n.attrs ∧
      Dict.get? o1.conv k = some (customEntry none (i.dims.map customDims) i.typ) ∧ Dict.get? o1.attrs k = some i.value := by
  obtain ⟨cv, c, v, conv, g1, g2, g3, _, g5, g6⟩ := resetConvention_inv h1
  have hin := hconv cv c v conv g1 g2 g3 g5
  cases hcu : o.custom with
  | none =>
    simp only [hcu] at g6
    subst g6
    rcases hk with ⟨a, b⟩ | hk
    · exact absurd (hin k (List.mem_map_of_mem (f := Prod.fst) (Dict.mem_of_get? a))) b
    · simp at hk
  | some cust =>
    simp only [hcu] at g6
    have hA := loadItems_all (st := ⟨{ n with prot := false }, [], []⟩) rfl hnd hI.load
    obtain ⟨c', e1, e2⟩ := hI.custom cust hcu
    have hcn : (Dict.keys c').Nodup := by
      have := hA.nodup (by simp [hc, Dict.keys])
      rw [e1] at this
      exact this
    have hcn2 : (Dict.keys cust).Nodup := by rw [e2]; exact Dict.nodup_filter _ hcn
    have hmem : (k, e) ∈ (mergeCustom conv cust).2 := by
      subst g6
      rcases hk with ⟨a, b⟩ | hk
      · rcases mem_mergeCustom.1 (Dict.mem_of_get? a) with h | h
        · exact absurd (hin k (List.mem_map_of_mem (f := Prod.fst) h)) b
        · exact h
      · exact hk
    have hcm : (k, e) ∈ c' := by
      have := (List.mem_filter.1 hmem).1
      rw [e2] at this
      exact (List.mem_filter.1 this).1
    have hge := Dict.get?_of_mem hcn hcm
    have hil : k ∈ l.map (·.name) := by
      refine Classical.byContradiction fun hn => ?_
      have := hA.otherCustom k hn
      rw [e1] at this
      simp only [Option.getD_some, hge, hc] at this
      cases this
    obtain ⟨i, hi, rfl⟩ := List.mem_map.1 hil
    have hq := hA.custom i hi
    rw [e1] at hq
    simp only [Option.getD_some, hge, hc] at hq
    split at hq
    · cases hq
    rename_i hcond
    cases hq
    simp only [Bool.or_eq_true, not_or] at hcond
    have hna : i.name ∉ Dict.keys n.attrs := by
      intro hm
      apply hcond.1
      rw [hasAttr_public _ _ (loadItems_can (st := ⟨{ n with prot := false }, [], []⟩) rfl hI.load i hi).2.2]
      exact Or.inl ((Dict.has_iff_mem _ _).2 hm)
    refine ⟨i, hi, rfl, hna, ?_, ?_⟩
    · rw [g6]
      have hn2 := nodup_mergeCustom conv cust (loadConvention_nodup g5) hcn2
      apply Dict.get?_of_mem hn2.1
      have hkey : i.name ∈ Dict.keys (mergeCustom conv cust).1 := by
        show i.name ∈ Dict.keys (((mergeCustom conv cust).2).foldl (fun d p => Dict.put d p.1 p.2) conv)
        rw [Dict.mem_keys_foldl_put]
        exact Or.inr (List.mem_map_of_mem (f := Prod.fst) hmem)
      obtain ⟨⟨k', e'⟩, hm', he'⟩ := List.mem_map.1 hkey
      simp only at he'
      subst he'
      rcases mem_mergeCustom.1 hm' with h | h
      · exact absurd (hin _ (List.mem_map_of_mem (f := Prod.fst) h)) hna
      · have a1 := Dict.get?_of_mem hn2.2 h
        rw [Dict.get?_of_mem hn2.2 hmem] at a1
        cases a1
        exact hm'
    · rw [g6]
      show Dict.get? o.attrs i.name = _
      rw [hI.attrs, Dict.get?_filter _ (fun p => (l.map (·.name)).contains p.1) _ (fun _ => List.contains_iff_mem.2 hil)]
      exact hA.attr i hi

theorem lastOf_agree {P : Str → List (Str × Nat)} {api : Dict Nat} {B X X' : List Str} (hX : ∀ k, k ∈ X' ↔ k ∈ X)
    (h : ∀ k ∈ X, ∀ a m, (a, m) ∈ P k → Dict.get? api a = some m) (a : Str) :
    lastOf ((B ++ X').flatMap P) a = lastOf ((B ++ X).flatMap P) a := by
  have hag : ∀ k ∈ X, ∀ k' ∈ X, ∀ n n', (a, n) ∈ P k → (a, n') ∈ P k' → k ≠ k' → n = n' := by
    intro k hk k' hk' n n' h1 h2 _
    have e1 := h k hk a n h1
    rw [h k' hk' a n' h2] at e1
    exact (Option.some.inj e1).symm
  have : lastOf (X'.flatMap P) a = lastOf (X.flatMap P) a := by
    apply Option.ext
    intro n
    rw [lastOf_flatMap _ (fun k hk k' hk' => hag k ((hX k).1 hk) k' ((hX k').1 hk')), lastOf_flatMap _ hag]
    simp only [hX]
  rw [List.flatMap_append, List.flatMap_append, lastOf_append, lastOf_append, this]

/-- names with dimensions, beginning with those of the convention -/
theorem dimKeys_read {env : Env} {n o o1 : Obj} {l : List Item} {st : Reading} (hnd : (l.map (·.name)).Nodup)
    (hI : FromItems n l st o) (hc : n.custom = none) (h1 : resetConvention env o = .ok o1)
    (hconv : ∀ cv c v conv, o.getAttr (py% "GLOBAL_SOFAConventions") = .ok cv → cv.asStr = some c →
      o.getAttr (py% "GLOBAL_SOFAConventionsVersion") = .ok v → loadConvention env c (.exact (pyStr env v)) = .ok conv →
      ∀ k ∈ Dict.keys conv, k ∈ Dict.keys n.attrs) :
    ∃ X, dimKeys o1 = ((Dict.keys n.attrs).filter (fun k => (l.map (·.name)).contains k)).filter
        (fun k => match Dict.get? o1.conv k with | some e => e.dims.isSome | none => false) ++ X ∧
      ∀ k ∈ X, ∃ i ∈ l, i.name = k ∧ k ∉ Dict.keys n.attrs ∧
        Dict.get? o1.conv k = some (customEntry none (i.dims.map customDims) i.typ) ∧ Dict.get? o1.attrs k = some i.value := by
  obtain ⟨Y, e1, e2⟩ := loadItems_keys (st := ⟨{ n with prot := false }, [], []⟩) rfl hI.load
  have hattrs : o1.attrs = o.attrs := by
    obtain ⟨_, _, _, _, _, _, _, _, _, g6⟩ := resetConvention_inv h1
    rw [g6]
    cases o.custom <;> rfl
  have hkeys : o1.keys = (Dict.keys n.attrs).filter (fun k => (l.map (·.name)).contains k) ++
      Y.filter (fun k => (l.map (·.name)).contains k) := by
    show Dict.keys o1.attrs = _
    rw [hattrs, hI.attrs, ← List.filter_append, ← e1]
    unfold Dict.keys
    rw [List.filter_map]
    rfl
  unfold Sofar.dimKeys
  rw [hkeys, List.filter_append, List.append_assoc]
  refine ⟨_, rfl, ?_⟩
  intro k hk
  rcases List.mem_append.1 hk with hk | hk
  · obtain ⟨a, b⟩ := List.mem_filter.1 hk
    cases hg : Dict.get? o1.conv k with
    | none => simp [hg] at b
    | some e =>
      rw [← hg]
      exact registered hnd hI hc h1 hconv (Or.inl ⟨hg, (e2 k (List.mem_filter.1 a).1).1⟩)
  · cases hcu : o1.custom with
    | none => simp [hcu] at hk
    | some cu =>
      simp only [hcu] at hk
      obtain ⟨⟨k', e⟩, hm, rfl⟩ := List.mem_map.1 hk
      exact registered (e := e) hnd hI hc h1 hconv (Or.inr (by rw [hcu]; exact (List.mem_filter.1 hm).1))

theorem read_sameLast {env : Env} {nc : Nc} {f : NcFile} {n o o' o1 o1' : Obj} {l l' : List Item} {st st' : Reading} {mode : Mode}
    (hl : fileItems nc f = .ok l) (hlet : Spec.LetterDimensions f) (hp : l'.Perm l) (hnd : (l.map (·.name)).Nodup)
    (hI : FromItems n l st o) (hI' : FromItems n l' st' o') (hc : n.custom = none)
    (hconv : ∀ cv c v conv, o.getAttr (py% "GLOBAL_SOFAConventions") = .ok cv → cv.asStr = some c →
      o.getAttr (py% "GLOBAL_SOFAConventionsVersion") = .ok v → loadConvention env c (.exact (pyStr env v)) = .ok conv →
      ∀ k ∈ Dict.keys conv, k ∈ Dict.keys n.attrs)
    (hconv' : ∀ cv c v conv, o'.getAttr (py% "GLOBAL_SOFAConventions") = .ok cv → cv.asStr = some c →
      o'.getAttr (py% "GLOBAL_SOFAConventionsVersion") = .ok v → loadConvention env c (.exact (pyStr env v)) = .ok conv →
      ∀ k ∈ Dict.keys conv, k ∈ Dict.keys n.attrs)
    (h1 : resetConvention env o = .ok o1) (h2 : resetConvention env o' = .ok o1') (hS : Shuffled o1 o1')
    (hv : (verify env o .raise mode).out = .ok none) : SameLast o1 o1' := by
  obtain ⟨X, x1, x2⟩ := dimKeys_read hnd hI hc h1 hconv
  obtain ⟨X', x1', x2'⟩ := dimKeys_read ((hp.map _).nodup_iff.2 hnd) hI' hc h2 hconv'
  have hB : ((Dict.keys n.attrs).filter (fun k => (l'.map (·.name)).contains k)).filter
        (fun k => match Dict.get? o1'.conv k with | some e => e.dims.isSome | none => false) =
      ((Dict.keys n.attrs).filter (fun k => (l.map (·.name)).contains k)).filter
        (fun k => match Dict.get? o1.conv k with | some e => e.dims.isSome | none => false) := by
    simp only [hS.convGet, contains_perm (hp.map (·.name))]
  rw [hB] at x1'
  have hmem : ∀ k, k ∈ X' ↔ k ∈ X := by
    intro k
    have := hS.mem_dimKeys (k := k)
    rw [x1, x1', List.mem_append, List.mem_append] at this
    have hnb : k ∉ Dict.keys n.attrs → k ∉ ((Dict.keys n.attrs).filter (fun k => (l.map (·.name)).contains k)).filter
        (fun k => match Dict.get? o1.conv k with | some e => e.dims.isSome | none => false) :=
      fun h hm => h (List.mem_filter.1 (List.mem_filter.1 hm).1).1
    constructor
    · intro hk
      obtain ⟨_, _, _, hn, _⟩ := x2' k hk
      exact (this.1 (Or.inr hk)).resolve_left (hnb hn)
    · intro hk
      obtain ⟨_, _, _, hn, _⟩ := x2 k hk
      exact (this.2 (Or.inr hk)).resolve_left (hnb hn)
  intro P S hP a
  obtain ⟨p1, api, dims, hV⟩ := verify_ok hv
  obtain rfl : p1 = o1 := by
    have := hV.reset
    rw [h1] at this
    exact (Except.ok.inj this).symm
  rw [x1, x1']
  refine lastOf_agree (api := api) hmem ?_ a
  intro k hk a m hm
  obtain ⟨i, hi, rfl, _, e1, e2⟩ := x2 k hk
  have hkd : i.name ∈ dimKeys p1 := by rw [x1]; exact List.mem_append_right _ hk
  obtain ⟨m0, _, hs⟩ := hV.shapes _ hkd
  exact custom_sizes hl hlet hi hs e1 e2 (hP _ hkd) hm

/-- a global attribute of the file -/
theorem loaded_global {nc : Nc} {f : NcFile} {n o : Obj} {l : List Item} {st : Reading} (hl : fileItems nc f = .ok l)
    (hnd : (l.map (·.name)).Nodup) (hI : FromItems n l st o) {k : Str} {v : Val} (hk : fileAttr f k = .ok v) :
    o.getAttr (py% "GLOBAL_" ++ k) = .ok v := by
  have hm : (⟨py% "GLOBAL_" ++ k, v, none, py% "attribute"⟩ : Item) ∈ l := by
    unfold fileItems at hl
    cases h1 : attrItems nc (py% "GLOBAL_") f.attrs with
    | error e => simp [h1] at hl
    | ok g =>
      simp only [h1] at hl
      cases h2 : allVarItems nc f.vars with
      | error e => simp [h2] at hl
      | ok b =>
        simp only [h2, Except.ok.injEq] at hl
        subst hl
        rw [attrItems_ok h1]
        apply List.mem_append_left
        unfold fileAttr at hk
        cases hg : Dict.get? f.attrs k with
        | none => simp [hg] at hk
        | some w =>
          simp only [hg, Except.ok.injEq] at hk
          subst hk
          exact List.mem_map.2 ⟨(k, w), Dict.mem_of_get? hg, rfl⟩
  have hA := loadItems_all (st := ⟨{ n with prot := false }, [], []⟩) rfl hnd hI.load
  have hget : Dict.get? o.attrs (py% "GLOBAL_" ++ k) = some v := by
    rw [hI.attrs, Dict.get?_filter _ (fun p => (l.map (·.name)).contains p.1) _
      (fun _ => List.contains_iff_mem.2 (List.mem_map_of_mem (f := (·.name)) hm))]
    exact hA.attr _ hm
  unfold Obj.getAttr
  simp only [hget]

/-- reading with verification -/
theorem readSofa_letters {env : Env} {nc : Nc} {fs fs' : FS} {name name' : Str} {f f' : NcFile} (h1 : openFile fs name = .ok f)
    (h2 : openFile fs' name' = .ok f') (hf : Spec.SameContent f f') (hn : (Spec.namesInFile f).Nodup)
    (hlet : Spec.LetterDimensions f)
    (hprot : ∀ t ∈ env.files, ∀ key e, (key, e) ∈ t.content → Spec.sofarName key ≠ py% "protected") {arg : VerifyArg}
    {vb vb' : Bool} {o : Obj} (ho : (readSofa env nc fs name arg vb).out = .ok o) :
    ∃ o', (readSofa env nc fs' name' arg vb').out = .ok o' ∧ Spec.Reordered o o' := by
  refine readSofa_perm_of (vb' := vb') h1 h2 hf hn ho (Or.inr ?_)
  intro cv vv c v n r r' o1 o1' a1 a2 a3 a4 a5 a6 a7 hq _ b1 b2 hS
  obtain ⟨l, st, hl, hI⟩ := loadFile_iff (initSofa_nodup a5) a6
  obtain ⟨l', st', hl', hI'⟩ := loadFile_iff (initSofa_nodup a5) a7
  obtain ⟨l2, e1, hp⟩ := fileItems_perm hf hl
  rw [hl'] at e1
  cases e1
  have hnd : (l.map (·.name)).Nodup := by rw [fileItems_list hl]; exact hn
  have hnd' : (l'.map (·.name)).Nodup := (hp.map _).nodup_iff.2 hnd
  obtain ⟨_, _, _, _, _, _, _, _, _, _, hc, _⟩ := initSofa_parts a5
  have key : ∀ conv, loadConvention env c (.exact v) = .ok conv → ∀ k ∈ Dict.keys conv, k ∈ Dict.keys n.attrs := by
    intro conv hlc k hk
    have hpr : py% "protected" ∉ conv.map Prod.fst := by
      exact (Dict.get?_eq_none_iff _ _).1 (loadConvention_unknown hlc hprot)
    obtain ⟨q, hd, _, hqa⟩ := initSofa_data a5 hlc hpr
    have hnames := hd.names
    simp only [Bool.not_false, Bool.or_true, List.filter_true] at hnames
    rw [hqa, mem_keys_foldl_stamps]
    left
    unfold Dict.keys at hk ⊢
    rw [hnames]
    exact hk
  have fin : ∀ (g : NcFile) (q : List Item) (s : Reading) (x : Obj), fileItems nc g = .ok q → (q.map (·.name)).Nodup →
      FromItems n q s x → fileAttr g (py% "SOFAConventions") = .ok cv → fileAttr g (py% "SOFAConventionsVersion") = .ok vv →
      ∀ cv c v conv, x.getAttr (py% "GLOBAL_SOFAConventions") = .ok cv → cv.asStr = some c →
      x.getAttr (py% "GLOBAL_SOFAConventionsVersion") = .ok v → loadConvention env c (.exact (pyStr env v)) = .ok conv →
      ∀ k ∈ Dict.keys conv, k ∈ Dict.keys n.attrs := by
    intro g q s x c1 c2 c3 c4 c5 cv2 c2' v2 conv d1 d2 d3 d4
    have t1 := loaded_global c1 c2 c3 c4
    have t2 := loaded_global c1 c2 c3 c5
    rw [show py% "GLOBAL_SOFAConventions" = py% "GLOBAL_" ++ py% "SOFAConventions" from rfl, t1] at d1
    cases d1
    rw [a3] at d2
    cases d2
    rw [show py% "GLOBAL_SOFAConventionsVersion" = py% "GLOBAL_" ++ py% "SOFAConventionsVersion" from rfl, t2] at d3
    cases d3
    rw [pyStr_asStr a4] at d4
    exact key conv d4
  exact read_sameLast hl hlet hp hnd hI hI' hc (fin f l st r hl hnd hI a1 a2)
    (fin f' l' st' r' hl' hnd' hI' (by rw [hf.fileAttr hn]; exact a1) (by rw [hf.fileAttr hn]; exact a2)) b1 b2 hS hq

end Sofar
