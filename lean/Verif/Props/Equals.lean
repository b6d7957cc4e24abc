import Verif.Lemmas.Equals
import Verif.Lemmas.Dims
import Verif.Props.Verify
/-!
# C45, C46, C47: comparison of objects
-/
namespace Sofar

/-! ## C46 -/

theorem attrDiffers_false {v w : Val} (h : attrDiffers v w = .ok false) :
    (∃ t, Spec.text v = some t ∧ Spec.text w = some t) ∨
    (∃ k k' x, v = .num k (.num x) ∧ w = .num k' (.num x) ∧ x ≠ .nan) := by
  unfold attrDiffers at h
  cases v <;> cases w <;> simp only [Val.asStr, Except.ok.injEq, decide_eq_false_iff_not, reduceCtorEq] at h
  all_goals first
    | (left; simp only [Spec.text, Option.some.injEq]; grind)
    | skip
  all_goals repeat' split at h
  all_goals first
    | cases h
    | (simp only [Except.ok.injEq, decide_eq_false_iff_not] at h; right; rename_i h1 h2; grind)

/-- C46: if two objects are equal, they hold the same names, the types of the entries agree, attributes have the same
text (or are the same number), and variables have close elements - where a variable with a single element is equal to
an array if it is close to all elements of the array. Missing for the full claim: variables that are equal may have
different shapes (`C46_refuted`), texts are compared here for equal shapes or single elements. -/
theorem C46_equal_objects_partial (a b : Obj) (verbose : Bool) (h : (equals a b verbose none).out = .ok true)
    (hra : ∀ k v, Dict.get? a.attrs k = some v → Spec.Rectangular v)
    (hrb : ∀ k v, Dict.get? b.attrs k = some v → Spec.Rectangular v) :
    (∀ k, Spec.IsData a k ↔ Spec.IsData b k) ∧
    ∀ k v w, Dict.get? a.attrs k = some v → Dict.get? b.attrs k = some w →
      ∃ ea eb, Dict.get? a.conv k = some ea ∧ Dict.get? b.conv k = some eb ∧ ea.typ = eb.typ ∧
        (ea.typ = py% "attribute" → (∃ t, Spec.text v = some t ∧ Spec.text w = some t) ∨
          (∃ q q' x, v = .num q (.num x) ∧ w = .num q' (.num x))) ∧
        (ea.typ = py% "double" →
          (Spec.SameUpToOnes (Spec.shapeOf v) (Spec.shapeOf w) ∧
            List.Forall₂ Spec.Close (Spec.elems v) (Spec.elems w)) ∨
          ((Spec.SameUpToOnes (Spec.shapeOf v) [] ∨ Spec.SameUpToOnes (Spec.shapeOf w) []) ∧
            ∀ x ∈ Spec.elems v, ∀ y ∈ Spec.elems w, Spec.Close x y)) ∧
        (ea.typ = py% "string" →
          (Spec.SameUpToOnes (Spec.shapeOf v) (Spec.shapeOf w) →
            List.Forall₂ Spec.SameText (Spec.elems v) (Spec.elems w)) ∧
          (Spec.SameUpToOnes (Spec.shapeOf v) [] ∨ Spec.SameUpToOnes (Spec.shapeOf w) [] →
            ∀ x ∈ Spec.elems v, ∀ y ∈ Spec.elems w, Spec.SameText x y)) := by
  rw [equals_out] at h
  obtain ⟨ka, kb, h1, h2, h3⟩ := h
  simp only [compareKeys, Except.ok.injEq] at h1 h2
  subst h1 h2
  rcases h3 with ⟨_, hset, _, hall⟩ | ⟨_, h⟩
  · refine ⟨hset, ?_⟩
    intro k v w hv hw
    have hk : k ∈ a.keys := List.mem_map.2 ⟨_, Dict.mem_of_get? hv, rfl⟩
    have he := (hall.1 rfl) k hk
    unfold compareEntry at he
    simp only [hv, hw] at he
    split at he
    · rename_i ea eb hea heb
      refine ⟨ea, eb, hea, heb, ?_⟩
      split at he
      · rename_i ht
        split at he
        · cases he
        · rename_i d hd
          simp only [Except.ok.injEq] at he
          split at he
          · cases he
          · rename_i hdf
            cases d with
            | true => simp at hdf
            | false =>
              refine ⟨ht.1.trans ht.2.symm, fun _ => ?_, fun h => ?_, fun h => ?_⟩
              · rcases attrDiffers_false hd with h | ⟨q, q', x, h1, h2, _⟩
                · left; exact h
                · right; exact ⟨q, q', x, h1, h2⟩
              · rw [ht.1] at h; cases h
              · rw [ht.1] at h; cases h
      · split at he
        · rename_i ht
          split at he
          · cases he
          · rename_i c hc
            simp only [Except.ok.injEq] at he
            split at he
            · rename_i hct
              subst hct
              refine ⟨ht.1.trans ht.2.symm, fun h => ?_, fun _ => allClose_true (hra k v hv) (hrb k w hw) hc,
                fun h => ?_⟩
              · rw [ht.1] at h; cases h
              · rw [ht.1] at h; cases h
            · cases he
        · split at he
          · rename_i ht
            split at he
            · cases he
            · rename_i c hc
              simp only [Except.ok.injEq] at he
              split at he
              · rename_i hct
                subst hct
                refine ⟨ht.1.trans ht.2.symm, fun h => ?_, fun h => ?_,
                  fun _ => sameText_true (hra k v hv) (hrb k w hw) hc⟩
                · rw [ht.1] at h; cases h
                · rw [ht.1] at h; cases h
              · cases he
          · cases he
    · cases he
  · cases h

/-- one entry of two typed objects with the same shapes -/
theorem compareEntry_typed {a b : Obj} {k : Str} {v w : Val} {ea eb : Entry} (hv : Dict.get? a.attrs k = some v)
    (hw : Dict.get? b.attrs k = some w) (hea : Dict.get? a.conv k = some ea) (heb : Dict.get? b.conv k = some eb)
    (ta : Spec.ComparableType ea.typ v) (tb : Spec.ComparableType eb.typ w)
    (hs : Spec.SameUpToOnes (Spec.shapeOf v) (Spec.shapeOf w)) :
    ∃ m, compareEntry a b k = .ok m ∧ (m = none ↔ ea.typ = eb.typ ∧ Spec.SameValue ea.typ v w) := by
  unfold compareEntry
  simp only [hv, hw, hea, heb]
  by_cases h1 : ea.typ = py% "attribute" ∧ eb.typ = py% "attribute"
  · rw [if_pos h1]
    rcases ta with ⟨_, t, ht⟩ | ⟨ht, _⟩ | ⟨ht, _⟩
    · rcases tb with ⟨_, u, hu⟩ | ⟨hu, _⟩ | ⟨hu, _⟩
      · have : attrDiffers v w = .ok (decide (t ≠ u)) := by
          have h3 : v.asStr = some t := by cases v <;> simp_all [Spec.text, Val.asStr]
          have h4 : w.asStr = some u := by cases w <;> simp_all [Spec.text, Val.asStr]
          simp [attrDiffers, h3, h4]
        simp only [this]
        refine ⟨_, rfl, ?_⟩
        simp only [h1.1, h1.2, Spec.SameValue]
        by_cases htu : t = u
        · simp [htu, ht, hu]
        · simp [htu, ht, hu]
          intro h; exact htu h.symm
      · rw [h1.2] at hu; cases hu
      · rw [h1.2] at hu; cases hu
    · rw [h1.1] at ht; cases ht
    · rw [h1.1] at ht; cases ht
  · rw [if_neg h1]
    by_cases h2 : ea.typ = py% "double" ∧ eb.typ = py% "double"
    · rw [if_pos h2]
      rcases ta with ⟨ht, _⟩ | ⟨_, hra⟩ | ⟨ht, _⟩
      · rw [h2.1] at ht; cases ht
      · rcases tb with ⟨ht, _⟩ | ⟨_, hrb⟩ | ⟨ht, _⟩
        · rw [h2.2] at ht; cases ht
        · obtain ⟨c, hc, hcc⟩ := allClose_same hra hrb hs
          simp only [hc]
          refine ⟨_, rfl, ?_⟩
          simp only [h2.1, h2.2, Spec.SameValue]
          cases c <;> simp_all
        · rw [h2.2] at ht; cases ht
      · rw [h2.1] at ht; cases ht
    · rw [if_neg h2]
      by_cases h3 : ea.typ = py% "string" ∧ eb.typ = py% "string"
      · rw [if_pos h3]
        rcases ta with ⟨ht, _⟩ | ⟨ht, _⟩ | ⟨_, hra⟩
        · rw [h3.1] at ht; cases ht
        · rw [h3.1] at ht; cases ht
        · rcases tb with ⟨ht, _⟩ | ⟨ht, _⟩ | ⟨_, hrb⟩
          · rw [h3.2] at ht; cases ht
          · rw [h3.2] at ht; cases ht
          · obtain ⟨c, hc, hcc⟩ := sameText_same hra hrb hs
            simp only [hc]
            refine ⟨_, rfl, ?_⟩
            simp only [h3.1, h3.2, Spec.SameValue]
            cases c <;> simp_all
      · rw [if_neg h3]
        refine ⟨_, rfl, ?_⟩
        constructor
        · intro h; cases h
        · rintro ⟨h, hsv⟩
          rcases hsv with ⟨g, _⟩ | ⟨g, _⟩ | ⟨g, _⟩
          · exact absurd ⟨g, h.symm.trans g⟩ h1
          · exact absurd ⟨g, h.symm.trans g⟩ h2
          · exact absurd ⟨g, h.symm.trans g⟩ h3

/-- C46 for objects with data of the types of the convention: If the variables of the same name have the same shape
(up to singleton dimensions), `equals` does not raise and is True exactly if the names, the types and the values
agree. -/
theorem C46_exact_partial (a b : Obj) (verbose : Bool) (hna : (a.attrs.map Prod.fst).Nodup)
    (hnb : (b.attrs.map Prod.fst).Nodup) (ha : Spec.Typed a) (hb : Spec.Typed b)
    (hs : ∀ k v w, Dict.get? a.attrs k = some v → Dict.get? b.attrs k = some w →
      Spec.SameUpToOnes (Spec.shapeOf v) (Spec.shapeOf w)) :
    ∃ r, (equals a b verbose none).out = .ok r ∧
      (r = true ↔ (∀ k, Spec.IsData a k ↔ Spec.IsData b k) ∧
        ∀ k v w ea eb, Dict.get? a.attrs k = some v → Dict.get? b.attrs k = some w →
          Dict.get? a.conv k = some ea → Dict.get? b.conv k = some eb →
          ea.typ = eb.typ ∧ Spec.SameValue ea.typ v w) := by
  by_cases hset : a.keys.length = b.keys.length ∧ ∀ k, k ∈ a.keys ↔ k ∈ b.keys
  · have hall : ∀ k ∈ a.keys, ∃ m, compareEntry a b k = .ok m ∧ (m = none ↔
        ∀ v w ea eb, Dict.get? a.attrs k = some v → Dict.get? b.attrs k = some w →
          Dict.get? a.conv k = some ea → Dict.get? b.conv k = some eb →
          ea.typ = eb.typ ∧ Spec.SameValue ea.typ v w) := by
      intro k hk
      obtain ⟨v, hv⟩ := (Dict.has_iff _ _).1 ((Dict.has_iff_mem _ _).2 hk)
      obtain ⟨w, hw⟩ := (Dict.has_iff _ _).1 ((Dict.has_iff_mem _ _).2 ((hset.2 k).1 hk))
      obtain ⟨ea, hea, ta⟩ := ha k v hv
      obtain ⟨eb, heb, tb⟩ := hb k w hw
      obtain ⟨m, hm, hmm⟩ := compareEntry_typed hv hw hea heb ta tb (hs k v w hv hw)
      refine ⟨m, hm, hmm.trans ?_⟩
      constructor
      · intro h v' w' ea' eb' g1 g2 g3 g4
        rw [hv] at g1; cases g1
        rw [hw] at g2; cases g2
        rw [hea] at g3; cases g3
        rw [heb] at g4; cases g4
        exact h
      · intro h; exact h v w ea eb hv hw hea heb
    classical
    refine ⟨decide (∀ k ∈ a.keys, compareEntry a b k = .ok none), ?_, ?_⟩
    · rw [equals_out]
      refine ⟨a.keys, b.keys, rfl, rfl, Or.inl ⟨hset.1, hset.2, ?_, by simp⟩⟩
      intro k hk
      obtain ⟨m, hm, _⟩ := hall k hk
      exact ⟨m, hm⟩
    · rw [decide_eq_true_eq]
      constructor
      · intro h
        refine ⟨hset.2, ?_⟩
        intro k v w ea eb hv hw hea heb
        have hk : k ∈ a.keys := List.mem_map.2 ⟨_, Dict.mem_of_get? hv, rfl⟩
        obtain ⟨m, hm, hmm⟩ := hall k hk
        rw [h k hk] at hm
        cases hm
        exact hmm.1 rfl v w ea eb hv hw hea heb
      · rintro ⟨_, h⟩ k hk
        obtain ⟨m, hm, hmm⟩ := hall k hk
        rw [hm, hmm.2 (fun v w ea eb => h k v w ea eb)]
  · refine ⟨false, ?_, ?_⟩
    · rw [equals_out]
      exact ⟨a.keys, b.keys, rfl, rfl, Or.inr ⟨hset, rfl⟩⟩
    · simp only [Bool.false_eq_true, false_iff]
      rintro ⟨h, _⟩
      apply hset
      refine ⟨?_, h⟩
      exact (List.perm_ext_iff_of_nodup hna hnb).2 h |>.length_eq

theorem sameValue_refl {t : Str} {v : Val} (h : Spec.ComparableType t v) : Spec.SameValue t v v := by
  rcases h with ⟨rfl, s, hs⟩ | ⟨rfl, hr⟩ | ⟨rfl, hr⟩
  · exact Or.inl ⟨rfl, s, hs, hs⟩
  · refine Or.inr (Or.inl ⟨rfl, rfl, ?_⟩)
    have := hr.1.2.1 hr.2
    generalize Spec.elems v = l at this
    induction l with
    | nil => exact .nil
    | cons x l ih => exact .cons (close_refl (this x (by simp))) (ih (fun e he => this e (by simp [he])))
  · refine Or.inr (Or.inr ⟨rfl, rfl, ?_⟩)
    have := hr.1.2.2 hr.2.1
    generalize Spec.elems v = l at this
    induction l with
    | nil => exact .nil
    | cons x l ih =>
      obtain ⟨s, rfl⟩ := this x (by simp)
      exact .cons ((stripNul_eq_iff s s).1 rfl) (ih (fun e he => this e (by simp [he])))

/-! ## C45 -/

/-- C45: every object whose data has the types of the convention equals itself. Missing for verified objects: texts
with characters that are not ASCII (`C45_refuted`). -/
theorem C45_reflexive_partial (a : Obj) (verbose : Bool) (hn : (a.attrs.map Prod.fst).Nodup) (ha : Spec.Typed a) :
    (equals a a verbose none).out = .ok true := by
  obtain ⟨r, hr, hrr⟩ := C46_exact_partial a a verbose hn hn ha ha (by
    intro k v w hv hw; rw [hv] at hw; cases hw; rfl)
  rw [hr, hrr.2]
  refine ⟨fun k => Iff.rfl, ?_⟩
  intro k v w ea eb hv hw hea heb
  rw [hv] at hw; cases hw
  rw [hea] at heb; cases heb
  obtain ⟨e, he, ht⟩ := ha k v hv
  rw [hea] at he; cases he
  exact ⟨rfl, sameValue_refl ht⟩

/-- Verified objects have data of the types of the convention, if the text variables are ASCII. -/
theorem C45_verified_partial (env : Env) (o : Obj) (mode : Mode) (r : Option Str) (verbose : Bool)
    (h : (verify env o .raise mode).out = .ok r) (hn : (o.attrs.map Prod.fst).Nodup)
    (hp : ∀ k v, Dict.get? o.attrs k = some v → Spec.Proper v)
    (hascii : ∀ k v e s, Dict.get? o.attrs k = some v → Dict.get? (verify env o .raise mode).obj.conv k = some e →
      e.typ = py% "string" → .str s ∈ Spec.elems v → ∀ c ∈ s, c.toNat < 128) :
    (equals (verify env o .raise mode).obj (verify env o .raise mode).obj verbose none).out = .ok true := by
  have hattrs : (verify env o .raise mode).obj.attrs = o.attrs := by
    obtain ⟨o1, api, dims, hV⟩ := verify_ok h
    exact hV.attrs.1
  apply C45_reflexive_partial
  · rw [hattrs]; exact hn
  · intro k v hv
    rw [hattrs] at hv
    obtain ⟨e, he, ht⟩ := C22_types env o mode r h k v hv
    refine ⟨e, he, ?_⟩
    rcases ht with ⟨h1, h2⟩ | ⟨h1, h2⟩ | ⟨h1, h2⟩
    · left
      refine ⟨h1, ?_⟩
      rcases h2 with ⟨s, rfl⟩ | ⟨s, rfl⟩ <;> exact ⟨s, rfl⟩
    · right; left
      refine ⟨h1, hp k v hv, ?_⟩
      rcases h2 with ⟨e, rfl⟩ | ⟨e, rfl⟩ | ⟨a, rfl, h3 | h3⟩ <;> simp_all [Spec.kindOf]
    · right; right
      refine ⟨h1, hp k v hv, ?_, fun s => hascii k v e s hv he h1⟩
      rcases h2 with (⟨s, rfl⟩ | ⟨s, rfl⟩) | ⟨a, rfl, h3⟩ <;> simp_all [Spec.kindOf]

/-- an object with numbers and texts for the examples -/
def exPair (vals : List (Str × Str × Val)) : Obj :=
  { emptyObj (vals.map (fun x => (x.1, ⟨none, none, x.2.1, .val .dict, []⟩))) with
    attrs := vals.map (fun x => (x.1, x.2.2)) }

/-- a number as numpy scalar -/
def exNum (q : Rat) : Val := .num .f (.num (.fin q))

/-- an object with one attribute and one number -/
def exTyped (t : Str) (q : Rat) : Obj :=
  exPair [(py% "GLOBAL_Title", py% "attribute", .str t), (py% "Gain", py% "double", exNum q)]

theorem exTyped_typed (t : Str) (q : Rat) : Spec.Typed (exTyped t q) := by
  intro k v h
  have hm := Dict.mem_of_get? h
  simp only [exTyped, exPair, List.map_cons, List.map_nil, List.mem_cons, List.not_mem_nil, or_false, Prod.mk.injEq] at hm
  rcases hm with ⟨rfl, rfl⟩ | ⟨rfl, rfl⟩
  · exact ⟨_, rfl, Or.inl ⟨rfl, t, rfl⟩⟩
  · refine ⟨_, rfl, Or.inr (Or.inl ⟨rfl, ⟨trivial, ?_, ?_⟩, Or.inr (Or.inr (Or.inl rfl))⟩)⟩
    · intro _ e he
      simp only [exNum, Spec.elems, List.mem_cons, List.not_mem_nil, or_false] at he
      exact Or.inr ⟨_, he⟩
    · intro hk
      simp [exNum, Spec.kindOf] at hk

theorem exTyped_shapes (t t' : Str) (q q' : Rat) (k : Str) (v w : Val) (hv : Dict.get? (exTyped t q).attrs k = some v)
    (hw : Dict.get? (exTyped t' q').attrs k = some w) : Spec.SameUpToOnes (Spec.shapeOf v) (Spec.shapeOf w) := by
  have hm := Dict.mem_of_get? hv
  have hm' := Dict.mem_of_get? hw
  simp only [exTyped, exPair, List.map_cons, List.map_nil, List.mem_cons, List.not_mem_nil, or_false, Prod.mk.injEq] at hm hm'
  rcases hm with ⟨rfl, rfl⟩ | ⟨rfl, rfl⟩ <;> rcases hm' with ⟨h, rfl⟩ | ⟨h, rfl⟩ <;>
    rfl

/-- Two different objects to which `C46_equal_objects_partial` applies: the numbers are only close. -/
example : exTyped (py% "a") 1 ≠ exTyped (py% "a") (1 + 1 / 1000000000) ∧
    Spec.Close (.num (.fin 1)) (.num (.fin (1 + 1 / 1000000000))) := by
  refine ⟨by decide +kernel, ?_⟩
  have hrect : ∀ (q : Rat) k v, Dict.get? (exTyped (py% "a") q).attrs k = some v → Spec.Rectangular v := by
    intro q k v h
    have hm := Dict.mem_of_get? h
    simp only [exTyped, exPair, List.map_cons, List.map_nil, List.mem_cons, List.not_mem_nil, or_false, Prod.mk.injEq] at hm
    rcases hm with ⟨rfl, rfl⟩ | ⟨rfl, rfl⟩ <;> trivial
  obtain ⟨_, h⟩ := C46_equal_objects_partial (exTyped (py% "a") 1) (exTyped (py% "a") (1 + 1 / 1000000000)) false
    (by decide +kernel) (hrect _) (hrect _)
  obtain ⟨ea, eb, h1, _, _, _, h2, _⟩ := h (py% "Gain") (exNum 1) (exNum (1 + 1 / 1000000000)) (by decide +kernel)
    (by decide +kernel)
  rw [show Dict.get? (exTyped (py% "a") 1).conv (py% "Gain") = some ⟨none, none, py% "double", .val .dict, []⟩ by
    decide +kernel] at h1
  cases h1
  rcases h2 rfl with ⟨_, hf⟩ | ⟨_, hf⟩
  · cases hf with
    | cons hxy _ => exact hxy
  · exact hf _ List.mem_cons_self _ List.mem_cons_self

/-- Two objects to which `C46_exact_partial` applies. -/
example : ∃ r, (equals (exTyped (py% "a") 1) (exTyped (py% "a") 2) false none).out = .ok r ∧ r = false := by
  obtain ⟨r, hr, _⟩ := C46_exact_partial (exTyped (py% "a") 1) (exTyped (py% "a") 2) false (by decide +kernel)
    (by decide +kernel) (exTyped_typed _ _) (exTyped_typed _ _) (exTyped_shapes _ _ _ _)
  refine ⟨r, hr, ?_⟩
  have : (equals (exTyped (py% "a") 1) (exTyped (py% "a") 2) false none).out = .ok false := by decide +kernel
  rw [hr] at this
  simpa using this

/-- C45 is false for texts with characters that are not ASCII: comparing a verified object to itself raises. -/
theorem C45_refuted : ∃ (env : Env) (o : Obj), (verify env o .raise .write).out = .ok none ∧
    (equals o o false none).out = .error .unicodeError :=
  ⟨exEnv, exPut exSofa (py% "Names") (.arr ⟨.U, [2, 1], [.str [Char.ofNat 228], .str (py% "b")]⟩),
    by decide +kernel, by decide +kernel⟩

/-- C45 is false: `equals` is not symmetric, because the tolerance is relative to the second object. -/
theorem C45_symmetry_refuted : ∃ (env : Env) (a b : Obj), (verify env a .raise .write).out = .ok none ∧
    (verify env b .raise .write).out = .ok none ∧
    (equals a b false none).out = .ok true ∧ (equals b a false none).out = .ok false :=
  ⟨exEnv, exPut exSofa (py% "Data_IR") (.arr ⟨.f, [1, 2, 1], [.num (.fin 1), .num (.fin 1)]⟩),
    exPut exSofa (py% "Data_IR") (.arr ⟨.f, [1, 2, 1], [.num (.fin 1), .num (.fin (1 + 10000000500000 / 100000000000000000000))]⟩),
    by decide +kernel, by decide +kernel, by decide +kernel, by decide +kernel⟩

/-- an example that meets the hypotheses: the objects of the example convention -/
example : (exSofa.attrs.map Prod.fst).Nodup ∧ (equals exSofa exSofa true none) = ⟨.ok true, []⟩ := by decide +kernel

/-- C45: the result does not depend on the order of the entries. -/
theorem C45_order (a a' b b' : Obj) (verbose : Bool) (x : Option Str) (r : Bool)
    (hna : (a.attrs.map Prod.fst).Nodup) (hnb : (b.attrs.map Prod.fst).Nodup)
    (ha : a'.attrs.Perm a.attrs) (hb : b'.attrs.Perm b.attrs) (hca : a'.conv = a.conv) (hcb : b'.conv = b.conv) :
    (equals a' b' verbose x).out = .ok r ↔ (equals a b verbose x).out = .ok r := by
  have getp : ∀ (o o' : Obj), (o.attrs.map Prod.fst).Nodup → o'.attrs.Perm o.attrs →
      ∀ k, Dict.get? o'.attrs k = Dict.get? o.attrs k := by
    intro o o' hn hp k
    have hn' : (o'.attrs.map Prod.fst).Nodup := (hp.map Prod.fst).nodup_iff.2 hn
    cases h : Dict.get? o.attrs k with
    | none =>
      rw [Dict.get?_eq_none_iff] at h ⊢
      intro hc; exact h ((hp.map Prod.fst).mem_iff.1 hc)
    | some v => exact Dict.get?_of_mem hn' (hp.mem_iff.2 (Dict.mem_of_get? h))
  have keysp : ∀ (o o' : Obj), o'.attrs.Perm o.attrs → o'.conv = o.conv → ∀ l, compareKeys o x = .ok l →
      ∃ l', compareKeys o' x = .ok l' ∧ l'.Perm l := by
    intro o o' hp hc l hl
    have hk : o'.keys.Perm o.keys := hp.map Prod.fst
    unfold compareKeys at hl ⊢
    cases x with
    | none => simp only [Except.ok.injEq] at hl; subst hl; exact ⟨_, rfl, hk⟩
    | some x =>
      simp only at hl ⊢
      split at hl
      · rename_i h1
        rw [if_pos h1]
        cases hl
        exact ⟨_, rfl, hk.filter _⟩
      · rename_i h1
        rw [if_neg h1]
        split at hl
        · rename_i h2
          rw [if_pos h2]
          split at hl
          · cases hl
          · rename_i hf
            cases hl
            have : o'.keys.find? (fun k => !Dict.has o'.conv k) = none := by
              rw [List.find?_eq_none] at hf ⊢
              rw [hc]
              intro y hy
              exact hf y (hk.mem_iff.1 hy)
            rw [this]
            simp only
            rw [hc]
            exact ⟨_, rfl, hk.filter _⟩
        · rename_i h2
          rw [if_neg h2]
          split at hl
          · rename_i h3
            rw [if_pos h3]
            cases hl
            exact ⟨_, rfl, hk.filter _⟩
          · cases hl
  have hga := getp a a' hna ha
  have hgb := getp b b' hnb hb
  have hentry : ∀ k, compareEntry a' b' k = compareEntry a b k := by
    intro k
    unfold compareEntry
    rw [hga, hgb, hca, hcb]
  have main : ∀ (a a' b b' : Obj), (∀ k, compareEntry a' b' k = compareEntry a b k) →
      (∀ l, compareKeys a x = .ok l → ∃ l', compareKeys a' x = .ok l' ∧ l'.Perm l) →
      (∀ l, compareKeys b x = .ok l → ∃ l', compareKeys b' x = .ok l' ∧ l'.Perm l) →
      (equals a b verbose x).out = .ok r → (equals a' b' verbose x).out = .ok r := by
    intro a a' b b' he h1 h2 h
    rw [equals_out] at h ⊢
    obtain ⟨ka, kb, g1, g2, g3⟩ := h
    obtain ⟨ka', g1', p1⟩ := h1 ka g1
    obtain ⟨kb', g2', p2⟩ := h2 kb g2
    refine ⟨ka', kb', g1', g2', ?_⟩
    simp only [he, p1.mem_iff, p2.mem_iff, p1.length_eq, p2.length_eq]
    exact g3
  constructor
  · apply main
    · intro k; exact (hentry k).symm
    · exact keysp a' a ha.symm hca.symm
    · exact keysp b' b hb.symm hcb.symm
  · apply main
    · exact hentry
    · exact keysp a a' ha hca
    · exact keysp b b' hb hcb

example : ∃ a' : Obj, a'.attrs.Perm exSofa.attrs ∧ a'.attrs ≠ exSofa.attrs ∧ a'.conv = exSofa.conv ∧
    (equals a' exSofa false none).out = .ok true :=
  ⟨{ exSofa with attrs := exSofa.attrs.reverse }, List.reverse_perm _, by decide +kernel, rfl, by decide +kernel⟩

/-- Two numbers are the same or differ by more than the tolerance. -/
def Separated (x y : Elem) : Prop :=
  ∀ p q : Rat, x = .num (.fin p) → y = .num (.fin q) → p = q ∨ max p (-p) < max (p - q) (q - p) * 10000000 ∧
    max q (-q) < max (p - q) (q - p) * 10000000

theorem closeElem_comm {x y : Elem} (h : Separated x y) : closeElem x y = closeElem y x := by
  cases x with
  | masked => cases y <;> simp [closeElem]
  | str s => cases y <;> simp [closeElem]
  | obj t => cases y <;> simp [closeElem]
  | num p =>
    cases y with
    | masked => simp [closeElem]
    | str s => simp [closeElem]
    | obj t => simp [closeElem]
    | num q =>
      cases p <;> cases q <;> simp only [closeElem, eq_comm]
      rename_i p q
      have := h p q rfl rfl
      simp only [ratAbs, Option.some.injEq]
      grind

/-- C45: `equals` is symmetric if all numbers in variables of the same name are equal or differ by more than the
tolerance. Missing for the full claim: numbers that are close (`C45_symmetry_refuted`). -/
theorem C45_symmetric_partial (a b : Obj) (verbose verbose' : Bool) (x : Option Str) (r : Bool)
    (hsep : ∀ k v w, Dict.get? a.attrs k = some v → Dict.get? b.attrs k = some w →
      ∀ p ∈ Spec.elems v, ∀ q ∈ Spec.elems w, Separated p q)
    (h : (equals a b verbose x).out = .ok r) : (equals b a verbose' x).out = .ok r := by
  have hattr : ∀ v w, attrDiffers v w = attrDiffers w v := by
    intro v w
    unfold attrDiffers
    cases v <;> cases w <;> simp only [Val.asStr, ne_comm]
    rename_i k1 e1 k2 e2
    cases e1 <;> cases e2 <;> simp only
    congr 1
    grind
  have hentry : ∀ k m, compareEntry a b k = .ok m →
      ∃ m', compareEntry b a k = .ok m' ∧ (m' = none ↔ m = none) := by
    intro k m hm
    unfold compareEntry at hm ⊢
    cases hv : Dict.get? a.attrs k with
    | none => simp [hv] at hm
    | some v =>
      cases hw : Dict.get? b.attrs k with
      | none => simp [hv, hw] at hm
      | some w =>
        cases hea : Dict.get? a.conv k with
        | none => simp [hv, hw, hea] at hm
        | some ea =>
          cases heb : Dict.get? b.conv k with
          | none => simp [hv, hw, hea, heb] at hm
          | some eb =>
            simp only [hv, hw, hea, heb] at hm ⊢
            by_cases h1 : ea.typ = py% "attribute" ∧ eb.typ = py% "attribute"
            · rw [if_pos h1] at hm
              rw [if_pos h1.symm, hattr]
              cases hd : attrDiffers v w with
              | error e => simp [hd] at hm
              | ok d => simp only [hd, Except.ok.injEq] at hm ⊢; subst hm; exact ⟨_, rfl, by cases d <;> simp⟩
            · rw [if_neg h1] at hm
              rw [if_neg (fun h => h1 h.symm)]
              by_cases h2 : ea.typ = py% "double" ∧ eb.typ = py% "double"
              · rw [if_pos h2] at hm
                rw [if_pos h2.symm]
                have hc : allClose (squeezeVal w) (squeezeVal v) = allClose (squeezeVal v) (squeezeVal w) := by
                  have hkO : ∀ u : Val, Spec.kindOf u = .O → isRealKind (squeezeVal u).kind = false := by
                    intro u hu; rw [squeezeVal_kind, hu]; rfl
                  unfold allClose
                  by_cases g1 : (squeezeVal v).shape ≠ [] ∧ (squeezeVal w).shape ≠ [] ∧
                      (squeezeVal v).shape ≠ (squeezeVal w).shape
                  · rw [if_pos g1, if_pos ⟨g1.2.1, g1.1, g1.2.2.symm⟩]
                  · rw [if_neg g1, if_neg (fun g => g1 ⟨g.2.1, g.1, g.2.2.symm⟩)]
                    by_cases g2 : (squeezeVal v).kind = .U ∨ (squeezeVal v).kind = .S ∨ (squeezeVal w).kind = .U ∨
                        (squeezeVal w).kind = .S
                    · rw [if_pos g2, if_pos (by grind)]
                    · rw [if_neg g2, if_neg (by grind)]
                      by_cases g3 : isRealKind (squeezeVal v).kind = false ∨ isRealKind (squeezeVal w).kind = false
                      · rw [if_pos g3, if_pos g3.symm]
                      · rw [if_neg g3, if_neg (fun g => g3 g.symm), Arr.pairs_comm (squeezeVal v) (squeezeVal w)]
                        cases hp : (squeezeVal v).pairs (squeezeVal w) with
                        | none => simp
                        | some l =>
                          simp only [Option.map_some]
                          have : ((l.map Prod.swap).mapM fun p => closeElem p.1 p.2) =
                              l.mapM fun p => closeElem p.1 p.2 := by
                            rw [List.mapM_map]
                            have hcl : ∀ p ∈ l, closeElem p.2 p.1 = closeElem p.1 p.2 := by
                              intro p hpl
                              obtain ⟨q1, q2⟩ := Arr.mem_pairs hp hpl
                              have hkv : Spec.kindOf v ≠ .O := fun hk => g3 (Or.inl (hkO v hk))
                              have hkw : Spec.kindOf w ≠ .O := fun hk => g3 (Or.inr (hkO w hk))
                              rw [squeezeVal_data v hkv] at q1
                              rw [squeezeVal_data w hkw] at q2
                              rcases q1 with q1 | q1
                              · rw [q1]; cases p.2 <;> simp [closeElem]
                              · rcases q2 with q2 | q2
                                · rw [q2]; cases p.1 <;> simp [closeElem]
                                · exact (closeElem_comm (hsep k v w hv hw _ q1 _ q2)).symm
                            clear hp
                            induction l with
                            | nil => rfl
                            | cons p l ih =>
                              rw [List.mapM_cons, List.mapM_cons, ih (fun q hq => hcl q (by simp [hq]))]
                              simp [hcl p (by simp)]
                          rw [this]
                rw [hc]
                cases hd : allClose (squeezeVal v) (squeezeVal w) with
                | error e => simp [hd] at hm
                | ok d => simp only [hd, Except.ok.injEq] at hm ⊢; subst hm; exact ⟨_, rfl, by cases d <;> simp⟩
              · rw [if_neg h2] at hm
                rw [if_neg (fun h => h2 h.symm)]
                by_cases h3 : ea.typ = py% "string" ∧ eb.typ = py% "string"
                · rw [if_pos h3] at hm
                  rw [if_pos h3.symm]
                  cases hd : sameText (squeezeVal v) (squeezeVal w) with
                  | error e => simp [hd] at hm
                  | ok d =>
                    have : sameText (squeezeVal w) (squeezeVal v) = .ok d := by
                      unfold sameText at hd ⊢
                      cases hx : asBytes (squeezeVal v) with
                      | error e => simp [hx] at hd
                      | ok x =>
                        cases hy : asBytes (squeezeVal w) with
                        | error e => simp [hx, hy] at hd
                        | ok y =>
                          simp only [hx, hy] at hd ⊢
                          rw [Arr.pairs_comm x y]
                          cases hp : x.pairs y with
                          | none => simp [hp] at hd
                          | some l =>
                            simp only [hp, Except.ok.injEq] at hd
                            simp only [Option.map_some, Except.ok.injEq, ← hd, List.all_map]
                            congr 1
                            funext p
                            simp [eq_comm]
                    simp only [hd, Except.ok.injEq] at hm
                    simp only [this]
                    subst hm
                    exact ⟨_, rfl, by cases d <;> simp⟩
                · rw [if_neg h3] at hm
                  rw [if_neg (fun h => h3 h.symm)]
                  cases hm
                  exact ⟨_, rfl, by simp⟩
  rw [equals_out] at h ⊢
  obtain ⟨ka, kb, g1, g2, g3⟩ := h
  refine ⟨kb, ka, g2, g1, ?_⟩
  rcases g3 with ⟨q1, q2, q3, q4⟩ | ⟨q1, q2⟩
  · left
    refine ⟨q1.symm, fun k => (q2 k).symm, ?_, ?_⟩
    · intro k hk
      obtain ⟨m, hm⟩ := q3 k ((q2 k).2 hk)
      obtain ⟨m', hm', _⟩ := hentry k m hm
      exact ⟨m', hm'⟩
    · rw [q4]
      constructor
      · intro g k hk
        obtain ⟨m', hm', hmm⟩ := hentry k none (g k ((q2 k).2 hk))
        rw [hm', hmm.2 rfl]
      · intro g k hk
        obtain ⟨m, hm⟩ := q3 k hk
        obtain ⟨m', hm', hmm⟩ := hentry k m hm
        rw [g k ((q2 k).1 hk)] at hm'
        cases hm'
        rw [hm, hmm.1 rfl]
  · right
    exact ⟨fun h => q1 ⟨h.1.symm, fun k => (h.2 k).symm⟩, q2⟩

/-- two objects that differ by more than the tolerance -/
example : (equals (exPair [(py% "a", py% "double", exNum 1)]) (exPair [(py% "a", py% "double", exNum 2)]) false none).out =
    .ok false ∧ Separated (.num (.fin 1)) (.num (.fin 2)) := by
  refine ⟨by decide +kernel, ?_⟩
  intro p q hp hq
  cases hp
  cases hq
  right
  decide +kernel

/-! ## C46 (refutation) -/

/-- C46 is false: arrays of different shape are equal if one of them has a single element, and arrays of texts are
equal if they agree after broadcasting. -/
theorem C46_refuted : ∃ (env : Env) (a b c d : Obj), (verify env a .raise .write).out = .ok none ∧
    (verify env b .raise .write).out = .ok none ∧ (equals a b false none).out = .ok true ∧
    (Dict.get? a.attrs (py% "Data_IR")).map Spec.shapeOf = some [1, 2, 3] ∧
    (Dict.get? b.attrs (py% "Data_IR")).map Spec.shapeOf = some [1, 1, 1] ∧
    (equals c d false none).out = .ok true ∧
    (Dict.get? c.attrs (py% "Names")).map Spec.shapeOf = some [2, 3] ∧
    (Dict.get? d.attrs (py% "Names")).map Spec.shapeOf = some [3] :=
  ⟨exEnv,
    exPut (exPut exSofa (py% "Names") (.arr ⟨.U, [2, 1], [.str (py% "a"), .str (py% "a")]⟩)) (py% "Data_IR")
      (.arr (exNums .f [1, 2, 3] [1, 1, 1, 1, 1, 1])),
    exPut (exPut exSofa (py% "Names") (.arr ⟨.U, [1, 1], [.str (py% "a")]⟩)) (py% "Data_IR")
      (.arr (exNums .f [1, 1, 1] [1])), exPair [(py% "Names", py% "string",
      .arr ⟨.U, [2, 3], [.str (py% "a"), .str (py% "b"), .str (py% "c"), .str (py% "a"), .str (py% "b"), .str (py% "c")]⟩)],
    exPair [(py% "Names", py% "string", .arr ⟨.U, [3], [.str (py% "a"), .str (py% "b"), .str (py% "c")]⟩)],
    by decide +kernel, by decide +kernel, by decide +kernel, by decide +kernel, by decide +kernel, by decide +kernel,
    by decide +kernel, by decide +kernel⟩

/-! ## C47 -/

/-- comparing objects after entries were removed -/
theorem equals_without (P : Str → Prop) (a b : Obj) (verbose : Bool) (x : Str) (f : Str → Bool)
    (hf : ∀ k, f k = true ↔ ¬ P k)
    (ha : compareKeys a (some x) = .ok (a.keys.filter f)) (hb : compareKeys b (some x) = .ok (b.keys.filter f)) :
    equals a b verbose (some x) = equals (Spec.without P a) (Spec.without P b) verbose none := by
  classical
  have hk : ∀ o : Obj, compareKeys (Spec.without P o) none = .ok (o.keys.filter f) := by
    intro o
    simp only [compareKeys, Spec.without, Obj.keys, Dict.keys, Except.ok.injEq]
    rw [List.filter_map]
    congr 1
    apply List.filter_congr
    intro p _
    simp only [Function.comp]
    by_cases hp : P p.1
    · have : f p.1 = false := by
        cases h : f p.1 with
        | false => rfl
        | true => exact absurd hp ((hf _).1 h)
      simp [hp, this]
    · simp [hp, (hf _).2 hp]
  have hget : ∀ (o : Obj) k, f k = true → Dict.get? (Spec.without P o).attrs k = Dict.get? o.attrs k := by
    intro o k hfk
    simp only [Spec.without]
    apply Dict.get?_filter
    intro v
    simpa using (hf k).1 hfk
  have hentry : ∀ k, f k = true → compareEntry (Spec.without P a) (Spec.without P b) k = compareEntry a b k := by
    intro k hfk
    unfold compareEntry
    rw [hget a k hfk, hget b k hfk]
    rfl
  have hloop : ∀ l, (∀ k ∈ l, f k = true) → ∀ same ev,
      compareLoop a b verbose l same ev = compareLoop (Spec.without P a) (Spec.without P b) verbose l same ev := by
    intro l
    induction l with
    | nil => intro _ same ev; rfl
    | cons k l ih =>
      intro hl same ev
      simp only [compareLoop, hentry k (hl k (by simp)), ih (fun q hq => hl q (by simp [hq]))]
  unfold equals
  simp only [ha, hb, hk]
  rw [hloop _ (fun k hk => (List.mem_filter.1 hk).2)]

/-- C47: excluding global attributes compares the objects without entries that start with `GLOBAL_`. -/
theorem C47_global (a b : Obj) (verbose : Bool) (x : Str) (hx : Str.upper x = py% "GLOBAL") :
    equals a b verbose (some x) =
      equals (Spec.without (fun k => py% "GLOBAL_" <+: k) a) (Spec.without (fun k => py% "GLOBAL_" <+: k) b) verbose none := by
  apply equals_without _ _ _ _ _ (fun k => !Str.startsWith k (py% "GLOBAL_"))
  · intro k
    rw [← List.isPrefixOf_iff_prefix]
    simp only [Str.startsWith, Bool.not_eq_true', Bool.not_eq_true]
  · simp [compareKeys, hx]
  · simp [compareKeys, hx]

/-- C47: excluding dates compares the objects without entries that contain `Date`. -/
theorem C47_date (a b : Obj) (verbose : Bool) (x : Str) (hx : Str.upper x = py% "DATE") :
    equals a b verbose (some x) =
      equals (Spec.without (fun k => py% "Date" <:+: k) a) (Spec.without (fun k => py% "Date" <:+: k) b) verbose none := by
  apply equals_without _ _ _ _ _ (fun k => !Str.hasSub k (py% "Date"))
  · intro k
    rw [← hasSub_iff]
    simp
  · simp [compareKeys, hx]
  · simp [compareKeys, hx]

/-- C47: excluding attributes compares the objects without entries of type attribute, if all data is known to the
conventions of the objects and the conventions agree on what is an attribute. -/
theorem C47_attr (a b : Obj) (verbose : Bool) (x : Str) (hx : Str.upper x = py% "ATTR")
    (P : Str → Prop)
    (ha : ∀ k, Spec.IsData a k → ∃ e, Dict.get? a.conv k = some e ∧ (P k ↔ e.typ = py% "attribute"))
    (hb : ∀ k, Spec.IsData b k → ∃ e, Dict.get? b.conv k = some e ∧ (P k ↔ e.typ = py% "attribute")) :
    equals a b verbose (some x) = equals (Spec.without P a) (Spec.without P b) verbose none := by
  classical
  have hk : ∀ o : Obj, (∀ k, Spec.IsData o k → ∃ e, Dict.get? o.conv k = some e ∧ (P k ↔ e.typ = py% "attribute")) →
      compareKeys o (some x) = .ok (o.keys.filter (fun k => decide (¬ P k))) := by
    intro o ho
    unfold compareKeys
    simp only [hx]
    rw [if_neg (by decide), if_pos trivial]
    have : o.keys.find? (fun k => !Dict.has o.conv k) = none := by
      rw [List.find?_eq_none]
      intro k hk
      obtain ⟨e, he, _⟩ := ho k hk
      simp [Dict.has, he]
    rw [this]
    simp only [Except.ok.injEq]
    apply List.filter_congr
    intro k hk
    obtain ⟨e, he, hP⟩ := ho k hk
    simp [he, hP]
  exact equals_without P a b verbose x _ (by simp) (hk a ha) (hk b hb)

/-- C47: other values of `exclude` raise ValueError. -/
theorem C47_invalid (a b : Obj) (verbose : Bool) (x : Str)
    (hx : Str.upper x ∉ [py% "GLOBAL", py% "ATTR", py% "DATE"]) :
    ∃ m, (equals a b verbose (some x)).out = .error (.valueError m) := by
  simp only [List.mem_cons, List.not_mem_nil, or_false, not_or] at hx
  simp only [equals, compareKeys]
  rw [if_neg hx.1, if_neg hx.2.1, if_neg hx.2.2]
  exact ⟨_, rfl⟩

/-- objects that differ in one date: not equal, but equal without dates, global attributes or attributes -/
example : (equals exSofa (exPut exSofa (py% "GLOBAL_DateCreated") (.str (py% "x"))) false none).out = .ok false ∧
    (equals exSofa (exPut exSofa (py% "GLOBAL_DateCreated") (.str (py% "x"))) false (some (py% "date"))).out = .ok true ∧
    (equals exSofa (exPut exSofa (py% "GLOBAL_DateCreated") (.str (py% "x"))) false (some (py% "Global"))).out = .ok true ∧
    (equals exSofa (exPut exSofa (py% "GLOBAL_DateCreated") (.str (py% "x"))) false (some (py% "ATTR"))).out = .ok true ∧
    (equals exSofa exSofa false (some (py% "all"))).out = .error (.valueError (py% "exclude")) ∧
    exSofa.keys.all (Dict.has exSofa.conv) = true := by
  decide +kernel

end Sofar
