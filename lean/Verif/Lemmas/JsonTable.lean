import Verif.Lemmas.Json
import Verif.Lemmas.Compiled
import Verif.Lemmas.Lists
import Verif.Lemmas.Upgrade
/-!
# Lemmas about the json text of conventions
-/
namespace Sofar

theorem regular_number {repr : Rat → Str} {lang : Lang}
    (hf : ∀ s q, lang.float s = some (.fin q) → Spec.Exact repr lang.float q) {s : Str} {n : Number} (h : lang.number s = some n) :
    Spec.Regular repr lang.float n.json := by
  unfold Lang.number at h
  split at h
  · cases hx : lang.float s with
    | none => simp [hx] at h
    | some x =>
      simp only [hx, Option.map_some, Option.some.injEq] at h
      subst h
      exact .float x (fun q hq => hf s q (by rw [hx, hq]))
  · cases hx : lang.int s with
    | none => simp [hx] at h
    | some x =>
      simp only [hx, Option.map_some, Option.some.injEq] at h
      subst h
      exact .int x

theorem forall_of_mapM {α β : Type} {f : α → Option β} {P : β → Prop} (hf : ∀ a b, f a = some b → P b) :
    ∀ {l : List α} {r : List β}, l.mapM f = some r → ∀ b ∈ r, P b
  | [], r, h => by simp at h; subst h; simp
  | a :: l, r, h => by
    simp only [List.mapM_cons, Option.bind_eq_bind, Option.bind_eq_some_iff] at h
    obtain ⟨b, hb, r', hr', hr⟩ := h
    simp only [Option.pure_def, Option.some.injEq] at hr
    subst hr
    intro c hc
    rcases List.mem_cons.1 hc with rfl | hc
    · exact hf a _ hb
    · exact forall_of_mapM hf hr' c hc

theorem regular_list {repr : Rat → Str} {float : Str → Option Num} {α : Type} {f : α → Json} {l : List α}
    (h : ∀ a ∈ l, Spec.Regular repr float (f a)) : Spec.Regular repr float (.arr (l.map f)) := by
  refine .arr _ (fun v hv => ?_)
  obtain ⟨a, ha, rfl⟩ := List.mem_map.1 hv
  exact h a ha

theorem regular_parseCell {repr : Rat → Str} {lang : Lang}
    (hf : ∀ s q, lang.float s = some (.fin q) → Spec.Exact repr lang.float q) {s : Str} {c : Cell} (h : parseCell lang s = some c) :
    Spec.Regular repr lang.float c.json := by
  have hl : ∀ s l, numberList lang s = some l → ∀ n ∈ l, Spec.Regular repr lang.float n.json :=
    fun s l h => forall_of_mapM (fun _ _ => regular_number hf) h
  unfold parseCell at h
  split at h
  · cases h; exact .null
  · split at h
    · cases h
    · split at h
      · obtain ⟨l, hx, rfl⟩ := Option.map_eq_some_iff.1 h
        exact regular_list (fun r hr => regular_list (forall_of_mapM (P := fun r => ∀ n ∈ r, Spec.Regular repr lang.float n.json) hl hx r hr))
      · obtain ⟨l, hx, rfl⟩ := Option.map_eq_some_iff.1 h
        exact regular_list (hl _ _ hx)
    · split at h
      · rename_i hn; cases h; exact regular_number hf hn
      · cases h; exact .str _

theorem regular_cellDefault {repr : Rat → Str} {float : Str → Option Num} {c : Cell} (h : Spec.Regular repr float c.json) :
    Spec.Regular repr float (cellDefault c).json := by
  cases c with
  | empty => exact .str _
  | text s =>
    simp only [cellDefault]
    have hz : ∀ n ∈ ([.int 0, .int 0, .int 0, .int 1, .int 0, .int 0] : List Number), Spec.Regular repr float n.json := by
      intro n hn
      simp only [List.mem_cons, List.not_mem_nil, or_false] at hn
      rcases hn with rfl | rfl | rfl | rfl | rfl | rfl <;> exact .int _
    split
    · exact regular_list (fun m hm => regular_list (fun r hr => regular_list (by
        simp only [List.mem_cons, List.not_mem_nil, or_false] at hm
        subst hm
        simp only [List.mem_cons, List.not_mem_nil, or_false, or_self] at hr
        subst hr
        exact hz)))
    · split
      · exact regular_list (fun m hm => regular_list (fun r hr => regular_list (by
          simp only [List.mem_cons, List.not_mem_nil, or_false] at hm
          subst hm
          simp only [List.mem_cons, List.not_mem_nil, or_false] at hr
          subst hr
          exact hz)))
      · split
        · exact regular_list (fun s _ => .str s)
        · exact .str s
  | num n => exact h
  | list l => exact h
  | nested l => exact h
  | deep l => exact h
  | texts l => exact h

theorem regular_cellVersion {repr : Rat → Str} {lang : Lang} {name : Str} {c c' : Cell} (h : Spec.Regular repr lang.float c.json)
    (hc : cellVersion lang name c = some c') : Spec.Regular repr lang.float c'.json := by
  unfold cellVersion at hc
  split at hc
  · split at hc
    · cases hc; exact .str _
    · obtain ⟨t, _, rfl⟩ := Option.map_eq_some_iff.1 hc; exact .str _
    · cases hc
  · cases hc; exact h

/-- entries of conventions -/
def EntryOk (repr : Rat → Str) (float : Str → Option Num) (e : Dict Cell) : Prop :=
  (Dict.keys e).Nodup ∧ ∀ q ∈ e, Spec.Regular repr float q.2.json

theorem mem_put_values {V : Type} {P : V → Prop} {d : Dict V} {k : Str} {v : V} (hv : P v) (h : ∀ p ∈ d, P p.2) :
    ∀ p ∈ Dict.put d k v, P p.2 := by
  induction d with
  | nil => intro p hp; simp only [Dict.put, List.mem_singleton] at hp; subst hp; exact hv
  | cons q d ih =>
    intro p hp
    simp only [Dict.put] at hp
    split at hp
    · rcases List.mem_cons.1 hp with rfl | hp
      · exact hv
      · exact h p (by simp [hp])
    · rcases List.mem_cons.1 hp with rfl | hp
      · exact h _ (by simp)
      · exact ih (fun p hp => h p (by simp [hp])) p hp

theorem entryOk_fillFields {repr : Rat → Str} {float : Str → Option Num} : ∀ (fs cs : List Cell) (d e : Dict Cell),
    EntryOk repr float d → (∀ c ∈ cs, Spec.Regular repr float c.json) → fillFields fs cs d = some e → EntryOk repr float e
  | [], cs, d, e, hd, _, h => by simp only [fillFields, Option.some.injEq] at h; subst h; exact hd
  | f :: fs, [], d, e, hd, _, h => by cases f <;> simp [fillFields] at h
  | f :: fs, c :: cs, d, e, hd, hc, h => by
    cases f with
    | text f =>
      rw [fillFields] at h
      exact entryOk_fillFields fs cs _ e ⟨Dict.nodup_put _ _ hd.1,
        mem_put_values (P := fun c => Spec.Regular repr float (Cell.json c)) (hc c (by simp)) hd.2⟩ (fun c' h' => hc c' (by simp [h'])) h
    | _ => simp [fillFields] at h

theorem entryOk_rowEntry {repr : Rat → Str} {lang : Lang} {fields row : List Cell} {name : Str} {e : Dict Cell}
    (hr : ∀ c ∈ row, Spec.Regular repr lang.float c.json) (h : rowEntry lang fields row = some (name, e)) : EntryOk repr lang.float e := by
  have hr' : ∀ c ∈ (if row.length = 5 then row ++ [.text []] else row), Spec.Regular repr lang.float (Cell.json c) := by
    intro c hc
    split at hc
    · rcases List.mem_append.1 hc with hc | hc
      · exact hr c hc
      · simp only [List.mem_singleton] at hc; subst hc; exact .str _
    · exact hr c hc
  unfold rowEntry at h
  split at h
  · rename_i nm df rest heq
    rw [heq] at hr'
    split at h
    · cases h
    · rename_i c hc
      obtain ⟨e', he', heq'⟩ := Option.map_eq_some_iff.1 h
      cases heq'
      refine entryOk_fillFields _ _ _ _ ⟨by simp [Dict.keys], by simp⟩ ?_ he'
      intro c' hc'
      rcases List.mem_cons.1 hc' with rfl | hc'
      · exact regular_cellVersion (regular_cellDefault (hr' df (by simp))) hc
      · exact hr' c' (by simp [hc'])
  · cases h

theorem entryOk_csvRows {repr : Rat → Str} {lang : Lang}
    (hf : ∀ s q, lang.float s = some (.fin q) → Spec.Exact repr lang.float q) (fields : List Cell) :
    ∀ (ls : List Str) (d e : Dict (Dict Cell)), (∀ p ∈ d, EntryOk repr lang.float p.2) → csvRows lang fields ls d = some e →
      ∀ p ∈ e, EntryOk repr lang.float p.2
  | [], d, e, hd, h => by simp only [csvRows, Option.some.injEq] at h; subst h; exact hd
  | l :: ls, d, e, hd, h => by
    rw [csvRows] at h
    split at h
    · cases h
    · rename_i row hrow
      split at h
      · cases h
      · rename_i name en hen
        exact entryOk_csvRows hf fields ls _ e (mem_put_values (entryOk_rowEntry
          (forall_of_mapM (fun _ _ => regular_parseCell hf) hrow) hen) hd) h

theorem values_moveToEnd {V : Type} {P : V → Prop} {d : Dict V} (k : Str) (h : ∀ p ∈ d, P p.2) : ∀ p ∈ moveToEnd d k, P p.2 := by
  unfold moveToEnd
  cases hg : Dict.get? d k with
  | none => exact h
  | some v =>
    refine mem_put_values (h (k, v) (Dict.mem_of_get? hg)) (fun p hp => h p ?_)
    exact (List.mem_filter.1 hp).1

theorem values_reorder {V : Type} {P : V → Prop} {d : Dict V} (h : ∀ p ∈ d, P p.2) : ∀ p ∈ reorder d, P p.2 := by
  have key : ∀ (q : Str → Bool) (ks : List Str) (d : Dict V), (∀ p ∈ d, P p.2) →
      ∀ p ∈ ks.foldl (fun d k => if q k then d else moveToEnd d k) d, P p.2 := by
    intro q ks
    induction ks with
    | nil => intro d hd; exact hd
    | cons k ks ih =>
      intro d hd
      rw [List.foldl_cons]
      refine ih _ ?_
      split
      · exact hd
      · exact values_moveToEnd k hd
  have key' : ∀ (q : Str → Bool) (ks : List Str) (d : Dict V), (∀ p ∈ d, P p.2) →
      ∀ p ∈ ks.foldl (fun d k => if q k then moveToEnd d k else d) d, P p.2 := by
    intro q ks
    induction ks with
    | nil => intro d hd; exact hd
    | cons k ks ih =>
      intro d hd
      rw [List.foldl_cons]
      refine ih _ ?_
      split
      · exact values_moveToEnd k hd
      · exact hd
  exact key' _ _ _ (key _ _ _ h)

theorem regular_table {repr : Rat → Str} {lang : Lang}
    (hf : ∀ s q, lang.float s = some (.fin q) → Spec.Exact repr lang.float q) {x : Str} {t : Dict (Dict Cell)}
    (h : csv2dict lang x = .ok t) : Spec.Regular repr lang.float (tableJson t) := by
  have hn := csv2dict_nodup h
  have hv : ∀ p ∈ t, EntryOk repr lang.float p.2 := by
    unfold csv2dict at h
    split at h
    · cases h
    · split at h
      · cases h
      · rename_i d hd
        cases h
        refine values_reorder ?_
        unfold csvTable at hd
        split at hd
        · cases hd; simp
        · split at hd
          · cases hd
          · exact entryOk_csvRows hf _ _ _ _ (by simp) hd
  refine .obj _ (by simpa [Dict.keys, Function.comp_def] using hn) (fun p hp => ?_)
  obtain ⟨q, hq, rfl⟩ := List.mem_map.1 hp
  refine .obj _ (by simpa [Dict.keys, Function.comp_def] using (hv q hq).1) (fun r hr => ?_)
  obtain ⟨u, hu, rfl⟩ := List.mem_map.1 hr
  exact (hv q hq).2 u hu

/-- characters of the text -/
def Plain (c : Char) : Prop := c = '\n' ∨ 32 ≤ c.toNat ∧ c.toNat ≤ 126

theorem plain_hexDigit (n : Nat) (h : n < 16) : Plain (hexDigit n) := by
  unfold Plain
  have : ∀ n < 16, hexDigit n = '\n' ∨ 32 ≤ (hexDigit n).toNat ∧ (hexDigit n).toNat ≤ 126 := by decide
  exact this n h

theorem plain_dumpChar (c : Char) : ∀ x ∈ dumpChar c, Plain x := by
  intro x hx
  unfold dumpChar at hx
  have two : ∀ a b : Char, Plain a → Plain b → x ∈ [a, b] → Plain x := by
    intro a b ha hb h
    simp only [List.mem_cons, List.not_mem_nil, or_false] at h
    rcases h with rfl | rfl
    · exact ha
    · exact hb
  have p : Plain '\\' := by unfold Plain; decide
  split at hx
  · exact two _ _ p (by unfold Plain; decide) hx
  split at hx
  · exact two _ _ p (by unfold Plain; decide) hx
  split at hx
  · exact two _ _ p (by unfold Plain; decide) hx
  split at hx
  · exact two _ _ p (by unfold Plain; decide) hx
  split at hx
  · exact two _ _ p (by unfold Plain; decide) hx
  split at hx
  · exact two _ _ p (by unfold Plain; decide) hx
  split at hx
  · exact two _ _ p (by unfold Plain; decide) hx
  split at hx
  · rename_i h
    simp only [List.mem_singleton] at hx
    subst hx
    exact Or.inr h
  · obtain ⟨n, _, hn⟩ := List.mem_flatMap.1 hx
    simp only [uEscape, List.mem_cons, List.not_mem_nil, or_false] at hn
    rcases hn with rfl | rfl | rfl | rfl | rfl | rfl
    · exact p
    · unfold Plain; decide
    all_goals exact plain_hexDigit _ (by omega)

theorem plain_dumpStr (s : Str) : ∀ x ∈ dumpStr s, Plain x := by
  intro x hx
  simp only [dumpStr, List.mem_cons, List.mem_append, List.not_mem_nil, or_false, List.mem_flatMap] at hx
  rcases hx with rfl | ⟨c, _, hc⟩ | rfl
  · unfold Plain; decide
  · exact plain_dumpChar c x hc
  · unfold Plain; decide

theorem plain_digit {c : Char} (h : c ∈ py% "0123456789") : Plain c := by
  have : ∀ c ∈ py% "0123456789", c = '\n' ∨ 32 ≤ c.toNat ∧ c.toNat ≤ 126 := by decide
  exact this c h

theorem plain_dumpInt (i : Int) : ∀ x ∈ dumpInt i, Plain x := by
  intro x hx
  cases i with
  | ofNat n => exact plain_digit ((toDigits_text n).1.2 x hx)
  | negSucc n =>
    rcases List.mem_cons.1 hx with rfl | hx
    · unfold Plain; decide
    · exact plain_digit ((toDigits_text (n + 1)).1.2 x hx)

theorem plain_float {s : Str} (h : Spec.FloatText s) : ∀ x ∈ s, Plain x := by
  obtain ⟨sign, d, f, e, rfl, hs, hd, _, hf, he, _⟩ := h
  intro x hx
  have m : Plain '-' := by unfold Plain; decide
  have pl : Plain '+' := by unfold Plain; decide
  simp only [List.mem_append] at hx
  rcases hx with ((hx | hx) | hx) | hx
  · rcases hs with rfl | rfl
    · simp at hx
    · simp only [List.mem_singleton] at hx; subst hx; exact m
  · exact plain_digit (hd.2 x hx)
  · rcases hf with rfl | ⟨g, rfl, hg⟩
    · simp at hx
    · rcases List.mem_cons.1 hx with rfl | hx
      · unfold Plain; decide
      · exact plain_digit (hg.2 x hx)
  · rcases he with rfl | ⟨sg, g, rfl, hsg, hg⟩
    · simp at hx
    · rcases List.mem_cons.1 hx with rfl | hx
      · unfold Plain; decide
      · rcases List.mem_append.1 hx with hx | hx
        · rcases hsg with rfl | rfl | rfl
          · simp at hx
          · simp only [List.mem_singleton] at hx; subst hx; exact m
          · simp only [List.mem_singleton] at hx; subst hx; exact pl
        · exact plain_digit (hg.2 x hx)

theorem plain_newLine (n : Nat) : ∀ x ∈ newLine n, Plain x := by
  intro x hx
  rcases List.mem_cons.1 hx with rfl | hx
  · exact Or.inl rfl
  · have := (List.mem_replicate.1 hx).2
    subst this
    unfold Plain; decide

theorem plain_all {s : Str} (h : s.all (fun c => c == '\n' || (decide (32 ≤ c.toNat) && decide (c.toNat ≤ 126))) = true) :
    ∀ x ∈ s, Plain x := by
  intro x hx
  have := List.all_eq_true.1 h x hx
  simpa [Plain] using this

mutual

theorem plain_dumpValue (repr : Rat → Str) (hr : ∀ q, ∀ x ∈ repr q, Plain x) (level : Nat) : ∀ (v : Json), ∀ x ∈ dumpValue repr level v, Plain x
  | .null => by simp only [dumpValue, dumpFloat, if_true, if_false, Bool.false_eq_true]; exact plain_all (by decide)
  | .bool true => by simp only [dumpValue, dumpFloat, if_true, if_false, Bool.false_eq_true]; exact plain_all (by decide)
  | .bool false => by simp only [dumpValue, dumpFloat, if_true, if_false, Bool.false_eq_true]; exact plain_all (by decide)
  | .int i => plain_dumpInt i
  | .float (.fin q) => hr q
  | .float .nan => by simp only [dumpValue, dumpFloat, if_true, if_false, Bool.false_eq_true]; exact plain_all (by decide)
  | .float .pinf => by simp only [dumpValue, dumpFloat, if_true, if_false, Bool.false_eq_true]; exact plain_all (by decide)
  | .float .ninf => by simp only [dumpValue, dumpFloat, if_true, if_false, Bool.false_eq_true]; exact plain_all (by decide)
  | .str s => plain_dumpStr s
  | .arr [] => by simp only [dumpValue, dumpFloat, if_true, if_false, Bool.false_eq_true]; exact plain_all (by decide)
  | .arr (v :: l) => by
    intro x hx
    have h1 := plain_dumpValue repr hr (level + 1) v
    have h2 := plain_dumpItems repr hr (level + 1) l
    simp only [dumpValue, List.mem_cons, List.mem_append, List.not_mem_nil, or_false] at hx
    rcases hx with rfl | (((hx | hx) | hx) | hx) | rfl
    · unfold Plain; decide
    · exact plain_newLine _ x hx
    · exact h1 x hx
    · exact h2 x hx
    · exact plain_newLine _ x hx
    · unfold Plain; decide
  | .obj [] => by simp only [dumpValue, dumpFloat, if_true, if_false, Bool.false_eq_true]; exact plain_all (by decide)
  | .obj ((k, v) :: d) => by
    intro x hx
    have h1 := plain_dumpValue repr hr (level + 1) v
    have h2 := plain_dumpFields repr hr (level + 1) d
    simp only [dumpValue, List.mem_cons, List.mem_append, List.not_mem_nil, or_false] at hx
    rcases hx with rfl | (((((hx | hx) | hx | hx) | hx) | hx) | hx) | rfl
    · unfold Plain; decide
    · exact plain_newLine _ x hx
    · exact plain_dumpStr k x hx
    · subst hx; unfold Plain; decide
    · subst hx; unfold Plain; decide
    · exact h1 x hx
    · exact h2 x hx
    · exact plain_newLine _ x hx
    · unfold Plain; decide

theorem plain_dumpItems (repr : Rat → Str) (hr : ∀ q, ∀ x ∈ repr q, Plain x) (level : Nat) : ∀ (l : List Json), ∀ x ∈ dumpItems repr level l, Plain x
  | [] => by intro x hx; simp [dumpItems] at hx
  | v :: l => by
    intro x hx
    have h1 := plain_dumpValue repr hr level v
    have h2 := plain_dumpItems repr hr level l
    simp only [dumpItems, List.mem_cons, List.mem_append, List.not_mem_nil, or_false] at hx
    rcases hx with rfl | (hx | hx) | hx
    · unfold Plain; decide
    · exact plain_newLine _ x hx
    · exact h1 x hx
    · exact h2 x hx

theorem plain_dumpFields (repr : Rat → Str) (hr : ∀ q, ∀ x ∈ repr q, Plain x) (level : Nat) : ∀ (d : List (Str × Json)), ∀ x ∈ dumpFields repr level d, Plain x
  | [] => by intro x hx; simp [dumpFields] at hx
  | (k, v) :: d => by
    intro x hx
    have h1 := plain_dumpValue repr hr level v
    have h2 := plain_dumpFields repr hr level d
    simp only [dumpFields, List.mem_cons, List.mem_append, List.not_mem_nil, or_false] at hx
    rcases hx with rfl | (((hx | hx) | hx | hx) | hx) | hx
    · unfold Plain; decide
    · exact plain_newLine _ x hx
    · exact plain_dumpStr k x hx
    · subst hx; unfold Plain; decide
    · subst hx; unfold Plain; decide
    · exact h1 x hx
    · exact h2 x hx

end

theorem pyList_eq (l : List Json) : pyList l = l.map Json.py := by
  induction l with
  | nil => rfl
  | cons v l ih => simp [pyList, ih]

theorem pyList_map {α : Type} (f : α → Json) (l : List α) : pyList (l.map f) = l.map (fun a => (f a).py) := by
  simp [pyList_eq, Function.comp_def]

/-- cells of csv files -/
def PyCell : Cell → Prop
  | .empty => False
  | .list l => l ≠ []
  | .nested l => l ≠ [] ∧ ∀ r ∈ l, r ≠ []
  | .deep l => l ≠ [] ∧ ∃ k ≠ 0, ∃ j ≠ 0, ∀ m ∈ l, m.length = k ∧ ∀ r ∈ m, r.length = j
  | .texts l => l ≠ []
  | _ => True

theorem number_item (n : Number) : Spec.IsItem n.json.py := by cases n <;> exact trivial

theorem kindOf_numbersPy {l : List Number} (h : l ≠ []) : kindOf (l.map (fun n => n.json.py)) = numbersKind l := by
  unfold kindOf numbersKind
  have h1 : (l.map (fun n => n.json.py)).any PyVal.isOther = false := by
    simp only [List.any_map, List.any_eq_false, Function.comp]
    intro n _; cases n <;> simp [Number.json, Json.py, PyVal.isOther]
  have h2 : (l.map (fun n => n.json.py)).any PyVal.isText = false := by
    simp only [List.any_map, List.any_eq_false, Function.comp]
    intro n _; cases n <;> simp [Number.json, Json.py, PyVal.isText]
  have h3 : ∀ x y : Kind, (if l.any (fun n => match n with | .float _ => true | .int _ => false) = true then x else y) =
      if (l.map (fun n => n.json.py)).any PyVal.isFloat = true then x else y := by
    intro x y
    have : (l.map (fun n => n.json.py)).any PyVal.isFloat = l.any (fun n => match n with | .float _ => true | .int _ => false) := by
      rw [List.any_map]
      congr 1
      funext n; cases n <;> rfl
    rw [this]
  rw [h1, h2]
  refine Eq.trans ?_ (h3 .f .i).symm
  simp only [Bool.false_eq_true, if_false]
  by_cases hf : (l.map (fun n => n.json.py)).any PyVal.isFloat = true
  · rw [if_pos hf, if_pos hf]
  · rw [if_neg hf, if_neg hf]
    cases l with
    | nil => exact absurd rfl h
    | cons n l =>
      cases n with
      | float x => simp [Number.json, Json.py, PyVal.isFloat] at hf
      | int i => rfl

theorem elems_numbersPy (text : PyVal → Str) (k : Kind) (hk : k ≠ .U) (l : List Number) :
    (l.map (fun n => n.json.py)).map (elemOf text k) = l.map numberElem := by
  rw [List.map_map]
  refine List.map_congr_left (fun n _ => ?_)
  cases n <;> simp [Number.json, Json.py, elemOf, hk, numberElem]

theorem numbersKind_ne (l : List Number) : numbersKind l ≠ .U := by
  unfold numbersKind
  split <;> simp

theorem leavesList_numbers (l : List Number) : leavesList (l.map (fun n => n.json.py)) = l.map (fun n => n.json.py) := by
  induction l with
  | nil => rfl
  | cons n l ih => rw [List.map_cons, leavesList, leaves_item (number_item n), ih]; rfl

theorem arrayOf_numbers (text : PyVal → Str) {v : PyVal} {l : List Number} (s : List Nat) (h : leaves v = l.map (fun n => n.json.py))
    (hl : l ≠ []) : arrayOf text v s = ⟨numbersKind l, s, l.map numberElem⟩ := by
  unfold arrayOf
  rw [h, kindOf_numbersPy hl, elems_numbersPy text _ (numbersKind_ne l)]

theorem shapeOf_numbers {l : List Number} (h : l ≠ []) : shapeOf (.list (l.map (fun n => n.json.py))) = some [l.length] := by
  have : Spec.Rect (.list (l.map (fun n => n.json.py))) ((l.map (fun n => n.json.py)).length :: []) :=
    .list _ _ (by simpa using h) (fun w hw => by
      obtain ⟨n, _, rfl⟩ := List.mem_map.1 hw
      exact .item _ (number_item n))
  simpa using shapeOf_of_rect this

theorem rect_length {l : List PyVal} {s : List Nat} (h : Spec.Rect (.list l) s) : ∃ t, s = l.length :: t := by
  cases h with
  | item _ hi => exact absurd hi (by simp [Spec.IsItem])
  | empty => exact ⟨[], rfl⟩
  | list _ s hne hw => exact ⟨s, rfl⟩

theorem toInp_cell (text : PyVal → Str) {c : Cell} (h : PyCell c) : cellInp c = some (c.json.py.toInp text) := by
  cases c with
  | empty => exact absurd h (by simp [PyCell])
  | text s => rfl
  | num n => cases n <;> rfl
  | list l =>
    simp only [PyCell] at h
    simp only [cellInp, Cell.json, Json.py, pyList_map, PyVal.toInp, shapeOf_numbers h]
    rw [arrayOf_numbers text (l := l) _ (by rw [leaves]; exact leavesList_numbers l) h]
  | nested l =>
    obtain ⟨h1, h2⟩ := h
    cases l with
    | nil => exact absurd rfl h1
    | cons r rs =>
      simp only [cellInp, Cell.json, Json.py, pyList_map, PyVal.toInp, nestedInp]
      have hlv : leaves (.list ((r :: rs).map (fun a => PyVal.list (a.map (fun n => n.json.py))))) =
          (r :: rs).flatten.map (fun n => n.json.py) := by
        rw [leaves, leavesList_eq, List.flatMap_map, List.map_flatten, List.flatMap_def]
        congr 1
        refine List.map_congr_left (fun a _ => ?_)
        rw [leaves, leavesList_numbers]
      have hfl : (r :: rs).flatten ≠ [] := by
        have := h2 r (by simp)
        simp [this]
      split
      · rename_i hall
        have hall' : ∀ x ∈ rs, x.length = r.length := by simpa using hall
        have : shapeOf (.list ((r :: rs).map (fun a => PyVal.list (a.map (fun n => n.json.py))))) = some [(r :: rs).length, r.length] := by
          have hr : Spec.Rect (.list ((r :: rs).map (fun a => PyVal.list (a.map (fun n => n.json.py)))))
              (((r :: rs).map (fun a => PyVal.list (a.map (fun n => n.json.py)))).length :: [r.length]) :=
            .list _ _ (by simp) (fun w hw => by
              obtain ⟨a, ha, rfl⟩ := List.mem_map.1 hw
              have hlen : a.length = r.length := by
                rcases List.mem_cons.1 ha with rfl | ha
                · rfl
                · exact hall' a ha
              rw [← hlen]
              exact shapeOf_iff.1 (shapeOf_numbers (h2 a ha)))
          simpa using shapeOf_of_rect hr
        rw [this]
        simp only [arrayOf_numbers text _ hlv hfl]
      · rename_i hall
        have : shapeOf (.list ((r :: rs).map (fun a => PyVal.list (a.map (fun n => n.json.py))))) = none := by
          cases hs : shapeOf (.list ((r :: rs).map (fun a => PyVal.list (a.map (fun n => n.json.py))))) with
          | none => rfl
          | some s =>
            refine absurd ?_ hall
            have hr := rect_of_shapeOf _ _ hs
            cases hr with
            | item _ hi => exact absurd hi (by simp [Spec.IsItem])
            | list _ s hne hw =>
              simp only [List.all_eq_true, beq_iff_eq]
              intro x hx
              have e1 := hw _ (List.mem_map.2 ⟨r, by simp, rfl⟩)
              have e2 := hw _ (List.mem_map.2 ⟨x, by simp [hx], rfl⟩)
              obtain ⟨t1, e1⟩ := rect_length e1
              obtain ⟨t2, e2⟩ := rect_length e2
              rw [e1] at e2
              simp only [List.length_map, List.cons.injEq] at e2
              exact e2.1.symm
        rw [this]
  | deep l =>
    obtain ⟨h1, k, hk, j, hj, h2⟩ := h
    cases l with
    | nil => exact absurd rfl h1
    | cons m ms =>
      have hm := h2 m (by simp)
      cases m with
      | nil => exact absurd hm.1.symm hk
      | cons r m =>
        have hr := hm.2 r (by simp)
        simp only [cellInp, Cell.json, Json.py, pyList_map, PyVal.toInp, deepInp]
        have hall : ((r :: m) :: ms).all (fun x => x.length == (r :: m).length && x.all (fun y => y.length == r.length)) = true := by
          simp only [List.all_eq_true, Bool.and_eq_true, beq_iff_eq]
          intro x hx
          have := h2 x hx
          exact ⟨by rw [this.1, hm.1], fun y hy => by rw [this.2 y hy, hr]⟩
        rw [if_pos hall]
        have hlv : leaves (.list (((r :: m) :: ms).map (fun b => PyVal.list (b.map (fun a => PyVal.list (a.map (fun n => n.json.py))))))) =
            ((r :: m) :: ms).flatten.flatten.map (fun n => n.json.py) := by
          rw [leaves, leavesList_eq, List.flatMap_map, List.map_flatten, List.map_flatten, List.flatten_flatten, List.flatMap_def]
          congr 1
          rw [List.map_map]
          refine List.map_congr_left (fun b _ => ?_)
          rw [leaves, leavesList_eq, List.flatMap_map, List.flatMap_def]
          simp only [Function.comp]
          congr 1
          refine List.map_congr_left (fun a _ => ?_)
          rw [leaves, leavesList_numbers]
        have hfl : ((r :: m) :: ms).flatten.flatten ≠ [] := by
          have : r ≠ [] := by intro h; rw [h] at hr; exact hj hr.symm
          simp [this]
        have hsh : shapeOf (.list (((r :: m) :: ms).map (fun b => PyVal.list (b.map (fun a => PyVal.list (a.map (fun n => n.json.py))))))) =
            some [((r :: m) :: ms).length, (r :: m).length, r.length] := by
          have hr' : Spec.Rect (.list (((r :: m) :: ms).map (fun b => PyVal.list (b.map (fun a => PyVal.list (a.map (fun n => n.json.py)))))))
              ((((r :: m) :: ms).map (fun b => PyVal.list (b.map (fun a => PyVal.list (a.map (fun n => n.json.py)))))).length :: [k, j]) := by
            refine .list _ _ (by simp) (fun w hw => ?_)
            obtain ⟨b, hb, rfl⟩ := List.mem_map.1 hw
            have hb' := h2 b hb
            have : Spec.Rect (.list (b.map (fun a => PyVal.list (a.map (fun n => n.json.py)))))
                ((b.map (fun a => PyVal.list (a.map (fun n => n.json.py)))).length :: [j]) := by
              refine .list _ _ ?_ (fun w hw => ?_)
              · intro h0
                have := congrArg List.length h0
                simp only [List.length_map, List.length_nil] at this
                exact hk (by rw [← hb'.1, this])
              · obtain ⟨a, ha, rfl⟩ := List.mem_map.1 hw
                have ha' := hb'.2 a ha
                have := shapeOf_iff.1 (shapeOf_numbers (l := a) (by intro h; rw [h] at ha'; exact hj ha'.symm))
                rwa [ha'] at this
            rwa [List.length_map, hb'.1] at this
          rw [shapeOf_of_rect hr', List.length_map, hm.1, hr]
        rw [hsh]
        simp only [arrayOf_numbers text _ hlv hfl]
  | texts l =>
    simp only [PyCell] at h
    simp only [cellInp, Cell.json, Json.py, pyList_map, PyVal.toInp]
    have hlv : leaves (.list (l.map (fun a => PyVal.str a))) = l.map PyVal.str := by
      rw [leaves]
      induction l with
      | nil => rfl
      | cons a l ih =>
        rw [List.map_cons, leavesList]
        cases l with
        | nil => rfl
        | cons b l => rw [ih (by simp)]; rfl
    have hsh : shapeOf (.list (l.map (fun a => PyVal.str a))) = some [l.length] := by
      have : Spec.Rect (.list (l.map (fun a => PyVal.str a))) ((l.map (fun a => PyVal.str a)).length :: []) :=
        .list _ _ (by simpa using h) (fun w hw => by
          obtain ⟨n, _, rfl⟩ := List.mem_map.1 hw
          exact .item _ trivial)
      simpa using shapeOf_of_rect this
    rw [hsh]
    simp only [arrayOf, hlv, kindOf_texts (l := l.map PyVal.str) (by simp) (by simpa using h)]
    simp [elemOf]

theorem mapM_ne_nil {α β : Type} {f : α → Option β} {l : List α} {r : List β} (hl : l ≠ []) (h : l.mapM f = some r) : r ≠ [] := by
  cases l with
  | nil => exact absurd rfl hl
  | cons a l =>
    simp only [List.mapM_cons, Option.bind_eq_bind, Option.bind_eq_some_iff] at h
    obtain ⟨b, _, r', _, hr⟩ := h
    simp only [Option.pure_def, Option.some.injEq] at hr
    subst hr
    simp

theorem pyCell_parse {lang : Lang} {s : Str} {c : Cell} (h : parseCell lang s = some c) : c = .empty ∨ PyCell c := by
  have hl : ∀ s l, numberList lang s = some l → l ≠ [] := fun s l h => mapM_ne_nil (splitChar_ne _ _) h
  unfold parseCell at h
  split at h
  · cases h; exact Or.inl rfl
  · refine Or.inr ?_
    split at h
    · cases h
    · split at h
      · obtain ⟨l, hx, rfl⟩ := Option.map_eq_some_iff.1 h
        exact ⟨mapM_ne_nil (splitChar_ne _ _) hx, forall_of_mapM hl hx⟩
      · obtain ⟨l, hx, rfl⟩ := Option.map_eq_some_iff.1 h
        exact hl _ _ hx
    · split at h <;> cases h <;> exact trivial

theorem pyCell_default {c : Cell} (h : c = .empty ∨ PyCell c) : PyCell (cellDefault c) := by
  rcases h with rfl | h
  · exact trivial
  · cases c with
    | text s =>
      simp only [cellDefault]
      split
      · exact ⟨by simp, 2, by decide, 6, by decide, by decide⟩
      · split
        · exact ⟨by simp, 1, by decide, 6, by decide, by decide⟩
        · split
          · simp [PyCell]
          · exact trivial
    | empty => exact trivial
    | _ => exact h

theorem pyCell_version {lang : Lang} {name : Str} {c c' : Cell} (h : PyCell c) (hc : cellVersion lang name c = some c') : PyCell c' := by
  unfold cellVersion at hc
  split at hc
  · split at hc
    · cases hc; exact trivial
    · obtain ⟨t, _, rfl⟩ := Option.map_eq_some_iff.1 hc; exact trivial
    · cases hc
  · cases hc; exact h

theorem pyCell_fillFields : ∀ (fs cs : List Cell) (d e : Dict Cell), (∀ p ∈ d, p.2 = Cell.empty ∨ PyCell p.2) →
    (∀ c ∈ cs, c = Cell.empty ∨ PyCell c) → fillFields fs cs d = some e → ∀ p ∈ e, p.2 = Cell.empty ∨ PyCell p.2
  | [], cs, d, e, hd, _, h => by simp only [fillFields, Option.some.injEq] at h; subst h; exact hd
  | f :: fs, [], d, e, hd, _, h => by cases f <;> simp [fillFields] at h
  | f :: fs, c :: cs, d, e, hd, hc, h => by
    cases f with
    | text f =>
      rw [fillFields] at h
      exact pyCell_fillFields fs cs _ e (mem_put_values (P := fun c => c = Cell.empty ∨ PyCell c) (hc c (by simp)) hd)
        (fun c' h' => hc c' (by simp [h'])) h
    | _ => simp [fillFields] at h

theorem pyCell_rowEntry {lang : Lang} {fields row : List Cell} {name : Str} {e : Dict Cell}
    (hr : ∀ c ∈ row, c = Cell.empty ∨ PyCell c) (h : rowEntry lang fields row = some (name, e)) :
    ∀ p ∈ e, p.2 = Cell.empty ∨ PyCell p.2 := by
  have hr' : ∀ c ∈ (if row.length = 5 then row ++ [.text []] else row), c = Cell.empty ∨ PyCell c := by
    intro c hc
    split at hc
    · rcases List.mem_append.1 hc with hc | hc
      · exact hr c hc
      · simp only [List.mem_singleton] at hc; subst hc; exact Or.inr trivial
    · exact hr c hc
  unfold rowEntry at h
  split at h
  · rename_i nm df rest heq
    rw [heq] at hr'
    split at h
    · cases h
    · rename_i c hc
      obtain ⟨e', he', heq'⟩ := Option.map_eq_some_iff.1 h
      cases heq'
      refine pyCell_fillFields _ _ _ _ (by simp) ?_ he'
      intro c' hc'
      rcases List.mem_cons.1 hc' with rfl | hc'
      · exact Or.inr (pyCell_version (pyCell_default (hr' df (by simp))) hc)
      · exact hr' c' (by simp [hc'])
  · cases h

theorem pyCell_csvRows {lang : Lang} (fields : List Cell) :
    ∀ (ls : List Str) (d e : Dict (Dict Cell)), (∀ p ∈ d, ∀ q ∈ p.2, q.2 = Cell.empty ∨ PyCell q.2) → csvRows lang fields ls d = some e →
      ∀ p ∈ e, ∀ q ∈ p.2, q.2 = Cell.empty ∨ PyCell q.2
  | [], d, e, hd, h => by simp only [csvRows, Option.some.injEq] at h; subst h; exact hd
  | l :: ls, d, e, hd, h => by
    rw [csvRows] at h
    split at h
    · cases h
    · rename_i row hrow
      split at h
      · cases h
      · rename_i name en hen
        exact pyCell_csvRows fields ls _ e (mem_put_values (P := fun (e : Dict Cell) => ∀ q ∈ e, q.2 = Cell.empty ∨ PyCell q.2)
          (pyCell_rowEntry (forall_of_mapM (fun _ _ => pyCell_parse) hrow) hen) hd) h

theorem pyCell_table {lang : Lang} {x : Str} {t : Dict (Dict Cell)} (h : csv2dict lang x = .ok t) :
    ∀ p ∈ t, ∀ q ∈ p.2, q.2 = Cell.empty ∨ PyCell q.2 := by
  unfold csv2dict at h
  split at h
  · cases h
  · split at h
    · cases h
    · rename_i d hd
      cases h
      refine values_reorder (P := fun (e : Dict Cell) => ∀ q ∈ e, q.2 = Cell.empty ∨ PyCell q.2) ?_
      unfold csvTable at hd
      split at hd
      · cases hd; simp
      · split at hd
        · cases hd
        · exact pyCell_csvRows _ _ _ _ (by simp) hd

end Sofar
