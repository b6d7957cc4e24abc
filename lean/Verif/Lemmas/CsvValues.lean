import Verif.Lemmas.Csv
import Verif.Lemmas.Init
import Verif.Spec.Csv
/-!
# The content of csv files
-/
namespace Sofar

theorem dropWhile_all {p : Char → Bool} (a t : Str) (ha : ∀ c ∈ a, p c = true)
    (ht : ∀ c, t.head? = some c → p c = false) : (a ++ t).dropWhile p = t := by
  induction a with
  | nil =>
    cases t with
    | nil => rfl
    | cons c t => simp [ht c rfl]
  | cons c a ih =>
    rw [List.cons_append, List.dropWhile_cons, if_pos (ha c List.mem_cons_self),
      ih (fun x hx => ha x (List.mem_cons_of_mem _ hx))]

theorem strip_of_trimmed {s t : Str} (h : Spec.Trimmed s t) : strip s = t := by
  obtain ⟨a, b, rfl, ha, hb, h1, h2⟩ := h
  unfold strip
  by_cases ht : t = []
  · subst ht
    have : (a ++ [] ++ b).dropWhile isSpaceC = [] := by
      have := dropWhile_all (a ++ b) [] (p := isSpaceC) ?_ (by simp)
      · simpa using this
      intro c hc
      rcases List.mem_append.1 hc with hc | hc
      · exact ha c hc
      · exact hb c hc
    rw [this]
    rfl
  · rw [List.append_assoc, dropWhile_all a (t ++ b) ha, List.reverse_append, dropWhile_all b.reverse t.reverse,
      List.reverse_reverse]
    · intro c hc
      exact hb c (List.mem_reverse.1 hc)
    · intro c hc
      rw [List.head?_reverse] at hc
      exact h2 c hc
    · intro c hc
      cases t with
      | nil => exact absurd rfl ht
      | cons x t => exact h1 c hc

theorem strip_iff (s t : Str) : Spec.Trimmed s t ↔ strip s = t :=
  ⟨strip_of_trimmed, fun h => h ▸ strip_trimmed s⟩

theorem pieces_exist (sep : Char → Prop) (s : Str) : ∃ ps, Spec.Pieces sep s ps := by
  induction s with
  | nil => exact ⟨_, .last [] (by simp)⟩
  | cons x t ih =>
    obtain ⟨ps, hps⟩ := ih
    by_cases hx : sep x
    · exact ⟨_, .cons [] x t ps (by simp) hx hps⟩
    · cases hps with
      | last s hs =>
        refine ⟨_, .last (x :: t) ?_⟩
        intro c hc
        rcases List.mem_cons.1 hc with rfl | hc
        · exact hx
        · exact hs c hc
      | cons s c t ps hs hc h =>
        refine ⟨_, .cons (x :: s) c t ps ?_ hc h⟩
        intro c hc
        rcases List.mem_cons.1 hc with rfl | hc
        · exact hx
        · exact hs c hc

theorem splitChar_of_pieces {c : Char} {s : Str} {ps : List Str} (h : Spec.Pieces (· = c) s ps) :
    Str.splitChar c s = ps := by
  induction h with
  | last s hs => exact splitChar_not_mem (fun hc => hs c hc rfl)
  | cons s x t ps hs hx _ ih =>
    subst hx
    rw [splitChar_append (fun hc => hs _ hc rfl), ih]

theorem pieces_iff (c : Char) (s : Str) (ps : List Str) : Spec.Pieces (· = c) s ps ↔ Str.splitChar c s = ps := by
  refine ⟨splitChar_of_pieces, fun h => ?_⟩
  obtain ⟨qs, hq⟩ := pieces_exist (· = c) s
  rw [splitChar_of_pieces hq] at h
  exact h ▸ hq

theorem splitChar_of_numbers {s : Str} {ps : List Str} (h : Spec.Pieces (fun c => c = ' ' ∨ c = ',') s ps) :
    Str.splitChar ',' (Str.replaceChar s ' ' ',') = ps := by
  have hrep : ∀ a : Str, (∀ c ∈ a, ¬ (c = ' ' ∨ c = ',')) → Str.replaceChar a ' ' ',' = a := by
    intro a ha
    unfold Str.replaceChar
    conv => rhs; rw [← List.map_id a]
    apply List.map_congr_left
    intro c hc
    have := ha c hc
    simp only [not_or] at this
    simp [this.1]
  induction h with
  | last s hs =>
    rw [hrep s hs]
    exact splitChar_not_mem (fun hc => hs _ hc (Or.inr rfl))
  | cons s x t ps hs hx _ ih =>
    have : Str.replaceChar (s ++ x :: t) ' ' ',' = s ++ ',' :: Str.replaceChar t ' ' ',' := by
      rw [show Str.replaceChar (s ++ x :: t) ' ' ',' = Str.replaceChar s ' ' ',' ++ Str.replaceChar (x :: t) ' ' ',' by
        unfold Str.replaceChar; simp, hrep s hs]
      rcases hx with rfl | rfl <;> rfl
    rw [this, splitChar_append (fun hc => hs _ hc (Or.inr rfl)), ih]

theorem numbers_iff (s : Str) (ps : List Str) : Spec.Pieces (fun c => c = ' ' ∨ c = ',') s ps ↔
    Str.splitChar ',' (Str.replaceChar s ' ' ',') = ps := by
  refine ⟨splitChar_of_numbers, fun h => ?_⟩
  obtain ⟨qs, hq⟩ := pieces_exist (fun c => c = ' ' ∨ c = ',') s
  rw [splitChar_of_numbers hq] at h
  exact h ▸ hq

theorem number_iff (lang : Lang) (s : Str) (n : Number) : Spec.NumberText lang s n ↔ lang.number s = some n := by
  unfold Spec.NumberText Lang.number
  by_cases h : '.' ∈ s
  · simp only [h, true_and, not_true_eq_false, false_and, or_false, List.contains_iff_mem, if_true,
      Option.map_eq_some_iff]
    constructor
    · rintro ⟨x, h1, rfl⟩; exact ⟨x, h1, rfl⟩
    · rintro ⟨x, h1, rfl⟩; exact ⟨x, h1, rfl⟩
  · simp only [h, false_and, not_false_eq_true, true_and, false_or, List.contains_iff_mem, if_false,
      Option.map_eq_some_iff]
    constructor
    · rintro ⟨x, h1, rfl⟩; exact ⟨x, h1, rfl⟩
    · rintro ⟨x, h1, rfl⟩; exact ⟨x, h1, rfl⟩

theorem mapM_forall₂ {α β : Type} (f : α → Option β) (l : List α) (r : List β) :
    l.mapM f = some r ↔ List.Forall₂ (fun a b => f a = some b) l r := by
  induction l generalizing r with
  | nil =>
    simp only [List.mapM_nil, List.forall₂_nil_left_iff]
    exact ⟨fun h => (Option.some.inj h).symm, fun h => by rw [h]; rfl⟩
  | cons a l ih =>
    rw [List.mapM_cons]
    cases ha : f a with
    | none =>
      constructor
      · intro h; simp at h
      · intro h
        cases h with
        | cons h _ => rw [ha] at h; cases h
    | some b =>
      cases hl : l.mapM f with
      | none =>
        constructor
        · intro h; simp at h
        · intro h
          cases h with
          | cons _ h => rw [(ih _).2 h] at hl; cases hl
      | some bs =>
        simp only [Option.bind_eq_bind, Option.bind_some, Option.pure_def, Option.some.injEq]
        constructor
        · rintro rfl
          exact .cons ha ((ih _).1 hl)
        · intro h
          cases h with
          | cons h1 h2 =>
            rw [ha] at h1
            rw [(ih _).2 h2] at hl
            cases h1
            cases hl
            rfl

theorem forall₂_congr {α β : Type} {p q : α → β → Prop} (h : ∀ a b, p a b ↔ q a b) (l : List α) (r : List β) :
    List.Forall₂ p l r ↔ List.Forall₂ q l r :=
  ⟨fun hp => hp.imp (fun _ _ => (h _ _).1), fun hp => hp.imp (fun _ _ => (h _ _).2)⟩

theorem numberList_iff (lang : Lang) (s : Str) (l : List Number) :
    Spec.NumbersText lang s l ↔ numberList lang s = some l := by
  unfold Spec.NumbersText numberList
  rw [mapM_forall₂, forall₂_congr (fun a b => (number_iff lang a b).symm)]
  constructor
  · rintro ⟨t, ps, h1, h2, h3⟩
    rw [(strip_iff _ _).1 h1, (numbers_iff _ _).1 h2]
    exact h3
  · intro h
    exact ⟨_, _, strip_trimmed s, (numbers_iff _ _).2 rfl, h⟩

theorem dropEnd_one (r : Str) : Str.dropEnd r 1 = r.dropLast := by
  unfold Str.dropEnd
  rw [List.dropLast_eq_take]

theorem blank_iff (cell : Str) : cell.all (· == ' ') = true ↔ ∀ c ∈ cell, c = ' ' := by
  rw [List.all_eq_true]
  simp

theorem strip_blank {cell : Str} (h : ∀ c ∈ cell, c = ' ') : strip cell = [] := by
  apply strip_of_trimmed
  refine ⟨cell, [], by simp, ?_, by simp, by simp, by simp⟩
  intro c hc
  rw [h c hc]
  decide

theorem cell_iff (lang : Lang) (cell : Str) (v : Cell) : Spec.CellMeans lang cell v ↔ parseCell lang cell = some v := by
  unfold parseCell
  by_cases hb : cell.all (· == ' ') = true
  · rw [if_pos hb]
    rw [blank_iff] at hb
    have hs := strip_blank hb
    constructor
    · intro h
      cases h with
      | empty => rfl
      | list r l h => rw [(strip_iff _ _).1 h] at hs; cases hs
      | nested r ps l h => rw [(strip_iff _ _).1 h] at hs; cases hs
      | number t n h h1 => rw [(strip_iff _ _).1 h] at hs; exact absurd hs h1
      | text t h h1 => rw [(strip_iff _ _).1 h] at hs; exact absurd hs h1
    · intro h
      cases h
      exact .empty hb
  · rw [if_neg hb]
    rw [blank_iff] at hb
    have htr := strip_trimmed cell
    generalize hst : strip cell = t at htr
    have heq : ∀ t', Spec.Trimmed cell t' → t' = t := fun t' h => by rw [← hst, strip_of_trimmed h]
    match t, htr, heq with
    | [], htr, heq =>
      constructor
      · intro h
        cases h with
        | empty h => exact absurd h hb
        | list r l h => cases heq _ h
        | nested r ps l h => cases heq _ h
        | number t n h h1 => exact absurd (heq _ h) h1
        | text t h h1 => exact absurd (heq _ h) h1
      · intro h; cases h
    | c :: rest, htr, heq =>
      by_cases hc : c = '['
      · subst hc
        simp only [dropEnd_one]
        by_cases hsem : ';' ∈ rest.dropLast
        · rw [if_pos (by simpa using hsem)]
          constructor
          · intro h
            cases h with
            | empty h => exact absurd h hb
            | list r l h h1 => cases heq _ h; exact absurd hsem h1
            | nested r ps l h h1 h2 h3 =>
              cases heq _ h
              rw [Option.map_eq_some_iff]
              refine ⟨l, ?_, rfl⟩
              rw [mapM_forall₂, (pieces_iff _ _ _).1 h2]
              exact (forall₂_congr (fun a b => numberList_iff lang a b) _ _).1 h3
            | number t n h _ h1 => cases heq _ h; exact absurd rfl h1
            | text t h _ h1 => cases heq _ h; exact absurd rfl h1
          · intro h
            rw [Option.map_eq_some_iff] at h
            obtain ⟨l, h1, rfl⟩ := h
            rw [mapM_forall₂] at h1
            exact .nested rest _ l htr hsem ((pieces_iff _ _ _).2 rfl)
              ((forall₂_congr (fun a b => numberList_iff lang a b) _ _).2 h1)
        · rw [if_neg (by simpa using hsem)]
          constructor
          · intro h
            cases h with
            | empty h => exact absurd h hb
            | list r l h h1 h2 =>
              cases heq _ h
              rw [(numberList_iff _ _ _).1 h2]
              rfl
            | nested r ps l h h1 => cases heq _ h; exact absurd h1 hsem
            | number t n h _ h1 => cases heq _ h; exact absurd rfl h1
            | text t h _ h1 => cases heq _ h; exact absurd rfl h1
          · intro h
            rw [Option.map_eq_some_iff] at h
            obtain ⟨l, h1, rfl⟩ := h
            exact .list rest l htr hsem ((numberList_iff _ _ _).2 h1)
      · have hh : (c :: rest).head? ≠ some '[' := by simpa using hc
        split
        · contradiction
        · rename_i h1
          cases h1
          exact absurd rfl hc
        · rename_i h1
          cases h1
          constructor
          · intro h
            cases h with
            | empty h => exact absurd h hb
            | list r l h => cases heq _ h; exact absurd rfl hc
            | nested r ps l h => cases heq _ h; exact absurd rfl hc
            | number t n h _ _ h1 =>
              cases heq _ h
              rw [(number_iff _ _ _).1 h1]
            | text t h _ _ h1 =>
              cases heq _ h
              cases hn : lang.number (c :: rest) with
              | none => rfl
              | some n => exact absurd ((number_iff _ _ _).2 hn) (h1 n)
          · intro h
            cases hn : lang.number (c :: rest) with
            | none =>
              rw [hn] at h
              cases h
              refine .text _ htr (by simp) hh ?_
              intro n h1
              rw [(number_iff _ _ _).1 h1] at hn
              cases hn
            | some n =>
              rw [hn] at h
              cases h
              exact .number _ n htr (by simp) hh ((number_iff _ _ _).2 hn)

theorem line_iff (lang : Lang) (line : Str) (row : List Cell) : Spec.LineMeans lang line row ↔
    parseRow lang line = some row := by
  unfold Spec.LineMeans parseRow
  rw [mapM_forall₂, forall₂_congr (fun a b => (cell_iff lang a b).symm)]
  constructor
  · rintro ⟨t, ps, h1, h2, h3⟩
    rw [(strip_iff _ _).1 h1, (pieces_iff _ _ _).1 h2]
    exact h3
  · intro h
    exact ⟨_, _, strip_trimmed line, (pieces_iff _ _ _).2 rfl, h⟩

theorem default_iff (lang : Lang) (name : Str) (c c' : Cell) : Spec.DefaultMeans lang name c c' ↔
    cellVersion lang name (cellDefault c) = some c' := by
  have hd : ∀ c1, (Spec.matlabDefault c c1 ∨ ((∀ c2, ¬ Spec.matlabDefault c c2) ∧ c1 = c)) ↔ c1 = cellDefault c := by
    intro c1
    have key : Spec.matlabDefault c (cellDefault c) ∨ ((∀ c2, ¬ Spec.matlabDefault c c2) ∧ cellDefault c = c) := by
      unfold Spec.matlabDefault cellDefault
      cases c with
      | empty => simp
      | text s =>
        simp only
        split
        · rename_i h; subst h; left; right; right; left; exact ⟨rfl, rfl⟩
        · split
          · rename_i h; subst h; left; right; right; right; exact ⟨rfl, rfl⟩
          · split
            · rename_i h; subst h; left; right; left; exact ⟨rfl, rfl⟩
            · rename_i h1 h2 h3
              right
              refine ⟨?_, rfl⟩
              rintro c2 (⟨h, _⟩ | ⟨h, _⟩ | ⟨h, _⟩ | ⟨h, _⟩)
              · cases h
              · exact h3 (Cell.text.inj h)
              · exact h1 (Cell.text.inj h)
              · exact h2 (Cell.text.inj h)
      | num n => right; simp
      | list n => right; simp
      | nested n => right; simp
      | deep n => right; simp
      | texts n => right; simp
    have uniq : ∀ a b, Spec.matlabDefault c a → Spec.matlabDefault c b → a = b := by
      unfold Spec.matlabDefault
      rintro a b (⟨h, rfl⟩ | ⟨h, rfl⟩ | ⟨h, rfl⟩ | ⟨h, rfl⟩) (⟨h', rfl⟩ | ⟨h', rfl⟩ | ⟨h', rfl⟩ | ⟨h', rfl⟩) <;>
        first | rfl | (rw [h] at h'; cases h')
    constructor
    · rintro (h | ⟨h, rfl⟩)
      · rcases key with h1 | ⟨h1, _⟩
        · exact uniq _ _ h h1
        · exact absurd h (h1 _)
      · rcases key with h1 | ⟨_, h1⟩
        · exact absurd h1 (h _)
        · exact h1.symm
    · rintro rfl
      exact key
  unfold Spec.DefaultMeans cellVersion
  simp only [hd, exists_eq_left]
  generalize cellDefault c = c1
  by_cases hv : (py% "Version") <:+: name
  · rw [if_pos ((hasSub_iff _ _).2 hv)]
    cases c1 with
    | text s =>
      simp only [Option.some.injEq]
      constructor
      · rintro (⟨_, h⟩ | ⟨_, _, _, h, _⟩)
        · exact h.symm
        · cases h
      · intro h
        exact Or.inl ⟨Or.inr ⟨s, rfl⟩, h.symm⟩
    | num n =>
      simp only [Option.map_eq_some_iff]
      constructor
      · rintro (⟨h | ⟨_, h⟩, _⟩ | ⟨_, m, s, h, h1, h2⟩)
        · exact absurd hv h
        · cases h
        · cases h
          exact ⟨s, h1, h2.symm⟩
      · rintro ⟨s, h1, h2⟩
        exact Or.inr ⟨hv, n, s, rfl, h1, h2.symm⟩
    | _ =>
      simp only [reduceCtorEq, iff_false]
      rintro (⟨h | ⟨_, h⟩, _⟩ | ⟨_, _, _, h, _⟩)
      · exact absurd hv h
      · cases h
      · cases h
  · rw [if_neg (fun h => hv ((hasSub_iff _ _).1 h))]
    simp only [hv, not_false_eq_true, true_or, true_and, false_and, or_false, Option.some.injEq]
    exact eq_comm

theorem fillFields_iff (fields : List Str) (cs : List Cell) (d e : Dict Cell) (hn : (fields.map Str.lower).Nodup)
    (hd : ∀ f ∈ fields.map Str.lower, f ∉ Dict.keys d) :
    fillFields (fields.map .text) cs d = some e ↔
      fields.length ≤ cs.length ∧ e = d ++ (fields.map Str.lower).zip cs := by
  induction fields generalizing cs d with
  | nil =>
    simp only [List.map_nil, fillFields, Option.some.injEq, List.length_nil, Nat.zero_le, true_and, List.zip_nil_left,
      List.append_nil]
    exact eq_comm
  | cons f fs ih =>
    cases cs with
    | nil => simp [fillFields]
    | cons c cs =>
      simp only [List.map_cons, List.nodup_cons] at hn hd
      have hnew : Str.lower f ∉ Dict.keys d := hd _ List.mem_cons_self
      have hput : Dict.put d (Str.lower f) c = d ++ [(Str.lower f, c)] := by
        have := Dict.foldl_put_new [(Str.lower f, c)] d (by simp) (by simpa using hnew)
        simpa using this
      simp only [List.map_cons, fillFields, List.length_cons, Nat.add_le_add_iff_right, List.zip_cons_cons]
      rw [hput, ih cs _ hn.2, List.append_assoc]
      · rfl
      · intro g hg hk
        simp only [Dict.keys, List.map_append, List.map_cons, List.map_nil, List.mem_append, List.mem_singleton] at hk
        rcases hk with hk | rfl
        · exact hd g (List.mem_cons_of_mem _ hg) hk
        · exact hn.1 hg

theorem row_iff (lang : Lang) (fields : List Str) (hn : (fields.map Str.lower).Nodup) (row : List Cell)
    (p : Str × Dict Cell) : Spec.EntryOf lang fields row p ↔ rowEntry lang (fields.map .text) row = some p := by
  unfold Spec.EntryOf rowEntry
  rw [show (if row.length = 5 then row ++ [Cell.text []] else row) = Spec.completed row from rfl]
  generalize Spec.completed row = r
  obtain ⟨name, e⟩ := p
  split
  · rename_i name' c rest
    constructor
    · rintro ⟨c1, c', rest', h1, h2, h3, h4⟩
      cases h1
      rw [default_iff] at h2
      simp only [h2, Option.map_eq_some_iff, Prod.mk.injEq]
      refine ⟨e, ?_, by simp⟩
      rw [fillFields_iff _ _ _ _ hn (by simp [Dict.keys])]
      exact ⟨h3, h4⟩
    · intro h
      cases hc : cellVersion lang name' (cellDefault c) with
      | none => simp [hc] at h
      | some c' =>
        simp only [hc, Option.map_eq_some_iff, Prod.mk.injEq] at h
        obtain ⟨e', h1, rfl, rfl⟩ := h
        rw [fillFields_iff _ _ _ _ hn (by simp [Dict.keys])] at h1
        exact ⟨c, c', rest, rfl, (default_iff _ _ _ _).2 hc, h1.1, h1.2⟩
  · rename_i hx
    constructor
    · rintro ⟨c1, c', rest', h1, _⟩
      exact absurd h1 (hx _ _ _)
    · intro h; cases h

theorem rows_iff (lang : Lang) (fields : List Str) (hn : (fields.map Str.lower).Nodup) (ls : List Str)
    (d d' : Dict (Dict Cell)) : csvRows lang (fields.map .text) ls d = some d' ↔
      ∃ rows es, List.Forall₂ (Spec.LineMeans lang) ls rows ∧ List.Forall₂ (Spec.EntryOf lang fields) rows es ∧
        d' = es.foldl (fun d p => Dict.put d p.1 p.2) d := by
  induction ls generalizing d with
  | nil =>
    simp only [csvRows, Option.some.injEq]
    constructor
    · rintro rfl
      exact ⟨[], [], .nil, .nil, rfl⟩
    · rintro ⟨rows, es, h1, h2, rfl⟩
      cases h1
      cases h2
      rfl
  | cons l ls ih =>
    simp only [csvRows]
    constructor
    · intro h
      cases hr : parseRow lang l with
      | none => simp [hr] at h
      | some row =>
        simp only [hr] at h
        cases he : rowEntry lang (fields.map .text) row with
        | none => simp [he] at h
        | some p =>
          obtain ⟨name, e⟩ := p
          simp only [he] at h
          obtain ⟨rows, es, h1, h2, h3⟩ := (ih _).1 h
          exact ⟨row :: rows, (name, e) :: es, .cons ((line_iff _ _ _).2 hr) h1, .cons ((row_iff _ _ hn _ _).2 he) h2, h3⟩
    · rintro ⟨rows, es, h1, h2, h3⟩
      cases h1 with
      | cons h1 h1' =>
        cases h2 with
        | cons h2 h2' =>
          rename_i row rows p es
          obtain ⟨name, e⟩ := p
          rw [(line_iff _ _ _).1 h1]
          simp only [(row_iff _ _ hn _ _).1 h2]
          exact (ih _).2 ⟨rows, es, h1', h2', h3⟩

theorem lastEntry_iff (es : List (Str × Dict Cell)) (n : Str) (e : Dict Cell) : Spec.LastEntry es n e ↔
    Dict.get? (es.foldl (fun d p => Dict.put d p.1 p.2) []) n = some e := by
  have key : ∀ (es : List (Str × Dict Cell)) (d : Dict (Dict Cell)),
      Dict.get? (es.foldl (fun d p => Dict.put d p.1 p.2) d) n = some e ↔
        Spec.LastEntry es n e ∨ ((∀ p ∈ es, p.1 ≠ n) ∧ Dict.get? d n = some e) := by
    intro es
    induction es with
    | nil =>
      intro d
      simp only [List.foldl_nil, List.not_mem_nil, false_implies, implies_true, true_and]
      constructor
      · exact Or.inr
      · rintro (⟨a, b, h, _⟩ | h)
        · simp at h
        · exact h
    | cons p es ih =>
      intro d
      rw [List.foldl_cons, ih]
      constructor
      · rintro (⟨a, b, h1, h2⟩ | ⟨h1, h2⟩)
        · exact Or.inl ⟨p :: a, b, by rw [h1]; rfl, h2⟩
        · rw [Dict.get?_put] at h2
          split at h2
          · rename_i h
            cases h2
            left
            refine ⟨[], es, ?_, h1⟩
            rw [h]
            rfl
          · rename_i h
            right
            refine ⟨?_, h2⟩
            intro q hq
            rcases List.mem_cons.1 hq with rfl | hq
            · first | exact h | exact fun h' => h h'.symm
            · exact h1 q hq
      · rintro (⟨a, b, h1, h2⟩ | ⟨h1, h2⟩)
        · cases a with
          | nil =>
            simp only [List.nil_append, List.cons.injEq] at h1
            obtain ⟨rfl, rfl⟩ := h1
            right
            exact ⟨h2, Dict.get?_put_self _ _ _⟩
          | cons q a =>
            simp only [List.cons_append, List.cons.injEq] at h1
            obtain ⟨rfl, rfl⟩ := h1
            exact Or.inl ⟨a, b, rfl, h2⟩
        · right
          refine ⟨fun q hq => h1 q (List.mem_cons_of_mem _ hq), ?_⟩
          rw [Dict.get?_put_ne _ _ (by first | exact h1 p List.mem_cons_self | exact Ne.symm (h1 p List.mem_cons_self))]
          exact h2
  rw [key]
  constructor
  · exact Or.inl
  · rintro (h | ⟨_, h⟩)
    · exact h
    · simp [Dict.get?] at h

theorem lines_unique {t : Str} {ls : List Str} (h : Spec.Lines t ls) : readlines t = ls := by
  have line : ∀ (l : Str) (t : Str), '\n' ∉ l → readlines (l ++ '\n' :: t) = (l ++ ['\n']) :: readlines t := by
    intro l t hl
    induction l with
    | nil => simp [readlines]
    | cons c l ih =>
      simp only [List.mem_cons, not_or] at hl
      simp only [List.cons_append, readlines, ih hl.2]
      rw [if_neg (Ne.symm hl.1)]
  have last : ∀ l : Str, l ≠ [] → '\n' ∉ l.dropLast → readlines l = [l] := by
    intro l hne hl
    induction l with
    | nil => exact absurd rfl hne
    | cons c l ih =>
      cases l with
      | nil =>
        unfold readlines
        split <;> simp [readlines]
      | cons d l =>
        simp only [List.dropLast_cons_cons, List.mem_cons, not_or] at hl
        rw [readlines, if_neg (Ne.symm hl.1), ih (by simp) hl.2]
  induction ls generalizing t with
  | nil =>
    have := h.all
    simp only [List.flatten_nil] at this
    subst this
    rfl
  | cons l ls ih =>
    have hall := h.all
    rw [List.flatten_cons] at hall
    subst hall
    obtain ⟨hne, hl⟩ := h.line l List.mem_cons_self
    cases hls : ls with
    | nil =>
      simp only [List.flatten_nil, List.append_nil]
      exact last l hne hl
    | cons l' ls' =>
      have hb : '\n' ∈ l := h.break_ l (by rw [hls]; simp)
      have hd : l = l.dropLast ++ ['\n'] := by
        have h1 : l.dropLast ++ [l.getLast hne] = l := List.dropLast_append_getLast hne
        rw [← h1] at hb
        rcases List.mem_append.1 hb with hb | hb
        · exact absurd hb hl
        · rw [List.mem_singleton] at hb
          rw [hb]
          exact h1.symm
      rw [← hls]
      have hrest : Spec.Lines ls.flatten ls := by
        refine ⟨rfl, fun x hx => h.line x (List.mem_cons_of_mem _ hx), ?_⟩
        intro x hx
        refine h.break_ x ?_
        rw [List.dropLast_cons_of_ne_nil (by rw [hls]; simp)]
        exact List.mem_cons_of_mem _ hx
      have := line l.dropLast ls.flatten hl
      rw [ih hrest] at this
      conv => lhs; rw [hd]
      rw [List.append_assoc]
      simp only [List.cons_append, List.nil_append]
      rw [this, ← hd]

end Sofar
