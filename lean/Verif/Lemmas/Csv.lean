import Verif.Spec.Update
import Verif.Lemmas.Dict
import Verif.Lemmas.Dims
import Mathlib.Data.List.Forall2
/-!
# Reading csv files
-/
namespace Sofar

/-! ## Line breaks -/

theorem replace_break (c : Char) (hc : c ≠ '\n') (s : Str) :
    Str.replace s [c, '\n'] ['\n'] = Spec.dropBeforeBreak c s := by
  unfold Str.replace
  induction s using Spec.dropBeforeBreak.induct c with
  | case1 => rfl
  | case2 x t h ih =>
    obtain ⟨rfl, h2⟩ := h
    cases t with
    | nil => simp at h2
    | cons y t =>
      simp only [List.head?_cons, Option.some.injEq] at h2
      subst h2
      have h3 : ¬ ('\n' = x ∧ t.head? = some '\n') := fun hh => hc hh.1.symm
      rw [Spec.dropBeforeBreak, if_pos ⟨rfl, rfl⟩]
      rw [← ih]
      simp [Str.replaceGo, List.isPrefixOf, hc]
  | case3 x t h ih =>
    rw [Spec.dropBeforeBreak, if_neg h, ← ih]
    have : List.isPrefixOf [c, '\n'] (x :: t) = false := by
      rw [Bool.eq_false_iff]
      intro hp
      apply h
      rw [List.isPrefixOf_iff_prefix] at hp
      obtain ⟨r, hr⟩ := hp
      simp at hr
      obtain ⟨h1, h2⟩ := hr
      exact ⟨h1.symm, by rw [← h2]; rfl⟩
    simp [Str.replaceGo, this]

theorem unixLines_eq (s : Str) : unixLines s = Spec.unix s := by
  unfold unixLines Spec.unix
  rw [replace_break _ (by decide), replace_break _ (by decide)]

theorem universalNewlines_eq (cr : Bool) (s : Str) :
    universalNewlines cr s = Spec.unixBreaks (if cr = true ∧ s.head? = some '\n' then s.tail else s) := by
  induction s generalizing cr with
  | nil => cases cr <;> rfl
  | cons c t ih =>
    unfold universalNewlines
    by_cases h1 : c = '\r'
    · subst h1
      have e : (if cr = true ∧ ('\r' :: t).head? = some '\n' then ('\r' :: t).tail else '\r' :: t) = '\r' :: t :=
        if_neg (by simp)
      rw [if_pos rfl, ih, e]
      unfold Spec.unixBreaks
      by_cases h2 : t.head? = some '\n'
      · cases t with
        | nil => simp at h2
        | cons y t =>
          simp only [List.head?_cons, Option.some.injEq] at h2
          subst h2
          simp [Spec.dropBeforeBreak]
      · simp [Spec.dropBeforeBreak, h2]
    · rw [if_neg h1]
      by_cases h2 : c = '\n'
      · subst h2
        cases cr
        · simp [ih, Spec.unixBreaks, Spec.dropBeforeBreak]
        · simp [ih]
      · rw [if_neg (by simp [h2]), ih, if_neg (by simp), if_neg (by simp [h2])]
        simp [Spec.unixBreaks, Spec.dropBeforeBreak, h1]

theorem readlines_lines (t : Str) : Spec.Lines t (readlines t) := by
  induction t with
  | nil => exact ⟨rfl, by simp [readlines], by simp [readlines]⟩
  | cons c t ih =>
    unfold readlines
    split
    · rename_i hc
      subst hc
      refine ⟨by simp [ih.all], ?_, ?_⟩
      · intro l hl
        rcases List.mem_cons.1 hl with rfl | hl
        · simp
        · exact ih.line l hl
      · intro l hl
        cases hr : readlines t with
        | nil => rw [hr] at hl; simp at hl
        | cons a r =>
          rw [hr, List.dropLast_cons_cons] at hl
          rcases List.mem_cons.1 hl with rfl | hl
          · simp
          · exact ih.break_ l (by rw [hr]; exact hl)
    · rename_i hc
      cases hr : readlines t with
      | nil =>
        have := ih.all
        rw [hr] at this
        subst this
        exact ⟨rfl, by simp, by simp⟩
      | cons a r =>
        simp only
        have hall := ih.all
        rw [hr] at hall
        refine ⟨by simp [← hall], ?_, ?_⟩
        · intro l hl
          rcases List.mem_cons.1 hl with rfl | hl
          · obtain ⟨h1, h2⟩ := ih.line a (by rw [hr]; simp)
            refine ⟨by simp, ?_⟩
            cases a with
            | nil => exact absurd rfl h1
            | cons x xs =>
              rw [List.dropLast_cons_cons]
              simp only [List.mem_cons, not_or]
              exact ⟨fun h => hc h.symm, h2⟩
          · exact ih.line l (by rw [hr]; simp [hl])
        · intro l hl
          cases r with
          | nil => simp at hl
          | cons b r =>
            rw [List.dropLast_cons_cons] at hl
            rcases List.mem_cons.1 hl with rfl | hl
            · exact List.mem_cons_of_mem _ (ih.break_ a (by rw [hr]; simp))
            · exact ih.break_ l (by rw [hr, List.dropLast_cons_cons]; simp [hl])

/-! ## White space -/

theorem dropWhile_parts (p : Char → Bool) (s : Str) : ∃ a, s = a ++ s.dropWhile p ∧ (∀ c ∈ a, p c = true) ∧
    ∀ c, (s.dropWhile p).head? = some c → p c = false := by
  refine ⟨s.takeWhile p, List.takeWhile_append_dropWhile.symm, ?_, ?_⟩
  · intro c hc
    exact List.all_eq_true.1 (List.all_takeWhile) c hc
  · intro c hc
    have := List.head?_dropWhile_not p s
    rw [hc] at this
    simpa using this

theorem strip_trimmed (s : Str) : Spec.Trimmed s (strip s) := by
  unfold strip
  obtain ⟨a, ha, ha1, ha2⟩ := dropWhile_parts isSpaceC s
  obtain ⟨b, hb, hb1, hb2⟩ := dropWhile_parts isSpaceC (s.dropWhile isSpaceC).reverse
  have hs : s.dropWhile isSpaceC = ((s.dropWhile isSpaceC).reverse.dropWhile isSpaceC).reverse ++ b.reverse := by
    have := congrArg List.reverse hb
    simpa using this
  refine ⟨a, b.reverse, ?_, ha1, fun c hc => hb1 c (by simpa using hc), ?_, ?_⟩
  · rw [List.append_assoc, ← hs]; exact ha
  · intro c hc
    apply ha2
    rw [hs]
    generalize ((s.dropWhile isSpaceC).reverse.dropWhile isSpaceC).reverse = t at hc
    cases t with
    | nil => simp at hc
    | cons x t => simpa using hc
  · intro c hc
    apply hb2
    rw [List.getLast?_reverse] at hc
    exact hc

/-! ## Rows -/

theorem splitChar_first (c : Char) (s : Str) : ∃ a r, Str.splitChar c s = a :: r ∧ c ∉ a ∧
    (s = a ∨ ∃ rest, s = a ++ c :: rest) := by
  induction s with
  | nil => exact ⟨[], [], rfl, by simp, Or.inl rfl⟩
  | cons x t ih =>
    obtain ⟨a, r, h1, h2, h3⟩ := ih
    by_cases hx : x = c
    · subst hx
      exact ⟨[], Str.splitChar x t, by simp [Str.splitChar], by simp, Or.inr ⟨t, rfl⟩⟩
    · refine ⟨x :: a, r, by simp [Str.splitChar, hx, h1, Str.consHead], ?_, ?_⟩
      · simp only [List.mem_cons, not_or]
        exact ⟨fun h => hx h.symm, h2⟩
      · rcases h3 with rfl | ⟨rest, rfl⟩
        · exact Or.inl rfl
        · exact Or.inr ⟨rest, rfl⟩

theorem parseCell_text {lang : Lang} {c n : Str} (h : parseCell lang c = some (.text n)) : n = strip c := by
  unfold parseCell at h
  split at h
  · simp at h
  · split at h
    · simp at h
    · split at h
      · simp at h
      · simp at h
    · rename_i heq
      split at h
      · simp at h
      · simp only [Option.some.injEq, Cell.text.injEq] at h
        rw [← h, heq]

theorem rowEntry_name {lang : Lang} {fields row : List Cell} {n : Str} {e : Dict Cell}
    (h : rowEntry lang fields row = some (n, e)) : row.head? = some (.text n) := by
  unfold rowEntry at h
  split at h
  · rename_i name def_ rest heq
    split at h
    · simp at h
    · simp only [Option.map_eq_some_iff, Prod.mk.injEq] at h
      obtain ⟨_, _, rfl, rfl⟩ := h
      split at heq
      · cases row with
        | nil => simp at *
        | cons a r => simpa using congrArg List.head? heq
      · rw [heq]; rfl
  · simp at h

theorem parseRow_name {lang : Lang} {line : Str} {row : List Cell} {n : Str} (h : parseRow lang line = some row)
    (hn : row.head? = some (.text n)) : Spec.RowName line n := by
  unfold parseRow at h
  obtain ⟨a, r, h1, h2, h3⟩ := splitChar_first '\t' (strip line)
  rw [h1] at h
  rw [List.mapM_cons] at h
  cases hc : parseCell lang a with
  | none => simp [hc] at h
  | some c =>
    simp only [hc] at h
    cases hr : List.mapM (parseCell lang) r with
    | none => simp [hr] at h
    | some r' =>
      simp only [hr] at h
      have : row = c :: r' := by simpa using h.symm
      subst this
      simp only [List.head?_cons, Option.some.injEq] at hn
      subst hn
      exact ⟨strip line, a, strip_trimmed _, h2, h3, parseCell_text hc ▸ strip_trimmed a⟩

theorem keys_csvRows {lang : Lang} {fields : List Cell} {ls : List Str} {d d' : Dict (Dict Cell)} {done : List Str}
    (hd : Dict.keys d = done.eraseDups) (h : csvRows lang fields ls d = some d') :
    ∃ names, List.Forall₂ Spec.RowName ls names ∧ Dict.keys d' = (done ++ names).eraseDups := by
  induction ls generalizing d done with
  | nil =>
    simp only [csvRows, Option.some.injEq] at h
    subst h
    exact ⟨[], .nil, by simpa using hd⟩
  | cons l ls ih =>
    unfold csvRows at h
    split at h
    · simp at h
    · rename_i row hrow
      split at h
      · simp at h
      · rename_i name e hent
        have hk : Dict.keys (Dict.put d name e) = (done ++ [name]).eraseDups := by
          rw [Dict.keys_put, hd, List.eraseDups_append]
          by_cases hm : name ∈ done
          · rw [if_pos (List.mem_eraseDups.2 hm)]
            simp [List.removeAll, hm]
          · rw [if_neg (fun h => hm (List.mem_eraseDups.1 h))]
            simp [List.removeAll, hm, List.eraseDups_cons]
        obtain ⟨names, h1, h2⟩ := ih hk h
        refine ⟨name :: names, .cons (parseRow_name hrow (rowEntry_name hent)) h1, ?_⟩
        rw [h2, List.append_assoc]
        rfl

/-! ## Order -/

theorem get?_moveToEnd {V : Type} (d : Dict V) (k x : Str) : Dict.get? (moveToEnd d k) x = Dict.get? d x := by
  unfold moveToEnd
  cases h : Dict.get? d k with
  | none => rfl
  | some v =>
    simp only [Dict.get?_put, Dict.get?_del]
    split
    · rename_i e; rw [e, h]
    · rfl

theorem keys_moveToEnd {V : Type} {d : Dict V} {k : Str} (h : k ∈ Dict.keys d) :
    Dict.keys (moveToEnd d k) = (Dict.keys d).filter (fun x => x ≠ k) ++ [k] := by
  unfold moveToEnd
  cases hg : Dict.get? d k with
  | none => exact absurd h ((Dict.get?_eq_none_iff _ _).1 hg)
  | some v =>
    simp only [Dict.keys_put, Dict.keys_del]
    rw [if_neg (by simp)]

theorem keys_moveAll {V : Type} (q : Str → Bool) (ks : List Str) (d : Dict V) (hn : ks.Nodup)
    (hs : ∀ k ∈ ks, k ∈ Dict.keys d) :
    Dict.keys (ks.foldl (fun d k => if q k then moveToEnd d k else d) d) =
      (Dict.keys d).filter (fun k => ! (ks.contains k && q k)) ++ ks.filter q ∧
    ∀ x, Dict.get? (ks.foldl (fun d k => if q k then moveToEnd d k else d) d) x = Dict.get? d x := by
  induction ks generalizing d with
  | nil => simp
  | cons k ks ih =>
    simp only [List.foldl_cons]
    obtain ⟨hn1, hn2⟩ := List.nodup_cons.1 hn
    by_cases hq : q k = true
    · simp only [hq, if_true]
      have hk := keys_moveToEnd (hs k (by simp))
      obtain ⟨h1, h2⟩ := ih (moveToEnd d k) hn2 (by
        intro x hx
        rw [hk]
        by_cases hxk : x = k
        · simp [hxk]
        · exact List.mem_append_left _ (List.mem_filter.2 ⟨hs x (by simp [hx]), by simp [hxk]⟩))
      refine ⟨?_, fun x => by rw [h2, get?_moveToEnd]⟩
      rw [h1, hk, List.filter_append, List.filter_filter, List.filter_cons_of_pos hq]
      have h3 : List.filter (fun k' => !(ks.contains k' && q k')) [k] = [k] := by
        simp [hn1]
      rw [h3, List.append_assoc]
      congr 1
      apply List.filter_congr
      intro x _
      by_cases hxk : x = k
      · subst hxk; simp [hq]
      · simp [hxk]
    · simp only [hq, Bool.false_eq_true, if_false]
      obtain ⟨h1, h2⟩ := ih d hn2 (fun x hx => hs x (by simp [hx]))
      refine ⟨?_, h2⟩
      rw [h1, List.filter_cons_of_neg hq]
      congr 1
      apply List.filter_congr
      intro x _
      by_cases hxk : x = k
      · subst hxk; simp [hq]
      · simp [hxk]

/-- the order of the groups -/
theorem keys_reorder {V : Type} (d : Dict V) (hn : (Dict.keys d).Nodup) :
    Dict.keys (reorder d) =
      (Dict.keys d).filter (fun k => Str.hasSub k (py% "GLOBAL") && ! Str.startsWith k (py% "Data")) ++
      (Dict.keys d).filter (fun k => ! Str.hasSub k (py% "GLOBAL") && ! Str.startsWith k (py% "Data")) ++
      (Dict.keys d).filter (fun k => Str.startsWith k (py% "Data")) ∧
    ∀ x, Dict.get? (reorder d) x = Dict.get? d x := by
  unfold reorder
  simp only
  have h1 := keys_moveAll (fun k => ! Str.hasSub k (py% "GLOBAL")) (Dict.keys d) d hn (fun k h => h)
  have hf : (fun (d : Dict V) k => if Str.hasSub k (py% "GLOBAL") = true then d else moveToEnd d k) =
      fun d k => if (! Str.hasSub k (py% "GLOBAL")) = true then moveToEnd d k else d := by
    funext d k
    cases Str.hasSub k (py% "GLOBAL") <;> rfl
  rw [hf]
  generalize List.foldl (fun (d : Dict V) k => if (! Str.hasSub k (py% "GLOBAL")) = true then moveToEnd d k else d) d
    (Dict.keys d) = d1 at h1 ⊢
  obtain ⟨h1, h2⟩ := h1
  obtain ⟨h3, h4⟩ := keys_moveAll (fun k => Str.startsWith k (py% "Data")) (Dict.keys d) d1 hn (by
    intro k hk
    rw [h1]
    by_cases hg : Str.hasSub k (py% "GLOBAL") = true
    · exact List.mem_append_left _ (List.mem_filter.2 ⟨hk, by simp [hg]⟩)
    · exact List.mem_append_right _ (List.mem_filter.2 ⟨hk, by simp [hg]⟩))
  refine ⟨?_, fun x => by rw [h4, h2]⟩
  rw [h3, h1, List.filter_append, List.filter_filter, List.filter_filter]
  congr 2
  · apply List.filter_congr
    intro k hk
    simp [hk, Bool.and_comm]
  · apply List.filter_congr
    intro k hk
    simp [hk, Bool.and_comm]

end Sofar
