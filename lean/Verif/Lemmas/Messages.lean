import Verif.Spec.Messages
import Verif.Lemmas.Events
import Verif.Lemmas.Upgrade
import Verif.Lemmas.Read
import Verif.Lemmas.IO
import Mathlib.Data.List.Forall2
/-!
# What is printed
-/
namespace Sofar

theorem prints_append (a b : List Event) : Spec.prints (a ++ b) = Spec.prints a ++ Spec.prints b := by
  simp [Spec.prints]

theorem prints_nil : Spec.prints [] = [] := rfl

theorem prints_print (m : Str) (l : List Event) : Spec.prints (.print m :: l) = m :: Spec.prints l := rfl

theorem prints_warn (m : Str) (l : List Event) : Spec.prints (.warn m :: l) = Spec.prints l := rfl

theorem prints_none {ev : List Event} (h : ∀ m, Event.print m ∉ ev) : Spec.prints ev = [] := by
  induction ev with
  | nil => rfl
  | cons e ev ih =>
    cases e with
    | warn m => rw [prints_warn]; exact ih (fun m hm => h m (List.mem_cons_of_mem _ hm))
    | print m => exact absurd List.mem_cons_self (h m)

theorem join_eq (sep : Str) (l : List Str) : Str.join sep l = List.intercalate sep l := by
  induction l with
  | nil => rfl
  | cons a l ih =>
    cases l with
    | nil => simp [Str.join, List.intercalate]
    | cons b l =>
      simp only [Str.join, ih]
      simp [List.intercalate]

/-! ## add_missing -/

theorem addMissingLoop_text {m opt : Bool} {keys : List Str} {conv all : Dict Entry} {o : Obj} {s : Str}
    (hn : (all.map Prod.fst).Nodup) (hsub : ∀ p ∈ conv, p ∈ all) (h : (addMissingLoop m opt keys conv o).1 = .ok s) :
    ∃ lines, List.Forall₂ (Spec.AddedLine all)
        ((conv.filter (fun p => ! keys.contains p.1 &&
          ((mandatory p.2.flags && m) || (! mandatory p.2.flags && opt)))).map Prod.fst) lines ∧ s = lines.flatten := by
  induction conv generalizing o s with
  | nil =>
    simp only [addMissingLoop, Except.ok.injEq] at h
    exact ⟨[], .nil, h.symm⟩
  | cons p conv ih =>
    obtain ⟨k, e⟩ := p
    have hsub' : ∀ p ∈ conv, p ∈ all := fun p hp => hsub p (List.mem_cons_of_mem _ hp)
    simp only [addMissingLoop] at h
    by_cases hc : (! keys.contains k && ((mandatory e.flags && m) || (! mandatory e.flags && opt))) = true
    · rw [if_pos hc] at h
      cases hs : (setAttr o k e.default).out with
      | error x => simp [hs] at h
      | ok _ =>
        simp only [hs] at h
        cases hq : (addMissingLoop m opt keys conv (setAttr o k e.default).obj).1 with
        | error x => simp [hq] at h
        | ok s' =>
          simp only [hq, Except.ok.injEq] at h
          obtain ⟨lines, h1, h2⟩ := ih hsub' hq
          rw [List.filter_cons_of_pos (by exact hc), List.map_cons]
          refine ⟨(py% "- " ++ k ++ (if mandatory e.flags then py% " (mandatory)\n" else py% " (optional)\n")) :: lines,
            .cons ⟨e, Dict.get?_of_mem hn (hsub _ List.mem_cons_self), ?_⟩ h1, ?_⟩
          · by_cases hm : mandatory e.flags = true
            · exact Or.inl ⟨(mandatory_iff e).1 hm, by simp [hm]⟩
            · exact Or.inr ⟨fun hx => hm ((mandatory_iff e).2 hx), by simp [hm]⟩
          · rw [← h, h2]
            simp
    · rw [if_neg hc] at h
      rw [List.filter_cons_of_neg (by exact hc)]
      exact ih hsub' h

theorem contains_dash {lines : List Str} {conv : Dict Entry} {ks : List Str}
    (h : List.Forall₂ (Spec.AddedLine conv) ks lines) :
    ((py% "Added the following missing data with their default values:\n") ++ lines.flatten).contains '-' = true ↔
      lines ≠ [] := by
  cases h with
  | nil => simp
  | cons h1 h2 =>
    obtain ⟨e, _, h | h⟩ := h1
    · rw [h.2]; simp
    · rw [h.2]; simp

theorem addMissing_ev {env : Env} {o : Obj} {m opt verbose : Bool}
    (hw : ∀ c, o.custom = some c → (c.map Prod.fst).Nodup)
    (h : (addMissing env o m opt verbose).out = .ok ())
    (hk : py% "protected" ∉ (addMissing env o m opt verbose).obj.conv.map Prod.fst) :
    ∃ new lines, (addMissing env o m opt verbose).obj.attrs.map Prod.fst = o.attrs.map Prod.fst ++ new ∧
      List.Forall₂ (Spec.AddedLine (addMissing env o m opt verbose).obj.conv) new lines ∧
      (addMissing env o m opt verbose).ev = if verbose then [.print (Spec.addedText lines)] else [] := by
  obtain ⟨o1, l, hr, hconv, hl, hln, hnew, ho⟩ := addMissing_ok hw h hk
  have ho' := congrArg Obj.conv ho
  simp only at ho'
  rw [ho', show (addMissing env o m opt verbose).obj.attrs = o.attrs ++ l from congrArg Obj.attrs ho]
  unfold addMissing at h ⊢
  simp only [hr] at h ⊢
  cases hq : (addMissingLoop m opt o1.keys o1.conv { o1 with prot := false }).1 with
  | error x => simp [hq] at h
  | ok s =>
    obtain ⟨lines, h1, h2⟩ := addMissingLoop_text hconv (fun p hp => hp) hq
    have hkeys : o1.keys = o.keys := by
      unfold Obj.keys; rw [resetConvention_attrs hr]
    refine ⟨l.map Prod.fst, lines, by simp, ?_, ?_⟩
    · rw [hl.names]
      rw [hkeys] at h1
      exact h1
    · simp only
      cases verbose with
      | false => rfl
      | true =>
        simp only [if_true]
        rw [h2]
        unfold Spec.addedText
        by_cases hd : lines = []
        · rw [if_pos hd, if_neg (by rw [contains_dash h1]; exact fun hx => hx hd)]
        · rw [if_neg hd, if_pos ((contains_dash h1).2 hd)]

/-! ## upgrades -/

theorem moveOne_ev {o : Obj} {s : Str} {m : Move} (h : (moveOne o s m).out = .ok ()) :
    (moveOne o s m).ev = [.print (Spec.movedLine s m)] := by
  unfold moveOne at h ⊢
  simp only [toSofar_eq] at h ⊢
  cases h1 : o.getAttr (Spec.sofarName s) with
  | error e => simp [h1] at h
  | ok v =>
    simp only [h1] at h ⊢
    cases h2 : (delAttr o (Spec.sofarName s)).out with
    | error e => simp [h2] at h
    | ok _ =>
      simp only [h2] at h ⊢
      cases h3 : moveData v m.moveaxis with
      | error e => simp [h3] at h
      | ok w =>
        simp only [h3] at h ⊢
        cases h4 : (setAttr (delAttr o (Spec.sofarName s)).obj (Spec.sofarName m.target) (.val w)).out with
        | error e => simp [h4] at h
        | ok _ =>
          simp only [moveText, Spec.movedLine, join_eq]
          cases m.moveaxis <;> cases m.deprecatedDims <;> rfl

theorem moveAll_ev {l : Dict Move} {o : Obj} (h : (moveAll l o).out = .ok ()) :
    Spec.prints (moveAll l o).ev = l.map (fun p => Spec.movedLine p.1 p.2) := by
  induction l generalizing o with
  | nil => rfl
  | cons p l ih =>
    obtain ⟨s, m⟩ := p
    simp only [moveAll] at h ⊢
    cases h1 : (moveOne o s m).out with
    | error e => simp [h1] at h
    | ok _ =>
      simp only [h1] at h ⊢
      rw [moveOne_ev h1, prints_append, ih h]
      rfl

theorem removeAll_ev {l : List Str} {o : Obj} (h : (removeAll l o).out = .ok ()) :
    Spec.prints (removeAll l o).ev = l.map (fun n => py% "- Deleting " ++ Spec.sofarName n ++ py% ".") := by
  induction l generalizing o with
  | nil => rfl
  | cons t l ih =>
    simp only [removeAll, toSofar_eq] at h ⊢
    cases h1 : (delAttr o (Spec.sofarName t)).out with
    | error e => simp [h1] at h
    | ok _ =>
      simp only [h1] at h ⊢
      rw [prints_print, ih h]
      rfl

theorem verify_raise_prints (env : Env) (o : Obj) (mode : Mode) : Spec.prints (verify env o .raise mode).ev = [] :=
  prints_none (fun m => verifyG_raise_ev referenceNames env o mode m (fun o' => referenceNames_ev env o' m))

theorem upgradeVerify_prints (env : Env) (o : Obj) (arg : VerifyArg) : Spec.prints (upgradeVerify env o arg).ev = [] := by
  unfold upgradeVerify
  have hv := verify_raise_prints env o .write
  split
  · simp only
    split <;> exact hv
  · rfl
  · split
    · rfl
    · split
      · rfl
      · split
        · rfl
        · rfl
        · simp only
          split <;> exact hv

theorem upgradeData_prints {env : Env} {o : Obj} {u : UpgradeDef} {arg : VerifyArg} {r : Option (List Str)}
    (h : (upgradeData env o u arg).out = .ok r) :
    ∃ o1, o1 = (removeAll u.remove (moveAll u.move o).obj).obj ∧ (addMissing env o1 true false true).out = .ok () ∧
      (upgradeData env o u arg).obj.attrs = (addMissing env o1 true false true).obj.attrs ∧
      Spec.prints (upgradeData env o u arg).ev = Spec.movedLines u ++ Spec.removedLines u ++
        Spec.prints (addMissing env o1 true false true).ev ++ u.message.toList := by
  unfold upgradeData at h ⊢
  simp only at h ⊢
  cases h1 : (moveAll u.move o).out with
  | error e => simp [h1] at h
  | ok _ =>
    simp only [h1] at h ⊢
    cases h2 : (removeAll u.remove (moveAll u.move o).obj).out with
    | error e => simp [h2] at h
    | ok _ =>
      simp only [h2] at h ⊢
      cases h3 : (addMissing env (removeAll u.remove (moveAll u.move o).obj).obj true false true).out with
      | error e => simp [h3] at h
      | ok _ =>
        simp only [h3] at h ⊢
        refine ⟨_, rfl, h3, upgradeVerify_attrs _ _ _, ?_⟩
        simp only [prints_append, moveAll_ev h1, removeAll_ev h2, upgradeVerify_prints, List.append_nil]
        have hmv : u.move.map (fun p => Spec.movedLine p.1 p.2) ++
            Spec.prints (if u.move.isEmpty then [.print (py% "- No data to move")] else []) = Spec.movedLines u := by
          unfold Spec.movedLines
          cases u.move with
          | nil => rfl
          | cons p l => simp [prints_nil]
        have hrm : u.remove.map (fun n => py% "- Deleting " ++ Spec.sofarName n ++ py% ".") ++
            Spec.prints (if u.remove.isEmpty then [.print (py% "- No data to remove")] else []) = Spec.removedLines u := by
          unfold Spec.removedLines
          cases u.remove with
          | nil => rfl
          | cons p l => simp [prints_nil]
        have hms : ∀ x : Option Str, Spec.prints (match x with | none => [] | some m => [.print m]) = x.toList := by
          intro x; cases x <;> rfl
        rw [← hmv, ← hrm]
        simp only [List.append_assoc]
        congr 5
        cases u.message <;> rfl

theorem setAttr_mem {o : Obj} {n k : Str} {d : Inp} (h : k ∈ Dict.keys (setAttr o n d).obj.attrs) :
    k = n ∨ k ∈ Dict.keys o.attrs := by
  rcases setAttr_cases o n d with ⟨e, _, h1, _⟩ | ⟨b, _, _, _, h1⟩ | ⟨w, _, _, _, _, h1, _⟩
  · rw [h1] at h; exact Or.inr h
  · rw [h1] at h; exact Or.inr h
  · rw [h1] at h; exact (Dict.mem_keys_put _ _ _ _).1 h

theorem setAttr_mem_of {o : Obj} {n k : Str} {d : Inp} (h : k ∈ Dict.keys o.attrs) :
    k ∈ Dict.keys (setAttr o n d).obj.attrs := by
  rcases setAttr_cases o n d with ⟨e, _, h1, _⟩ | ⟨b, _, _, _, h1⟩ | ⟨w, _, _, _, _, h1, _⟩
  · rw [h1]; exact h
  · rw [h1]; exact h
  · rw [h1]; exact (Dict.mem_keys_put _ _ _ _).2 (Or.inr h)

theorem delAttr_mem {o : Obj} {n k : Str} (h : k ∈ Dict.keys (delAttr o n).obj.attrs) : k ∈ Dict.keys o.attrs := by
  rcases delAttr_cases o n with ⟨e, _, h1⟩ | ⟨_, _, h1⟩
  · rw [h1] at h; exact h
  · rw [h1] at h
    obtain ⟨p, hp, rfl⟩ := List.mem_map.1 h
    exact List.mem_map.2 ⟨p, (List.mem_filter.1 hp).1, rfl⟩

/-- a line about mandatory data -/
def mandatoryLine (k : Str) : Str := py% "- " ++ k ++ py% " (mandatory)\n"

theorem addMissingLoop_lines {keys : List Str} {conv : Dict Entry} {o : Obj} {s : Str}
    (h : (addMissingLoop true false keys conv o).1 = .ok s) :
    ∃ new : List Str, s = (new.map mandatoryLine).flatten ∧
      (∀ k ∈ new, k ∉ keys ∧ (k = py% "protected" ∨ k ∈ Dict.keys (addMissingLoop true false keys conv o).2.attrs)) ∧
      (∀ k ∈ Dict.keys o.attrs, k ∈ Dict.keys (addMissingLoop true false keys conv o).2.attrs) ∧
      ∀ k ∈ Dict.keys (addMissingLoop true false keys conv o).2.attrs, k ∈ Dict.keys o.attrs ∨ k ∈ new := by
  induction conv generalizing o s with
  | nil =>
    simp only [addMissingLoop, Except.ok.injEq] at h
    exact ⟨[], h.symm, by simp, fun k hk => hk, fun k hk => Or.inl hk⟩
  | cons p conv ih =>
    obtain ⟨k, e⟩ := p
    simp only [addMissingLoop] at h ⊢
    by_cases hc : (! keys.contains k && ((mandatory e.flags && true) || (! mandatory e.flags && false))) = true
    · rw [if_pos hc] at h
      simp only [if_pos hc]
      have hm : mandatory e.flags = true := by
        simp only [Bool.and_true, Bool.and_false, Bool.or_false, Bool.and_eq_true] at hc
        exact hc.2
      have hnk : k ∉ keys := by
        simp only [Bool.and_eq_true, Bool.not_eq_true', ← Bool.not_eq_true, List.contains_iff_mem] at hc
        exact hc.1
      cases hs : (setAttr o k e.default).out with
      | error x => simp [hs] at h
      | ok _ =>
        simp only [hs] at h ⊢
        cases hq : (addMissingLoop true false keys conv (setAttr o k e.default).obj).1 with
        | error x => simp [hq] at h
        | ok s' =>
          simp only [hq, Except.ok.injEq, hm, if_true] at h ⊢
          obtain ⟨new, h1, h2, h3, h4⟩ := ih hq
          refine ⟨k :: new, ?_, ?_, ?_, ?_⟩
          · rw [← h, h1]
            simp [mandatoryLine]
          · intro j hj
            rcases List.mem_cons.1 hj with rfl | hj
            · refine ⟨hnk, ?_⟩
              rcases setAttr_cases o j e.default with ⟨x, h5, _⟩ | ⟨b, _, h5, _⟩ | ⟨w, _, _, _, _, h5, _⟩
              · rw [h5] at hs; cases hs
              · exact Or.inl h5
              · refine Or.inr (h3 _ ?_)
                rw [h5]
                exact (Dict.mem_keys_put _ _ _ _).2 (Or.inl rfl)
            · exact h2 j hj
          · exact fun j hj => h3 j (setAttr_mem_of hj)
          · intro j hj
            rcases h4 j hj with h5 | h5
            · rcases setAttr_mem h5 with rfl | h5
              · exact Or.inr List.mem_cons_self
              · exact Or.inl h5
            · exact Or.inr (List.mem_cons_of_mem _ h5)
    · rw [if_neg hc] at h
      simp only [if_neg hc]
      exact ih h

theorem mandatoryLines_dash (new : List Str) :
    ((py% "Added the following missing data with their default values:\n") ++ (new.map mandatoryLine).flatten).contains '-'
      = true ↔ new ≠ [] := by
  cases new with
  | nil => simp
  | cons k l => simp [mandatoryLine]

theorem addMissing_mandatory {env : Env} {o : Obj} (h : (addMissing env o true false true).out = .ok ()) :
    ∃ new : List Str, (addMissing env o true false true).ev = [.print (Spec.addedText (new.map mandatoryLine))] ∧
      (∀ k ∈ new, k ∉ o.keys ∧ (k = py% "protected" ∨ k ∈ (addMissing env o true false true).obj.keys)) ∧
      ∀ k ∈ (addMissing env o true false true).obj.keys, k ∈ o.keys ∨ k ∈ new := by
  unfold addMissing at h ⊢
  cases hr : resetConvention env o with
  | error x => simp [hr] at h
  | ok o1 =>
    simp only [hr] at h ⊢
    cases hq : (addMissingLoop true false o1.keys o1.conv { o1 with prot := false }).1 with
    | error x => simp [hq] at h
    | ok s =>
      simp only [if_true]
      obtain ⟨new, h1, h2, _, h4⟩ := addMissingLoop_lines hq
      have hkeys : o1.keys = o.keys := by
        unfold Obj.keys; rw [resetConvention_attrs hr]
      refine ⟨new, ?_, ?_, ?_⟩
      · rw [h1]
        unfold Spec.addedText
        by_cases hd : new = []
        · rw [if_neg (by rw [mandatoryLines_dash]; exact fun hx => hx hd), if_pos (by rw [hd]; rfl)]
        · rw [if_pos ((mandatoryLines_dash _).2 hd), if_neg (by simpa using hd)]
      · intro k hk
        obtain ⟨h5, h6⟩ := h2 k hk
        rw [hkeys] at h5
        exact ⟨h5, h6⟩
      · intro k hk
        rw [← hkeys]
        exact h4 k hk

theorem moveAll_mem {l : Dict Move} {o : Obj} {k : Str} (h : k ∈ (moveAll l o).obj.keys) :
    k ∈ o.keys ∨ k ∈ l.map (fun p => Spec.sofarName p.2.target) := by
  have hone : ∀ {o : Obj} {s : Str} {m : Move} {k : Str}, k ∈ (moveOne o s m).obj.keys →
      k ∈ o.keys ∨ k = Spec.sofarName m.target := by
    intro o s m k h
    unfold moveOne at h
    simp only [toSofar_eq] at h
    split at h
    · exact Or.inl h
    · split at h
      · exact Or.inl (delAttr_mem h)
      · split at h
        · exact Or.inl (delAttr_mem h)
        · rename_i w _
          have : k ∈ Dict.keys (setAttr (delAttr o (Spec.sofarName s)).obj (Spec.sofarName m.target) (.val w)).obj.attrs := by
            split at h <;> exact h
          rcases setAttr_mem this with h1 | h1
          · exact Or.inr h1
          · exact Or.inl (delAttr_mem h1)
  induction l generalizing o with
  | nil => exact Or.inl h
  | cons p l ih =>
    obtain ⟨s, m⟩ := p
    simp only [moveAll] at h
    simp only [List.map_cons, List.mem_cons]
    split at h
    · rcases hone h with h1 | h1
      · exact Or.inl h1
      · exact Or.inr (Or.inl h1)
    · rcases ih h with h1 | h1
      · rcases hone h1 with h1 | h1
        · exact Or.inl h1
        · exact Or.inr (Or.inl h1)
      · exact Or.inr (Or.inr h1)

theorem removeAll_mem {l : List Str} {o : Obj} {k : Str} (h : k ∈ (removeAll l o).obj.keys) : k ∈ o.keys := by
  induction l generalizing o with
  | nil => exact h
  | cons t l ih =>
    simp only [removeAll] at h
    split at h
    · exact delAttr_mem h
    · exact delAttr_mem (ih h)

theorem putTarget_mem {l : List Str} {o : Obj} {k : Str} (h : k ∈ (putTarget l o).2.keys) : k ∈ o.keys ∨ k ∈ l := by
  induction l generalizing o with
  | nil => exact Or.inl h
  | cons t l ih =>
    simp only [putTarget] at h
    split at h
    · exact Or.inl h
    · split at h
      · rcases setAttr_mem h with h1 | h1
        · exact Or.inr (by simp [h1])
        · exact Or.inl h1
      · rcases ih h with h1 | h1
        · rcases setAttr_mem h1 with h1 | h1
          · exact Or.inr (by simp [h1])
          · exact Or.inl h1
        · exact Or.inr (by simp [h1])

theorem upgradeConvention_rule' {env : Env} {o : Obj} {t : Str} {u : UpgradeDef} {arg : VerifyArg}
    {r : Option (List Str)} (hu : Spec.UpgradeRule env o t u) (h : (upgradeConvention env o (some t) arg).out = .ok r) :
    ∃ o1 c v sv, resetConvention env o = .ok o1 ∧
      upgradeConvention env o (some t) arg = upgradeTo env o1 c v sv t u arg ∧
      ∃ version, Spec.ConventionOf o c version ∧ pyStr env v = version := by
  obtain ⟨name, version, up, targets, id, ⟨c, v, h1, h2, h3, h4⟩, hup, hrow, ht, hd⟩ := hu
  obtain ⟨f, hf⟩ := (find_row h4 targets id).2 hrow
  unfold upgradeConvention at h ⊢
  cases hr : resetConvention env o with
  | error e => simp [hr] at h
  | ok o1 =>
    have hat := resetConvention_attrs hr
    simp only [hr] at h ⊢
    have g1 := getAttr_of_get (o := o1) (by rw [hat]; exact h1)
    have g2 := getAttr_of_get (o := o1) (by rw [hat]; exact h3)
    cases g3 : o1.getAttr (py% "GLOBAL_Version") with
    | error e => simp [g1, g2, g3] at h
    | ok sv =>
      rw [g1, g2]
      have hout : isOutdated env name v = true := by
        unfold isOutdated
        rw [hup]
        simp only [Bool.or_eq_true, List.any_eq_true]
        right
        have hm := List.find?_some hf
        exact ⟨_, List.mem_of_find?_eq_some hf, hm⟩
      simp only [pyStr_text h2, hup, hf, hd]
      rw [if_pos hout, if_pos (by simpa using ht)]
      exact ⟨o1, name, v, sv, rfl, rfl, version, ⟨c, v, h1, h2, h3, h4⟩, pyStr_text h4⟩

theorem targetsText_lines {targets : List Str} (ht : ∀ t ∈ targets, '_' ∈ t) :
    ∃ lines, List.Forall₂ Spec.TargetLine targets lines ∧ targetsText targets = .ok lines.flatten := by
  induction targets with
  | nil => exact ⟨[], .nil, rfl⟩
  | cons t l ih =>
    obtain ⟨lines, h1, h2⟩ := ih (fun x hx => ht x (List.mem_cons_of_mem _ hx))
    obtain ⟨n, y, hy, hn⟩ := List.eq_append_cons_of_mem (ht t List.mem_cons_self)
    by_cases hm : '_' ∈ y
    · obtain ⟨v, rest, hr, hv⟩ := List.eq_append_cons_of_mem hm
      refine ⟨(py% "- " ++ n ++ py% " v" ++ v ++ py% "\n") :: lines,
        .cons ⟨n, v, hn, hv, Or.inr ⟨rest, by rw [hy, hr]; simp⟩, rfl⟩ h1, ?_⟩
      simp only [targetsText, hy, splitChar_append hn, hr, splitChar_append hv, h2]
      simp
    · refine ⟨(py% "- " ++ n ++ py% " v" ++ y ++ py% "\n") :: lines, .cons ⟨n, y, hn, hm, Or.inl hy, rfl⟩ h1, ?_⟩
      simp only [targetsText, hy, splitChar_append hn, splitChar_not_mem hm, h2]
      simp

theorem setAttr_ev (o : Obj) (name : Str) (value : Inp) : (setAttr o name value).ev = [] := by
  unfold setAttr
  split
  · rfl
  · split
    · rfl
    · split
      · split <;> rfl
      · split
        · rfl
        · split
          · rfl
          · split <;> rfl

theorem addCustomApiEntry_ev (o : Obj) (key : Str) (value : Inp) (flags dims : Option Str) (dtype : Str) :
    (addCustomApiEntry o key value flags dims dtype).ev = [] := by
  unfold addCustomApiEntry
  have h := setAttr_ev (registerCustom { o with prot := false } key (customEntry flags (dims.map customDims) dtype)) key value
  simp only
  split <;> exact h

/-! ## reading -/

theorem hasAttr_ordinary (o : Obj) {k : Str} (hp : isPrivate k = false) :
    o.hasAttr k = true ↔ k ∈ Dict.keys o.attrs ∨ k ∈ publicMembers := by
  unfold Obj.hasAttr
  have h1 : privateMembers.contains k = false := by
    rw [← Bool.not_eq_true, List.contains_iff_mem]
    intro hk
    have : ∀ n ∈ privateMembers, isPrivate n = true := by decide
    rw [this k hk] at hp
    cases hp
  have h2 : o.privateInst.contains k = false := by
    rw [← Bool.not_eq_true, List.contains_iff_mem]
    intro hk
    have : ∀ n ∈ o.privateInst, isPrivate n = true := by
      unfold Obj.privateInst
      intro n hn
      simp only [List.mem_append] at hn
      rcases hn with ((hn | hn) | hn) | hn
      · rw [List.mem_singleton.1 hn]; rfl
      all_goals
        split at hn
        · rw [List.mem_singleton.1 hn]; rfl
        · cases hn
    rw [this k hk] at hp
    cases hp
  rw [h1, h2]
  simp [Dict.has_iff_mem]

theorem loadItems_custom {l : List Item} {st st' : Reading} (hp : st.obj.prot = false) (h : loadItems l st = .ok st') :
    ∃ ns, st'.custom = st.custom ++ ns ∧ ns.Nodup ∧ ∀ k, k ∈ ns ↔
      k ∈ l.map (·.name) ∧ k ∉ Dict.keys st.obj.attrs ∧ k ∉ publicMembers := by
  induction l generalizing st with
  | nil =>
    simp only [loadItems, Except.ok.injEq] at h
    subst h
    exact ⟨[], by simp, by simp, by simp⟩
  | cons i l ih =>
    simp only [loadItems] at h
    split at h
    · simp at h
    · rename_i st1 h1
      have hl := loadItem_ok hp h1
      obtain ⟨ns, a, b, c⟩ := ih hl.prot h
      have hk : ∀ k, k ∈ Dict.keys st1.obj.attrs ↔ k = i.name ∨ k ∈ Dict.keys st.obj.attrs := by
        intro k
        rw [hl.attrs, Dict.mem_keys_put]
      rcases hl.api with ⟨h2, _, _, h3⟩ | ⟨h2, h3, _⟩
      · rw [hasAttr_ordinary _ hl.private_] at h2
        refine ⟨ns, by rw [a, h3], b, ?_⟩
        intro k
        rw [c, hk, List.map_cons, List.mem_cons]
        constructor
        · rintro ⟨g1, g2, g3⟩
          exact ⟨Or.inr g1, fun hx => g2 (Or.inr hx), g3⟩
        · rintro ⟨g1, g2, g3⟩
          have hne : k ≠ i.name := by
            rintro rfl
            rcases h2 with h2 | h2
            · exact g2 h2
            · exact g3 h2
          refine ⟨g1.resolve_left hne, ?_, g3⟩
          rintro (hx | hx)
          · exact hne hx
          · exact g2 hx
      · have h2' : ¬ (i.name ∈ Dict.keys st.obj.attrs ∨ i.name ∈ publicMembers) := by
          rw [← hasAttr_ordinary _ hl.private_, h2]; simp
        refine ⟨i.name :: ns, by rw [a, h3]; simp, ?_, ?_⟩
        · rw [List.nodup_cons]
          refine ⟨fun hx => ?_, b⟩
          exact ((c _).1 hx).2.1 ((hk _).2 (Or.inl rfl))
        · intro k
          rw [List.mem_cons, c, hk, List.map_cons, List.mem_cons]
          constructor
          · rintro (rfl | ⟨g1, g2, g3⟩)
            · exact ⟨Or.inl rfl, fun hx => h2' (Or.inl hx), fun hx => h2' (Or.inr hx)⟩
            · exact ⟨Or.inr g1, fun hx => g2 (Or.inr hx), g3⟩
          · rintro ⟨g1, g2, g3⟩
            by_cases hki : k = i.name
            · exact Or.inl hki
            · refine Or.inr ⟨g1.resolve_left hki, ?_, g3⟩
              rintro (hx | hx)
              · exact hki hx
              · exact g2 hx

theorem formatFrom_prints (nc : Nc) (key : Str) (a : Arr) : Spec.prints (formatFrom nc key a).2 = [] := by
  unfold formatFrom
  split
  · split
    · rfl
    · split
      · rfl
      · split
        · rfl
        · rfl
  · split
    · simp only
      split <;> rfl
    · rfl

theorem varItems_prints (nc : Nc) (name : Str) (var : NcVar) : Spec.prints (varItems nc name var).2 = [] := by
  unfold varItems
  have := formatFrom_prints nc name var.data
  simp only
  split
  · exact this
  · split <;> exact this

theorem readVars_prints (nc : Nc) (vars : Dict NcVar) (st : Reading) : Spec.prints (readVars nc vars st).2 = [] := by
  induction vars generalizing st with
  | nil => rfl
  | cons p vars ih =>
    obtain ⟨n, v⟩ := p
    have := varItems_prints nc n v
    simp only [readVars]
    split
    · exact this
    · split
      · exact this
      · simp only [prints_append, this, ih, List.append_nil]

theorem verifyRead_prints (env : Env) (o : Obj) (v : Str) (arg : VerifyArg) :
    Spec.prints (verifyRead env o v arg).ev = [] := by
  have hv := verify_raise_prints env o .read
  unfold verifyRead
  simp only [if_true, Bool.false_eq_true, if_false]
  split
  · split <;> exact hv
  · rfl
  · split
    · rfl
    · split
      · split <;> exact hv
      · rfl

theorem loadFile_prints {nc : Nc} {f : NcFile} {new o : Obj} {vb : Bool} (h : (loadFile nc f new vb).out = .ok o) :
    ∃ ns, ns.Nodup ∧ (∀ k, k ∈ ns ↔ Spec.InFile f k ∧ ¬ Spec.IsData new k ∧ k ∉ publicMembers) ∧
      Spec.prints (loadFile nc f new vb).ev = if vb = true ∧ ns ≠ [] then [Spec.customText ns] else [] := by
  unfold loadFile at h ⊢
  cases hg : attrItems nc (py% "GLOBAL_") f.attrs with
  | error e => simp [hg] at h
  | ok g =>
    simp only [hg] at h ⊢
    cases hl : loadItems g ⟨{ new with prot := false }, [], []⟩ with
    | error e => simp [hl] at h
    | ok st =>
      simp only [hl] at h ⊢
      cases hr : (readVars nc f.vars st).1 with
      | error e => simp [hr] at h
      | ok st' =>
        simp only [hr] at h ⊢
        obtain ⟨v, hv1, hv2⟩ := readVars_iff.1 hr
        have hload : loadItems (g ++ v) ⟨{ new with prot := false }, [], []⟩ = .ok st' := by
          rw [loadItems_append, hl]; exact hv2
        obtain ⟨ns, h1, h2, h3⟩ := loadItems_custom rfl hload
        simp only [List.nil_append] at h1
        cases hd : deleteExtra st'.all st'.obj.keys st'.obj with
        | error e => simp [hd] at h
        | ok o' =>
          simp only [prints_append, readVars_prints, List.nil_append]
          refine ⟨ns, h2, ?_, ?_⟩
          · intro k
            rw [h3, fileItems_names (nc := nc) (f := f) (by simp only [fileItems, hg, hv1])]
            rfl
          · rw [h1]
            by_cases hc : ns ≠ [] ∧ vb = true
            · rw [if_pos hc, if_pos ⟨hc.2, hc.1⟩]
              simp only [customNotice, join_eq]
              rfl
            · rw [if_neg hc, if_neg (fun hx => hc ⟨hx.2, hx.1⟩)]
              rfl

end Sofar
