import Verif.Lemmas.StreamOrder
import Verif.Model.Text
import Mathlib.Data.List.Perm.Basic
/-!
# The order of the data in a file and `SofaStream.inspect`
-/
namespace Sofar

theorem concatE_forall {α : Type} {f : α → Except Exc Str} {l : List α} {t : Str} (h : concatE f l = .ok t) :
    ∃ L, List.Forall₂ (fun a b => f a = .ok b) l L ∧ t = L.flatten := by
  induction l generalizing t with
  | nil => simp only [concatE] at h; cases h; exact ⟨[], .nil, rfl⟩
  | cons a l ih =>
    simp only [concatE] at h
    cases ha : f a with
    | error e => simp [ha] at h
    | ok s =>
      cases hl : concatE f l with
      | error e => simp [ha, hl] at h
      | ok u =>
        obtain ⟨L, h1, h2⟩ := ih hl
        simp only [ha, hl] at h
        cases h
        exact ⟨s :: L, .cons ha h1, by simp [h2]⟩

theorem concatE_of_forall {α : Type} {f : α → Except Exc Str} {l : List α} {L : List Str}
    (h : List.Forall₂ (fun a b => f a = .ok b) l L) : concatE f l = .ok L.flatten := by
  induction h with
  | nil => rfl
  | cons h _ ih => simp [concatE, h, ih]

theorem forall_perm {α β : Type} {r : α → β → Prop} {l l' : List α} {L : List β} (h : List.Forall₂ r l L) (hp : l'.Perm l) :
    ∃ L', List.Forall₂ r l' L' ∧ L'.Perm L :=
  List.perm_comp_forall₂ hp h

/-- the text of a variable without the attributes -/
def varHead (env : Env) (n : Str) (dims : List Str) (data : Arr) : Except Exc Str :=
  match (if data.size = 1 then (firstText env data).map (· ++ py% "\n")
      else .ok (shapeText dims data.shape ++ (if data.size < 7 then valuesText env data else []))) with
  | .error e => .error e
  | .ok t => .ok (Str.replaceChar n '.' '_' ++ py% " : " ++ t)

theorem varHead_line {env : Env} {n : Str} {dims : List Str} {data : Arr} {t : Str} (h : varHead env n dims data = .ok t) :
    ∃ q, t = q ++ py% "\n" := by
  unfold varHead at h
  split at h
  · cases h
  · rename_i u hu
    have : ∃ q, u = q ++ py% "\n" := by
      split at hu
      · cases hf : firstText env data with
        | error e => rw [hf] at hu; cases hu
        | ok w => rw [hf] at hu; cases hu; exact ⟨w, rfl⟩
      · cases hu
        split
        · exact ⟨shapeText dims data.shape ++ (py% "  " ++ Str.replace (env.fmt (.arr data.squeeze)) (py% "\n") (py% "\n  ")), by
            simp [valuesText]⟩
        · refine ⟨Str.dropEnd ((List.zip (Arr.padOnes dims.length data.shape) dims).foldl
            (fun t (p : Nat × Str) => t ++ p.2 ++ py% "=" ++ Str.ofNat p.1 ++ py% ", ") (py% "(")) 2 ++ py% ")", ?_⟩
          simp [shapeText]
    obtain ⟨q, rfl⟩ := this
    cases h
    exact ⟨Str.replaceChar n '.' '_' ++ py% " : " ++ q, by simp⟩

/-- the lines for a variable: the variable itself, and its attributes -/
def VarLines (env : Env) (nc : Nc) (p : Str × NcVar) (q : List Str) : Prop :=
  ∃ h L, q = h :: L ∧ varHead env p.1 p.2.dims p.2.data = .ok h ∧
    List.Forall₂ (fun a b => streamAttrText nc (Str.replaceChar p.1 '.' '_') p.2 a = .ok b) (Dict.keys p.2.attrs) L

theorem varLines_of {env : Env} {nc : Nc} {p : Str × NcVar} {s : Str} (h : streamVarText env nc p = .ok s) :
    ∃ q, VarLines env nc p q ∧ s = q.flatten := by
  simp only [streamVarText] at h
  split at h
  · cases h
  · rename_i t ht
    split at h
    · cases h
    · rename_i u hu
      obtain ⟨L, h1, rfl⟩ := concatE_forall hu
      cases h
      exact ⟨(Str.replaceChar p.1 '.' '_' ++ py% " : " ++ t) :: L, ⟨_, L, rfl, by simp only [varHead, ht], h1⟩, by simp⟩

theorem VarLines.text {env : Env} {nc : Nc} {p : Str × NcVar} {q : List Str} (h : VarLines env nc p q) :
    streamVarText env nc p = .ok q.flatten := by
  obtain ⟨h, L, rfl, h1, h2⟩ := h
  unfold varHead at h1
  split at h1
  · cases h1
  · rename_i t ht
    cases h1
    simp only [streamVarText, ht, concatE_of_forall h2]
    simp

theorem VarLines.line {env : Env} {nc : Nc} {p : Str × NcVar} {q : List Str} (h : VarLines env nc p q) :
    ∀ l ∈ q, ∃ r, l = r ++ py% "\n" := by
  obtain ⟨h, L, rfl, h1, h2⟩ := h
  intro l hl
  rcases List.mem_cons.1 hl with rfl | hl
  · exact varHead_line h1
  · clear h1
    generalize Dict.keys p.2.attrs = ks at h2
    induction h2 with
    | nil => simp at hl
    | cons ha _ ih =>
      rcases List.mem_cons.1 hl with rfl | hl
      · unfold streamAttrText at ha
        split at ha
        · cases ha
        · cases ha; exact ⟨_, rfl⟩
        · cases ha
      · exact ih (List.mem_cons_of_mem _ hl) hl

theorem VarLines.same {env : Env} {nc : Nc} {p p' : Str × NcVar} {q : List Str} (h : VarLines env nc p q) (hn : p'.1 = p.1)
    (hs : Spec.SameVariable p.2 p'.2) (ha : (p.2.attrs.map Prod.fst).Nodup) : ∃ q', VarLines env nc p' q' ∧ q'.Perm q := by
  obtain ⟨h, L, rfl, h1, h2⟩ := h
  obtain ⟨L', h3, h4⟩ := forall_perm h2 (l' := Dict.keys p'.2.attrs) (hs.attrs.map Prod.fst)
  refine ⟨h :: L', ⟨h, L', rfl, by rw [hn, hs.dims, hs.data, h1], h3.imp fun a b hab => ?_⟩, h4.cons h⟩
  rw [hn, ← hab]
  unfold streamAttrText variableAttr
  rw [get?_perm ⟨hs.attrs, ha⟩]

theorem streamVars_same {env : Env} {nc : Nc} {f f' : NcFile} (h : Spec.SameContent f f') (hn : Spec.OnceNames f) {t : Str}
    (ht : concatE (streamVarText env nc) f.vars = .ok t) :
    ∃ L L' : List Str, t = L.flatten ∧ concatE (streamVarText env nc) f'.vars = .ok L'.flatten ∧ L'.Perm L ∧
      L.length = (f.vars.map (fun p => p.2.attrs.length + 1)).sum ∧ ∀ l ∈ L, ∃ q, l = q ++ py% "\n" := by
  obtain ⟨T, hT, rfl⟩ := concatE_forall ht
  have hQ : ∃ Q, List.Forall₂ (VarLines env nc) f.vars Q ∧ T.flatten = Q.flatten.flatten := by
    clear ht
    generalize f.vars = vs at hT
    induction hT with
    | nil => exact ⟨[], .nil, rfl⟩
    | cons ha _ ih =>
      obtain ⟨Q, h1, h2⟩ := ih
      obtain ⟨q, h3, h4⟩ := varLines_of ha
      exact ⟨q :: Q, .cons h3 h1, by simp [h2, h4]⟩
  obtain ⟨Q, hQ, e⟩ := hQ
  obtain ⟨vars, hp, hv⟩ := h.vars
  obtain ⟨Q2, h2, h2p⟩ := forall_perm hQ hp
  have sub : ∀ p ∈ vars, (p.2.attrs.map Prod.fst).Nodup := fun p hm => hn.sub p.1 p.2 (hp.mem_iff.1 hm)
  have h3 : ∃ Q3, List.Forall₂ (VarLines env nc) f'.vars Q3 ∧ Q3.flatten.Perm Q2.flatten := by
    clear hp h2p
    generalize f'.vars = vars' at hv
    induction hv generalizing Q2 with
    | nil => cases h2; exact ⟨[], .nil, .refl _⟩
    | cons hab _ ih =>
      cases h2 with
      | cons hq hQ2 =>
        obtain ⟨q', h4, h5⟩ := hq.same hab.1 hab.2 (sub _ List.mem_cons_self)
        obtain ⟨Q3, h6, h7⟩ := ih _ hQ2 (fun p hm => sub p (List.mem_cons_of_mem _ hm))
        exact ⟨q' :: Q3, .cons h4 h6, by simpa using h5.append h7⟩
  obtain ⟨Q3, h3, h3p⟩ := h3
  refine ⟨Q.flatten, Q3.flatten, e, ?_, h3p.trans h2p.flatten, ?_, ?_⟩
  · have := concatE_of_forall (f := streamVarText env nc) (L := Q3.map List.flatten)
      (List.forall₂_map_right_iff.2 (h3.imp fun a b hab => hab.text))
    rw [this]
    congr 1
    exact (List.flatten_flatten).symm
  · clear h2 h2p h3p e hp hv sub hT ht
    generalize f.vars = vs at hQ
    induction hQ with
    | nil => rfl
    | cons ha _ ih =>
      obtain ⟨_, L, rfl, -, h5⟩ := ha
      have := h5.length_eq
      simp only [Dict.keys, List.length_map] at this
      simp only [List.flatten_cons, List.length_append, List.length_cons, ih, ← this, List.map_cons, List.sum_cons]
  · clear h2 h2p h3p e
    intro l hl
    obtain ⟨q, hq, hlq⟩ := List.mem_flatten.1 hl
    obtain ⟨p, hp⟩ : ∃ p, VarLines env nc p q := by
      clear hl hlq
      generalize f.vars = vs at hQ
      induction hQ with
      | nil => simp at hq
      | cons ha _ ih =>
        rcases List.mem_cons.1 hq with rfl | hq
        · exact ⟨_, ha⟩
        · exact ih hq
    exact hp.line l hlq

end Sofar
