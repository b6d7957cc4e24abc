import Verif.Model.Equals
import Verif.Spec.Equals
import Verif.Lemmas.Index
import Verif.Lemmas.Dict
/-!
# Lemmas on the comparison of objects
-/
namespace Sofar

theorem closeElem_iff (x y : Elem) : closeElem x y = some true ↔ Spec.Close x y := by
  constructor
  · intro h
    unfold closeElem at h
    split at h
    · exact .masked_left _
    · exact .masked_right _
    · simp only [Option.some.injEq, decide_eq_true_eq] at h
      apply Spec.Close.finite <;> simp only [ratAbs] at h <;> grind
    · simp only [Option.some.injEq, decide_eq_true_eq] at h
      subst h
      exact .special _
    · cases h
  · intro h
    cases h with
    | masked_left => simp [closeElem]
    | masked_right => cases x <;> simp [closeElem]
    | special x =>
      cases x <;> simp [closeElem]
      · simp only [ratAbs]; grind
    | finite x y h1 h2 =>
      simp only [closeElem, ratAbs, Option.some.injEq]
      grind

theorem closeElem_some {x y : Elem} (hx : x = .masked ∨ ∃ a, x = .num a) (hy : y = .masked ∨ ∃ a, y = .num a) :
    ∃ b, closeElem x y = some b := by
  rcases hx with rfl | ⟨a, rfl⟩
  · exact ⟨true, rfl⟩
  · rcases hy with rfl | ⟨b, rfl⟩
    · exact ⟨true, by simp [closeElem]⟩
    · cases a <;> cases b <;> exact ⟨_, rfl⟩

theorem close_refl {x : Elem} (hx : x = .masked ∨ ∃ a, x = .num a) : Spec.Close x x := by
  rcases hx with rfl | ⟨a, rfl⟩
  · exact .masked_left _
  · exact .special a

theorem prod_filter (s : List Nat) : (s.filter (fun n => n ≠ 1)).foldr (· * ·) 1 = s.foldr (· * ·) 1 := by
  induction s with
  | nil => rfl
  | cons n s ih =>
    by_cases h : n = 1
    · subst h; simpa using ih
    · rw [List.filter_cons_of_pos (by simpa using h)]
      simp only [List.foldr_cons, ih]

theorem squeezeVal_shape (v : Val) : (squeezeVal v).shape = (Spec.shapeOf v).filter (fun n => n ≠ 1) := by
  cases v <;> simp [squeezeVal, Spec.shapeOf, Arr.squeeze, Arr.withShape, Arr.squeezeShape]

theorem squeezeVal_kind (v : Val) : (squeezeVal v).kind = Spec.kindOf v := by
  cases v <;> simp [squeezeVal, Spec.kindOf, Arr.squeeze, Arr.withShape]

theorem squeezeVal_data (v : Val) (h : Spec.kindOf v ≠ .O) : (squeezeVal v).data = Spec.elems v := by
  cases v <;> simp_all [squeezeVal, Spec.elems, Spec.kindOf, Arr.squeeze, Arr.withShape]

theorem squeezeVal_wf {v : Val} (h : Spec.Rectangular v) : (squeezeVal v).WF := by
  cases v with
  | arr a =>
    simp only [squeezeVal, Arr.squeeze, Arr.withShape, Arr.WF, Arr.size, Arr.squeezeShape]
    rw [prod_filter]
    exact h
  | _ => simp [squeezeVal, Arr.WF, Arr.size]

theorem mapM_some_forall {α : Type} {f : α → Option Bool} {l : List α} {r : List Bool} (h : l.mapM f = some r) :
    r.all id = true ↔ ∀ p ∈ l, f p = some true := by
  induction l generalizing r with
  | nil => simp at h; subst h; simp
  | cons x l ih =>
    simp only [List.mapM_cons, Option.bind_eq_bind, Option.bind_eq_some_iff, Option.pure_def,
      Option.some.injEq] at h
    obtain ⟨b, hb, r', hr', rfl⟩ := h
    simp [ih hr', hb]

theorem mapM_exists {α : Type} {f : α → Option Bool} {l : List α} (h : ∀ p ∈ l, ∃ b, f p = some b) :
    ∃ r, l.mapM f = some r := by
  induction l with
  | nil => exact ⟨[], rfl⟩
  | cons x l ih =>
    obtain ⟨b, hb⟩ := h x (by simp)
    obtain ⟨r, hr⟩ := ih (fun p hp => h p (by simp [hp]))
    exact ⟨b :: r, by simp [List.mapM_cons, hb, hr]⟩

theorem forall_zip_iff {α β : Type} {P : α → β → Prop} {l : List α} {m : List β} (hl : l.length = m.length) :
    (∀ p ∈ l.zip m, P p.1 p.2) ↔ List.Forall₂ P l m := by
  induction l generalizing m with
  | nil => cases m <;> simp_all
  | cons x l ih =>
    cases m with
    | nil => simp at hl
    | cons y m =>
      simp only [List.zip_cons_cons, List.mem_cons, forall_eq_or_imp, List.forall₂_cons]
      rw [ih (by simpa using hl)]

theorem scalar_data {a : Arr} (h : a.WF) (hs : a.shape = []) : ∃ e, a.data = [e] := by
  have : a.data.length = 1 := by rw [Arr.WF] at h; rw [h, Arr.size, hs]; rfl
  match hd : a.data, this with
  | [e], _ => exact ⟨e, rfl⟩

/-- the cases of a comparison: equal shapes, or one of the arrays has a single element -/
theorem pairs_cases {a b : Arr} (ha : a.WF) (hb : b.WF)
    (hs : ¬ (a.shape ≠ [] ∧ b.shape ≠ [] ∧ a.shape ≠ b.shape)) :
    ∃ l, a.pairs b = some l ∧ ∀ P : Elem → Elem → Prop,
      ((∀ p ∈ l, P p.1 p.2) ↔
        ((a.shape = b.shape ∧ List.Forall₂ P a.data b.data) ∨
          (a.shape ≠ b.shape ∧ (a.shape = [] ∨ b.shape = []) ∧ ∀ x ∈ a.data, ∀ y ∈ b.data, P x y))) := by
  by_cases he : a.shape = b.shape
  · refine ⟨_, Arr.pairs_same ha hb he, ?_⟩
    intro P
    have hl : a.data.length = b.data.length := by
      rw [Arr.WF] at ha hb; rw [ha, hb, Arr.size, Arr.size, he]
    rw [forall_zip_iff hl]
    simp [he]
  · by_cases h1 : a.shape = []
    · obtain ⟨e, hd⟩ := scalar_data ha h1
      refine ⟨_, Arr.pairs_scalar h1 hd hb, ?_⟩
      intro P
      have h2 : b.shape ≠ [] := fun h => he (h1.trans h.symm)
      simp [hd, h1, h2]
    · have h2 : b.shape = [] := by
        apply Classical.byContradiction; intro h; exact hs ⟨h1, h, he⟩
      obtain ⟨e, hd⟩ := scalar_data hb h2
      have := Arr.pairs_comm b a
      rw [Arr.pairs_scalar h2 hd ha] at this
      refine ⟨_, this, ?_⟩
      intro P
      simp [hd, h2, h1]

/-- sofar's comparison of numbers -/
theorem allClose_true {v w : Val} (hv : Spec.Rectangular v) (hw : Spec.Rectangular w)
    (h : allClose (squeezeVal v) (squeezeVal w) = .ok true) :
    (Spec.SameUpToOnes (Spec.shapeOf v) (Spec.shapeOf w) ∧ List.Forall₂ Spec.Close (Spec.elems v) (Spec.elems w)) ∨
    ((Spec.SameUpToOnes (Spec.shapeOf v) [] ∨ Spec.SameUpToOnes (Spec.shapeOf w) []) ∧
      ∀ x ∈ Spec.elems v, ∀ y ∈ Spec.elems w, Spec.Close x y) := by
  unfold allClose at h
  split at h
  · cases h
  · rename_i hs
    split at h
    · cases h
    · split at h
      · cases h
      · rename_i hk
        have hkv : Spec.kindOf v ≠ .O := by
          intro hc; rw [squeezeVal_kind, hc] at hk; simp [isRealKind] at hk
        have hkw : Spec.kindOf w ≠ .O := by
          intro hc; rw [squeezeVal_kind w, hc] at hk; simp [isRealKind] at hk
        obtain ⟨l, hl, hP⟩ := pairs_cases (squeezeVal_wf hv) (squeezeVal_wf hw) hs
        simp only [hl] at h
        cases hm : l.mapM (fun p => closeElem p.1 p.2) with
        | none => simp [hm] at h
        | some r =>
          simp only [hm, Except.ok.injEq] at h
          have := (mapM_some_forall hm).1 h
          have h3 := (hP Spec.Close).1 (fun p hp => (closeElem_iff _ _).1 (this p hp))
          rw [squeezeVal_data v hkv, squeezeVal_data w hkw, squeezeVal_shape, squeezeVal_shape] at h3
          rcases h3 with ⟨h4, h5⟩ | ⟨_, h4, h5⟩
          · left; exact ⟨h4, h5⟩
          · right; exact ⟨by simpa [Spec.SameUpToOnes] using h4, h5⟩

theorem allClose_same {v w : Val} (hv : Spec.IsRealData v) (hw : Spec.IsRealData w)
    (hs : Spec.SameUpToOnes (Spec.shapeOf v) (Spec.shapeOf w)) :
    ∃ c, allClose (squeezeVal v) (squeezeVal w) = .ok c ∧
      (c = true ↔ List.Forall₂ Spec.Close (Spec.elems v) (Spec.elems w)) := by
  have hkv : Spec.kindOf v ≠ .O := by intro h; have := hv.2; simp [h] at this
  have hkw : Spec.kindOf w ≠ .O := by intro h; have := hw.2; simp [h] at this
  have hshape : (squeezeVal v).shape = (squeezeVal w).shape := by rw [squeezeVal_shape, squeezeVal_shape]; exact hs
  unfold allClose
  rw [if_neg (by simp [hshape])]
  rw [squeezeVal_kind, squeezeVal_kind]
  rw [if_neg (by rcases hv.2 with h | h | h | h <;> rcases hw.2 with h' | h' | h' | h' <;> simp [h, h'])]
  rw [if_neg (by
    rcases hv.2 with h | h | h | h <;> rcases hw.2 with h' | h' | h' | h' <;> simp [h, h', isRealKind])]
  rw [Arr.pairs_same (squeezeVal_wf hv.1.1) (squeezeVal_wf hw.1.1) hshape]
  rw [squeezeVal_data v hkv, squeezeVal_data w hkw]
  obtain ⟨r, hr⟩ := mapM_exists (f := fun p : Elem × Elem => closeElem p.1 p.2)
    (l := (Spec.elems v).zip (Spec.elems w)) (by
      rintro ⟨x, y⟩ hp
      have := List.of_mem_zip hp
      exact closeElem_some (hv.1.2.1 hv.2 _ this.1) (hw.1.2.1 hw.2 _ this.2))
  simp only [hr]
  refine ⟨_, rfl, ?_⟩
  rw [mapM_some_forall hr]
  have hlen : (Spec.elems v).length = (Spec.elems w).length := by
    have h1 := squeezeVal_wf hv.1.1
    have h2 := squeezeVal_wf hw.1.1
    rw [Arr.WF, squeezeVal_data v hkv, Arr.size] at h1
    rw [Arr.WF, squeezeVal_data w hkw, Arr.size] at h2
    rw [h1, h2, hshape]
  rw [← forall_zip_iff hlen]
  constructor
  · intro h p hp; exact (closeElem_iff _ _).1 (h p hp)
  · intro h p hp; exact (closeElem_iff _ _).2 (h p hp)

theorem mapM_map {α β : Type} {f : α → Option β} {g : α → β} {l : List α} (h : ∀ x ∈ l, f x = some (g x)) :
    l.mapM f = some (l.map g) := by
  induction l with
  | nil => rfl
  | cons x l ih =>
    rw [List.mapM_cons, h x (by simp), ih (fun y hy => h y (by simp [hy]))]
    rfl

theorem mapM_inv {α β : Type} {f : α → Option β} {l : List α} {r : List β} (h : l.mapM f = some r) :
    List.Forall₂ (fun x y => f x = some y) l r := by
  induction l generalizing r with
  | nil => simp at h; subst h; exact .nil
  | cons x l ih =>
    simp only [List.mapM_cons, Option.bind_eq_bind, Option.bind_eq_some_iff, Option.pure_def,
      Option.some.injEq] at h
    obtain ⟨b, hb, r', hr', rfl⟩ := h
    exact .cons hb (ih hr')

theorem stripNul_spec (s : Str) : ∃ m, s = stripNul s ++ List.replicate m (Char.ofNat 0) := by
  unfold stripNul
  have : ∀ l : Str, ∃ m, l = List.replicate m (Char.ofNat 0) ++ l.dropWhile (fun c => c = Char.ofNat 0) := by
    intro l
    induction l with
    | nil => exact ⟨0, rfl⟩
    | cons c l ih =>
      by_cases hc : c = Char.ofNat 0
      · obtain ⟨m, hm⟩ := ih
        refine ⟨m + 1, ?_⟩
        rw [List.dropWhile_cons_of_pos (by simpa using hc), List.replicate_succ, List.cons_append, ← hm, hc]
      · exact ⟨0, by rw [List.dropWhile_cons_of_neg (by simpa using hc)]; rfl⟩
  obtain ⟨m, hm⟩ := this s.reverse
  refine ⟨m, ?_⟩
  have h2 := congrArg List.reverse hm
  simpa using h2

theorem stripNul_append (r : Str) (m : Nat) : stripNul (r ++ List.replicate m (Char.ofNat 0)) = stripNul r := by
  induction m with
  | zero => simp
  | succ m ih =>
    rw [List.replicate_succ', ← List.append_assoc]
    unfold stripNul at ih ⊢
    rw [List.reverse_append, List.reverse_singleton, List.singleton_append,
      List.dropWhile_cons_of_pos (by simp), ih]

theorem stripNul_eq_iff (s t : Str) : stripNul s = stripNul t ↔ Spec.SameText (.str s) (.str t) := by
  constructor
  · intro h
    obtain ⟨m, hm⟩ := stripNul_spec s
    obtain ⟨n, hn⟩ := stripNul_spec t
    exact ⟨s, t, stripNul s, m, n, rfl, rfl, hm, by rw [h]; exact hn⟩
  · rintro ⟨s', t', r, m, n, h1, h2, h3, h4⟩
    cases h1
    cases h2
    rw [h3, h4, stripNul_append, stripNul_append]

/-- text of an element without trailing NUL characters -/
def stripElem : Elem → Str
  | .str s => stripNul s
  | _ => []

theorem isAscii_stripNul {s : Str} (h : ∀ c ∈ s, c.toNat < 128) : Str.isAscii (stripNul s) = true := by
  unfold Str.isAscii
  rw [List.all_eq_true]
  intro c hc
  obtain ⟨m, hm⟩ := stripNul_spec s
  simpa using h c (by rw [hm]; simp [hc])

theorem asBytes_ascii {v : Val} (hv : Spec.IsAsciiText v) :
    asBytes (squeezeVal v) = .ok ⟨.S, (squeezeVal v).shape, (Spec.elems v).map (fun e => .str (stripElem e))⟩ := by
  have hk : Spec.kindOf v ≠ .O := by intro h; have := hv.2.1; simp [h] at this
  unfold asBytes
  have : (squeezeVal v).data.mapM elemText =
      some ((Spec.elems v).map stripElem) := by
    rw [squeezeVal_data v hk]
    apply mapM_map
    intro x hx
    obtain ⟨s, rfl⟩ := hv.1.2.2 hv.2.1 x hx
    rfl
  rw [this]
  simp only
  rw [if_neg, if_pos]
  · simp
  · rw [squeezeVal_kind]; exact hv.2.1
  · rintro ⟨_, h⟩
    rw [List.any_eq_true] at h
    obtain ⟨t, ht, h2⟩ := h
    obtain ⟨e, he, rfl⟩ := List.mem_map.1 ht
    obtain ⟨s, rfl⟩ := hv.1.2.2 hv.2.1 e he
    simp [stripElem, isAscii_stripNul (hv.2.2 s he)] at h2

theorem asBytes_ok {a x : Arr} (h : asBytes a = .ok x) :
    x.shape = a.shape ∧ (∀ e ∈ a.data, ∃ s, e = .str s) ∧ x.data = a.data.map (fun e => .str (stripElem e)) ∧
    (a.kind = .U ∨ a.kind = .S) := by
  unfold asBytes at h
  split at h
  · cases h
  · rename_i l hl
    split at h
    · cases h
    · rename_i hna
      clear hna
      split at h
      · rename_i hk
        simp only [Except.ok.injEq] at h
        subst h
        have hf := mapM_inv hl
        refine ⟨rfl, ?_, ?_, hk⟩
        · clear hl hk
          intro e he
          generalize a.data = d at hf he
          induction hf with
          | nil => cases he
          | cons h1 _ ih =>
            rcases List.mem_cons.1 he with rfl | he
            · unfold elemText at h1
              split at h1
              · exact ⟨_, rfl⟩
              · cases h1
            · exact ih he
        · clear hl hk
          generalize a.data = d at hf
          simp only
          induction hf with
          | nil => rfl
          | cons h1 _ ih =>
            rw [List.map_cons, List.map_cons, ih]
            unfold elemText at h1
            split at h1
            · simp only [Option.some.injEq] at h1; subst h1; rfl
            · cases h1
      · cases h

/-- sofar's comparison of texts of the same shape -/
theorem sameText_same {v w : Val} (hv : Spec.IsAsciiText v) (hw : Spec.IsAsciiText w)
    (hs : Spec.SameUpToOnes (Spec.shapeOf v) (Spec.shapeOf w)) :
    ∃ c, sameText (squeezeVal v) (squeezeVal w) = .ok c ∧
      (c = true ↔ List.Forall₂ Spec.SameText (Spec.elems v) (Spec.elems w)) := by
  have hkv : Spec.kindOf v ≠ .O := by intro h; have := hv.2.1; simp [h] at this
  have hkw : Spec.kindOf w ≠ .O := by intro h; have := hw.2.1; simp [h] at this
  have hshape : (squeezeVal v).shape = (squeezeVal w).shape := by rw [squeezeVal_shape, squeezeVal_shape]; exact hs
  have h1 := squeezeVal_wf hv.1.1
  have h2 := squeezeVal_wf hw.1.1
  rw [Arr.WF, squeezeVal_data v hkv, Arr.size] at h1
  rw [Arr.WF, squeezeVal_data w hkw, Arr.size] at h2
  unfold sameText
  simp only [asBytes_ascii hv, asBytes_ascii hw]
  have hp := Arr.pairs_same
    (a := ⟨.S, (squeezeVal v).shape, (Spec.elems v).map (fun e => .str (stripElem e))⟩)
    (b := ⟨.S, (squeezeVal w).shape, (Spec.elems w).map (fun e => .str (stripElem e))⟩)
    (by simp only [Arr.WF, List.length_map, Arr.size]; exact h1)
    (by simp only [Arr.WF, List.length_map, Arr.size]; exact h2) hshape
  simp only [hp]
  refine ⟨_, rfl, ?_⟩
  rw [List.all_eq_true]
  simp only [decide_eq_true_eq]
  have hlen : (Spec.elems v).length = (Spec.elems w).length := by rw [h1, h2, hshape]
  rw [forall_zip_iff (P := fun x y => x = y) (by simpa using hlen)]
  have e1 := hv.1.2.2 hv.2.1
  have e2 := hw.1.2.2 hw.2.1
  clear hp h1 h2 hshape hs hkv hkw hv hw
  generalize Spec.elems v = l at *
  generalize Spec.elems w = m at *
  induction l generalizing m with
  | nil => cases m <;> simp_all
  | cons x l ih =>
    cases m with
    | nil => simp at hlen
    | cons y m =>
      simp only [List.map_cons, List.forall₂_cons]
      have ih' := ih (fun e he => e1 e (by simp [he])) m (fun e he => e2 e (by simp [he])) (by simpa using hlen)
      refine and_congr ?_ ih'
      obtain ⟨s, rfl⟩ := e1 x (by simp)
      obtain ⟨t, rfl⟩ := e2 y (by simp)
      rw [← stripNul_eq_iff]
      simp [stripElem]

theorem sameText_true {v w : Val} (hv : Spec.Rectangular v) (hw : Spec.Rectangular w)
    (h : sameText (squeezeVal v) (squeezeVal w) = .ok true) :
    (Spec.SameUpToOnes (Spec.shapeOf v) (Spec.shapeOf w) → List.Forall₂ Spec.SameText (Spec.elems v) (Spec.elems w)) ∧
    (Spec.SameUpToOnes (Spec.shapeOf v) [] ∨ Spec.SameUpToOnes (Spec.shapeOf w) [] →
      ∀ x ∈ Spec.elems v, ∀ y ∈ Spec.elems w, Spec.SameText x y) := by
  unfold sameText at h
  cases hx : asBytes (squeezeVal v) with
  | error e => simp [hx] at h
  | ok x =>
    simp only [hx] at h
    cases hy : asBytes (squeezeVal w) with
    | error e => simp [hy] at h
    | ok y =>
      simp only [hy] at h
      obtain ⟨x1, x2, x3, x4⟩ := asBytes_ok hx
      obtain ⟨y1, y2, y3, y4⟩ := asBytes_ok hy
      have hkv : Spec.kindOf v ≠ .O := by intro hc; rw [squeezeVal_kind, hc] at x4; simp at x4
      have hkw : Spec.kindOf w ≠ .O := by intro hc; rw [squeezeVal_kind, hc] at y4; simp at y4
      have wx : x.WF := by
        have := squeezeVal_wf hv
        rw [Arr.WF, Arr.size] at this ⊢
        rw [x1, x3, List.length_map, this]
      have wy : y.WF := by
        have := squeezeVal_wf hw
        rw [Arr.WF, Arr.size] at this ⊢
        rw [y1, y3, List.length_map, this]
      have x2' := x2
      have y2' := y2
      rw [squeezeVal_data v hkv] at x2
      rw [squeezeVal_data w hkw] at y2
      have key : ∀ e ∈ Spec.elems v, ∀ f ∈ Spec.elems w,
          Elem.str (stripElem e) = Elem.str (stripElem f) → Spec.SameText e f := by
        intro e he f hf heq
        obtain ⟨s, rfl⟩ := x2 e he
        obtain ⟨t, rfl⟩ := y2 f hf
        rw [← stripNul_eq_iff]
        simpa [stripElem] using heq
      have main : ¬ (x.shape ≠ [] ∧ y.shape ≠ [] ∧ x.shape ≠ y.shape) →
          ((x.shape = y.shape ∧ List.Forall₂ (fun p q => p = q) x.data y.data) ∨
          (x.shape ≠ y.shape ∧ (x.shape = [] ∨ y.shape = []) ∧ ∀ p ∈ x.data, ∀ q ∈ y.data, p = q)) := by
        intro hns
        obtain ⟨l, hl, hP⟩ := pairs_cases wx wy hns
        simp only [hl, Except.ok.injEq, List.all_eq_true, decide_eq_true_eq] at h
        exact (hP (fun p q => p = q)).1 h
      constructor
      · intro hs
        have hsh : x.shape = y.shape := by rw [x1, y1, squeezeVal_shape, squeezeVal_shape]; exact hs
        rcases main (by simp [hsh]) with ⟨_, g2⟩ | ⟨g1, _⟩
        · rw [x3, y3, squeezeVal_data v hkv, squeezeVal_data w hkw, List.forall₂_map_left_iff,
            List.forall₂_map_right_iff] at g2
          clear x2 y2 x3 y3 h main hs
          generalize Spec.elems v = l1 at *
          generalize Spec.elems w = l2 at *
          induction g2 with
          | nil => exact .nil
          | cons q _ ih =>
            exact .cons (key _ (by simp) _ (by simp) q)
              (ih (fun e he f hf => key e (by simp [he]) f (by simp [hf])))
        · exact absurd hsh g1
      · intro hs
        have hs' : x.shape = [] ∨ y.shape = [] := by
          rw [x1, y1, squeezeVal_shape, squeezeVal_shape]
          simpa [Spec.SameUpToOnes] using hs
        have all : ∀ p ∈ x.data, ∀ q ∈ y.data, p = q := by
          rcases main (by rcases hs' with g | g <;> simp [g]) with ⟨g1, g2⟩ | ⟨_, _, g2⟩
          · have hx0 : x.shape = [] := by rcases hs' with g | g <;> simp_all
            obtain ⟨e1, he1⟩ := scalar_data wx hx0
            obtain ⟨e2, he2⟩ := scalar_data wy (g1 ▸ hx0)
            rw [he1, he2] at g2 ⊢
            simpa using g2
          · exact g2
        intro e he f hf
        apply key e he f hf
        apply all
        · rw [x3, squeezeVal_data v hkv]; exact List.mem_map.2 ⟨e, he, rfl⟩
        · rw [y3, squeezeVal_data w hkw]; exact List.mem_map.2 ⟨f, hf, rfl⟩

/-! ## the loop -/

theorem compareLoop_ok (a b : Obj) (vb : Bool) (l : List Str) (same : Bool) (ev : List Event) (r : Bool) :
    (compareLoop a b vb l same ev).out = .ok r ↔
      (∀ k ∈ l, ∃ m, compareEntry a b k = .ok m) ∧
      (r = true ↔ same = true ∧ ∀ k ∈ l, compareEntry a b k = .ok none) := by
  induction l generalizing same ev with
  | nil =>
    simp only [compareLoop, Except.ok.injEq]
    cases same <;> cases r <;> simp
  | cons k l ih =>
    rw [compareLoop]
    cases h : compareEntry a b k with
    | error e => simp [h]
    | ok m =>
      cases m with
      | none => simp [h, ih]
      | some msg => simp [h, ih]

theorem compareKeys_mem {o : Obj} {x : Option Str} {l : List Str} (h : compareKeys o x = .ok l) :
    ∀ k ∈ l, k ∈ o.keys := by
  intro k hk
  unfold compareKeys at h
  split at h
  · cases h; exact hk
  · split at h
    · cases h; exact (List.mem_filter.1 hk).1
    · split at h
      · split at h
        · cases h
        · cases h; exact (List.mem_filter.1 hk).1
      · split at h
        · cases h; exact (List.mem_filter.1 hk).1
        · cases h

/-- the result of `equals` without the warnings -/
theorem equals_out (a b : Obj) (vb : Bool) (x : Option Str) (r : Bool) :
    (equals a b vb x).out = .ok r ↔
      ∃ ka kb, compareKeys a x = .ok ka ∧ compareKeys b x = .ok kb ∧
        ((ka.length = kb.length ∧ (∀ k, k ∈ ka ↔ k ∈ kb) ∧ (∀ k ∈ ka, ∃ m, compareEntry a b k = .ok m) ∧
          (r = true ↔ ∀ k ∈ ka, compareEntry a b k = .ok none)) ∨
         (¬ (ka.length = kb.length ∧ ∀ k, k ∈ ka ↔ k ∈ kb) ∧ r = false)) := by
  unfold equals
  cases hka : compareKeys a x with
  | error e => simp
  | ok ka =>
    cases hkb : compareKeys b x with
    | error e => simp
    | ok kb =>
      simp only
      have hset : (ka.all kb.contains && kb.all ka.contains) = true ↔ ∀ k, k ∈ ka ↔ k ∈ kb := by
        simp only [Bool.and_eq_true, List.all_eq_true, List.contains_iff_mem]
        grind
      by_cases hl : ka.length = kb.length
      · rw [if_neg (by simpa using hl)]
        by_cases hs : ∀ k, k ∈ ka ↔ k ∈ kb
        · rw [if_pos (hset.2 hs), compareLoop_ok]
          constructor
          · rintro ⟨h1, h2⟩
            exact ⟨ka, kb, rfl, rfl, Or.inl ⟨hl, hs, h1, by simpa using h2⟩⟩
          · rintro ⟨ka', kb', h1, h2, h3⟩
            cases h1
            cases h2
            rcases h3 with ⟨_, _, h4, h5⟩ | ⟨h4, _⟩
            · exact ⟨h4, by simpa using h5⟩
            · exact absurd ⟨hl, hs⟩ h4
        · rw [if_neg (fun h => hs (hset.1 h))]
          simp only [Except.ok.injEq]
          constructor
          · rintro rfl
            exact ⟨ka, kb, rfl, rfl, Or.inr ⟨fun h => hs h.2, rfl⟩⟩
          · rintro ⟨ka', kb', h1, h2, h3⟩
            cases h1
            cases h2
            rcases h3 with ⟨_, h, _, _⟩ | ⟨_, h⟩
            · exact absurd h hs
            · exact h.symm
      · rw [if_pos hl]
        simp only [Except.ok.injEq]
        constructor
        · rintro rfl
          exact ⟨ka, kb, rfl, rfl, Or.inr ⟨fun h => hl h.1, rfl⟩⟩
        · rintro ⟨ka', kb', h1, h2, h3⟩
          cases h1
          cases h2
          rcases h3 with ⟨h, _, _, _⟩ | ⟨_, h⟩
          · exact absurd h hl
          · exact h.symm

end Sofar
