import Verif.Lemmas.Phases
/-!
# Dimensions and shapes in `Sofa.verify`
-/
namespace Sofar

/-! ## Alternatives of a dimension string -/

theorem splitCommaSpace_ne (s : Str) : Str.splitCommaSpace s ≠ [] := by
  fun_cases Str.splitCommaSpace s
  · simp
  · simp
  · generalize Str.splitCommaSpace _ = l
    cases l <;> simp [Str.consHead]

theorem join_consHead (sep : Str) (c : Char) (l : List Str) (h : l ≠ []) :
    Str.join sep (Str.consHead c l) = c :: Str.join sep l := by
  cases l with
  | nil => exact absurd rfl h
  | cons a l => cases l <;> simp [Str.consHead, Str.join]

theorem join_splitCommaSpace (s : Str) : Str.join (py% ", ") (Str.splitCommaSpace s) = s := by
  fun_induction Str.splitCommaSpace s with
  | case1 => rfl
  | case2 t ih =>
    have := splitCommaSpace_ne t
    cases h : Str.splitCommaSpace t with
    | nil => exact absurd h this
    | cons a l => rw [h] at ih; simp [Str.join, ih]
  | case3 c t hn ih => rw [join_consHead _ _ _ (splitCommaSpace_ne t), ih]

theorem splitCommaSpace_head (t : Str) (h : ∀ t', t ≠ ' ' :: t') (x : Str) (l : List Str)
    (hs : Str.splitCommaSpace t = x :: l) : ∀ x', x ≠ ' ' :: x' := by
  revert hs
  fun_cases Str.splitCommaSpace t with
  | case1 => rintro ⟨⟩; simp
  | case2 t => rintro ⟨⟩; simp
  | case3 c t hn =>
    generalize Str.splitCommaSpace t = r
    intro hs x' hx
    have : c ≠ ' ' := by rintro rfl; exact h t rfl
    cases r with
    | nil => simp [Str.consHead] at hs; rw [← hs.1] at hx; simp [this] at hx
    | cons a r => simp [Str.consHead] at hs; rw [← hs.1] at hx; simp [this] at hx

theorem splitCommaSpace_pieces (s : Str) : ∀ a ∈ Str.splitCommaSpace s, ¬ (py% ", ") <:+: a := by
  fun_induction Str.splitCommaSpace s with
  | case1 => intro a ha; simp at ha; subst ha; simp
  | case2 t ih =>
    intro a ha
    rcases List.mem_cons.1 ha with rfl | ha
    · simp
    · exact ih a ha
  | case3 c t hn ih =>
    intro a ha
    cases h : Str.splitCommaSpace t with
    | nil => exact absurd h (splitCommaSpace_ne t)
    | cons x l =>
      rw [h] at ha ih
      simp only [Str.consHead] at ha
      rcases List.mem_cons.1 ha with rfl | ha
      · rw [List.infix_cons_iff]
        rintro (hp | hp)
        · rw [List.cons_prefix_cons] at hp
          obtain ⟨hc, hp⟩ := hp
          cases x with
          | nil => simp at hp
          | cons d x =>
            rw [List.cons_prefix_cons] at hp
            obtain ⟨hd, _⟩ := hp
            subst hc hd
            refine splitCommaSpace_head t ?_ _ _ h x rfl
            rintro t' rfl
            exact hn _ rfl rfl
        · exact ih x (by simp) hp
      · exact ih a (by simp [ha])

theorem isAlternative_of_mem {s a : Str} (h : a ∈ Str.splitCommaSpace s) : Spec.IsAlternative s a := by
  obtain ⟨l, r, hlr⟩ := List.append_of_mem h
  refine ⟨l, r, ?_, ?_⟩
  · rw [← hlr, join_splitCommaSpace]
  · rw [← hlr]; exact splitCommaSpace_pieces s

theorem splitCommaSpace_cons (c : Char) (t : Str) (h : ¬ (py% ", ") <+: c :: t) :
    Str.splitCommaSpace (c :: t) = Str.consHead c (Str.splitCommaSpace t) := by
  rw [Str.splitCommaSpace]
  rintro t' rfl rfl
  exact h ⟨t', rfl⟩

theorem splitCommaSpace_self (a : Str) (h : ¬ (py% ", ") <:+: a) : Str.splitCommaSpace a = [a] := by
  induction a with
  | nil => rfl
  | cons c a ih =>
    rw [List.infix_cons_iff, not_or] at h
    rw [splitCommaSpace_cons c a h.1, ih h.2]
    rfl

theorem splitCommaSpace_append (a t : Str) (h : ¬ (py% ", ") <:+: a) :
    Str.splitCommaSpace (a ++ py% ", " ++ t) = a :: Str.splitCommaSpace t := by
  induction a with
  | nil => rfl
  | cons c a ih =>
    rw [List.infix_cons_iff, not_or] at h
    rw [List.cons_append, List.cons_append, splitCommaSpace_cons, ih h.2]
    · rfl
    · cases a with
      | nil => simp
      | cons d a =>
        have := h.1
        simpa using this

theorem splitCommaSpace_join (l : List Str) (hl : l ≠ []) (h : ∀ a ∈ l, ¬ (py% ", ") <:+: a) :
    Str.splitCommaSpace (Str.join (py% ", ") l) = l := by
  induction l with
  | nil => exact absurd rfl hl
  | cons a l ih =>
    cases l with
    | nil => exact splitCommaSpace_self a (h a (by simp))
    | cons b l =>
      rw [Str.join, splitCommaSpace_append _ _ (h a (by simp)), ih (by simp) (fun x hx => h x (by simp [hx]))]

theorem isAlternative_iff {s a : Str} : Spec.IsAlternative s a ↔ a ∈ Str.splitCommaSpace s := by
  refine ⟨?_, isAlternative_of_mem⟩
  rintro ⟨l, r, rfl, h⟩
  rw [splitCommaSpace_join _ (by simp) h]
  simp

theorem uniformDims_iff {s : Str} {n : Nat} :
    Spec.UniformDims s n ↔ ∀ a ∈ Str.splitCommaSpace s, a.length = n ∧ ',' ∉ a := by
  unfold Spec.UniformDims
  simp only [isAlternative_iff]

theorem isFirst_firstAlt (s : Str) : Spec.IsFirstAlternative s (firstAlt s) := by
  unfold firstAlt
  have := join_splitCommaSpace s
  have hp := splitCommaSpace_pieces s
  cases h : Str.splitCommaSpace s with
  | nil => exact absurd h (splitCommaSpace_ne s)
  | cons a l =>
    rw [h] at this hp
    exact ⟨l, this, hp⟩

/-! ## Reference shapes -/

/-- size of a dimension letter according to `_api` -/
def sizeIn (api : Dict Nat) (c : Char) : Nat := (Dict.get? api [c]).getD 0

theorem refShape_ok {api : Dict Nat} {d : Str} {ref : List Nat} (h : refShape api d = .ok ref) :
    ref = d.map (fun c => if c = 'S' then 1 else sizeIn api (Str.upperC c)) ∧
    ∀ c ∈ d, c ≠ 'S' → ∃ n, Dict.get? api [Str.upperC c] = some n := by
  induction d generalizing ref with
  | nil => simp only [refShape, Except.ok.injEq] at h; simp [← h]
  | cons c d ih =>
    simp only [refShape] at h
    by_cases hc : c = 'S'
    · subst hc
      simp only [if_true] at h
      cases hr : refShape api d with
      | error e => simp [hr] at h
      | ok r =>
        simp only [hr, Except.ok.injEq] at h
        obtain ⟨h1, h2⟩ := ih hr
        subst h
        constructor
        · simp [← h1]
        · intro c hc hne
          rcases List.mem_cons.1 hc with rfl | hc
          · exact absurd rfl hne
          · exact h2 c hc hne
    · simp only [hc, if_false] at h
      cases hg : Dict.get? api [Str.upperC c] with
      | none => simp [hg] at h
      | some n =>
        simp only [hg] at h
        cases hr : refShape api d with
        | error e => simp [hr] at h
        | ok r =>
          simp only [hr, Except.ok.injEq] at h
          obtain ⟨h1, h2⟩ := ih hr
          subst h
          constructor
          · rw [List.map_cons, ← h1]; simp [hc, sizeIn, hg]
          · intro c' hc' hne
            rcases List.mem_cons.1 hc' with rfl | hc'
            · exact ⟨n, hg⟩
            · exact h2 c' hc' hne

theorem matchShape_inl {api : Dict Nat} {act last : List Nat} {alts : List Str} {d : Str}
    (h : matchShape api act last alts = .ok (.inl d)) :
    d ∈ alts ∧ ∃ ref, refShape api d = .ok ref ∧ compareShape act ref.length = ref := by
  induction alts generalizing last with
  | nil => simp [matchShape] at h
  | cons a l ih =>
    simp only [matchShape] at h
    cases hr : refShape api a with
    | error e => simp [hr] at h
    | ok ref =>
      simp only [hr] at h
      split at h
      · rename_i hc
        simp only [Except.ok.injEq, Sum.inl.injEq] at h
        subst h
        exact ⟨by simp, ref, hr, hc⟩
      · obtain ⟨h1, h2⟩ := ih h
        exact ⟨by simp [h1], h2⟩

/-- what is known about a variable whose shape was accepted -/
structure ShapeOk (o : Obj) (api : Dict Nat) (key detected : Str) : Prop where
  intro ::
  ex : ∃ e v d alt act, Dict.get? o.conv key = some e ∧ o.getAttr key = .ok v ∧ e.dims = some d ∧
    actualShape key e.typ d v = .ok act ∧ alt ∈ Str.splitCommaSpace d ∧ detected = Str.upper alt ∧
    refShape api alt = .ok (compareShape act alt.length)

theorem refShape_length {api : Dict Nat} {d : Str} {ref : List Nat} (h : refShape api d = .ok ref) :
    ref.length = d.length := by
  rw [(refShape_ok h).1]; simp

theorem shapeKey_inl {o : Obj} {api : Dict Nat} {key m : Str} (h : shapeKey o api key = .ok (.inl m)) :
    ShapeOk o api key m := by
  unfold shapeKey convEntry at h
  cases he : Dict.get? o.conv key with
  | none => simp [he] at h
  | some e =>
    simp only [he] at h
    cases hv : o.getAttr key with
    | error x => simp [hv] at h
    | ok v =>
      simp only [hv, entryDims] at h
      cases hd : e.dims with
      | none => simp [hd] at h
      | some d =>
        simp only [hd] at h
        cases ha : actualShape key e.typ d v with
        | error x => simp [ha] at h
        | ok act =>
          simp only [ha] at h
          cases hm : matchShape api act [] (Str.splitCommaSpace d) with
          | error x => simp [hm] at h
          | ok r =>
            cases r with
            | inl alt =>
              simp only [hm, Except.ok.injEq, Sum.inl.injEq] at h
              obtain ⟨h1, ref, h2, h3⟩ := matchShape_inl hm
              have hl := refShape_length h2
              exact ⟨e, v, d, alt, act, he, hv, hd, ha, h1, h.symm, by rw [h2, ← hl, h3]⟩
            | inr s =>
              simp only [hm] at h
              split at h <;> simp at h

theorem shapeKey_inr_ne {o : Obj} {api : Dict Nat} {key s : Str} (h : shapeKey o api key = .ok (.inr s)) : s ≠ [] := by
  unfold shapeKey at h
  split at h
  · simp at h
  · split at h
    · simp at h
    · split at h
      · simp at h
      · split at h
        · simp at h
        · split at h
          · simp at h
          · simp at h
          · split at h
            · simp at h
            · simp only [Except.ok.injEq, Sum.inr.injEq] at h
              rw [← h]; simp

theorem shapeLoop_nil {o : Obj} {api : Dict Nat} {ks : List Str} {dims : Dict Str}
    (h : (shapeLoop o api ks dims).1 = .ok []) :
    ∃ f : Str → Str, (∀ k ∈ ks, shapeKey o api k = .ok (.inl (f k))) ∧
      (shapeLoop o api ks dims).2 = ks.foldl (fun d k => Dict.put d k (f k)) dims := by
  induction ks generalizing dims with
  | nil => exact ⟨fun _ => [], by simp, rfl⟩
  | cons k ks ih =>
    simp only [shapeLoop] at h ⊢
    cases hk : shapeKey o api k with
    | error e => simp [hk] at h
    | ok r =>
      cases r with
      | inl m =>
        simp only [hk] at h ⊢
        obtain ⟨f, h1, h2⟩ := ih h
        refine ⟨fun j => if j = k then m else f j, ?_, ?_⟩
        · intro j hj
          by_cases e : j = k
          · simp [e, hk]
          · simp only [e, if_false]
            exact h1 j ((List.mem_cons.1 hj).resolve_left e)
        · rw [h2]
          simp only [List.foldl_cons, if_true]
          clear h2
          generalize Dict.put dims k m = d0
          have : ∀ j ∈ ks, f j = (if j = k then m else f j) := by
            intro j hj
            by_cases e : j = k
            · subst e
              have := h1 j hj
              rw [hk] at this
              simp at this
              simp [this]
            · simp [e]
          clear h1 ih h
          induction ks generalizing d0 with
          | nil => rfl
          | cons j ks ih =>
            simp only [List.foldl_cons]
            rw [← this j (by simp)]
            exact ih _ (fun i hi => this i (by simp [hi]))
      | inr s =>
        simp only [hk] at h
        cases hr : (shapeLoop o api ks dims).1 with
        | error e => simp [hr] at h
        | ok t =>
          simp only [hr, Except.ok.injEq, List.append_eq_nil_iff] at h
          exact absurd h.1 (shapeKey_inr_ne hk)

theorem get?_foldl_put_fun {f : Str → Str} (ks : List Str) (d : Dict Str) (k : Str) (h : k ∈ ks) :
    Dict.get? (ks.foldl (fun d k => Dict.put d k (f k)) d) k = some (f k) := by
  have key : ∀ (ks : List Str) (d : Dict Str), Dict.get? d k = some (f k) →
      Dict.get? (ks.foldl (fun d k => Dict.put d k (f k)) d) k = some (f k) := by
    intro ks
    induction ks with
    | nil => intro d h; exact h
    | cons j ks ih =>
      intro d hd
      simp only [List.foldl_cons]
      apply ih
      by_cases e : k = j
      · subst e; simp
      · rw [Dict.get?_put_ne _ _ e]; exact hd
  induction ks generalizing d with
  | nil => simp at h
  | cons j ks ih =>
    simp only [List.foldl_cons]
    by_cases e : k = j
    · subst e; exact key _ _ (by simp)
    · exact ih _ ((List.mem_cons.1 h).resolve_left e)

theorem phaseShapes_nil {o o3 : Obj} (h : phaseShapes o = (.ok [], o3)) :
    ∃ dims, o3 = { o with dims := some dims } ∧ ∀ k ∈ dimKeys o, ∃ m, Dict.get? dims k = some m ∧
      ShapeOk o (o.api.getD []) k m := by
  unfold phaseShapes at h
  simp only at h
  cases hr : (shapeLoop o (o.api.getD []) (dimKeys o) []).1 with
  | error e => simp [hr] at h
  | ok s =>
    simp only [hr, Prod.mk.injEq, Except.ok.injEq] at h
    rw [section_nil_iff _ _ (by simp)] at h
    obtain ⟨hs, rfl⟩ := h
    subst hs
    obtain ⟨f, h1, h2⟩ := shapeLoop_nil hr
    refine ⟨_, rfl, ?_⟩
    intro k hk
    refine ⟨f k, ?_, shapeKey_inl (h1 k hk)⟩
    rw [h2]
    exact get?_foldl_put_fun _ _ _ hk

/-! ## Actual shapes up to singleton dimensions -/

theorem filter_padOnes (n : Nat) (s : List Nat) : (Arr.padOnes n s).filter (· ≠ 1) = s.filter (· ≠ 1) := by
  unfold Arr.padOnes
  rw [List.filter_append]
  have : (List.replicate (n - s.length) 1).filter (· ≠ 1) = [] := by
    rw [List.filter_eq_nil_iff]
    intro a ha
    simp [List.eq_of_mem_replicate ha]
  rw [this, List.append_nil]

theorem filter_compareShape (act : List Nat) (n : Nat) (h : ∀ x ∈ act.drop n, x = 1) :
    (compareShape act n).filter (· ≠ 1) = act.filter (· ≠ 1) := by
  unfold compareShape
  rw [filter_padOnes]
  conv => rhs; rw [← List.take_append_drop n act, List.filter_append]
  have : (act.drop n).filter (· ≠ 1) = [] := by
    rw [List.filter_eq_nil_iff]
    intro a ha
    simp [h a ha]
  rw [this, List.append_nil]

theorem filter_atleastNd4 (s : List Nat) : (Arr.atleastNdShape 4 s).filter (· ≠ 1) = s.filter (· ≠ 1) := by
  unfold Arr.atleastNdShape
  rw [filter_padOnes]
  match s with
  | [] => rfl
  | [n] => simp [Arr.atleast3, List.filter_cons]
  | [m, n] => simp [Arr.atleast3, List.filter_cons]
  | a :: b :: c :: t => rfl

theorem drop_atleastNd4 (s : List Nat) (n : Nat) (hn : 2 ≤ n) (hs : s.length ≤ n) :
    ∀ x ∈ (Arr.atleastNdShape 4 s).drop n, x = 1 := by
  have key : ∀ (t : List Nat), t.length ≤ n → ∀ x ∈ (Arr.padOnes 4 t).drop n, x = 1 := by
    intro t ht x hx
    unfold Arr.padOnes at hx
    rw [List.drop_append, List.drop_eq_nil_of_le ht, List.nil_append] at hx
    exact List.eq_of_mem_replicate (List.mem_of_mem_drop hx)
  unfold Arr.atleastNdShape
  match s, hs with
  | [], _ =>
    intro x hx
    have := List.mem_of_mem_drop hx
    simp [Arr.atleast3, Arr.padOnes] at this
    omega
  | [a], _ =>
    intro x hx
    simp only [Arr.atleast3, Arr.padOnes] at hx
    match n, hn with
    | n + 2, _ =>
      simp only [List.cons_append, List.drop_succ_cons, List.nil_append] at hx
      have := List.mem_of_mem_drop hx
      simp at this
      omega
  | [a, b], hs =>
    intro x hx
    simp only [Arr.atleast3, Arr.padOnes] at hx
    match n, hn with
    | n + 2, _ =>
      simp only [List.cons_append, List.drop_succ_cons, List.nil_append] at hx
      have := List.mem_of_mem_drop hx
      simp at this
      omega
  | a :: b :: c :: t, hs => exact key _ hs

theorem splitChar_not_mem {c : Char} {s : Str} (h : c ∉ s) : Str.splitChar c s = [s] := by
  induction s with
  | nil => rfl
  | cons d t ih =>
    simp only [List.mem_cons, not_or] at h
    simp [Str.splitChar, Ne.symm h.1, ih h.2, Str.consHead]

theorem splitChar_append {c : Char} {s : Str} (h : c ∉ s) (t : Str) :
    Str.splitChar c (s ++ c :: t) = s :: Str.splitChar c t := by
  induction s with
  | nil => simp [Str.splitChar]
  | cons d s ih =>
    simp only [List.mem_cons, not_or] at h
    simp [Str.splitChar, Ne.symm h.1, ih h.2, Str.consHead]

theorem splitChar_head {d : Str} (h : ',' ∉ firstAlt d) : (Str.splitChar ',' d).headD [] = firstAlt d := by
  have hj := join_splitCommaSpace d
  unfold firstAlt at h ⊢
  cases hs : Str.splitCommaSpace d with
  | nil => exact absurd hs (splitCommaSpace_ne d)
  | cons a l =>
    rw [hs] at h hj
    simp only [List.headD_cons] at h ⊢
    rw [← hj]
    cases l with
    | nil => simp [Str.join, splitChar_not_mem h]
    | cons b l =>
      simp only [Str.join]
      have := splitChar_append h (' ' :: Str.join (py% ", ") (b :: l))
      simp only [List.append_assoc, List.cons_append, List.nil_append] at this ⊢
      simp [this]

theorem firstAlt_mem (d : Str) : firstAlt d ∈ Str.splitCommaSpace d := by
  unfold firstAlt
  cases hs : Str.splitCommaSpace d with
  | nil => exact absurd hs (splitCommaSpace_ne d)
  | cons a l => simp

theorem filter_size_one (s : List Nat) (h : s.length ≤ 1) :
    [s.foldr (· * ·) 1].filter (· ≠ 1) = s.filter (· ≠ 1) := by
  match s, h with
  | [], _ => rfl
  | [m], _ => simp

theorem stringVar_shape {v : Val} {key : Str} {m : Nat} {act : List Nat} (h : stringVar v key = .ok (m, act)) :
    (act = [1, 1] ∧ v.shape = []) ∨ act = v.shape := by
  cases v with
  | str t => simp [stringVar] at h; simp [h.2, Val.shape]
  | npstr t => simp [stringVar] at h; simp [h.2, Val.shape]
  | arr a =>
    right
    simp only [stringVar] at h
    split at h
    · simp at h
    · split at h
      · simp at h
      · split at h
        · simp at h
        · split at h
          · simp at h; rw [← h.2]; rfl
          · simp at h
  | _ => simp [stringVar] at h

theorem compare_upToOnes {key dtype d : Str} {v : Val} {act : List Nat} {n : Nat} (hn : 1 ≤ n)
    (ha : actualShape key dtype d v = .ok act) (hf : (firstAlt d).length = n) (hc : ',' ∉ firstAlt d)
    (hr : v.shape.length ≤ n) : (compareShape act n).filter (· ≠ 1) = v.shape.filter (· ≠ 1) := by
  unfold actualShape at ha
  split at ha
  · cases hs : stringVar v key with
    | error e => simp [hs] at ha
    | ok q =>
      obtain ⟨m, sh⟩ := q
      simp only [hs, Except.ok.injEq] at ha
      subst ha
      rcases stringVar_shape hs with ⟨h1, h2⟩ | h1
      · rw [filter_compareShape, h1, h2]
        · rfl
        · intro x hx
          have := List.mem_of_mem_drop hx
          rw [h1] at this
          simp at this
          exact this
      · rw [filter_compareShape, h1]
        intro x hx
        rw [h1, List.drop_eq_nil_of_le hr] at hx
        simp at hx
  · rw [splitChar_head hc, hf] at ha
    split at ha
    · rename_i h2
      simp only [Except.ok.injEq] at ha
      subst ha
      rw [filter_compareShape _ _ (drop_atleastNd4 _ _ h2 hr), filter_atleastNd4]
    · rename_i h2
      simp only [Except.ok.injEq] at ha
      subst ha
      have : n = 1 := by omega
      subst this
      rw [filter_compareShape _ _ (by simp)]
      exact filter_size_one _ hr

theorem compareShape_long {act s : List Nat} {n : Nat} (h : act.take n = s.take n) (hr : n < s.length) :
    compareShape act n = s.take n := by
  unfold compareShape Arr.padOnes
  rw [h, List.length_take, Nat.min_eq_left (by omega), Nat.sub_self]
  simp

theorem compare_take {key dtype d : Str} {v : Val} {act : List Nat} {n : Nat} (hn : 2 ≤ n)
    (ha : actualShape key dtype d v = .ok act) (hf : (firstAlt d).length = n) (hc : ',' ∉ firstAlt d)
    (hr : n < v.shape.length) : compareShape act n = v.shape.take n := by
  apply compareShape_long _ hr
  unfold actualShape at ha
  split at ha
  · cases hs : stringVar v key with
    | error e => simp [hs] at ha
    | ok q =>
      obtain ⟨m, sh⟩ := q
      simp only [hs, Except.ok.injEq] at ha
      subst ha
      rcases stringVar_shape hs with ⟨h1, h2⟩ | h1
      · simp [h2] at hr
      · rw [h1]
  · rw [splitChar_head hc, hf, if_pos (by omega)] at ha
    simp only [Except.ok.injEq] at ha
    subst ha
    generalize v.shape = s at hr
    match s, hr with
    | [], hr => simp at hr
    | [a], hr => simp at hr; omega
    | [a, b], hr => simp at hr; omega
    | a :: b :: c :: t, hr =>
      simp only [Arr.atleastNdShape, Arr.atleast3, Arr.padOnes]
      rw [List.take_append_of_le_length (by omega)]

/-! ## The sizes in `_api` -/

/-- longest string of a value -/
def maxLen (v : Val) : Nat := ((Spec.elems v).filterMap elemLen).foldr max 0

theorem stringVar_len {v : Val} {key : Str} {n : Nat} {s : List Nat} (h : stringVar v key = .ok (n, s)) :
    n = maxLen v := by
  cases v with
  | str t => simp [stringVar] at h; simp [maxLen, Spec.elems, elemLen, h.1]
  | npstr t => simp [stringVar] at h; simp [maxLen, Spec.elems, elemLen, h.1]
  | arr a =>
    simp only [stringVar] at h
    cases hm : a.data.mapM elemLen with
    | none => simp [hm] at h
    | some lens =>
      have hl : a.data.filterMap elemLen = lens := by
        clear h
        generalize a.data = l at hm
        induction l generalizing lens with
        | nil => simp at hm; simp [hm]
        | cons x l ih =>
          rw [List.mapM_cons] at hm
          cases hx : elemLen x with
          | none => simp [hx] at hm
          | some m =>
            cases hy : l.mapM elemLen with
            | none => simp [hx, hy] at hm
            | some r =>
              simp [hx, hy] at hm
              rw [List.filterMap_cons_some hx, ih r hy, hm]
      simp only [hm] at h
      split at h
      · simp at h
      · split at h
        · simp at h
        · split at h
          · simp only [Except.ok.injEq, Prod.mk.injEq] at h
            rw [← h.1, maxLen, Spec.elems, hl]
          · simp at h
  | _ => simp [stringVar] at h

/-- invariant of the loop over the variables: every size comes from the variables in `VS` -/
structure ApiInv (VS : Val → Str → Prop) (st : Dict Nat × Nat) : Prop where
  attained : st.2 = 0 ∨ ∃ v s, VS v s ∧ 'S' ∈ s ∧ maxLen v = st.2
  sizes : ∀ k n, Dict.get? st.1 k = some n → ∃ v s, ∃ i : Nat, ∃ c, VS v s ∧ s[i]? = some c ∧
    Str.isLowerC c = true ∧ k = [Str.upperC c] ∧ (Arr.ndNewaxisShape 4 v.shape)[i]? = some n

theorem dimLetters_inv {VS : Val → Str → Prop} {v : Val} {key pre s : Str} (hv : VS v (pre ++ s))
    {st : Dict Nat × Nat} (hi : ApiInv VS st) :
    ApiInv VS (dimLetters v key pre.length s st).2 ∧ st.2 ≤ (dimLetters v key pre.length s st).2.2 ∧
    ((dimLetters v key pre.length s st).1 = .ok () → 'S' ∈ s → maxLen v ≤ (dimLetters v key pre.length s st).2.2) := by
  induction s generalizing pre st with
  | nil => simp only [dimLetters]; exact ⟨hi, Nat.le_refl _, by simp⟩
  | cons d ds ih =>
    obtain ⟨api, S⟩ := st
    simp only [dimLetters]
    generalize hr : (if (!(py% "ICS").contains d && Str.isLowerC d) = true then
        match (Arr.ndNewaxisShape 4 v.shape)[pre.length]? with
        | some n => .ok (Dict.put api [Str.upperC d] n)
        | none => .error .indexError
      else .ok api : Except Exc (Dict Nat)) = r
    have hapi : ∀ api', r = .ok api' → ApiInv VS (api', S) := by
      rintro api' rfl
      refine ⟨hi.attained, ?_⟩
      intro k n hk
      split at hr
      · rename_i hc
        cases hg : (Arr.ndNewaxisShape 4 v.shape)[pre.length]? with
        | none => simp [hg] at hr
        | some m =>
          simp only [hg, Except.ok.injEq] at hr
          subst hr
          rw [Dict.get?_put] at hk
          split at hk
          · rename_i hkk
            simp only [Option.some.injEq] at hk
            subst hk
            refine ⟨v, pre ++ d :: ds, pre.length, d, hv, by simp, ?_, hkk, hg⟩
            simp only [Bool.and_eq_true] at hc
            exact hc.2
          · exact hi.sizes k n hk
      · simp only [Except.ok.injEq] at hr
        subst hr
        exact hi.sizes k n hk
    have hv' : VS v ((pre ++ [d]) ++ ds) := by simpa using hv
    have hlen : (pre ++ [d]).length = pre.length + 1 := by simp
    cases r with
    | error e => exact ⟨hi, Nat.le_refl _, by simp⟩
    | ok api' =>
      have hapi' := hapi api' rfl
      simp only
      by_cases hd : d = 'S'
      · simp only [hd, if_true]
        cases hs : stringVar v key with
        | error e => exact ⟨hapi', Nat.le_refl _, by simp⟩
        | ok q =>
          obtain ⟨n, sh⟩ := q
          have hn := stringVar_len hs
          subst hn
          simp only
          have hinv : ApiInv VS (api', max S (maxLen v)) := by
            refine ⟨?_, hapi'.sizes⟩
            by_cases hle : maxLen v ≤ S
            · have := hapi'.attained
              rw [Nat.max_eq_left hle]; exact this
            · right
              exact ⟨v, _, hv, by simp [hd], by simp only; omega⟩
          obtain ⟨h1, h2, h3⟩ := ih hv' hinv
          rw [hlen] at h1 h2 h3
          simp only at h2
          refine ⟨h1, by omega, ?_⟩
          intro _ _
          omega
      · simp only [hd, if_false]
        obtain ⟨h1, h2, h3⟩ := ih hv' hapi'
        rw [hlen] at h1 h2 h3
        refine ⟨h1, h2, ?_⟩
        intro hok hm
        exact h3 hok ((List.mem_cons.1 hm).resolve_left (fun e => hd e.symm))

/-- the variables in a list of names with the first alternative of their dimensions -/
def IsVar (o : Obj) (ks : List Str) (v : Val) (s : Str) : Prop :=
  ∃ k ∈ ks, ∃ e d, o.getAttr k = .ok v ∧ Dict.get? o.conv k = some e ∧ e.dims = some d ∧ s = firstAlt d

theorem dimLoop_inv {o : Obj} {all ks : List Str} (hsub : ∀ k ∈ ks, k ∈ all) {st : Dict Nat × Nat}
    (hi : ApiInv (IsVar o all) st) :
    ApiInv (IsVar o all) (dimLoop o ks st).2 ∧ st.2 ≤ (dimLoop o ks st).2.2 ∧
    ((dimLoop o ks st).1 = .ok () → ∀ v s, IsVar o ks v s → 'S' ∈ s → maxLen v ≤ (dimLoop o ks st).2.2) := by
  induction ks generalizing st with
  | nil =>
    simp only [dimLoop]
    refine ⟨hi, Nat.le_refl _, ?_⟩
    rintro _ v s ⟨k, hk, _⟩
    simp at hk
  | cons k ks ih =>
    simp only [dimLoop, convEntry, entryDims]
    cases hv : o.getAttr k with
    | error x => exact ⟨hi, Nat.le_refl _, by simp⟩
    | ok v =>
      simp only
      cases he : Dict.get? o.conv k with
      | none => exact ⟨hi, Nat.le_refl _, by simp⟩
      | some e =>
        simp only
        cases hd : e.dims with
        | none => exact ⟨hi, Nat.le_refl _, by simp⟩
        | some d =>
          simp only
          have hvar : IsVar o all v ([] ++ firstAlt d) := ⟨k, hsub k (by simp), e, d, hv, he, hd, rfl⟩
          obtain ⟨a1, a2, a3⟩ := dimLetters_inv (key := k) hvar hi
          simp only [List.length_nil] at a1 a2 a3
          generalize dimLetters v k 0 (firstAlt d) st = r at a1 a2 a3
          obtain ⟨r1, r2⟩ := r
          cases r1 with
          | error x => exact ⟨a1, a2, by simp⟩
          | ok u =>
            simp only at a1 a2 a3 ⊢
            obtain ⟨b1, b2, b3⟩ := ih (fun j hj => hsub j (by simp [hj])) a1
            refine ⟨b1, Nat.le_trans a2 b2, ?_⟩
            rintro hok v' s' ⟨j, hj, e', d', h1, h2, h3, h4⟩ hS
            rcases List.mem_cons.1 hj with rfl | hj
            · rw [hv] at h1; rw [he] at h2
              cases h1; cases h2
              rw [hd] at h3
              cases h3
              subst h4
              exact Nat.le_trans (a3 trivial hS) b2
            · exact b3 hok v' s' ⟨j, hj, e', d', h1, h2, h3, h4⟩ hS

theorem dimLetters_nodup {v : Val} {key : Str} {i : Nat} {s : Str} {st : Dict Nat × Nat} (h : (Dict.keys st.1).Nodup) :
    (Dict.keys (dimLetters v key i s st).2.1).Nodup := by
  induction s generalizing i st with
  | nil => exact h
  | cons d ds ih =>
    obtain ⟨api, S⟩ := st
    simp only [dimLetters]
    split
    · exact h
    · rename_i api' hr
      have h' : (Dict.keys api').Nodup := by
        split at hr
        · split at hr
          · simp only [Except.ok.injEq] at hr
            rw [← hr]
            exact Dict.nodup_put _ _ h
          · simp at hr
        · simp only [Except.ok.injEq] at hr
          rw [← hr]
          exact h
      split
      · split
        · exact h'
        · exact ih h'
      · exact ih h'

theorem dimLoop_nodup {o : Obj} {ks : List Str} {st : Dict Nat × Nat} (h : (Dict.keys st.1).Nodup) :
    (Dict.keys (dimLoop o ks st).2.1).Nodup := by
  induction ks generalizing st with
  | nil => exact h
  | cons k ks ih =>
    simp only [dimLoop]
    split
    · exact h
    · split
      · exact h
      · split
        · exact h
        · split
          · exact dimLetters_nodup h
          · exact ih (dimLetters_nodup h)

/-- The sizes of all dimensions after phase 4. -/
structure ApiOk (o : Obj) (api : Dict Nat) : Prop where
  C : Dict.get? api (py% "C") = some 3
  I : Dict.get? api (py% "I") = some 1
  S : ∃ n, Dict.get? api (py% "S") = some n ∧ (∀ v s, IsVar o (dimKeys o) v s → 'S' ∈ s → maxLen v ≤ n) ∧
    (n = 0 ∨ ∃ v s, IsVar o (dimKeys o) v s ∧ 'S' ∈ s ∧ maxLen v = n)
  others : ∀ k n, k ≠ py% "C" → k ≠ py% "I" → k ≠ py% "S" → Dict.get? api k = some n →
    ∃ v s, ∃ i : Nat, ∃ c, IsVar o (dimKeys o) v s ∧ s[i]? = some c ∧
      Str.isLowerC c = true ∧ k = [Str.upperC c] ∧ (Arr.ndNewaxisShape 4 v.shape)[i]? = some n
  nodup : (Dict.keys api).Nodup

theorem phaseDims_ok {o : Obj} (h : (phaseDims o).1 = .ok ()) :
    ∃ api, (phaseDims o).2 = { o with prot := true, dims := some [], api := some api } ∧ ApiOk o api := by
  unfold phaseDims at h ⊢
  simp only at h ⊢
  obtain ⟨a1, _, a3⟩ := dimLoop_inv (o := o) (all := dimKeys o) (ks := dimKeys o) (fun _ h => h)
    (st := ([], 0)) ⟨Or.inl rfl, by simp [Dict.get?]⟩
  have hn := dimLoop_nodup (o := o) (ks := dimKeys o) (st := ([], 0)) (by simp [Dict.keys])
  generalize dimLoop o (dimKeys o) ([], 0) = r at a1 a3 h hn
  obtain ⟨r1, r2⟩ := r
  cases r1 with
  | error x => simp at h
  | ok u =>
    simp only at a1 a3 ⊢
    refine ⟨_, rfl, ?_⟩
    refine ⟨by simp [Dict.get?_put], by simp [Dict.get?_put], ⟨r2.2, by simp, a3 trivial, a1.attained⟩, ?_,
      Dict.nodup_put _ _ (Dict.nodup_put _ _ (Dict.nodup_put _ _ hn))⟩
    intro k n h1 h2 h3 hk
    rw [Dict.get?_put_ne _ _ h3, Dict.get?_put_ne _ _ h2, Dict.get?_put_ne _ _ h1] at hk
    exact a1.sizes k n hk

end Sofar
