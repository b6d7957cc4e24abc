import Verif.Lemmas.Read
import Verif.Lemmas.Write
import Verif.Lemmas.Equals
/-!
# Data after writing and reading
-/
namespace Sofar

theorem filter_atleastNd (nd : Nat) (s : List Nat) : (Arr.atleastNdShape nd s).filter (· ≠ 1) = s.filter (· ≠ 1) := by
  unfold Arr.atleastNdShape
  rw [filter_padOnes]
  match nd, s with
  | 0, s => rfl
  | 1, [] => rfl
  | 1, _ :: _ => rfl
  | 2, [] => rfl
  | 2, [n] => simp [Arr.atleast2, List.filter_cons]
  | 2, _ :: _ :: _ => rfl
  | _ + 3, [] => rfl
  | _ + 3, [n] => simp [Arr.atleast3, List.filter_cons]
  | _ + 3, [m, n] => simp [Arr.atleast3, List.filter_cons]
  | _ + 3, _ :: _ :: _ :: _ => rfl

theorem length_atleastNd (nd : Nat) (s : List Nat) : nd ≤ (Arr.atleastNdShape nd s).length := by
  unfold Arr.atleastNdShape Arr.padOnes
  rw [List.length_append, List.length_replicate]
  omega

theorem prod_upToOnes {s t : List Nat} (h : Spec.SameUpToOnes s t) : s.foldr (· * ·) 1 = t.foldr (· * ·) 1 := by
  rw [← prod_filter s, ← prod_filter t]
  unfold Spec.SameUpToOnes at h
  rw [h]

/-- data of the right shape is stored as it is -/
theorem conform_upToOnes {a : Arr} {t : List Nat} (h : Spec.SameUpToOnes a.shape t) : conform a t = .ok a.data := by
  unfold conform
  split
  · rfl
  · rename_i hne
    split
    · rename_i hl
      exfalso
      apply hne
      obtain ⟨h1, h2⟩ := hl
      obtain ⟨n, hn⟩ := List.length_eq_one_iff.1 h1
      obtain ⟨m, hm⟩ := List.length_eq_one_iff.1 h2
      unfold Spec.SameUpToOnes at h
      rw [hn, hm] at h ⊢
      by_cases a1 : n = 1 <;> by_cases a2 : m = 1 <;> simp_all
    · exact if_pos (prod_upToOnes h)

/-- conversions of numbers when writing -/
def storedElem (env : Env) (kind : Kind) : Elem → Elem
  | .num (.fin q) => if kind = .f then .num (.fin q) else .num (.fin (env.rnd q))
  | e => e

theorem toDoubles_ok {env : Env} {kind : Kind} {l r : List Elem} (h : toDoubles env kind l = .ok r) :
    r = l.map (storedElem env kind) := by
  induction l generalizing r with
  | nil => simp only [toDoubles, Except.ok.injEq] at h; subst h; rfl
  | cons e l ih =>
    simp only [toDoubles] at h
    split at h
    · simp at h
    · rename_i y hy
      split at h
      · simp at h
      · rename_i r' hr
        simp only [Except.ok.injEq] at h
        subst h
        rw [ih hr, List.map_cons]
        congr 1
        unfold toDouble at hy
        split at hy
        · simp_all [storedElem]
        · rename_i x; simp only [Except.ok.injEq] at hy; subst hy; cases x <;> rfl
        all_goals simp_all [storedElem]

theorem shape_fits {api : Dict Nat} {d : Str} {t : List Nat} (h : ShapeFits api (d.map (fun c => [c])) t)
    (hn : ∀ c ∈ d, sizeIn api c ≠ 0) : t = d.map (sizeIn api) := by
  induction d generalizing t with
  | nil =>
    unfold ShapeFits at h
    simp only [List.map_nil, List.forall₂_nil_left_iff] at h
    simp [h]
  | cons c d ih =>
    unfold ShapeFits at h
    simp only [List.map_cons, List.forall₂_cons_left_iff] at h
    obtain ⟨m, u, h1, h2, rfl⟩ := h
    rw [List.map_cons, ← ih h2 (fun c hc => hn c (by simp [hc]))]
    congr 1
    have h0 := hn c (by simp)
    unfold sizeIn at h0 ⊢
    cases hg : Dict.get? api [c] with
    | none => simp [hg] at h0
    | some n =>
      simp only [hg, Option.getD_some] at h0 ⊢
      exact h1 n hg h0

theorem toArr_spec {v : Val} (hk : Spec.kindOf v ≠ .O) :
    (toArr v).kind = Spec.kindOf v ∧ (toArr v).shape = Spec.shapeOf v ∧ (toArr v).data = Spec.elems v := by
  cases v <;> simp_all [toArr, Spec.kindOf, Spec.shapeOf, Spec.elems]

/-- removing the first axis of an array with one element -/
theorem squeezeSingle_spec {key : Str} {a : Arr} (hw : a.WF) (hs : a.shape ≠ []) :
    ∃ w, squeezeSingle key a = .ok w ∧ Spec.elems w = a.data ∧ Spec.SameUpToOnes (Spec.shapeOf w) a.shape ∧
      Spec.Rectangular w ∧ (a.kind ≠ .O → Spec.kindOf w = a.kind ∨ (Spec.kindOf w = .f ∧ a.data = [.masked])) := by
  unfold squeezeSingle
  split
  · rename_i h1
    obtain ⟨h1, _⟩ := h1
    have hlen : a.data.length = 1 := hw.trans h1
    obtain ⟨e, he⟩ := List.length_eq_one_iff.1 hlen
    have hones : ∀ n ∈ a.shape, n = 1 := foldr_mul_one h1
    unfold firstItem
    cases hsh : a.shape with
    | nil => exact absurd hsh hs
    | cons n s =>
      cases s with
      | nil =>
        have hn : n = 1 := hones n (by simp [hsh])
        simp only [he]
        by_cases hm : e = .masked
        · simp only [hm, if_true]
          refine ⟨_, rfl, rfl, ?_, by simp [Spec.Rectangular], fun _ => Or.inr ⟨rfl, trivial⟩⟩
          simp [Spec.SameUpToOnes, Spec.shapeOf, hn]
        · simp only [hm, if_false]
          refine ⟨_, rfl, ?_, ?_, ?_, ?_⟩
          · unfold scalarOf; split <;> rfl
          · unfold scalarOf; split <;> simp [Spec.SameUpToOnes, Spec.shapeOf, hn]
          · unfold scalarOf; split <;> simp [Spec.Rectangular]
          · intro hO
            left
            unfold scalarOf
            split
            · rename_i hu; simp [Spec.kindOf, hu]
            · rename_i hu; exact absurd hu hO
            · rfl
      | cons m s =>
        have hn : n = 1 := hones n (by simp [hsh])
        simp only [he]
        refine ⟨_, rfl, he.symm ▸ rfl, ?_, ?_, fun _ => Or.inl rfl⟩
        · simp [Spec.SameUpToOnes, Spec.shapeOf, Arr.withShape, hn, List.filter_cons]
        · simp only [Spec.Rectangular, Arr.withShape]
          unfold Arr.size at h1
          rw [hsh, hn] at h1
          rw [hlen]
          simpa using h1.symm
  · exact ⟨_, rfl, rfl, rfl, hw, fun _ => Or.inl rfl⟩

/-- a variable with numbers is read as it was written -/
theorem double_read {env : Env} {nc : Nc} {v : Val} {d : Str} {S : Nat} {k n : Str} {kind : Kind} {a b : Arr}
    {api : Dict Nat} {t : List Nat} {data : List Elem} (hf : formatFor v (py% "double") d S k = .ok (kind, a))
    (hb : netcdfData env kind a = .ok b) (ht : ShapeFits api (d.map (fun c => [c])) t) (hc : conform b t = .ok data)
    (hv : Spec.IsRealData v) (hd : d ≠ []) (hn : ∀ c ∈ d, sizeIn api c ≠ 0)
    (hs : Spec.SameUpToOnes (Spec.shapeOf v) (d.map (sizeIn api)))
    (hfill : ∀ x, Elem.num x ∈ (Spec.elems v).map (storedElem env (Spec.kindOf v)) → nc.isFill .f x = false) :
    kind = .f ∧ ∃ w, (formatFrom nc n ⟨kind, t, data⟩).1 = .ok w ∧
      Spec.elems w = (Spec.elems v).map (storedElem env (Spec.kindOf v)) ∧
      Spec.SameUpToOnes (Spec.shapeOf v) (Spec.shapeOf w) ∧ Spec.Rectangular w ∧ Spec.kindOf w = .f := by
  have hO : Spec.kindOf v ≠ .O := by rcases hv.2 with h | h | h | h <;> simp [h]
  obtain ⟨e1, e2, e3⟩ := toArr_spec hO
  simp only [formatFor, if_true, Except.ok.injEq, Prod.mk.injEq] at hf
  obtain ⟨rfl, rfl⟩ := hf
  refine ⟨rfl, ?_⟩
  simp only [netcdfData, Arr.withShape] at hb
  split at hb
  · simp at hb
  · rename_i l hl
    simp only [Except.ok.injEq] at hb
    have hl' := toDoubles_ok hl
    rw [e1, e3] at hl'
    have hsb : Spec.SameUpToOnes b.shape (d.map (sizeIn api)) := by
      rw [← hb]
      unfold Spec.SameUpToOnes at hs ⊢
      simp only [e2]
      exact (filter_atleastNd _ _).trans hs
    have htt := shape_fits ht hn
    rw [← htt] at hsb hs
    rw [conform_upToOnes hsb] at hc
    have hdata : data = l := by rw [← hb] at hc; simpa using hc.symm
    subst hdata
    have hmask : data.map (maskFill nc .f) = data := by
      conv_rhs => rw [← List.map_id data]
      apply List.map_congr_left
      intro e he
      cases e with
      | num x => simp [maskFill, hfill x (hl' ▸ he)]
      | _ => rfl
    have hlen : data.length = t.foldr (· * ·) 1 := by
      rw [hl', List.length_map, ← prod_upToOnes hs]
      have := hv.1.1
      cases v <;> simp_all [Spec.Rectangular, Spec.elems, Spec.shapeOf, Spec.kindOf]
    have htn : t ≠ [] := by rw [htt]; simpa using hd
    obtain ⟨w, g1, g2, g3, g4, g5⟩ := squeezeSingle_spec (key := n) (a := ⟨.f, t, data⟩) hlen htn
    refine ⟨w, ?_, g2.trans hl', ?_, g4, ?_⟩
    · simp only [formatFrom, hmask, true_or, if_true]
      split
      · exact g1
      · exact g1
    · unfold Spec.SameUpToOnes at *
      rw [hs, g3]
    · rcases g5 (by simp) with g | g
      · exact g
      · exact g.1

theorem map_charText (l : Str) : ((l.map (fun c => Elem.str [c])).map charText).flatten = l := by
  induction l with
  | nil => rfl
  | cons c l ih => simp only [List.map_cons, charText, List.flatten_cons, ih]; simp

theorem toChars_length (w : Nat) (e : Elem) : (toChars w e).length = w := by
  cases e <;> simp [toChars]
  omega

theorem joinChars_toChars {w : Nat} {l : List Elem} (h : ∀ e ∈ l, ∃ s, e = .str s ∧ s.length ≤ w) :
    joinChars w l.length (l.map (toChars w)).flatten =
      l.map (fun e => .str (stripElem e)) := by
  induction l with
  | nil => rfl
  | cons e l ih =>
    obtain ⟨s, rfl, hs⟩ := h e (by simp)
    simp only [List.length_cons, List.map_cons, List.flatten_cons, joinChars]
    rw [List.take_append_of_le_length (by simp [toChars_length]), List.drop_append_of_le_length (by simp [toChars_length]),
      List.drop_of_length_le (by simp [toChars_length]), List.take_of_length_le (by simp [toChars_length]), List.nil_append,
      ih (fun e he => h e (by simp [he]))]
    congr 2
    simp only [toChars]
    rw [map_charText, List.take_of_length_le (by simp; omega)]
    exact stripNul_append _ _

theorem asciiElems_ok {l : List Elem} (h : asciiElems l = .ok ()) : ∀ e ∈ l, ∃ s, e = .str s ∧ Str.isAscii s = true := by
  induction l with
  | nil => simp
  | cons e l ih =>
    cases e with
    | str s =>
      simp only [asciiElems] at h
      split at h
      · rename_i hs
        intro x hx
        rcases List.mem_cons.1 hx with rfl | hx
        · exact ⟨s, rfl, hs⟩
        · exact ih h x hx
      · simp at h
    | _ => simp [asciiElems] at h

theorem atleast1_filter (s : List Nat) : (Arr.atleast1 s).filter (· ≠ 1) = s.filter (· ≠ 1) := by
  cases s <;> simp [Arr.atleast1]

theorem atleast1_prod (s : List Nat) : (Arr.atleast1 s).foldr (· * ·) 1 = s.foldr (· * ·) 1 := by
  cases s <;> simp [Arr.atleast1]

theorem atleast1_ne (s : List Nat) : Arr.atleast1 s ≠ [] := by
  cases s <;> simp [Arr.atleast1]

theorem toChars_ascii {w : Nat} {s : Str} (h : Str.isAscii s = true) : ∀ e ∈ toChars w (.str s),
    Str.isAscii (charText e) = true := by
  intro e he
  simp only [toChars, List.mem_map] at he
  obtain ⟨c, hc, rfl⟩ := he
  have := List.mem_of_mem_take hc
  simp only [charText, List.cons_ne_nil, if_false]
  rcases List.mem_append.1 this with h1 | h1
  · unfold Str.isAscii at h ⊢
    rw [List.all_eq_true] at h
    simpa using h c h1
  · rw [(List.mem_replicate.1 h1).2]
    decide

/-- a variable with text is read as it was written -/
theorem string_read {env : Env} {nc : Nc} {v : Val} {d : Str} {S : Nat} {k n : Str} {kind : Kind} {a b : Arr}
    {api : Dict Nat} {t : List Nat} {data : List Elem}
    (hf : formatFor v (py% "string") (d ++ py% "S") S k = .ok (kind, a))
    (hb : netcdfData env kind a = .ok b) (ht : ShapeFits api ((d ++ py% "S").map (fun c => [c])) t)
    (hc : conform b t = .ok data) (hS : Dict.get? api (py% "S") = some S) (hS0 : S ≠ 0)
    (hv : Spec.Rectangular v) (hk : Spec.kindOf v ≠ .O) (hn : ∀ c ∈ d, sizeIn api c ≠ 0)
    (hs : Spec.SameUpToOnes (Spec.shapeOf v) (d.map (sizeIn api)))
    (hlen : ∀ s, Elem.str s ∈ Spec.elems v → s.length ≤ S) :
    kind = .S ∧ ∃ w, (formatFrom nc n ⟨kind, t, data⟩).1 = .ok w ∧
      Spec.elems w = (Spec.elems v).map (fun e => .str (stripElem e)) ∧
      Spec.SameUpToOnes (Spec.shapeOf v) (Spec.shapeOf w) ∧ Spec.Rectangular w ∧ Spec.kindOf w = .U := by
  obtain ⟨e1, e2, e3⟩ := toArr_spec hk
  unfold formatFor at hf
  rw [if_neg (by decide), if_pos rfl] at hf
  cases ha : asciiElems (toArr v).data with
  | error e => simp [ha] at hf
  | ok u =>
    simp only [ha, Except.ok.injEq, Prod.mk.injEq] at hf
    obtain ⟨rfl, rfl⟩ := hf
    refine ⟨rfl, ?_⟩
    rw [e3] at ha
    have hasc := asciiElems_ok ha
    have hw : charWidth S (Spec.elems v) = S := by simp [charWidth, hS0]
    simp only [netcdfData, Except.ok.injEq, e3, e2, hw] at hb
    have hsz : sizeIn api 'S' = S := by simp [sizeIn, hS]
    have htt := shape_fits ht (by
      intro c hc
      rcases List.mem_append.1 hc with h | h
      · exact hn c h
      · have : c = 'S' := by simpa using h
        rw [this, hsz]; exact hS0)
    rw [List.map_append] at htt
    have htt' : t = d.map (sizeIn api) ++ [S] := by rw [htt]; simp [hsz]
    have hsb : Spec.SameUpToOnes b.shape t := by
      rw [← hb, htt']
      unfold Spec.SameUpToOnes at hs ⊢
      simp only [List.filter_append]
      rw [filter_atleastNd, hs]
    rw [conform_upToOnes hsb, ← hb] at hc
    simp only [Except.ok.injEq] at hc
    have hl : (Spec.elems v).length = (d.map (sizeIn api)).foldr (· * ·) 1 := by
      rw [← prod_upToOnes hs]
      cases v <;> simp_all [Spec.Rectangular, Spec.elems, Spec.shapeOf, Spec.kindOf]
    have hj := joinChars_toChars (w := S) (l := Spec.elems v) (by
      intro e he
      obtain ⟨s, rfl, _⟩ := hasc e he
      exact ⟨s, rfl, hlen s he⟩)
    rw [hl, hc] at hj
    obtain ⟨w, g1, g2, g3, g4, g5⟩ := squeezeSingle_spec (key := n)
      (a := ⟨.U, Arr.atleast1 (d.map (sizeIn api)), (Spec.elems v).map (fun e => .str (stripElem e))⟩)
      (by simp only [Arr.WF, Arr.size]; rw [atleast1_prod, ← hl, List.length_map]) (atleast1_ne _)
    refine ⟨w, ?_, g2, ?_, g4, ?_⟩
    · have hall : data.all (fun e => Str.isAscii (charText e)) = true := by
        rw [List.all_eq_true, ← hc]
        intro e he
        obtain ⟨l, hl1, hl2⟩ := List.mem_flatten.1 he
        obtain ⟨x, hx, rfl⟩ := List.mem_map.1 hl1
        obtain ⟨s, rfl, hs⟩ := hasc x hx
        exact toChars_ascii hs e hl2
      simp only [formatFrom]
      rw [htt']
      simp only [List.getLast?_append, List.getLast?_singleton, Option.some_or, hS0, if_false, hall,
        Bool.not_true, Bool.false_eq_true, List.dropLast_concat]
      rw [hj]
      exact g1
    · unfold Spec.SameUpToOnes at *
      rw [hs, g3]
      exact (atleast1_filter _).symm
    · rcases g5 (by simp) with g | ⟨_, g⟩
      · exact g
      · exfalso
        obtain ⟨x, hx, hx2⟩ := List.map_eq_singleton_iff.1 g
        simp at hx2

theorem joinChars_length (w n : Nat) (l : List Elem) : (joinChars w n l).length = n := by
  induction n generalizing l with
  | zero => rfl
  | succ n ih => simp [joinChars, ih]

/-- all characters of a variable, in groups -/
theorem joinChars_chars {w : Nat} (n : Nat) {l : List Elem} (hl : l.length = n * w) (hc : ∀ e ∈ l, ∃ c, e = .str [c]) :
    Spec.CharsOf w (joinChars w n l) l := by
  induction n generalizing l with
  | zero =>
    have : l = [] := List.eq_nil_of_length_eq_zero (by simpa using hl)
    subst this
    exact ⟨[], rfl, by simp, rfl⟩
  | succ n ih =>
    have hlen : w ≤ l.length := by rw [hl, Nat.succ_mul]; omega
    obtain ⟨r, h1, h2, h3⟩ := ih (l := l.drop w) (by rw [List.length_drop, hl, Nat.succ_mul]; omega)
      (fun e he => hc e (List.mem_of_mem_drop he))
    have hstr : ∀ m : List Elem, (∀ e ∈ m, ∃ c, e = .str [c]) → ∃ s : Str, m = s.map (fun c => .str [c]) := by
      intro m
      induction m with
      | nil => intro _; exact ⟨[], rfl⟩
      | cons e m ihm =>
        intro h
        obtain ⟨c, rfl⟩ := h e (by simp)
        obtain ⟨s, rfl⟩ := ihm (fun e he => h e (by simp [he]))
        exact ⟨c :: s, rfl⟩
    obtain ⟨s, hs⟩ := hstr (l.take w) (fun e he => hc e (List.mem_of_mem_take he))
    have hsl : s.length = w := by
      have := congrArg List.length hs
      rw [List.length_take, List.length_map] at this
      omega
    obtain ⟨m, hm⟩ := stripNul_spec s
    have hsl2 : (stripNul s).length + m = w := by
      have := congrArg List.length hm
      rw [List.length_append, List.length_replicate] at this
      omega
    refine ⟨stripNul s :: r, ?_, ?_, ?_⟩
    · simp only [joinChars, List.map_cons, h1, hs, map_charText]
    · intro t ht
      rcases List.mem_cons.1 ht with rfl | ht
      · omega
      · exact h2 t ht
    · rw [List.map_cons, List.flatten_cons, ← h3, show w - (stripNul s).length = m by omega, ← hm, ← hs,
        List.take_append_drop]

/-- reading a variable with text -/
theorem text_read {nc : Nc} {n : Str} {a : Arr} {w : Val} (hk : a.kind = .S)
    (hw : a.data.length = a.shape.foldr (· * ·) 1) (hc : ∀ e ∈ a.data, ∃ c, e = .str [c])
    (h : (formatFrom nc n a).1 = .ok w) : ∃ s width, a.shape = s ++ [width] ∧
      Spec.SameUpToOnes (Spec.shapeOf w) s ∧ Spec.CharsOf width (Spec.elems w) a.data := by
  unfold formatFrom at h
  simp only [hk] at h
  cases hl : a.shape.getLast? with
  | none => simp [hl] at h
  | some width =>
    have hsh : a.shape = a.shape.dropLast ++ [width] := by
      have hne : a.shape ≠ [] := by intro h0; simp [h0] at hl
      rw [List.getLast?_eq_some_getLast hne] at hl
      cases hl
      exact (List.dropLast_append_getLast hne).symm
    simp only [hl] at h
    split at h
    · simp at h
    · split at h
      · simp at h
      · refine ⟨a.shape.dropLast, width, hsh, ?_⟩
        have hlen : a.data.length = (a.shape.dropLast.foldr (· * ·) 1) * width := by
          rw [hw, hsh, List.dropLast_concat]
          generalize a.shape.dropLast = l
          induction l with
          | nil => simp
          | cons x l ih => simp only [List.cons_append, List.foldr_cons, ih, Nat.mul_assoc]
        have hch := joinChars_chars (w := width) _ hlen hc
        obtain ⟨v, g1, g2, g3, g4, g5⟩ := squeezeSingle_spec (key := n)
          (a := ⟨.U, Arr.atleast1 a.shape.dropLast, joinChars width (a.shape.dropLast.foldr (· * ·) 1) a.data⟩)
          (by
            simp only [Arr.WF, Arr.size]
            rw [atleast1_prod]
            exact joinChars_length _ _ _) (atleast1_ne _)
        rw [g1] at h
        cases h
        refine ⟨?_, by rw [g2]; exact hch⟩
        unfold Spec.SameUpToOnes at *
        rw [g3]
        exact atleast1_filter _

end Sofar
