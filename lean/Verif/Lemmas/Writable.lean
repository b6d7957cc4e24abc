import Verif.Lemmas.Stored
/-!
# Objects that can be written
-/
namespace Sofar

theorem writeDims_total {nc : Nc} {api : Dict Nat} {f : NcFile} (hn : (Dict.keys api).Nodup)
    (hf : ∀ d ∈ Dict.keys api, Dict.has f.dims d = false) (hok : ∀ d ∈ Dict.keys api, nc.okName d = true) :
    (writeDims nc api f).1 = .ok () := by
  induction api generalizing f with
  | nil => rfl
  | cons p l ih =>
    obtain ⟨d, n⟩ := p
    simp only [Dict.keys, List.map_cons, List.nodup_cons, List.mem_cons, forall_eq_or_imp] at hn hf hok
    simp only [writeDims, createDimension, hok.1, hf.1]
    simp only [Bool.not_true, Bool.false_eq_true, if_false]
    refine ih hn.2 ?_ hok.2
    intro d' hd'
    have hne : d' ≠ d := by rintro rfl; exact hn.1 hd'
    have := hf.2 d' hd'
    cases hh : Dict.has (Dict.put f.dims d (⟨n, decide (n = 0)⟩ : NcDim)) d' with
    | false => rfl
    | true =>
      rw [Dict.has_iff_mem, Dict.mem_keys_put] at hh
      rcases hh with hh | hh
      · exact absurd hh hne
      · rw [← Dict.has_iff_mem, this] at hh; cases hh

theorem varAttrs_total {env : Env} {nc : Nc} {o : Obj} {n : Nat} {ks : List Str} {d : Dict Val}
    (h : ∀ k ∈ ks, k ∈ o.keys ∧ nc.okName (k.drop n) = true ∧ nc.reserved (k.drop n) = false ∧ nc.special (k.drop n) = false) :
    (varAttrs env nc o n ks d).1 = .ok () := by
  induction ks generalizing d with
  | nil => rfl
  | cons k ks ih =>
    obtain ⟨h1, h2, h3, h4⟩ := h k (by simp)
    obtain ⟨v, hv⟩ := get_of_mem_keys h1
    simp only [varAttrs, getAttr_of_get hv, putAttr_total h3 h4 h2]
    exact ih (fun k hk => h k (by simp [hk]))

theorem targetShape_total {l : List NcDim} (h : ∀ d ∈ l, d.unlimited = false) (s : List Nat) :
    targetShape l s = .ok (l.map (·.size)) := by
  induction l generalizing s with
  | nil => rfl
  | cons d l ih =>
    simp only [targetShape, h d (by simp), Bool.false_eq_true, if_false, ih (fun d hd => h d (by simp [hd])), List.map_cons]

/-- assigning data to a variable whose dimensions are not empty -/
theorem assignVariable_total {api : Dict Nat} {f : NcFile} {n : Str} {kind : Kind} {d : Str} {b : Arr}
    (hd : FileDimsOk api f.dims) (hk : ∀ c ∈ d, ∃ n, Dict.get? api [c] = some n ∧ n ≠ 0)
    (hs : Spec.SameUpToOnes b.shape (d.map (sizeIn api))) :
    ∃ f', assignVariable f n kind (d.map (fun c => [c])) b = .ok f' := by
  obtain ⟨l, hl⟩ := dimSizes_total (f := f) (ds := d.map (fun c => [c])) (by
    intro x hx
    obtain ⟨c, hc, rfl⟩ := List.mem_map.1 hx
    obtain ⟨n, hn, _⟩ := hk c hc
    obtain ⟨m, hm, _⟩ := hd _ _ hn
    exact ⟨_, hm⟩)
  have h2 := dimSizes_ok hl
  have h3 : ∀ x ∈ l, x.unlimited = false := by
    clear hl hs
    induction d generalizing l with
    | nil => simp only [List.map_nil, List.forall₂_nil_left_iff] at h2; subst h2; simp
    | cons c d ih =>
      simp only [List.map_cons] at h2
      cases h2 with
      | cons h h' =>
        simp only [List.mem_cons, forall_eq_or_imp]
        refine ⟨?_, ih (fun c hc => hk c (by simp [hc])) _ h'⟩
        obtain ⟨n, hn, hn0⟩ := hk c (by simp)
        obtain ⟨m, hm, _⟩ := hd _ _ hn
        rw [h] at hm
        cases hm
        simp [hn0]
  have h4 := targetShape_total h3 b.shape
  have h5 := shape_fits (targetShape_fits hd hl h4) (by
    intro c hc
    obtain ⟨n, hn, hn0⟩ := hk c hc
    simp [sizeIn, hn, hn0])
  rw [← h5] at hs
  simp only [assignVariable, hl, h4, conform_upToOnes hs]
  exact ⟨_, rfl⟩

theorem toDoubles_total {env : Env} {kind : Kind} {l : List Elem} (hk : kind = .i ∨ kind = .f)
    (h : ∀ e ∈ l, e = .masked ∨ ∃ x, e = .num x ∧ (kind ≠ .f → ∃ q, x = .fin q)) :
    ∃ r, toDoubles env kind l = .ok r := by
  induction l with
  | nil => exact ⟨[], rfl⟩
  | cons e l ih =>
    obtain ⟨r, hr⟩ := ih (fun e he => h e (by simp [he]))
    simp only [toDoubles, hr]
    rcases h e (by simp) with rfl | ⟨x, rfl, hx⟩
    · exact ⟨_, by rfl⟩
    · rcases hk with rfl | rfl
      · obtain ⟨q, rfl⟩ := hx (by simp)
        exact ⟨_, by rfl⟩
      · exact ⟨_, by rfl⟩

theorem asciiElems_total {l : List Elem} (h : ∀ e ∈ l, ∃ s, e = .str s ∧ Str.isAscii s = true) :
    asciiElems l = .ok () := by
  induction l with
  | nil => rfl
  | cons e l ih =>
    obtain ⟨s, rfl, hs⟩ := h e (by simp)
    simp only [asciiElems, hs, if_true]
    exact ih (fun e he => h e (by simp [he]))

theorem ncName_inj {a b : Str} (ha : '.' ∉ a) (hb : '.' ∉ b) (h : ncName a = ncName b) : a = b := by
  rw [← dotName_ncName ha, ← dotName_ncName hb, h]

theorem drop_prefix {a b : Str} (h : a <+: b) : b = a ++ b.drop a.length := by
  obtain ⟨t, rfl⟩ := h
  simp

/-- one variable or attribute can be written -/
theorem writeKey_total {env : Env} {nc : Nc} {o o1 o' : Obj} {api : Dict Nat} {ds : Dict Str} {mode : Mode}
    (hV : Verified env o o1 api ds mode o') (hst : Spec.Storable env.rnd nc.isFill o') (hok : Spec.AcceptedNames nc o')
    (hasc : Spec.AsciiOnly o') {c : Nat} (hc : c ≤ 9) {k : Str} (hk : k ∈ o'.keys) {f : NcFile}
    (hd : FileDimsOk api f.dims) (hnew : Dict.has f.vars (ncName k) = false) :
    (writeKey env nc o' c k f).1 = .ok () := by
  obtain ⟨v, hv⟩ := get_of_mem_keys hk
  obtain ⟨e, he, htyp⟩ := hV.types (hV.attrs.1 ▸ hv)
  simp only [writeKey, convEntry, he]
  by_cases ht : e.typ = py% "attribute"
  · simp [ht]
  have hvar : Spec.IsVariable o' k v e := ⟨hv, he, ht⟩
  have hapi : o'.api = some api := by rw [hV.obj]
  have hds : o'.dims = some ds := by rw [hV.obj]
  obtain ⟨hprop, hne, dd, n, hdd, hu, hn, hlen⟩ := hst.shapes k v e hvar
  obtain ⟨alt, ha1, ha2, ha3, ha4, hknow⟩ := verified_shape hV hvar hdd hu hn hlen
  obtain ⟨S, hS, _⟩ := hV.apiOk.S
  simp only [ht, if_false, getAttr_of_get hv, hds, ha2, hapi, Option.getD_some, hS, writeVariable]
  have hdot := (hst.names k hk).2.1
  -- attributes
  have hattrs : (varAttrs env nc o' (k.length + 1) (subKeys o'.keys k) []).1 = .ok () := by
    apply varAttrs_total
    intro j hj
    obtain ⟨hj1, hj2⟩ := subKeys_mem.1 hj
    obtain ⟨w, hw⟩ := get_of_mem_keys hj1
    obtain ⟨ej, hej, _⟩ := hV.types (hV.attrs.1 ▸ hw)
    have hja : ej.typ = py% "attribute" := by
      apply Classical.byContradiction
      intro hna
      exact (hst.separate j w ej ⟨hw, hej, hna⟩).2 k v e hvar hj2
    have hdr := drop_prefix hj2
    rw [List.append_assoc] at hdr
    simp only [List.length_append, List.length_cons, List.length_nil, Nat.zero_add, List.singleton_append] at hdr
    exact ⟨hj1, hok.attributes j w ⟨hw, ej, hej, hja⟩ k _ hdr⟩
  -- sizes of the dimensions
  have hO : Spec.kindOf v ≠ .O := by
    rcases htyp with ⟨h, _⟩ | ⟨_, ⟨x, rfl⟩ | ⟨x, rfl⟩ | ⟨x, rfl, hx⟩⟩ | ⟨_, (⟨s, rfl⟩ | ⟨s, rfl⟩) | ⟨x, rfl, hx⟩⟩
    · exact absurd h ht
    · simp [Spec.kindOf]
    · simp [Spec.kindOf]
    · rcases hx with hx | hx <;> simp [Spec.kindOf, hx]
    · simp [Spec.kindOf]
    · simp [Spec.kindOf]
    · simp [Spec.kindOf, hx]
  have hnzS : ∀ c ∈ alt, c ≠ 'S' → ∃ n, Dict.get? api [Str.upperC c] = some n ∧ n ≠ 0 := by
    intro c hc hcS
    obtain ⟨n, hn⟩ := hknow c hc hcS
    refine ⟨n, hn, ?_⟩
    have := nonzero_sizes hprop.1 hO hne ha4 (sizeIn api (Str.upperC c)) (List.mem_map.2 ⟨c, hc, by simp [hcS]⟩)
    simpa [sizeIn, hn] using this
  have hSz : e.typ = py% "string" → S ≠ 0 := by
    intro hts
    obtain ⟨s1, k', v', e', s', hv', ht', hs', hs0⟩ := hst.strings k v e hvar hts
    obtain ⟨_, _, dd', n', hdd', _⟩ := hst.shapes k' v' e' hv'
    have := verified_S hV hv' hdd' (fun alt halt => by
      obtain ⟨a, rfl, _⟩ := (hst.strings k' v' e' hv' ht').1 dd' alt hdd' halt
      simp) hS s' hs'
    have := List.length_pos_iff.2 hs0
    omega
  have hdims : ∀ c ∈ Str.upper alt, ∃ n, Dict.get? api [c] = some n ∧ n ≠ 0 := by
    intro c hc
    obtain ⟨c', hc', rfl⟩ := List.mem_map.1 hc
    by_cases hcS : c' = 'S'
    · subst hcS
      rcases htyp with ⟨h, _⟩ | ⟨htd, _⟩ | ⟨hts, _⟩
      · exact absurd h ht
      · exact absurd hc' ((hst.doubles k v e hvar htd).1 dd alt hdd ha1)
      · exact ⟨S, hS, hSz hts⟩
    · exact hnzS c' hc' hcS
  -- creating the variable
  have hcreate : ∀ kind, createVariable nc f (ncName k) kind ((Str.upper alt).map (fun c => [c])) c = .ok
      { f with vars := Dict.put f.vars (ncName k) ⟨(Str.upper alt).map (fun c => [c]), ⟨kind, [], []⟩, []⟩ } := by
    intro kind
    obtain ⟨l, hl⟩ := dimSizes_total (f := f) (ds := (Str.upper alt).map (fun c => [c])) (by
      intro x hx
      obtain ⟨c, hc, rfl⟩ := List.mem_map.1 hx
      obtain ⟨n, hn, _⟩ := hdims c hc
      obtain ⟨m, hm, _⟩ := hd _ _ hn
      exact ⟨_, hm⟩)
    have hname := hok.names k v e hvar (ncName k) (dotName_ncName hdot)
    have hcc : ¬ 9 < c := by omega
    simp [createVariable, hl, hname, hnew, hcc]
  have hfin : ∀ kind a b, formatFor v e.typ (Str.upper alt) S k = .ok (kind, a) → netcdfData env kind a = .ok b →
      Spec.SameUpToOnes b.shape ((Str.upper alt).map (sizeIn api)) →
      (match formatFor v e.typ (Str.upper alt) S k with
        | .error e => ((.error e : Except Exc Unit), f)
        | .ok (kk, a) =>
          match createVariable nc f (ncName k) kk ((Str.upper alt).map (fun c => [c])) c with
          | .error e => (.error e, f)
          | .ok f1 =>
            match netcdfData env kk a with
            | .error e => (.error e, f1)
            | .ok b =>
              match assignVariable f1 (ncName k) kk ((Str.upper alt).map (fun c => [c])) b with
              | .error e => (.error e, f1)
              | .ok f2 =>
                let r := varAttrs env nc o' (k.length + 1) (subKeys o'.keys k) []
                (r.1, setVarAttrs f2 (ncName k) r.2)).1 = .ok () := by
    intro kind a b h1 h2 h3
    obtain ⟨f2, hf2⟩ := assignVariable_total
      (f := { f with vars := Dict.put f.vars (ncName k) ⟨(Str.upper alt).map (fun c => [c]), ⟨kind, [], []⟩, []⟩ })
      (n := ncName k) (kind := kind) (d := Str.upper alt) (b := b) hd hdims h3
    simp only [h1, hcreate, h2, hf2, hattrs]
  obtain ⟨t1, t2, t3⟩ := toArr_spec hO
  rcases htyp with ⟨h, _⟩ | ⟨htd, hnum⟩ | ⟨hts, hstr⟩
  · exact absurd h ht
  · -- numbers
    obtain ⟨d1, d2, d3⟩ := hst.doubles k v e hvar htd
    have hkind : Spec.kindOf v = .i ∨ Spec.kindOf v = .f := by
      rcases hnum with ⟨x, rfl⟩ | ⟨x, rfl⟩ | ⟨x, rfl, hx⟩
      · exact Or.inl rfl
      · exact Or.inr rfl
      · exact hx
    have hnum' := hprop.2.1 (by rcases hkind with h | h <;> simp [h])
    obtain ⟨r, hr⟩ := toDoubles_total (env := env) (kind := Spec.kindOf v) (l := Spec.elems v) hkind (by
      intro x hx
      rcases hnum' x hx with h | ⟨q, rfl⟩
      · exact Or.inl h
      · right
        refine ⟨q, rfl, fun hf => ?_⟩
        obtain ⟨r, h, _⟩ := d3 q hf hx
        exact ⟨r, h⟩)
    have hnS := d1 dd alt hdd ha1
    rw [← upper_sizes hnS] at ha4
    refine hfin .f ((toArr v).withShape (Arr.atleastNdShape (Str.upper alt).length (toArr v).shape))
      ⟨.f, Arr.atleastNdShape (Str.upper alt).length (toArr v).shape, r⟩ ?_ ?_ ?_
    · simp only [formatFor, htd, if_true]
    · simp only [netcdfData, Arr.withShape, t1, t3, hr]
    · unfold Spec.SameUpToOnes at ha4 ⊢
      rw [t2, filter_atleastNd]
      exact ha4
  · -- text
    obtain ⟨s1, _⟩ := hst.strings k v e hvar hts
    have hkind : Spec.kindOf v = .U := by
      rcases hstr with (⟨s, rfl⟩ | ⟨s, rfl⟩) | ⟨x, rfl, hx⟩
      · rfl
      · rfl
      · exact hx
    have ha : asciiElems (toArr v).data = .ok () := by
      rw [t3]
      apply asciiElems_total
      intro x hx
      obtain ⟨s, rfl⟩ := hprop.2.2 (Or.inl hkind) x hx
      refine ⟨s, rfl, ?_⟩
      simp only [Str.isAscii, List.all_eq_true, decide_eq_true_eq]
      exact hasc k v e hvar hts s hx
    obtain ⟨al, rfl, hal⟩ := s1 dd alt hdd ha1
    have hup : Str.upper (al ++ py% "S") = Str.upper al ++ py% "S" := by
      simp only [Str.upper, List.map_append]
      rfl
    have hw : charWidth S (toArr v).data = S := by simp [charWidth, hSz hts]
    refine hfin .S ⟨.S, Arr.atleastNdShape (Str.upper (al ++ py% "S")).length (toArr v).shape ++ [S], ((toArr v).data.map (toChars S)).flatten⟩ _ ?_ rfl ?_
    · simp only [formatFor, hts, ha, hw]
      rw [if_neg (by decide), if_true]
    · have hsz : sizeIn api 'S' = S := by simp [sizeIn, hS]
      rw [hup, List.map_append]
      unfold Spec.SameUpToOnes at ha4 ⊢
      simp only [List.filter_append]
      rw [t2, filter_atleastNd, ha4, List.map_append, List.filter_append, upper_sizes hal]
      simp [hsz]

theorem writeKeys_total {env : Env} {nc : Nc} {o o1 o' : Obj} {api : Dict Nat} {ds : Dict Str} {mode : Mode}
    (hV : Verified env o o1 api ds mode o') (hst : Spec.Storable env.rnd nc.isFill o') (hok : Spec.AcceptedNames nc o')
    (hasc : Spec.AsciiOnly o') {c : Nat} (hc : c ≤ 9) {ks : List Str} (hk : ∀ k ∈ ks, k ∈ o'.keys) (hn : ks.Nodup)
    {f : NcFile} (hd : FileDimsOk api f.dims) (hnew : ∀ k ∈ ks, Dict.has f.vars (ncName k) = false) :
    (writeKeys env nc o' c ks f).1 = .ok () := by
  have hapi : o'.api = some api := by rw [hV.obj]
  have hds : o'.dims = some ds := by rw [hV.obj]
  induction ks generalizing f with
  | nil => rfl
  | cons k ks ih =>
    have h1 := writeKey_total hV hst hok hasc hc (hk k (by simp)) hd (hnew k (by simp))
    simp only [writeKeys, h1]
    obtain ⟨a1, a2, a3⟩ := writeKey_ok hapi hds (hk k (by simp)) hd (Prod.ext h1 rfl)
    refine ih (fun j hj => hk j (by simp [hj])) (List.nodup_cons.1 hn).2 a1 ?_
    intro j hj
    have hj0 := hnew j (by simp [hj])
    rcases a3 with ⟨_, _, _, hf⟩ | ⟨p, hp, _, hw⟩
    · have hf' : (writeKey env nc o' c k f).snd = f := hf
      rw [hf']; exact hj0
    · cases hh : Dict.has (writeKey env nc o' c k f).2.vars (ncName j) with
      | false => rfl
      | true =>
        rw [Dict.has_iff_mem, hp] at hh
        simp only [Dict.keys, List.map_append, List.map_cons, List.map_nil, List.mem_append, List.mem_singleton] at hh
        rcases hh with hh | hh
        · have := (Dict.has_iff_mem f.vars (ncName j)).2 hh
          rw [hj0] at this; cases this
        · obtain ⟨_, _, _, _, _, _, _, _, _, _, _, _, _, _, _, _, _, _, hname, _⟩ := hw.ex
          rw [hname] at hh
          have := ncName_inj (hst.names j (hk j (by simp [hj]))).2.1 (hst.names k (hk k (by simp))).2.1 hh
          exact absurd (this ▸ hj) (List.nodup_cons.1 hn).1

theorem writeFile_total {env : Env} {nc : Nc} {o o1 o' : Obj} {api : Dict Nat} {ds : Dict Str} {mode : Mode}
    (hV : Verified env o o1 api ds mode o') (hst : Spec.Storable env.rnd nc.isFill o') (hok : Spec.AcceptedNames nc o')
    (hasc : Spec.AsciiOnly o') {c : Nat} (hc : c ≤ 9) (hn : o'.keys.Nodup) : (writeFile env nc o' c).1 = .ok () := by
  have hapi : o'.api = some api := by rw [hV.obj]
  have h1 : (writeDims nc api .empty).1 = .ok () := by
    apply writeDims_total hV.apiOk.nodup
    · intro d _; rfl
    · intro d hd
      obtain ⟨n, hn⟩ := (Dict.has_iff _ _).1 ((Dict.has_iff_mem _ _).2 hd)
      by_cases hC : d = py% "C"
      · rw [hC]; exact hok.dims.1
      by_cases hI : d = py% "I"
      · rw [hI]; exact hok.dims.2.1
      by_cases hS : d = py% "S"
      · rw [hS]; exact hok.dims.2.2.1
      obtain ⟨v, s, i, c, ⟨k, hk, e, dd, h1, h2, h3, rfl⟩, hs, _, rfl, _⟩ := hV.apiOk.others d n hC hI hS hn
      obtain ⟨a1, a2, a3, a4⟩ := hV.attrs
      exact hok.dims.2.2.2 k e dd _ c (by rw [a3]; exact h2) h3 (isAlternative_of_mem (firstAlt_mem dd))
        (List.mem_of_getElem? hs)
  unfold writeFile
  simp only [hapi, h1]
  obtain ⟨hf1, _⟩ := writeDims_ok (Prod.ext h1 rfl : writeDims nc api .empty = (.ok (), (writeDims nc api .empty).2))
  rw [writeGlobals_eq]
  have h2 : (varAttrs env nc o' 7 (o'.keys.filter (fun k => Str.startsWith k (py% "GLOBAL_"))) (writeDims nc api .empty).2.attrs).1
      = .ok () := by
    apply varAttrs_total
    intro k hk
    obtain ⟨hk1, hk2⟩ := List.mem_filter.1 hk
    have hpre : (py% "GLOBAL_") <+: k := by simpa [Str.startsWith] using hk2
    obtain ⟨v, hv⟩ := get_of_mem_keys hk1
    obtain ⟨e, he, _⟩ := hV.types (hV.attrs.1 ▸ hv)
    have ha : e.typ = py% "attribute" := by
      apply Classical.byContradiction
      intro hna
      exact (hst.separate k v e ⟨hv, he, hna⟩).1 hpre
    exact ⟨hk1, hok.attributes k v ⟨hv, e, he, ha⟩ (py% "GLOBAL") _ (drop_prefix hpre)⟩
  simp only [h2]
  apply writeKeys_total hV hst hok hasc hc (fun k hk => hk) hn
  · rw [hf1]
    exact dimsOk_init api
  · intro k _
    rw [hf1]
    rfl

end Sofar
