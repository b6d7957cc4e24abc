import Verif.Lemmas.Trips
import Verif.Lemmas.Writable
/-!
# Further round trips of objects that were read from files

The objects that are read pass the verification and meet the conditions for being written and read again.
-/
namespace Sofar

theorem reference_same {env : Env} {a b : Obj} {c v : Str} (ha : Spec.HasText a (py% "GLOBAL_SOFAConventions") c)
    (ha' : Spec.HasText a (py% "GLOBAL_SOFAConventionsVersion") v) (hb : Spec.HasText b (py% "GLOBAL_SOFAConventions") c)
    (hb' : Spec.HasText b (py% "GLOBAL_SOFAConventionsVersion") v) : referenceNames env a = referenceNames env b := by
  obtain ⟨wa, h1, h2⟩ := ha
  obtain ⟨wa', h3, h4⟩ := ha'
  obtain ⟨wb, h5, h6⟩ := hb
  obtain ⟨wb', h7, h8⟩ := hb'
  unfold referenceNames
  simp only [getAttr_of_get h1, getAttr_of_get h3, getAttr_of_get h5, getAttr_of_get h7, asStr_text, h2, h4, h6, h8]

theorem HasText.of_attrs {a b : Obj} {k t : Str} (h : Spec.HasText a k t) (e : b.attrs = a.attrs) : Spec.HasText b k t := by
  unfold Spec.HasText
  rw [e]
  exact h

/-- the object that was read passes the verification -/
theorem Resembles.verified {env : Env} {nc : Nc} {o o1 o' o2 r : Obj} {api : Dict Nat} {ds : Dict Str} {c v : Str}
    (h : Resembles nc o' r ds) (hV : Verified env o o1 api ds .write o')
    (hs : Spec.Storable env.rnd nc.isFill o') (hrep : Spec.Repeatable o') (hx : Spec.Exchangeable env o')
    (hc : Spec.HasText o (py% "GLOBAL_SOFAConventions") c) (hv : Spec.HasText o (py% "GLOBAL_SOFAConventionsVersion") v)
    (hr : resetConvention env o2 = .ok r) (hra : r.attrs = o2.attrs)
    (hc2 : Spec.HasText o2 (py% "GLOBAL_SOFAConventions") c)
    (hv2 : Spec.HasText o2 (py% "GLOBAL_SOFAConventionsVersion") v) (mode : Mode) :
    (verify env o2 .raise mode).out = .ok none := by
  have hcr := HasText.of_attrs hc2 hra
  have hvr := HasText.of_attrs hv2 hra
  have href : referenceNames env r = referenceNames env o1 :=
    reference_same hcr hvr (HasText.of_attrs hc hV.attrs.2.1) (HasText.of_attrs hv hV.attrs.2.1)
  have hcust : ∀ cu, r.custom = some cu → ∃ names, (referenceNames env r).out = .ok names ∧
      ∀ k ∈ Dict.keys cu, ∀ n ∈ names, Str.replace n (py% "GLOBAL_") [] ≠ Str.replace k (py% "GLOBAL_") [] := by
    intro cu hcu
    cases hco : o1.custom with
    | none =>
      have := h.plain (by rw [hV.attrs.2.2.2, hco])
      rw [this] at hcu
      simp at hcu
    | some c1 =>
      obtain ⟨names, n1, n2⟩ := (phaseCustomNames_nil _ _).1 hV.passes.custom c1 hco
      refine ⟨names, by rw [href]; exact n1, fun k hk => ?_⟩
      obtain ⟨⟨k', e⟩, hm, rfl⟩ := List.mem_map.1 hk
      obtain ⟨_, _, c', e', x1, x2, _⟩ := h.custom cu hcu k' e hm
      rw [hV.attrs.2.2.2, hco] at x1
      cases x1
      exact n2 k' (List.mem_map.2 ⟨_, x2, rfl⟩)
  have hready : Ready (referenceNames env r) env r := by
    refine ⟨h.checkable hV hs hrep hx, h.regular hs hx, ?_, ?_⟩
    · obtain ⟨w, hw, _⟩ := hcr
      exact ⟨w, hw⟩
    · intro hn
      obtain ⟨cu, hcu⟩ := Option.ne_none_iff_exists'.1 hn
      obtain ⟨names, n1, _⟩ := hcust cu hcu
      exact ⟨names, n1⟩
  obtain ⟨o3, hp⟩ := passes_of_conforms (mode := mode) hready (h.conforms hV hs hrep hx _) hcust
  exact (verifyG_raise_ok_iff _ _ _ _ _).2 ⟨rfl, r, o3, hr, hp⟩

/-- reading the file that was written succeeds, up to the verification -/
theorem read_open {env : Env} {nc : Nc} {fs : FS} {filename : Str} {o : Obj} {compression : Nat} {c v : Str}
    {arg : VerifyArg} {verbose : Bool} {new : Obj}
    (hw : (writeSofa env nc fs filename o compression).out = .ok ())
    (hs : Spec.Storable env.rnd nc.isFill (writeSofa env nc fs filename o compression).obj)
    (hc : Spec.HasText o (py% "GLOBAL_SOFAConventions") c) (hv : Spec.HasText o (py% "GLOBAL_SOFAConventionsVersion") v)
    (hnew : (initSofa env c false (.exact v) arg).out = .ok new) :
    ∃ path f o0, ReadOk env nc (writeSofa env nc fs filename o compression).fs filename arg verbose o0 path f c v new o0 ∧
      ∀ o2, (verifyRead env o0 v arg).out = .ok o2 →
        (readSofa env nc (writeSofa env nc fs filename o compression).fs filename arg verbose).out = .ok o2 := by
  obtain ⟨path, f, o1, api, ds, r, hW, hfile, hver, hobj⟩ := writeSofa_ok hw
  generalize (writeSofa env nc fs filename o compression).obj = o' at *
  generalize (writeSofa env nc fs filename o compression).fs = fs' at *
  have hat := hW.verified.attrs
  unfold Spec.HasText at hc hv
  obtain ⟨l, hl, hgood, hall⟩ := good_items hW hs
  have hord : ∀ i ∈ l, Spec.OrdinaryName i.name := by
    intro i hi
    obtain ⟨v, e, hg⟩ := hgood i hi
    exact (hs.names i.name (mem_keys_of_get hg.value)).1
  obtain ⟨o0, ho0⟩ := loadFile_total (vb := verbose) (initSofa_nodup hnew) hl hord
  obtain ⟨cv', c', vv, conv', r1, r2, r3, r4, r5, r6⟩ := resetConvention_inv hW.verified.reset
  have hknown : verifyConvention env v c = .ok () := by
    obtain ⟨wc, hwc, htc⟩ := hc
    obtain ⟨wv, hwv, htv⟩ := hv
    rw [getAttr_of_get hwc] at r1
    rw [getAttr_of_get hwv] at r3
    cases r1
    cases r3
    rw [asStr_text, htc] at r2
    cases r2
    rw [pyStr_text htv] at r4
    exact r4
  rw [← hat.1] at hc hv
  have hopen : openFile fs' filename = .ok f := by
    unfold openFile
    rw [hW.loc]
    simp only [hfile]
  have hfc := file_global hW hs (a := py% "SOFAConventions") hc
  have hfv := file_global hW hs (a := py% "SOFAConventionsVersion") hv
  refine ⟨path, f, o0, ⟨hW.loc, hfile, ⟨_, hfc, rfl⟩, ⟨_, hfv, rfl⟩, hknown, hnew, ho0, rfl, fun _ => rfl, Or.inl rfl⟩, ?_⟩
  intro o2 h2
  unfold readSofa
  simp only [hopen, fileAttr, hfc, hfv, Val.asStr, hknown, hnew, ho0, h2]

theorem verifyRead_total {env : Env} {o : Obj} {v : Str} {arg : VerifyArg} {pv : List Nat} {r : Option Str}
    (hv : (verify env o .raise .read).out = .ok r) (hp : parseVersion v = .ok pv) :
    ∃ o2, (verifyRead env o v arg).out = .ok o2 := by
  unfold verifyRead
  cases arg with
  | no => exact ⟨_, rfl⟩
  | yes => simp only [if_true, hv]; exact ⟨_, rfl⟩
  | auto =>
    simp only [isStable, hp]
    split
    · simp only [hv]; exact ⟨_, rfl⟩
    · exact ⟨_, rfl⟩

/-- reading the file that was written succeeds -/
theorem read_total {env : Env} {nc : Nc} {fs : FS} {filename : Str} {o : Obj} {compression : Nat} {c v : Str}
    {arg : VerifyArg} {verbose : Bool} {new : Obj} {pv : List Nat}
    (hw : (writeSofa env nc fs filename o compression).out = .ok ())
    (hs : Spec.Storable env.rnd nc.isFill (writeSofa env nc fs filename o compression).obj)
    (hrep : Spec.Repeatable (writeSofa env nc fs filename o compression).obj)
    (hx : Spec.Exchangeable env (writeSofa env nc fs filename o compression).obj)
    (hc : Spec.HasText o (py% "GLOBAL_SOFAConventions") c) (hv : Spec.HasText o (py% "GLOBAL_SOFAConventionsVersion") v)
    (hnew : (initSofa env c false (.exact v) arg).out = .ok new) (hd : Spec.DescribesItself c v new)
    (hpv : parseVersion v = .ok pv) :
    ∃ o2, (readSofa env nc (writeSofa env nc fs filename o compression).fs filename arg verbose).out = .ok o2 := by
  obtain ⟨path, f, o0, hR, hall⟩ := read_open (verbose := verbose) hw hs hc hv hnew
  obtain ⟨o1, api, ds, r, hV, hr, hres, hra, hc2, hv2⟩ := resembles_of_read hw hs hx hc hv hnew hd hR
  obtain ⟨o2, h2⟩ := verifyRead_total (arg := arg) (hres.verified hV hs hrep hx hc hv hr hra hc2 hv2 .read) hpv
  exact ⟨o2, hall o2 h2⟩

/-! ## The conditions hold again -/

theorem Resembles.same {nc : Nc} {o' r r' : Obj} {ds : Dict Str} (h : Resembles nc o' r ds) (h1 : r'.attrs = r.attrs)
    (h2 : r'.conv = r.conv) (h3 : r'.custom = r.custom) : Resembles nc o' r' ds := by
  have hd : ∀ k, Spec.IsData r' k ↔ Spec.IsData r k := fun k => by unfold Spec.IsData; rw [h1]
  refine ⟨?_, ?_, ?_, ?_, ?_, ?_, ?_⟩
  · intro k; rw [hd]; exact h.keys k
  · rw [h1, h2]; exact h.item
  · simpa only [hd, h2] using h.conv
  · simpa only [hd, h2] using h.entries
  · rw [h2]; exact h.back
  · simpa only [hd, h2, h3] using h.custom
  · rw [h3]; exact h.plain

theorem customDims_no_s (d : Str) : 's' ∉ customDims (Str.upper d) := by
  intro h
  obtain ⟨a, _, ⟨h1, h2⟩ | ⟨h1, h2⟩⟩ := customDims_letters h
  · rw [← h1] at h2; exact absurd h2 (by decide)
  · have : Str.upperC a = 'S' := by rw [← upperC_lowerC, ← h1]; rfl
    rw [this] at h2
    exact h2 (by decide)

theorem customLetters_self (d : Str) : Spec.CustomLetters (customDims (Str.upper d)) (customDims (Str.upper d)) := by
  have h := customDims_again d
  rw [customDims_upper] at h
  have h' : customDims (customDims (Str.upper d)) = (customDims (Str.upper d)).map
      (fun c => if Str.upperC c ∈ py% "ERMNCIS" then Str.upperC c else Str.lowerC c) := by
    simp only [customDims, standardDims, List.contains_iff_mem]
  exact h.symm.trans h'

theorem mem_alternative' {d alt : Str} {c : Char} (h : Spec.IsAlternative d alt) (hc : c ∈ alt) : c ∈ d := by
  obtain ⟨l, r, rfl, hx⟩ := h
  clear hx
  induction l with
  | nil => cases r <;> simp [Str.join, hc]
  | cons a l ih =>
    cases l with
    | nil => cases r <;> simp_all [Str.join]
    | cons b l => simp only [List.cons_append, Str.join, List.mem_append]; right; simpa using ih

section
variable {env : Env} {nc : Nc} {o o1 o' r : Obj} {api : Dict Nat} {ds : Dict Str}

/-- every entry of the object that was read -/
theorem Resembles.entry (h : Resembles nc o' r ds) {k : Str} {e2 : Entry} (he : Dict.get? r.conv k = some e2) :
    ∃ e, Dict.get? o'.conv k = some e ∧ e2.typ = e.typ ∧ (e2 = e ∨ (e.typ = py% "attribute" ∧ e2.dims = none) ∨
      (e.typ ≠ py% "attribute" ∧ ∃ d alt, e.dims = some d ∧ Spec.IsAlternative d alt ∧
        e2.dims = some (customDims (Str.upper alt)))) := by
  rcases h.entries k e2 he with h1 | h1
  · exact ⟨e2, h1, rfl, Or.inl rfl⟩
  · obtain ⟨w, hw⟩ := get_of_mem_keys h1
    obtain ⟨v, hv⟩ := get_of_mem_keys ((h.keys k).2 h1)
    obtain ⟨e, e2', g1, g2, g3, _, _, _, g7⟩ := h.item k v w hv hw
    rw [he] at g2
    cases g2
    refine ⟨e, g1, g3, ?_⟩
    rcases g7 with h | ⟨_, _, g8, g9⟩
    · exact Or.inl h
    · by_cases ht : e.typ = py% "attribute"
      · exact Or.inr (Or.inl ⟨ht, g8 ht⟩)
      · obtain ⟨d, alt, b1, b2, _, b4⟩ := g9 ht
        exact Or.inr (Or.inr ⟨ht, d, alt, b1, b2, b4⟩)

theorem Resembles.exact (h : Resembles nc o' r ds) {k : Str} {w : Val} {e2 : Entry} (hk : Spec.IsVariable r k w e2) :
    ∃ v e, Spec.IsVariable o' k v e ∧ e2.typ = e.typ ∧ ExactItem nc.isFill v e w := by
  obtain ⟨v, hv⟩ := get_of_mem_keys ((h.keys k).2 (mem_keys_of_get hk.1))
  obtain ⟨e, e2', g1, g2, g3, g4, _⟩ := h.item k v w hv hk.1
  rw [hk.2.1] at g2
  cases g2
  exact ⟨v, e, ⟨hv, g1, g3 ▸ hk.2.2⟩, g3, g4⟩

/-- the letters of an alternative of the dimensions, up to case, are already in the object that was written -/
theorem Resembles.letters (h : Resembles nc o' r ds) {k : Str} {e2 : Entry} {d2 : Str} (he : Dict.get? r.conv k = some e2) (hd : e2.dims = some d2) :
    ∃ e d, Dict.get? o'.conv k = some e ∧ e.dims = some d ∧ (d2 = d ∨ ∃ alt, Spec.IsAlternative d alt ∧
      d2 = customDims (Str.upper alt)) := by
  obtain ⟨e, g1, _, rfl | ⟨_, g2⟩ | ⟨_, d, alt, g2, g3, g4⟩⟩ := h.entry he
  · exact ⟨_, d2, g1, hd, Or.inl rfl⟩
  · rw [g2] at hd; cases hd
  · rw [g4] at hd
    cases hd
    exact ⟨e, d, g1, g2, Or.inr ⟨alt, g3, rfl⟩⟩

theorem Resembles.portable (h : Resembles nc o' r ds) (hV : Verified env o o1 api ds .write o')
    (hp : Spec.Portable env nc o') : Spec.Portable env nc r := by
  obtain ⟨hs, hrep, hx, hacc, hasc⟩ := hp
  have hs2 : Spec.Storable env.rnd nc.isFill r := by
    apply second_storable hs hrep h.keys
    intro k x w hx hw
    obtain ⟨e, e2, g1, g2, g3, g4, g5, g6, g7⟩ := h.item k x w hx hw
    refine ⟨e, e2, g1, g2, g3, g6, g5, g4, ?_⟩
    rcases g7 with h | ⟨_, _, _, h⟩
    · exact Or.inl h
    · refine Or.inr fun hne => ?_
      obtain ⟨d, alt, b1, b2, _, b4⟩ := h hne
      exact ⟨d, alt, b1, b2, b4⟩
  -- dimensions of a variable
  have hdims : ∀ {k w e2 d2}, Spec.IsVariable r k w e2 → e2.dims = some d2 → ∃ v e d, Spec.IsVariable o' k v e ∧
      e.dims = some d ∧ (d2 = d ∨ ∃ alt, Spec.IsAlternative d alt ∧ d2 = customDims (Str.upper alt)) := by
    intro k w e2 d2 hk hd
    obtain ⟨v, e, hv, _⟩ := h.exact hk
    obtain ⟨e', d, g1, g2, g3⟩ := h.letters hk.2.1 hd
    have := hv.2.1
    rw [g1] at this
    cases this
    exact ⟨v, _, d, hv, g2, g3⟩
  refine ⟨hs2, ⟨?_, ?_⟩, ⟨h.checkable hV hs hrep hx, h.regular hs hx, ?_, ?_, ?_, hx.lengths⟩, ⟨?_, ?_, ?_⟩, ?_⟩
  · intro k w e2 d2 hk hd
    obtain ⟨v, e, d, h1, h2, rfl | ⟨alt, _, rfl⟩⟩ := hdims hk hd
    · exact hrep.dims k v e _ h1 h2
    · exact customDims_no_s alt
  · intro k w e2 hk ht
    obtain ⟨v, e, h1, h2, h3⟩ := h.exact hk
    obtain ⟨k', v', e', s, c, a1, a2, a3, a4, a5⟩ := hrep.texts k v e h1 (h2 ▸ ht)
    obtain ⟨w', hw'⟩ := get_of_mem_keys ((h.keys k').1 (mem_keys_of_get a1.1))
    obtain ⟨e'', e2', g1, g2, g3, g4, _⟩ := h.item k' v' w' a1.1 hw'
    have := a1.2.1
    rw [g1] at this
    cases this
    refine ⟨k', w', e2', stripNul s, c, ⟨hw', g2, g3 ▸ a1.2.2⟩, g3 ▸ a2, ?_, mem_stripNul a4 a5, a5⟩
    rw [(g4.str a2).2.1]
    exact List.mem_map.2 ⟨_, a3, rfl⟩
  · intro k e2 d2 he hd
    obtain ⟨e, g1, g2, rfl | ⟨_, g3⟩ | ⟨g3, _⟩⟩ := h.entry he
    · exact hx.dimensioned k _ d2 g1 hd
    · rw [g3] at hd; cases hd
    · exact g2 ▸ g3
  · intro k w e2 d2 hk hd
    obtain ⟨v, e, d, h1, h2, rfl | ⟨alt, h3, rfl⟩⟩ := hdims hk hd
    · exact hx.steady k v e _ h1 h2
    · intro first alt' i x hf ha hi hl
      obtain ⟨_, _, d', n, s3, s4, _⟩ := hs.shapes k v e h1
      rw [h2] at s3
      cases s3
      have hcomma : ',' ∉ customDims (Str.upper alt) := customDims_comma (s4 alt h3).2
      have f1 := first_is_alternative hf
      rw [(alternatives_single hcomma).1] at f1 ha
      subst f1
      subst ha
      exact ⟨x, hi, rfl⟩
  · intro cu k e2 hcu hm
    obtain ⟨h1, h2, c', e', x1, x2, x3⟩ := h.custom cu hcu k e2 hm
    refine ⟨h1, fun d2 hd => ?_⟩
    obtain ⟨e, d, g1, g2, rfl | ⟨alt, g3, rfl⟩⟩ := h.letters h2 hd
    · rw [x3] at g1
      cases g1
      exact (hx.custom c' k e' x1 x2).2 _ g2
    · exact customLetters_self alt
  · obtain ⟨n1, n2, n3, n4⟩ := hacc.dims
    refine ⟨n1, n2, n3, ?_⟩
    intro k e2 d2 alt2 x he hd ha hm
    obtain ⟨e, d, g1, g2, rfl | ⟨alt, g3, rfl⟩⟩ := h.letters he hd
    · exact n4 k e _ alt2 x g1 g2 ha hm
    · have hmem : x ∈ customDims (Str.upper alt) := mem_alternative' ha hm
      obtain ⟨i, hi⟩ := List.getElem?_of_mem hmem
      obtain ⟨y, y1, y2, _⟩ := customDims_getElem hi
      rw [y2]
      exact n4 k e d alt y g1 g2 g3 (List.mem_of_getElem? y1)
  · intro k w e2 hk
    obtain ⟨v, e, h1, _⟩ := h.exact hk
    exact hacc.names k v e h1
  · rintro k w ⟨h1, e2, h2, h3⟩
    obtain ⟨v, hv⟩ := get_of_mem_keys ((h.keys k).2 (mem_keys_of_get h1))
    obtain ⟨e, g1, g2, _⟩ := h.entry h2
    exact hacc.attributes k v ⟨hv, e, g1, g2 ▸ h3⟩
  · intro k w e2 hk ht s hm c hc
    obtain ⟨v, e, h1, h2, h3⟩ := h.exact hk
    have ht' : e.typ = py% "string" := h2 ▸ ht
    rw [(h3.str ht').2.1] at hm
    obtain ⟨x, x1, x2⟩ := List.mem_map.1 hm
    cases x with
    | str t =>
      cases x2
      obtain ⟨m, hm⟩ := stripNul_spec t
      exact hasc k v e h1 ht' t x1 c (by rw [hm]; exact List.mem_append_left _ hc)
    | _ => cases x2; exact absurd hc (by simp [stripElem])

end

end Sofar
