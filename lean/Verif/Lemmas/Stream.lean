import Verif.Model.Stream
import Verif.Spec.Stream
import Verif.Lemmas.Writable
/-!
# Single entries of files
-/
namespace Sofar

/-! ## Names -/

theorem replaceGo_none {old new s : Str} (h : ¬ old <:+: s) : Str.replaceGo old new 0 s = s := by
  induction s with
  | nil => rfl
  | cons c t ih =>
    simp only [Str.replaceGo]
    rw [if_neg, ih]
    · intro hi; exact h (hi.trans (List.suffix_cons c t).isInfix)
    · intro hp
      exact h (List.isPrefixOf_iff_prefix.1 hp).isInfix

theorem replace_none {old new s : Str} (h : ¬ old <:+: s) : Str.replace s old new = s := replaceGo_none h

theorem replaceGo_skip (old new : Str) (n : Nat) (a t : Str) (h : a.length = n) :
    Str.replaceGo old new n (a ++ t) = Str.replaceGo old new 0 t := by
  induction n generalizing a with
  | zero => rw [List.eq_nil_of_length_eq_zero h]; rfl
  | succ n ih =>
    cases a with
    | nil => simp at h
    | cons c a => simp only [List.cons_append, Str.replaceGo]; exact ih a (by simpa using h)

theorem replace_prefix {c : Char} {old new t : Str} :
    Str.replace ((c :: old) ++ t) (c :: old) new = new ++ Str.replace t (c :: old) new := by
  unfold Str.replace
  rw [List.cons_append, Str.replaceGo, if_pos]
  · rw [List.length_cons, Nat.add_sub_cancel, replaceGo_skip _ _ _ _ _ rfl]
  · rw [List.isPrefixOf_iff_prefix, ← List.cons_append]; exact List.prefix_append _ _

/-- a word with an underscore, found in a text -/
theorem word_infix {w a t : Str} (hw : '_' ∉ w) (ha : '_' ∉ a) (h : (w ++ py% "_") <:+: a ++ '_' :: t) :
    w <:+ a ∨ (w ++ py% "_") <:+: t := by
  obtain ⟨p, q, hpq⟩ := h
  have h1 : (p ++ w) ++ '_' :: q = a ++ '_' :: t := by simpa using hpq
  rcases List.append_eq_append_iff.1 h1 with ⟨as, e1, e2⟩ | ⟨bs, e1, e2⟩
  · cases as with
    | nil => left; rw [List.append_nil] at e1; rw [e1]; exact List.suffix_append _ _
    | cons c as =>
      simp only [List.cons_append, List.cons.injEq] at e2
      rw [← e2.1] at e1
      exact absurd (by rw [e1]; simp) ha
  · cases bs with
    | nil => left; rw [List.append_nil] at e1; rw [← e1]; exact List.suffix_append _ _
    | cons c bs =>
      simp only [List.cons_append, List.cons.injEq] at e2
      obtain ⟨rfl, rfl⟩ := e2
      right
      rcases List.append_eq_append_iff.1 e1 with ⟨as, f1, f2⟩ | ⟨as, f1, f2⟩
      · exact absurd (by rw [f2]; simp) hw
      · cases as with
        | nil => exact absurd (by rw [List.nil_append] at f2; rw [← f2]; simp) hw
        | cons c as =>
          simp only [List.cons_append, List.cons.injEq] at f2
          rw [f2.2]
          exact ⟨as, q, by simp⟩

theorem word_not_infix {w t : Str} (ht : '_' ∉ t) : ¬ (w ++ py% "_") <:+: t := by
  rintro ⟨p, q, rfl⟩
  exact ht (by simp)

/-- a variable name that is found under its name in the file -/
theorem streamName_plain {k : Str} (h : Spec.PlainVariable k) : streamName k = ncName k ∧ '_' ∉ ncName k := by
  unfold streamName ncName
  rcases h with h | ⟨r, rfl, h⟩
  · have h1 : ¬ (py% "GLOBAL_") <:+: k := word_not_infix (w := py% "GLOBAL") h
    have h2 : ¬ (py% "Data_") <:+: k := word_not_infix (w := py% "Data") h
    rw [replace_none h1, replace_none h2]
    exact ⟨rfl, h⟩
  · have h1 : ¬ (py% "GLOBAL_") <:+: py% "Data_" ++ r := by
      intro hi
      rcases word_infix (w := py% "GLOBAL") (a := py% "Data") (t := r) (by decide) (by decide) hi with h1 | h1
      · exact absurd h1 (by decide)
      · exact word_not_infix h h1
    have h2 : ¬ (py% "Data_") <:+: r := word_not_infix (w := py% "Data") h
    rw [replace_none h1]
    rw [show (py% "Data_" ++ r : Str) = ('D' :: py% "ata_") ++ r from rfl, replace_prefix, replace_none h2]
    refine ⟨rfl, ?_⟩
    simp [h]

theorem streamName_variableAttr {k a : Str} (h : Spec.PlainVariable k) (ha : '_' ∉ a) (hG : ¬ (py% "GLOBAL") <:+ k)
    (hD : ¬ (py% "Data") <:+ k) : streamName (k ++ '_' :: a) = ncName k ++ '_' :: a := by
  have ga : ¬ (py% "GLOBAL_") <:+: a := word_not_infix (w := py% "GLOBAL") ha
  have da : ¬ (py% "Data_") <:+: a := word_not_infix (w := py% "Data") ha
  unfold streamName ncName
  rcases h with h | ⟨r, rfl, h⟩
  · have h1 : ¬ (py% "GLOBAL_") <:+: k ++ '_' :: a := fun hi =>
      (word_infix (w := py% "GLOBAL") (by decide) h hi).elim hG ga
    have h2 : ¬ (py% "Data_") <:+: k ++ '_' :: a := fun hi =>
      (word_infix (w := py% "Data") (by decide) h hi).elim hD da
    have h3 : ¬ (py% "Data_") <:+: k := word_not_infix (w := py% "Data") h
    rw [replace_none h1, replace_none h2, replace_none h3]
  · have hG' : ¬ (py% "GLOBAL") <:+ r := fun hi => hG (hi.trans (List.suffix_append _ _))
    have hD' : ¬ (py% "Data") <:+ r := fun hi => hD (hi.trans (List.suffix_append _ _))
    have h1 : ¬ (py% "GLOBAL_") <:+: (py% "Data_" ++ r) ++ '_' :: a := by
      intro hi
      rcases word_infix (w := py% "GLOBAL") (a := py% "Data") (t := r ++ '_' :: a) (by decide) (by decide) hi with h1 | h1
      · exact absurd h1 (by decide)
      · exact (word_infix (w := py% "GLOBAL") (by decide) h h1).elim hG' ga
    have h2 : ¬ (py% "Data_") <:+: r := word_not_infix (w := py% "Data") h
    have h3 : ¬ (py% "Data_") <:+: r ++ '_' :: a := fun hi =>
      (word_infix (w := py% "Data") (by decide) h hi).elim hD' da
    rw [replace_none h1, List.append_assoc]
    rw [show (py% "Data_" ++ (r ++ '_' :: a) : Str) = ('D' :: py% "ata_") ++ (r ++ '_' :: a) from rfl,
      show (py% "Data_" ++ r : Str) = ('D' :: py% "ata_") ++ r from rfl, replace_prefix, replace_prefix, replace_none h2,
      replace_none h3, List.append_assoc]

theorem streamName_global {a : Str} (ha : '_' ∉ a) : streamName (py% "GLOBAL_" ++ a) = a := by
  have ga : ¬ (py% "GLOBAL_") <:+: a := word_not_infix (w := py% "GLOBAL") ha
  have da : ¬ (py% "Data_") <:+: a := word_not_infix (w := py% "Data") ha
  unfold streamName
  rw [show (py% "GLOBAL_" ++ a : Str) = ('G' :: py% "LOBAL_") ++ a from rfl, replace_prefix, replace_none ga,
    List.nil_append, replace_none da]

/-! ## Values -/

theorem mem_files_unique {env : Env} {nc : Nc} {o : Obj} {api : Dict Nat} {ds : Dict Str} {f : NcFile}
    (hf : FileWritten env nc o api ds f) (hn : ∀ k ∈ o.keys, '.' ∉ k) {k : Str} {p : Str × NcVar} (hp : p ∈ f.vars)
    (hw : VarWritten env nc o api ds k p) : ∃ x, Dict.get? f.vars (ncName k) = some x ∧
      VarWritten env nc o api ds k (ncName k, x) := by
  have hname : p.1 = ncName k := by
    obtain ⟨_, _, _, _, _, _, _, _, _, _, _, _, _, _, _, _, _, _, h, _⟩ := hw.ex
    exact h
  have hhas : Dict.has f.vars (ncName k) = true := by
    rw [Dict.has_iff_mem]
    exact List.mem_map.2 ⟨p, hp, hname⟩
  cases hg : Dict.get? f.vars (ncName k) with
  | none => simp [Dict.has, hg] at hhas
  | some x =>
    refine ⟨x, rfl, ?_⟩
    obtain ⟨k', hk', hw'⟩ := hf.from_ _ (Dict.mem_of_get? hg)
    obtain ⟨v', _, _, _, _, _, _, _, _, _, _, _, _, _, _, _, _, _, h, _⟩ := hw'.ex
    obtain ⟨v, _, _, _, _, _, _, _, _, hv, _⟩ := hw.ex
    have : k = k' := ncName_inj (hn k (mem_keys_of_get hv)) (hn k' hk') h
    subst this
    exact hw'

/-- numbers in the file -/
theorem double_stored {env : Env} {v : Val} {d : Str} {S : Nat} {k : Str} {kind : Kind} {a b : Arr}
    {api : Dict Nat} {t : List Nat} {data : List Elem} (hf : formatFor v (py% "double") d S k = .ok (kind, a))
    (hb : netcdfData env kind a = .ok b) (ht : ShapeFits api (d.map (fun c => [c])) t) (hc : conform b t = .ok data)
    (hO : Spec.kindOf v ≠ .O) (hn : ∀ c ∈ d, sizeIn api c ≠ 0)
    (hs : Spec.SameUpToOnes (Spec.shapeOf v) (d.map (sizeIn api))) :
    kind = .f ∧ Spec.SameUpToOnes (Spec.shapeOf v) t ∧ data = (Spec.elems v).map (storedElem env (Spec.kindOf v)) := by
  obtain ⟨e1, e2, e3⟩ := toArr_spec hO
  simp only [formatFor, if_true, Except.ok.injEq, Prod.mk.injEq] at hf
  obtain ⟨rfl, rfl⟩ := hf
  refine ⟨rfl, ?_⟩
  simp only [netcdfData, Arr.withShape] at hb
  split at hb
  · simp at hb
  · rename_i l hl
    simp only [Except.ok.injEq] at hb
    have hl' := toDoubles_ok hl
    rw [e1, e3] at hl'
    have hsb : Spec.SameUpToOnes b.shape (d.map (sizeIn api)) := by
      rw [← hb]
      unfold Spec.SameUpToOnes at hs ⊢
      simp only [e2]
      exact (filter_atleastNd _ _).trans hs
    have htt := shape_fits ht hn
    rw [← htt] at hsb hs
    rw [conform_upToOnes hsb] at hc
    have hdata : data = l := by rw [← hb] at hc; simpa using hc.symm
    exact ⟨hs, hdata.trans hl'⟩

/-- texts in the file -/
theorem string_stored {env : Env} {v : Val} {d : Str} {S : Nat} {k : Str} {kind : Kind} {a b : Arr}
    {api : Dict Nat} {t : List Nat} {data : List Elem}
    (hf : formatFor v (py% "string") (d ++ py% "S") S k = .ok (kind, a))
    (hb : netcdfData env kind a = .ok b) (ht : ShapeFits api ((d ++ py% "S").map (fun c => [c])) t)
    (hc : conform b t = .ok data) (hS : Dict.get? api (py% "S") = some S) (hS0 : S ≠ 0)
    (hk : Spec.kindOf v ≠ .O) (hn : ∀ c ∈ d, sizeIn api c ≠ 0)
    (hs : Spec.SameUpToOnes (Spec.shapeOf v) (d.map (sizeIn api)))
    (hlen : ∀ s, Elem.str s ∈ Spec.elems v → s.length ≤ S) :
    kind = .S ∧ ∃ u, t = u ++ [S] ∧ Spec.SameUpToOnes (Spec.shapeOf v) u ∧ Spec.CharsOf S (Spec.elems v) data := by
  obtain ⟨e1, e2, e3⟩ := toArr_spec hk
  unfold formatFor at hf
  rw [if_neg (by decide), if_pos rfl] at hf
  cases ha : asciiElems (toArr v).data with
  | error e => simp [ha] at hf
  | ok u =>
    simp only [ha, Except.ok.injEq, Prod.mk.injEq] at hf
    obtain ⟨rfl, rfl⟩ := hf
    refine ⟨rfl, ?_⟩
    rw [e3] at ha
    have hasc := asciiElems_ok ha
    have hw : charWidth S (Spec.elems v) = S := by simp [charWidth, hS0]
    simp only [netcdfData, Except.ok.injEq, e3, e2, hw] at hb
    have hsz : sizeIn api 'S' = S := by simp [sizeIn, hS]
    have htt := shape_fits ht (by
      intro c hc
      rcases List.mem_append.1 hc with h | h
      · exact hn c h
      · have : c = 'S' := by simpa using h
        rw [this, hsz]; exact hS0)
    rw [List.map_append] at htt
    have htt' : t = d.map (sizeIn api) ++ [S] := by rw [htt]; simp [hsz]
    have hsb : Spec.SameUpToOnes b.shape t := by
      rw [← hb, htt']
      unfold Spec.SameUpToOnes at hs ⊢
      simp only [List.filter_append]
      rw [filter_atleastNd, hs]
    rw [conform_upToOnes hsb, ← hb] at hc
    simp only [Except.ok.injEq] at hc
    refine ⟨_, htt', hs, ?_⟩
    rw [← hc]
    clear hsb hc hb ha e3 hw
    generalize Spec.elems v = l at *
    induction l with
    | nil => exact ⟨[], rfl, by simp, rfl⟩
    | cons e l ih =>
      obtain ⟨s, rfl, _⟩ := hasc e (by simp)
      obtain ⟨m, rfl, g2, g3⟩ := ih (fun s hs => hlen s (by simp [hs]))
        (fun e he => hasc e (by simp [he]))
      have hl := hlen s (by simp)
      refine ⟨s :: m, rfl, ?_, ?_⟩
      · intro t ht
        rcases List.mem_cons.1 ht with rfl | ht
        · exact hl
        · exact g2 t ht
      · rw [List.map_cons, List.map_cons, List.flatten_cons, List.flatten_cons, g3, toChars,
          List.take_of_length_le (by simp; omega)]
        rfl

/-- a variable of the file holds the value of the object -/
theorem holds_value {env : Env} {nc : Nc} {fs : FS} {filename : Str} {o : Obj} {path : Str} {f : NcFile} {o1 : Obj}
    {api : Dict Nat} {ds : Dict Str} {o' : Obj} (hw : WriteOk env nc fs filename o path f o1 api ds o')
    (hst : Spec.Storable env.rnd nc.isFill o') {k : Str} {p : Str × NcVar} (hp : VarWritten env nc o' api ds k p) :
    ∃ v e, Spec.IsVariable o' k v e ∧ Spec.HoldsValue env.rnd p.2 e.typ v := by
  obtain ⟨v, e, d, S, kind, a, b, t, data, h1, h2, h3, h4, h5, h6, h7, h8, h9, h10, h11, h12⟩ := hp.ex
  have hvar : Spec.IsVariable o' k v e := ⟨h1, h2, h3⟩
  obtain ⟨e', he', htyp⟩ := hw.verified.types (hw.verified.attrs.1 ▸ h1)
  rw [h2] at he'
  cases he'
  obtain ⟨hprop, hne, dd, n, hdd, hu, hn, hlen⟩ := hst.shapes k v e hvar
  obtain ⟨alt, ha1, ha2, ha3, ha4, hknow⟩ := verified_shape hw.verified hvar hdd hu hn hlen
  rw [h4] at ha2
  cases ha2
  refine ⟨v, e, hvar, ?_⟩
  rcases htyp with ⟨ht, _⟩ | ⟨ht, hnum⟩ | ⟨ht, hstr⟩
  · exact absurd ht h3
  · obtain ⟨d1, d2, d3⟩ := hst.doubles k v e hvar ht
    have hkind : Spec.kindOf v = .i ∨ Spec.kindOf v = .f := by
      rcases hnum with ⟨x, rfl⟩ | ⟨x, rfl⟩ | ⟨x, rfl, hx⟩
      · exact Or.inl rfl
      · exact Or.inr rfl
      · exact hx
    have hO : Spec.kindOf v ≠ .O := by rcases hkind with h | h <;> simp [h]
    have hnS := d1 dd alt hdd ha1
    rw [← upper_sizes hnS] at ha4
    have hnz : ∀ c ∈ Str.upper alt, sizeIn api c ≠ 0 := fun c hc =>
      nonzero_sizes hprop.1 hO hne ha4 _ (List.mem_map.2 ⟨c, hc, rfl⟩)
    have hnum' : ∀ x ∈ Spec.elems v, x = .masked ∨ ∃ q, x = .num q :=
      hprop.2.1 (by rcases hkind with h | h <;> simp [h])
    rw [ht] at h6
    obtain ⟨rfl, g1, g2⟩ := double_stored h6 h7 h8 h9 hO hnz ha4
    refine .numbers ht (by rw [h12]) (by rw [h12]; exact g1) ?_
    rw [h12]
    simp only [g2]
    apply forall2_map
    intro x hx
    rcases hnum' x hx with rfl | ⟨q, rfl⟩
    · exact Or.inl ⟨rfl, rfl⟩
    · by_cases hf : Spec.kindOf v = .f
      · exact Or.inr (Or.inl ⟨hf, by rw [hf]; cases q <;> rfl⟩)
      · obtain ⟨r, rfl, _, _⟩ := d3 q hf hx
        exact Or.inr (Or.inr ⟨r, hf, rfl, by simp only [storedElem, if_neg hf]⟩)
  · obtain ⟨s1, k', v', e', s', hv', ht', hs', hs0⟩ := hst.strings k v e hvar ht
    have hkind : Spec.kindOf v = .U := by
      rcases hstr with (⟨s, rfl⟩ | ⟨s, rfl⟩) | ⟨x, rfl, hx⟩
      · rfl
      · rfl
      · exact hx
    have hO : Spec.kindOf v ≠ .O := by simp [hkind]
    obtain ⟨al, rfl, hal⟩ := s1 dd alt hdd ha1
    have hS0 : S ≠ 0 := by
      obtain ⟨_, _, dd', n', hdd', _⟩ := hst.shapes k' v' e' hv'
      have := verified_S hw.verified hv' hdd' (fun alt halt => by
        obtain ⟨a, rfl, _⟩ := (hst.strings k' v' e' hv' ht').1 dd' alt hdd' halt
        simp) h5 s' hs'
      have := List.length_pos_iff.2 hs0
      omega
    have hsz : Spec.SameUpToOnes (Spec.shapeOf v) ((Str.upper al).map (sizeIn api)) := by
      rw [upper_sizes hal]
      unfold Spec.SameUpToOnes at ha4 ⊢
      rw [ha4, List.map_append, List.filter_append]
      simp
    have hup : Str.upper (al ++ py% "S") = Str.upper al ++ py% "S" := by
      simp only [Str.upper, List.map_append]
      rfl
    rw [hup] at h4 h6 h8 h11
    have hlen' := verified_S hw.verified hvar hdd (fun alt halt => by
        obtain ⟨a, rfl, _⟩ := s1 dd alt hdd halt
        simp) h5
    have hnz : ∀ c ∈ Str.upper al, sizeIn api c ≠ 0 := fun c hc =>
      nonzero_sizes hprop.1 hO hne hsz _ (List.mem_map.2 ⟨c, hc, rfl⟩)
    rw [ht] at h6
    obtain ⟨rfl, u, g1, g2, g3⟩ := string_stored h6 h7 h8 h9 h5 hS0 hO hnz hsz hlen'
    exact .text u S ht (by rw [h12]) (by rw [h12]; exact g1) g2 (by rw [h12]; exact g3)

/-! ## The verification before the size is taken -/

/-- an object that passes the verification gives the same result with `issue_handling='return'` -/
theorem verify_ret_of_raise {env : Env} {o : Obj} {mode : Mode} {r : Option Str}
    (h : (verify env o .raise mode).out = .ok r) :
    (verify env o .ret mode).out = .ok none ∧ (verify env o .ret mode).obj = (verify env o .raise mode).obj := by
  unfold verify at h ⊢
  obtain ⟨rfl, o1, o3, hr, hp⟩ := (verifyG_raise_ok_iff _ _ _ _ _).1 h
  rw [verifyG_raise_ok_obj _ _ _ _ _ _ hr hp]
  have hrr := verifyG_raise_ret referenceNames env o o1 mode hr hp.mandatory
  rw [h] at hrr
  refine ⟨?_, ?_⟩
  · cases hret : (verifyG referenceNames env o .ret mode).out with
    | error x => have := hrr.exception x hret; simp at this
    | ok t =>
      cases t with
      | none => rfl
      | some t => obtain ⟨_, h0, _⟩ := hrr.some t hret; simp at h0
  · rw [verifyG_present _ _ _ _ _ _ hr hp.mandatory, hp.types]
    simp only [List.isEmpty_nil, Bool.not_true, Bool.false_and, Bool.false_eq_true, if_false]
    unfold verifyBody
    rw [hp.names]
    simp only
    rw [hp.custom]
    simp only
    rw [hp.dims]
    simp only
    rw [hp.shapes]
    simp only
    rw [verifyTail_obj]

theorem getDimension_raise {env : Env} {o : Obj} {r : Option Str} {api : Dict Nat}
    (h : (verify env o .raise .write).out = .ok r) (ha : (verify env o .raise .write).obj.api = some api) (d : Str) :
    (getDimension env o d).out = match Dict.get? api d with
      | none => .error (.valueError (d ++ py% " is not a valid dimension."))
      | some n => .ok n := by
  obtain ⟨h1, h2⟩ := verify_ret_of_raise h
  unfold getDimension updateDimensions
  simp only [h1, h2, ha]
  cases Dict.get? api d <;> rfl

/-! ## Access -/

theorem ordinary_stream {k : Str} (h : Spec.OrdinaryName k) :
    ¬ (streamMembers.contains k || Str.startsWith k (py% "__")) = true := by
  obtain ⟨h1, h2⟩ := h
  simp only [Bool.or_eq_true, not_or]
  constructor
  · intro hm
    simp only [streamMembers, List.contains_eq_mem, decide_eq_true_eq, List.mem_cons, List.not_mem_nil, or_false] at hm
    rcases hm with rfl | rfl | rfl | rfl | rfl | rfl
    · exact absurd h2 (by decide)
    · exact absurd h2 (by decide)
    · exact absurd h2 (by decide)
    · exact h1 (by decide)
    · exact h1 (by decide)
    · exact h1 (by decide)
  · intro hp
    simp only [Str.startsWith, List.isPrefixOf_iff_prefix] at hp
    obtain ⟨t, rfl⟩ := hp
    exact absurd h2 (by simp [isPrivate, Str.startsWith])

theorem streamGet_plain {nc : Nc} {f : NcFile} {k : Str} (hk : Spec.PlainVariable k) (ho : Spec.OrdinaryName k) :
    streamGet nc f k = streamLookup nc f k (ncName k) none := by
  obtain ⟨h1, h2⟩ := streamName_plain hk
  unfold streamGet
  rw [if_neg (ordinary_stream ho), h1, splitChar_not_mem h2]

theorem streamGet_attr {nc : Nc} {f : NcFile} {k a : Str} (hk : Spec.PlainVariable k) (ha : '_' ∉ a)
    (hG : ¬ (py% "GLOBAL") <:+ k) (hD : ¬ (py% "Data") <:+ k) (ho : Spec.OrdinaryName (k ++ '_' :: a)) :
    streamGet nc f (k ++ '_' :: a) = streamLookup nc f (k ++ '_' :: a) (ncName k) (some a) := by
  obtain ⟨h1, h2⟩ := streamName_plain hk
  unfold streamGet
  rw [if_neg (ordinary_stream ho), streamName_variableAttr hk ha hG hD, splitChar_append h2, splitChar_not_mem ha]

theorem streamGet_global {nc : Nc} {f : NcFile} {a : Str} (ha : '_' ∉ a) :
    streamGet nc f (py% "GLOBAL_" ++ a) = streamLookup nc f (py% "GLOBAL_" ++ a) a none := by
  unfold streamGet
  rw [if_neg, streamName_global ha, splitChar_not_mem ha]
  simp [streamMembers, Str.startsWith, List.isPrefixOf]

end Sofar
