import Verif.Model.Complete
import Verif.Spec.Complete
import Verif.Props.Rules
import Verif.Props.Custom
import Verif.Lemmas.CsvValues
/-!
# C85, C86: adding many data at once, the complete object for tests, and the text with the versions
-/
namespace Sofar

/-- what the checks of one call need: names and types are allowed, and the variable of an attribute is known -/
def fineB (known : List Str) : Addition → Bool
  | .var n v t _ => (t = py% "double" || t = py% "string") && ! n.contains '_' && v ≠ .ragged
  | .att n v => n.count '_' = 1 && (Str.startsWith n (py% "GLOBAL_") || known.contains ((Str.beforeLast '_' n).getD []))
      && ! isPrivate n && v ≠ .ragged

/-- the same for a list of calls; variables are known as soon as they were added -/
def allFineB : List Str → List Addition → Bool
  | _, [] => true
  | known, a :: l => fineB known a && allFineB (a.name :: known) l

/-- the dimensions and the type of the call -/
theorem call_eq (o : Obj) (a : Addition) : ∃ t d, a.call o = addEntry o a.name a.value t d := by
  cases a with
  | var n v t d => exact ⟨t, some d, rfl⟩
  | att n v => exact ⟨py% "attribute", none, rfl⟩

theorem call_exists {o : Obj} {a : Addition} (h : o.hasAttr a.name = true) :
    (a.call o).out = .error (.valueError (py% "Entry " ++ a.name ++ py% " already exists")) := by
  obtain ⟨t, d, e⟩ := call_eq o a
  rw [e]
  unfold addEntry checkEntry
  rw [if_pos h]

structure CallOk (o : Obj) (a : Addition) : Prop where
  new : o.hasAttr a.name = false
  pub : isPrivate a.name = false
  value : ∃ w, normalise a.value = .ok w ∧ (a.call o).obj.attrs = Dict.put o.attrs a.name w
  prot : (a.call o).obj.prot = true
  conv : ∀ k, (k = a.name ∨ Dict.has o.conv k = true) → Dict.has (a.call o).obj.conv k = true

theorem call_ok {o : Obj} {a : Addition} (h : (a.call o).out = .ok ()) : CallOk o a := by
  obtain ⟨t, d, e⟩ := call_eq o a
  rw [e] at h
  obtain ⟨hc, hp, w, hw⟩ := addEntry_ok_inv h
  have hr := addEntry_ok o a.name a.value w t d hc hw hp
  refine ⟨checkEntry_new hc, hp, ⟨w, hw, by rw [e, hr]⟩, by rw [e, hr], ?_⟩
  intro k hk
  rw [e, hr]
  simp only [registerCustom]
  split
  · rename_i hh
    rcases hk with rfl | hk
    · exact hh
    · exact hk
  · rcases hk with rfl | hk
    · simp [Dict.has]
    · by_cases hkn : k = a.name
      · subst hkn; simp [Dict.has]
      · simpa [Dict.has, Dict.get?_put_ne _ _ hkn] using hk

theorem fine_call {o : Obj} {known : List Str} (hk : ∀ k ∈ known, Dict.has o.conv k = true) {a : Addition}
    (hf : fineB known a = true) (hn : o.hasAttr a.name = false) : (a.call o).out = .ok () := by
  cases a with
  | var n v t d =>
    simp only [fineB, Bool.and_eq_true, Bool.or_eq_true, decide_eq_true_eq, Bool.not_eq_true'] at hf
    obtain ⟨⟨h1, h2⟩, h3⟩ := hf
    have hne : t ≠ py% "attribute" := by rcases h1 with rfl | rfl <;> decide
    refine (C09_add_variable_names o n v t (some d) h3 hne).2 ⟨hn, h1, ?_, by simp⟩
    intro hm
    rw [← List.contains_iff_mem] at hm
    rw [hm] at h2
    cases h2
  | att n v =>
    simp only [fineB, Bool.and_eq_true, Bool.or_eq_true, decide_eq_true_eq, Bool.not_eq_true'] at hf
    obtain ⟨⟨⟨h1, h2⟩, h3⟩, h4⟩ := hf
    obtain ⟨w, hw⟩ := normalise_ok h4
    have hc : checkEntry o n (py% "attribute") none = none := by
      unfold checkEntry
      replace hn : o.hasAttr n = false := hn
      rw [hn]
      have h5 : ¬ (Str.startsWith n (py% "GLOBAL_") = false ∧ Dict.has o.conv ((Str.beforeLast '_' n).getD []) = false) := by
        rintro ⟨g1, g2⟩
        rcases h2 with h2 | h2
        · rw [h2] at g1; cases g1
        · rw [hk _ (by simpa using h2)] at g2; cases g2
      simp [h1]
      intro g1
      by_cases g2 : Dict.has o.conv ((Str.beforeLast '_' n).getD []) = false
      · exact absurd ⟨g1, g2⟩ h5
      · simpa using g2
    show (addAttribute o n v).out = .ok ()
    unfold addAttribute
    rw [addEntry_ok o n v w _ _ hc hw h3]

theorem hasAttr_call {o : Obj} {a : Addition} (h : CallOk o a) {k : Str} (hk : isPrivate k = false) (hne : k ≠ a.name) :
    (a.call o).obj.hasAttr k = o.hasAttr k := by
  obtain ⟨w, _, hw⟩ := h.value
  rw [Bool.eq_iff_iff, hasAttr_public _ _ hk, hasAttr_public _ _ hk, hw]
  simp [Dict.has, Dict.get?_put_ne _ _ hne]

theorem addAll_step {a : Addition} {l : List Addition} {o : Obj} (h : (a.call o).out = .ok ()) :
    (addAll (a :: l) o).out = (addAll l (a.call o).obj).out ∧ (addAll (a :: l) o).obj = (addAll l (a.call o).obj).obj := by
  simp only [addAll, h]
  exact ⟨trivial, trivial⟩

theorem addAll_pub {l : List Addition} {o : Obj} (h : (addAll l o).out = .ok ()) : ∀ a ∈ l, isPrivate a.name = false := by
  induction l generalizing o with
  | nil => simp
  | cons a l ih =>
    have ha : (a.call o).out = .ok () := by
      cases hr : (a.call o).out with
      | ok u => rfl
      | error e => simp [addAll, hr] at h
    rw [(addAll_step (l := l) ha).1] at h
    intro b hb
    rcases List.mem_cons.1 hb with rfl | hb
    · exact (call_ok ha).pub
    · exact ih h b hb

/-- see `C85_added` -/
theorem added_all (l : List Addition) (o : Obj) (h : (addAll l o).out = .ok ()) :
    (l.map Addition.name).Nodup ∧
    (∀ a ∈ l, o.hasAttr a.name = false ∧
      ∃ w, normalise a.value = .ok w ∧ Dict.get? (addAll l o).obj.attrs a.name = some w) ∧
    (∀ k, k ∉ l.map Addition.name → Dict.get? (addAll l o).obj.attrs k = Dict.get? o.attrs k) ∧
    (l ≠ [] → (addAll l o).obj.prot = true) := by
  induction l generalizing o with
  | nil => exact ⟨List.nodup_nil, by simp, fun k _ => rfl, fun h => absurd rfl h⟩
  | cons a l ih =>
    have ha : (a.call o).out = .ok () := by
      cases hr : (a.call o).out with
      | ok u => rfl
      | error e => simp [addAll, hr] at h
    obtain ⟨s1, s2⟩ := addAll_step (l := l) ha
    rw [s1] at h
    rw [s2]
    have hc := call_ok ha
    obtain ⟨i1, i2, i3, i4⟩ := ih _ h
    obtain ⟨w, hw1, hw2⟩ := hc.value
    have hnot : a.name ∉ l.map Addition.name := by
      intro hm
      obtain ⟨b, hb, hbn⟩ := List.mem_map.1 hm
      have := (i2 b hb).1
      rw [hbn] at this
      have h2 : (a.call o).obj.hasAttr a.name = true := by
        rw [hasAttr_public _ _ hc.pub, hw2]
        exact Or.inl (by simp [Dict.has])
      rw [h2] at this
      cases this
    refine ⟨List.nodup_cons.2 ⟨hnot, i1⟩, ?_, ?_, ?_⟩
    · intro b hb
      rcases List.mem_cons.1 hb with rfl | hb
      · refine ⟨hc.new, w, hw1, ?_⟩
        rw [i3 _ hnot, hw2]
        simp
      · obtain ⟨j1, w', j2, j3⟩ := i2 b hb
        refine ⟨?_, w', j2, j3⟩
        have hne : b.name ≠ a.name := fun e => hnot (e ▸ List.mem_map_of_mem hb)
        refine Classical.byContradiction fun hh => ?_
        rw [Bool.not_eq_false] at hh
        have := hasAttr_call hc (addAll_pub h b hb) hne
        rw [this, hh] at j1
        cases j1
    · intro k hk
      rw [List.map_cons, List.mem_cons, not_or] at hk
      rw [i3 k hk.2, hw2, Dict.get?_put_ne _ _ hk.1]
    · intro _
      cases l with
      | nil => exact hc.prot
      | cons b l => exact i4 (by simp)

/-- C85: if a number of calls of `add_variable` and `add_attribute` succeed one after the other, then all names were new and
different from each other, the object holds all values, and all other data is as before. -/
theorem C85_added (l : List Addition) (o : Obj) (h : (addAll l o).out = .ok ()) :
    (l.map Addition.name).Nodup ∧
    (∀ a ∈ l, Dict.get? o.attrs a.name = none ∧
      ∃ w, Spec.StoredAs a.value w ∧ Dict.get? (addAll l o).obj.attrs a.name = some w) ∧
    (∀ k, k ∉ l.map Addition.name → Dict.get? (addAll l o).obj.attrs k = Dict.get? o.attrs k) ∧
    (l ≠ [] → (addAll l o).obj.prot = true) := by
  obtain ⟨h1, h2, h3, h4⟩ := added_all l o h
  refine ⟨h1, fun a ha => ?_, h3, h4⟩
  obtain ⟨h5, w, h6, h7⟩ := h2 a ha
  refine ⟨?_, w, storedAs_normalise h6, h7⟩
  unfold Obj.hasAttr Dict.has at h5
  simp only [Bool.or_eq_false_iff, Option.isSome_eq_false_iff, Option.isNone_iff_eq_none] at h5
  exact h5.1.1.1

/-- two calls that succeed, on an object that has custom data already -/
example : (addAll [.var (py% "Humidity") (.list ⟨.f, [], [.num (.fin 40)]⟩) (py% "double") (py% "I"),
      .att (py% "Humidity_Units") (.val (.str (py% "percent")))] exAdded).out = .ok () ∧
    (Dict.get? exAdded.attrs (py% "Foo")).isSome = true := by decide +kernel

theorem addAll_prefix {l1 l2 : List Addition} {o : Obj} {known : List Str} (hf : allFineB known (l1 ++ l2) = true)
    (hk : ∀ k ∈ known, Dict.has o.conv k = true) (hnd : ((l1 ++ l2).map Addition.name).Nodup)
    (hp : ∀ a ∈ l1 ++ l2, isPrivate a.name = false) (hnew : ∀ b ∈ l1, o.hasAttr b.name = false) :
    ∃ known', allFineB known' l2 = true ∧ (∀ k ∈ known', Dict.has (addAll l1 o).obj.conv k = true) ∧
      (addAll l1 o).out = .ok () ∧ (addAll (l1 ++ l2) o).out = (addAll l2 (addAll l1 o).obj).out ∧
      ∀ a ∈ l2, (addAll l1 o).obj.hasAttr a.name = o.hasAttr a.name := by
  induction l1 generalizing o known with
  | nil => exact ⟨known, hf, hk, rfl, rfl, fun _ _ => rfl⟩
  | cons b l1 ih =>
    simp only [List.cons_append, allFineB, Bool.and_eq_true] at hf
    simp only [List.cons_append, List.map_cons, List.nodup_cons] at hnd
    have hb := fine_call hk hf.1 (hnew b List.mem_cons_self)
    have hc := call_ok hb
    have hsame : ∀ a ∈ l1 ++ l2, (b.call o).obj.hasAttr a.name = o.hasAttr a.name := fun a ha =>
      hasAttr_call hc (hp a (List.mem_cons_of_mem _ ha)) (fun e => hnd.1 (e ▸ List.mem_map_of_mem ha))
    obtain ⟨known', i1, i2, i3, i4, i5⟩ := ih (o := (b.call o).obj) hf.2
      (by
        intro k hk'
        rcases List.mem_cons.1 hk' with rfl | hk'
        · exact hc.conv _ (Or.inl rfl)
        · exact hc.conv _ (Or.inr (hk k hk')))
      hnd.2 (fun a ha => hp a (List.mem_cons_of_mem _ ha))
      (fun a ha => by
        rw [hsame a (List.mem_append_left _ ha)]
        exact hnew a (List.mem_cons_of_mem _ ha))
    refine ⟨known', i1, ?_, ?_, ?_, ?_⟩
    · rw [(addAll_step hb).2]; exact i2
    · rw [(addAll_step hb).1]; exact i3
    · rw [List.cons_append, (addAll_step hb).1, (addAll_step hb).2]; exact i4
    · intro a ha
      rw [(addAll_step hb).2, i5 a ha, hsame a (List.mem_append_right _ ha)]

theorem completeCalls_fine : allFineB [] completeCalls = true ∧ (completeCalls.map Addition.name).Nodup ∧
    (∀ a ∈ completeCalls, isPrivate a.name = false) ∧ completeCalls.map Addition.name = Spec.completeData.map Prod.fst ∧
    (∀ a ∈ completeCalls, a.name ∉ publicMembers) ∧
    completeCalls.map (fun a => normalise a.value) = Spec.completeData.map (fun p => .ok p.2) := by decide +kernel

theorem complete_get {l : List Addition} {d : List (Str × Val)} (h1 : l.map Addition.name = d.map Prod.fst)
    (h2 : l.map (fun a => normalise a.value) = d.map (fun p => .ok p.2)) {p : Str × Val} (hp : p ∈ d) :
    ∃ a ∈ l, a.name = p.1 ∧ normalise a.value = .ok p.2 := by
  induction l generalizing d with
  | nil =>
    cases d with
    | nil => cases hp
    | cons _ _ => simp at h1
  | cons a l ih =>
    cases d with
    | nil => cases hp
    | cons q d =>
      simp only [List.map_cons, List.cons.injEq] at h1 h2
      rcases List.mem_cons.1 hp with rfl | hp
      · exact ⟨a, List.mem_cons_self, h1.1, h2.1⟩
      · obtain ⟨b, hb, h⟩ := ih h1.2 h2.2 hp
        exact ⟨b, List.mem_cons_of_mem _ hb, h⟩

/-- the data of a new object with all additions -/
theorem complete_data {new : Obj} (h : (addAll completeCalls new).out = .ok ()) :
    (∀ p ∈ Spec.completeData, Dict.get? new.attrs p.1 = none ∧
      Dict.get? (addAll completeCalls new).obj.attrs p.1 = some p.2) ∧
    (∀ k, k ∉ Spec.completeData.map Prod.fst →
      Dict.get? (addAll completeCalls new).obj.attrs k = Dict.get? new.attrs k) := by
  obtain ⟨_, _, f3, f4, f5, f6⟩ := completeCalls_fine
  obtain ⟨_, a2, a3, _⟩ := added_all completeCalls new h
  refine ⟨?_, by rw [← f4]; exact a3⟩
  intro p hp
  obtain ⟨a, ha, hn, hv⟩ := complete_get f4 f6 hp
  obtain ⟨g1, w, g2, g3⟩ := a2 a ha
  rw [hv] at g2
  cases g2
  rw [← hn]
  refine ⟨?_, g3⟩
  cases hg : Dict.get? new.attrs a.name with
  | none => rfl
  | some v =>
    rw [(hasAttr_data (f5 a ha) (f3 a ha)).2 ⟨v, hg⟩] at g1
    cases g1

/-- C85: if `_complete_sofa` returns an object, it is a new object with all data from the list, and passes every further
verification. -/
theorem C85_complete (env : Env) (convention : Str) (o : Obj) (h : (completeSofa env convention).out = .ok o) :
    ∃ new, (initSofa env convention false .latest .auto).out = .ok new ∧
      (∀ p ∈ Spec.completeData, Dict.get? new.attrs p.1 = none ∧ Dict.get? o.attrs p.1 = some p.2) ∧
      (∀ k, k ∉ Spec.completeData.map Prod.fst → Dict.get? o.attrs k = Dict.get? new.attrs k) ∧
      ∀ mode, (verify env o .raise mode).out = .ok none := by
  unfold completeSofa at h
  simp only at h
  cases hi : (initSofa env convention false .latest .auto).out with
  | error e => simp [hi] at h
  | ok new =>
    simp only [hi] at h
    cases ha : (addAll completeCalls new).out with
    | error e => simp [ha] at h
    | ok u =>
      simp only [ha] at h
      obtain ⟨g1, g2⟩ := complete_data ha
      generalize hx : (addAll completeCalls new).obj = x at h g1 g2
      cases hv : (verify env x .raise .write).out with
      | error e => simp [hv] at h
      | ok r =>
        simp only [hv, Except.ok.injEq] at h
        subst h
        have hat : (verify env x .raise .write).obj.attrs = x.attrs := C21_raise_adds_nothing env x .write
        rw [hat]
        have hw : (verify env (verify env x .raise .write).obj .raise .write).out = .ok r := by
          rw [C30_idempotent env x .write r hv]; exact hv
        have hr := C28_write_implies_read env _ r hw
        refine ⟨new, rfl, g1, g2, fun mode => ?_⟩
        cases mode with
        | read => exact hr
        | write =>
          rw [hw]
          have := hw
          unfold verify at this
          rw [verifyG_raise_ok_iff] at this
          rw [this.1]

example : (completeSofa exEnv (py% "FIR")).out.toOption.isSome = true ∧ Spec.completeData.length = 31 := by decide +kernel

/-- C85: if the convention already has data from the list, `_complete_sofa` raises a ValueError that names the first one. -/
theorem C85_contained (env : Env) (convention : Str) (new : Obj) (before after : List (Str × Val)) (n : Str) (v w : Val)
    (hi : (initSofa env convention false .latest .auto).out = .ok new)
    (hd : Spec.completeData = before ++ (n, v) :: after) (hb : ∀ p ∈ before, Dict.get? new.attrs p.1 = none)
    (hn : Dict.get? new.attrs n = some w) :
    (completeSofa env convention).out = .error (.valueError (py% "Entry " ++ n ++ py% " already exists")) := by
  obtain ⟨f1, f2, f3, f4, f5, f6⟩ := completeCalls_fine
  have h4 := f4
  rw [hd, List.map_append, List.map_cons] at h4
  obtain ⟨l1, l2, hl, hl1, hl2⟩ := List.map_eq_append_iff.1 h4
  obtain ⟨a, l3, rfl, han, hl3⟩ := List.map_eq_cons_iff.1 hl2
  have hmem : ∀ b ∈ l1, b ∈ completeCalls := fun b hb => by rw [hl]; exact List.mem_append_left _ hb
  have hnew : ∀ b ∈ l1, new.hasAttr b.name = false := by
    intro b hb'
    have : b.name ∈ before.map Prod.fst := hl1 ▸ List.mem_map_of_mem hb'
    obtain ⟨p, hp, hpn⟩ := List.mem_map.1 this
    refine Classical.byContradiction fun hh => ?_
    rw [Bool.not_eq_false, hasAttr_data (f5 b (hmem b hb')) (f3 b (hmem b hb'))] at hh
    obtain ⟨x, hx⟩ := hh
    rw [← hpn, hb p hp] at hx
    cases hx
  have ham : a ∈ completeCalls := by rw [hl]; simp
  have ha : new.hasAttr a.name = true := (hasAttr_data (f5 a ham) (f3 a ham)).2 ⟨w, by rw [han]; exact hn⟩
  obtain ⟨known', _, _, g3, g4, g5⟩ := addAll_prefix (o := new) (l1 := l1) (l2 := a :: l3) (known := [])
    (by rw [← hl]; exact f1) (by simp) (by rw [← hl]; exact f2) (by rw [← hl]; exact f3) hnew
  have hout : (addAll completeCalls new).out = .error (.valueError (py% "Entry " ++ n ++ py% " already exists")) := by
    rw [hl, g4]
    have := call_exists (o := (addAll l1 new).obj) (a := a) (by rw [g5 a List.mem_cons_self]; exact ha)
    simp only [addAll, this]
    rw [han]
  unfold completeSofa
  simp only [hi, hout]

/-- a convention with the temperature and the volume of the room -/
def exEnvRoom : Env :=
  { exEnv with files := [⟨py% "FIR_1.0.json", exConvention (py% "1.0") ++
      [(py% "RoomVolume", ⟨none, some (py% "I"), py% "double", .list (exNums .i [1] [7]), []⟩),
       (py% "RoomTemperature", ⟨none, some (py% "I"), py% "double", .list (exNums .i [1] [290]), []⟩)]⟩] }

example : (completeSofa exEnvRoom (py% "FIR")).out = .error (.valueError (py% "Entry RoomTemperature already exists")) :=
  C85_contained exEnvRoom (py% "FIR") ((initSofa exEnvRoom (py% "FIR") false .latest .auto).out.toOption.getD exSofa)
    (Spec.completeData.take 21) (Spec.completeData.drop 22) (py% "RoomTemperature") (.num .i (.num (.fin 0)))
    (.arr (exNums .i [1] [290])) (by decide +kernel) (by decide +kernel) (by decide +kernel) (by decide +kernel)

/-- C85: if the convention has no data from the list, only the verification can make `_complete_sofa` fail. -/
theorem C85_not_contained (env : Env) (convention : Str) (new : Obj)
    (hi : (initSofa env convention false .latest .auto).out = .ok new)
    (hd : ∀ p ∈ Spec.completeData, Dict.get? new.attrs p.1 = none) :
    ∃ x : Obj, (∀ p ∈ Spec.completeData, Dict.get? x.attrs p.1 = some p.2) ∧
      (∀ k, k ∉ Spec.completeData.map Prod.fst → Dict.get? x.attrs k = Dict.get? new.attrs k) ∧
      ∀ e, (completeSofa env convention).out = .error e ↔ (verify env x .raise .write).out = .error e := by
  obtain ⟨f1, f2, f3, f4, f5, f6⟩ := completeCalls_fine
  have hnew : ∀ b ∈ completeCalls, new.hasAttr b.name = false := by
    intro b hb'
    have : b.name ∈ Spec.completeData.map Prod.fst := f4 ▸ List.mem_map_of_mem hb'
    obtain ⟨p, hp, hpn⟩ := List.mem_map.1 this
    refine Classical.byContradiction fun hh => ?_
    rw [Bool.not_eq_false, hasAttr_data (f5 b hb') (f3 b hb')] at hh
    obtain ⟨x, hx⟩ := hh
    rw [← hpn, hd p hp] at hx
    cases hx
  obtain ⟨_, _, _, g3, _⟩ := addAll_prefix (o := new) (l1 := completeCalls) (l2 := []) (known := [])
    (by rw [List.append_nil]; exact f1) (by simp) (by rw [List.append_nil]; exact f2) (by rw [List.append_nil]; exact f3) hnew
  obtain ⟨g1, g2⟩ := complete_data g3
  refine ⟨_, fun p hp => (g1 p hp).2, g2, fun e => ?_⟩
  unfold completeSofa
  simp only [hi, g3]
  cases hv : (verify env (addAll completeCalls new).obj .raise .write).out with
  | error x => simp
  | ok r => simp

example : (initSofa exEnv (py% "FIR") false .latest .auto).out = .ok exSofa ∧
    ∀ p ∈ Spec.completeData, Dict.get? exSofa.attrs p.1 = none := by decide +kernel

/-! ## C86 -/

theorem universalNewlines_line {line : Str} (h : ∀ c ∈ line, c ≠ '\n' ∧ c ≠ '\r') (rest : Str)
    (hr : rest = [] ∨ ∃ t, rest = '\n' :: t ∨ rest = '\r' :: t) :
    firstLine (line ++ rest) = line := by
  unfold firstLine
  suffices H : (universalNewlines false (line ++ rest)).takeWhile (· ≠ '\n') = line from H
  induction line with
  | nil =>
    rcases hr with rfl | ⟨t, rfl | rfl⟩ <;> simp [universalNewlines]
  | cons c line ih =>
    obtain ⟨h1, h2⟩ := h c List.mem_cons_self
    simp only [List.cons_append, universalNewlines, h2, if_false, h1, decide_false, Bool.false_and, Bool.false_eq_true]
    rw [List.takeWhile_cons_of_pos (by simpa using h1)]
    exact congrArg _ (ih (fun c hc => h c (List.mem_cons_of_mem _ hc)))

/-- C86: the text given by `version` names the version of sofar and the first line of the file `VERSION` without white space
at its ends, whatever follows this line and however it is terminated. -/
theorem C86_version (env : Env) (line v rest : Str) (hl : ∀ c ∈ line, c ≠ '\n' ∧ c ≠ '\r') (hv : Spec.Trimmed line v)
    (hr : rest = [] ∨ ∃ t, rest = '\n' :: t ∨ rest = '\r' :: t) :
    versionText env (line ++ rest) =
      py% "sofar v" ++ env.apiVersion ++ py% " implementing SOFA standard " ++ v := by
  unfold versionText
  rw [universalNewlines_line hl rest hr, strip_of_trimmed hv]

example : versionText exEnv (py% " AES69-2022 " ++ py% "\r\nsecond line\n") =
    py% "sofar v" ++ exEnv.apiVersion ++ py% " implementing SOFA standard " ++ py% "AES69-2022" :=
  C86_version exEnv _ _ _ (by decide) ((strip_iff _ _).2 (by decide +kernel)) (Or.inr ⟨_, Or.inr rfl⟩)

end Sofar
