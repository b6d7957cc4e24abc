import Verif.Lemmas.FileOrder
import Verif.Lemmas.Writable
/-!
# Writing the data in another order
-/
namespace Sofar

/-! ## Shapes of variables in a file -/

/-- the shape of new data in a file with the dimensions `D` -/
inductive Fits (D : Dict NcDim) : List Str → List Nat → List Nat → Prop
  | nil (s : List Nat) : Fits D [] s []
  | cons {d : Str} {ds : List Str} {s t : List Nat} {x : NcDim} {n : Nat} (h1 : Dict.get? D d = some x)
      (h2 : (if x.unlimited then s.head? else some x.size) = some n) (h3 : Fits D ds s.tail t) : Fits D (d :: ds) s (n :: t)

theorem fits_iff {f : NcFile} {ds : List Str} : ∀ {s t : List Nat},
    (∃ sizes, dimSizes f ds = .ok sizes ∧ targetShape sizes s = .ok t) ↔ Fits f.dims ds s t := by
  induction ds with
  | nil =>
    intro s t
    constructor
    · rintro ⟨z, h1, h2⟩
      cases h1
      cases h2
      exact .nil s
    · intro h
      cases h
      exact ⟨[], rfl, rfl⟩
  | cons d ds ih =>
    intro s t
    constructor
    · rintro ⟨z, h1, h2⟩
      simp only [dimSizes] at h1
      cases hg : Dict.get? f.dims d with
      | none => simp [hg] at h1
      | some x =>
        simp only [hg] at h1
        cases hr : dimSizes f ds with
        | error e => simp [hr] at h1
        | ok r =>
          simp only [hr, Except.ok.injEq] at h1
          subst h1
          simp only [targetShape] at h2
          cases hn : (if x.unlimited then s.head? else some x.size) with
          | none => simp [hn] at h2
          | some n =>
            simp only [hn] at h2
            cases ht : targetShape r s.tail with
            | error e => simp [ht] at h2
            | ok q =>
              simp only [ht, Except.ok.injEq] at h2
              subst h2
              exact .cons hg hn (ih.1 ⟨r, hr, ht⟩)
    · intro h
      cases h with
      | cons h1 h2 h3 =>
        obtain ⟨r, hr, ht⟩ := ih.2 h3
        refine ⟨_ :: r, by simp only [dimSizes, h1, hr]; rfl, ?_⟩
        simp only [targetShape, h2, ht]

/-- dimensions that give the same shapes -/
def SameDims (D D' : Dict NcDim) : Prop :=
  ∀ d x, Dict.get? D d = some x → ∃ y, Dict.get? D' d = some y ∧ y.unlimited = x.unlimited ∧ (x.unlimited = false → y.size = x.size)

theorem Fits.congr {D D' : Dict NcDim} (h : SameDims D D') {ds : List Str} {s t : List Nat} (hf : Fits D ds s t) : Fits D' ds s t := by
  induction hf with
  | nil s => exact .nil s
  | cons h1 h2 _ ih =>
    obtain ⟨y, g1, g2, g3⟩ := h _ _ h1
    refine .cons g1 ?_ ih
    rw [g2]
    split at h2
    · rename_i hu; rw [if_pos hu]; exact h2
    · rename_i hu; rw [if_neg hu, g3 (by simpa using hu)]; exact h2

/-- size of the data in the given dimension -/
def largest (d : Str) : List Str → List Nat → Nat
  | c :: ds, n :: t => if c = d then max n (largest d ds t) else largest d ds t
  | _, _ => 0

theorem get?_growDims (d : Str) : ∀ (ds : List Str) (t : List Nat) (D : Dict NcDim),
    Dict.get? (growDims D ds t) d = (Dict.get? D d).map (fun x => { x with size := max x.size (largest d ds t) }) := by
  intro ds
  induction ds with
  | nil => intro t D; simp [growDims, largest]
  | cons c ds ih =>
    intro t D
    cases t with
    | nil => simp [growDims, largest]
    | cons n t =>
      simp only [growDims, largest]
      rw [ih]
      cases hg : Dict.get? D c with
      | none =>
        by_cases hc : c = d
        · subst hc; simp [hg]
        · simp [hc]
      | some x =>
        simp only
        by_cases hc : c = d
        · subst hc
          rw [Dict.get?_put_self, hg]
          simp [Nat.max_assoc]
        · rw [Dict.get?_put_ne _ _ (fun h => hc h.symm)]
          simp [hc]

theorem Fits.largest_le {D : Dict NcDim} {ds : List Str} {s t : List Nat} (hf : Fits D ds s t) {d : Str} {x : NcDim}
    (hx : Dict.get? D d = some x) (hu : x.unlimited = false) : largest d ds t ≤ x.size := by
  induction hf with
  | nil s => simp [largest]
  | @cons c ds s t y n h1 h2 h3 ih =>
    simp only [largest]
    split
    · rename_i hc
      subst hc
      rw [hx] at h1
      cases h1
      simp only [hu, Bool.false_eq_true, if_false, Option.some.injEq] at h2
      omega
    · exact ih

theorem Fits.grow {D : Dict NcDim} {ds : List Str} {s t : List Nat} (hf : Fits D ds s t) :
    SameDims D (growDims D ds t) ∧ SameDims (growDims D ds t) D := by
  constructor
  · intro d x hx
    refine ⟨{ x with size := max x.size (largest d ds t) }, by rw [get?_growDims, hx]; rfl, rfl, ?_⟩
    intro hu
    have := hf.largest_le hx hu
    simp only
    omega
  · intro d x hx
    rw [get?_growDims] at hx
    obtain ⟨y, hy, rfl⟩ := Option.map_eq_some_iff.1 hx
    refine ⟨y, hy, rfl, ?_⟩
    intro hu
    have := hf.largest_le hy hu
    simp only
    omega

/-! ## Adding variables to a file -/

/-- a variable that is written -/
structure VarPlan where
  name : Str
  dims : List Str
  kind : Kind
  data : Arr
  attrs : Dict Val

/-- adding a variable to a file -/
def Adds (p : VarPlan) (f f' : NcFile) : Prop :=
  Dict.has f.vars p.name = false ∧ ∃ t data, Fits f.dims p.dims p.data.shape t ∧ conform p.data t = .ok data ∧
    f' = { f with dims := growDims f.dims p.dims t, vars := f.vars ++ [(p.name, ⟨p.dims, ⟨p.kind, t, data⟩, p.attrs⟩)] }

/-- files that differ in the order of the variables -/
structure SameFile (f f' : NcFile) : Prop where
  dims : ∀ d, Dict.get? f'.dims d = Dict.get? f.dims d
  attrs : f'.attrs = f.attrs
  vars : f'.vars.Perm f.vars

theorem SameFile.refl (f : NcFile) : SameFile f f := ⟨fun _ => rfl, rfl, .refl _⟩

theorem SameFile.trans {f g h : NcFile} (a : SameFile f g) (b : SameFile g h) : SameFile f h :=
  ⟨fun d => (b.dims d).trans (a.dims d), b.attrs.trans a.attrs, b.vars.trans a.vars⟩

theorem has_perm {V : Type} {d d' : Dict V} (h : d'.Perm d) (k : Str) : Dict.has d' k = Dict.has d k := by
  rw [Bool.eq_iff_iff, Dict.has_iff_mem, Dict.has_iff_mem]
  exact (h.map Prod.fst).mem_iff

theorem sameDims_of_get? {D D' : Dict NcDim} (h : ∀ d, Dict.get? D' d = Dict.get? D d) : SameDims D D' :=
  fun d x hx => ⟨x, by rw [h, hx], rfl, fun _ => rfl⟩

theorem Adds.congr {p : VarPlan} {f f' g : NcFile} (h : Adds p f f') (hg : SameFile f g) : ∃ g', Adds p g g' ∧ SameFile f' g' := by
  obtain ⟨h1, t, data, h2, h3, rfl⟩ := h
  refine ⟨_, ⟨by rw [has_perm hg.vars]; exact h1, t, data, h2.congr (sameDims_of_get? hg.dims), h3, rfl⟩, ?_, hg.attrs, ?_⟩
  · intro d
    simp only [get?_growDims, hg.dims]
  · exact hg.vars.append_right _

theorem Adds.swap {p q : VarPlan} {f f1 f2 : NcFile} (h1 : Adds p f f1) (h2 : Adds q f1 f2) :
    ∃ g1 g2, Adds q f g1 ∧ Adds p g1 g2 ∧ SameFile f2 g2 := by
  obtain ⟨a1, t, data, a2, a3, rfl⟩ := h1
  obtain ⟨b1, u, data', b2, b3, rfl⟩ := h2
  have hnew : ∀ {n m : Str} {x : NcVar} {vs : Dict NcVar}, Dict.has (vs ++ [(n, x)]) m = false ↔ Dict.has vs m = false ∧ m ≠ n := by
    intro n m x vs
    rw [← Bool.not_eq_true, ← Bool.not_eq_true, Dict.has_iff_mem, Dict.has_iff_mem]
    simp [Dict.keys]
  simp only [hnew] at b1
  have hb := b2.congr a2.grow.2
  refine ⟨_, _, ⟨b1.1, u, data', hb, b3, rfl⟩, ⟨?_, t, data, a2.congr hb.grow.1, a3, rfl⟩, ?_, rfl, ?_⟩
  · simp only [hnew]
    exact ⟨a1, fun e => b1.2 e.symm⟩
  · intro d
    simp only [get?_growDims, Option.map_map]
    congr 1
    funext x
    simp only [Function.comp, NcDim.mk.injEq, and_true]
    omega
  · simp only [List.append_assoc]
    exact List.Perm.append_left _ (List.Perm.swap _ _ _)

/-- what is written for a name -/
inductive KeyPlan (env : Env) (nc : Nc) (o : Obj) (c : Nat) (k : Str) : Option VarPlan → Prop
  | skip {e : Entry} (h1 : Dict.get? o.conv k = some e) (h2 : e.typ = py% "attribute") : KeyPlan env nc o c k none
  | var {e : Entry} {v : Val} {ds : Dict Str} {d : Str} {S : Nat} {kind : Kind} {a b : Arr} {at_ : Dict Val}
      (h1 : Dict.get? o.conv k = some e) (h2 : e.typ ≠ py% "attribute") (h3 : o.getAttr k = .ok v) (h4 : o.dims = some ds)
      (h5 : Dict.get? ds k = some d) (h6 : Dict.get? (o.api.getD []) (py% "S") = some S)
      (h7 : formatFor v e.typ d S k = .ok (kind, a)) (h8 : nc.okName (ncName k) = true)
      (h9 : ¬ (d.map (fun c => [c]) ≠ [] ∧ 9 < c)) (h10 : netcdfData env kind a = .ok b)
      (h11 : varAttrs env nc o (k.length + 1) (subKeys o.keys k) [] = (.ok (), at_)) :
      KeyPlan env nc o c k (some ⟨ncName k, d.map (fun c => [c]), kind, b, at_⟩)

/-- the file afterwards -/
def After : Option VarPlan → NcFile → NcFile → Prop
  | none, f, f' => f' = f
  | some p, f, f' => Adds p f f'

theorem writeKey_iff {env : Env} {nc : Nc} {o : Obj} {c : Nat} {k : Str} {f f' : NcFile} :
    writeKey env nc o c k f = (.ok (), f') ↔ ∃ p, KeyPlan env nc o c k p ∧ After p f f' := by
  constructor
  · intro h
    simp only [writeKey, convEntry] at h
    cases he : Dict.get? o.conv k with
    | none => simp [he] at h
    | some e =>
      simp only [he] at h
      by_cases ht : e.typ = py% "attribute"
      · simp only [ht, if_true, Prod.mk.injEq, true_and] at h
        exact ⟨none, .skip he ht, h.symm⟩
      · simp only [ht, if_false] at h
        cases hv : o.getAttr k with
        | error x => simp [hv] at h
        | ok v =>
          simp only [hv] at h
          cases hds : o.dims with
          | none => simp [hds] at h
          | some ds =>
            simp only [hds] at h
            cases hdk : Dict.get? ds k with
            | none => simp [hdk] at h
            | some d =>
              simp only [hdk] at h
              cases hS : Dict.get? (o.api.getD []) (py% "S") with
              | none => simp [hS] at h
              | some S =>
                simp only [hS, writeVariable] at h
                cases hf : formatFor v e.typ d S k with
                | error x => simp [hf] at h
                | ok ka =>
                  obtain ⟨kind, a⟩ := ka
                  simp only [hf] at h
                  cases hc : createVariable nc f (ncName k) kind (d.map (fun c => [c])) c with
                  | error x => simp [hc] at h
                  | ok f1 =>
                    simp only [hc] at h
                    obtain ⟨hf1, hnew, hok⟩ := createVariable_ok hc
                    have h9 : ¬ (d.map (fun c => [c]) ≠ [] ∧ 9 < c) := by
                      intro hcc
                      unfold createVariable at hc
                      split at hc
                      · cases hc
                      · rw [hok, hnew, if_neg (by simp), if_neg (by simp), if_pos hcc] at hc
                        cases hc
                    cases hb : netcdfData env kind a with
                    | error x => simp [hb] at h
                    | ok b =>
                      simp only [hb] at h
                      cases hasn : assignVariable f1 (ncName k) kind (d.map (fun c => [c])) b with
                      | error x => simp [hasn] at h
                      | ok f2 =>
                        simp only [hasn] at h
                        unfold assignVariable at hasn
                        cases hsz : dimSizes f1 (d.map (fun c => [c])) with
                        | error x => simp [hsz] at hasn
                        | ok sizes =>
                          simp only [hsz] at hasn
                          cases hts : targetShape sizes b.shape with
                          | error x => simp [hts] at hasn
                          | ok t =>
                            simp only [hts] at hasn
                            cases hcf : conform b t with
                            | error x => simp [hcf] at hasn
                            | ok data =>
                              simp only [hcf, Except.ok.injEq] at hasn
                              have hfit : Fits f.dims (d.map (fun c => [c])) b.shape t := by
                                have := fits_iff.1 ⟨sizes, hsz, hts⟩
                                rw [hf1] at this
                                exact this
                              simp only [Prod.mk.injEq] at h
                              obtain ⟨hva, hf'⟩ := h
                              refine ⟨_, .var he ht hv hds hdk hS hf hok h9 hb (Prod.ext hva rfl), hnew, t, data, hfit, hcf, ?_⟩
                              rw [← hf', ← hasn, hf1]
                              unfold setVarAttrs
                              simp only [put_last hnew, get?_last hnew]
  · rintro ⟨p, hp, ha⟩
    cases hp with
    | skip h1 h2 =>
      cases ha
      simp [writeKey, convEntry, h1, h2]
    | @var e v ds d S kind a b at_ h1 h2 h3 h4 h5 h6 h7 h8 h9 h10 h11 =>
      obtain ⟨hnew, t, data, hfit, hcf, rfl⟩ := ha
      obtain ⟨sizes, s1, s2⟩ := fits_iff.2 hfit
      have hnew' : Dict.has f.vars (ncName k) = false := hnew
      have hcreate : createVariable nc f (ncName k) kind (d.map (fun c => [c])) c =
          .ok { f with vars := f.vars ++ [(ncName k, ⟨d.map (fun c => [c]), ⟨kind, [], []⟩, []⟩)] } := by
        unfold createVariable
        rw [s1]
        simp only
        rw [h8, hnew', if_neg (by simp), if_neg (by simp), if_neg h9, Dict.put_new hnew']
      have hsz : ∀ vs : Dict NcVar, ∀ l, dimSizes { f with vars := vs } l = dimSizes f l := by
        intro vs l
        induction l with
        | nil => rfl
        | cons x l ih => simp only [dimSizes, ih]
      simp only [writeKey, convEntry, h1, h2, if_false, h3, h4, h5, h6, writeVariable, h7, hcreate, h10]
      unfold assignVariable
      simp only [hsz, s1, s2, hcf, h11]
      unfold setVarAttrs
      simp only [put_last hnew', get?_last hnew']

theorem KeyPlan.unique {env : Env} {nc : Nc} {o : Obj} {c : Nat} {k : Str} {p q : Option VarPlan} (h : KeyPlan env nc o c k p)
    (h' : KeyPlan env nc o c k q) : q = p := by
  cases h with
  | skip h1 h2 =>
    cases h' with
    | skip g1 g2 => rfl
    | var g1 g2 => rw [h1] at g1; cases g1; exact absurd h2 g2
  | var h1 h2 h3 h4 h5 h6 h7 h8 h9 h10 h11 =>
    cases h' with
    | skip g1 g2 => rw [h1] at g1; cases g1; exact absurd g2 h2
    | var g1 g2 g3 g4 g5 g6 g7 g8 g9 g10 g11 =>
      rw [h1] at g1; cases g1
      rw [h3] at g3; cases g3
      rw [h4] at g4; cases g4
      rw [h5] at g5; cases g5
      rw [h6] at g6; cases g6
      rw [h7] at g7; cases g7
      rw [h10] at g10; cases g10
      rw [h11] at g11; cases g11
      rfl

theorem After.congr {p : Option VarPlan} {f f' g : NcFile} (h : After p f f') (hg : SameFile f g) :
    ∃ g', After p g g' ∧ SameFile f' g' := by
  cases p with
  | none => cases h; exact ⟨g, rfl, hg⟩
  | some p => exact Adds.congr h hg

theorem After.swap {p q : Option VarPlan} {f f1 f2 : NcFile} (h1 : After p f f1) (h2 : After q f1 f2) :
    ∃ g1 g2, After q f g1 ∧ After p g1 g2 ∧ SameFile f2 g2 := by
  cases p with
  | none => cases h1; exact ⟨f2, f2, h2, rfl, .refl _⟩
  | some p =>
    cases q with
    | none => cases h2; exact ⟨f, f1, rfl, h1, .refl _⟩
    | some q => exact Adds.swap h1 h2

theorem writeKeys_cons_iff {env : Env} {nc : Nc} {o : Obj} {c : Nat} {k : Str} {ks : List Str} {f f' : NcFile} :
    writeKeys env nc o c (k :: ks) f = (.ok (), f') ↔ ∃ p f1, KeyPlan env nc o c k p ∧ After p f f1 ∧
      writeKeys env nc o c ks f1 = (.ok (), f') := by
  constructor
  · intro h
    simp only [writeKeys] at h
    cases h1 : (writeKey env nc o c k f).1 with
    | error e => simp [h1] at h
    | ok u =>
      simp only [h1] at h
      obtain ⟨p, a, b⟩ := writeKey_iff.1 (show writeKey env nc o c k f = (.ok (), (writeKey env nc o c k f).2) from Prod.ext h1 rfl)
      exact ⟨p, _, a, b, h⟩
  · rintro ⟨p, f1, a, b, h⟩
    simp only [writeKeys, writeKey_iff.2 ⟨p, a, b⟩, h]

theorem writeKeys_same_file {env : Env} {nc : Nc} {o : Obj} {c : Nat} {ks : List Str} : ∀ {f f' g : NcFile},
    writeKeys env nc o c ks f = (.ok (), f') → SameFile f g → ∃ g', writeKeys env nc o c ks g = (.ok (), g') ∧ SameFile f' g' := by
  induction ks with
  | nil => intro f f' g h hg; cases h; exact ⟨g, rfl, hg⟩
  | cons k ks ih =>
    intro f f' g h hg
    obtain ⟨p, f1, a, b, h⟩ := writeKeys_cons_iff.1 h
    obtain ⟨g1, b', hg1⟩ := b.congr hg
    obtain ⟨g', h', hg'⟩ := ih h hg1
    exact ⟨g', writeKeys_cons_iff.2 ⟨p, g1, a, b', h'⟩, hg'⟩

/-- the variables in another order -/
theorem writeKeys_perm {env : Env} {nc : Nc} {o : Obj} {c : Nat} {ks ks' : List Str} (hp : ks.Perm ks') : ∀ {f f' : NcFile},
    writeKeys env nc o c ks f = (.ok (), f') → ∃ g, writeKeys env nc o c ks' f = (.ok (), g) ∧ SameFile f' g := by
  induction hp with
  | nil => intro f f' h; exact ⟨f', h, .refl _⟩
  | cons k _ ih =>
    intro f f' h
    obtain ⟨p, f1, a, b, h⟩ := writeKeys_cons_iff.1 h
    obtain ⟨g, h', hg⟩ := ih h
    exact ⟨g, writeKeys_cons_iff.2 ⟨p, f1, a, b, h'⟩, hg⟩
  | swap k k' l =>
    intro f f' h
    obtain ⟨p, f1, a, b, h⟩ := writeKeys_cons_iff.1 h
    obtain ⟨q, f2, a', b', h⟩ := writeKeys_cons_iff.1 h
    obtain ⟨g1, g2, c1, c2, c3⟩ := b.swap b'
    obtain ⟨g, h', hg⟩ := writeKeys_same_file h c3
    exact ⟨g, writeKeys_cons_iff.2 ⟨q, g1, a', c1, writeKeys_cons_iff.2 ⟨p, g2, a, c2, h'⟩⟩, hg⟩
  | trans _ _ ih1 ih2 =>
    intro f f' h
    obtain ⟨g, h1, e1⟩ := ih1 h
    obtain ⟨g', h2, e2⟩ := ih2 h1
    exact ⟨g', h2, e1.trans e2⟩

/-! ## Objects with the data in another order -/

theorem attrs_perm {env : Env} {nc : Nc} {o o' : Obj} (hS : Shuffled o o') {pre : Str} {ks ks' : List Str} {d : Dict Val}
    (hk : ∀ k ∈ ks, pre <+: k ∧ k ∈ o.keys) (hks : ∀ k, k ∈ ks' ↔ k ∈ ks)
    (h : varAttrs env nc o pre.length ks [] = (.ok (), d)) :
    ∃ d', varAttrs env nc o' pre.length ks' [] = (.ok (), d') ∧ d'.Perm d := by
  have h1 := varAttrs_ok (ks0 := []) (d := []) hk ⟨by simp, by simp, by simp [Dict.keys]⟩ h
  rw [List.nil_append] at h1
  have hk' : ∀ k ∈ ks', pre <+: k ∧ k ∈ o'.keys := fun k hm =>
    ⟨(hk k ((hks k).1 hm)).1, hS.mem_keys.2 (hk k ((hks k).1 hm)).2⟩
  have ht : (varAttrs env nc o' pre.length ks' []).1 = .ok () := by
    apply varAttrs_total
    intro k hm
    obtain ⟨⟨a, rfl⟩, hko⟩ := hk' k hm
    obtain ⟨⟨a', w⟩, hw, rfl⟩ := List.mem_map.1 (h1.all a ((hks _).1 hm))
    obtain ⟨_, _, _, _, r1, r2, r3⟩ := h1.from_ a' w hw
    rw [List.drop_left]
    exact ⟨hko, r3, r1, r2⟩
  refine ⟨(varAttrs env nc o' pre.length ks' []).2, Prod.ext ht rfl, ?_⟩
  have h2 := varAttrs_ok (ks0 := []) (d := []) (d' := (varAttrs env nc o' pre.length ks' []).2) hk'
    ⟨by simp, by simp, by simp [Dict.keys]⟩ (Prod.ext ht rfl)
  rw [List.nil_append] at h2
  rw [List.perm_ext_iff_of_nodup (List.Nodup.of_map _ h2.nodup) (List.Nodup.of_map _ h1.nodup)]
  rintro ⟨a, w⟩
  constructor
  · intro hm
    obtain ⟨v, e1, e2, rfl, _⟩ := h2.from_ a w hm
    obtain ⟨⟨a', w'⟩, hw, rfl⟩ := List.mem_map.1 (h1.all a ((hks _).1 e1))
    obtain ⟨v', _, e3, rfl, _⟩ := h1.from_ a' w' hw
    rw [hS.get, e3] at e2
    cases e2
    exact hw
  · intro hm
    obtain ⟨v, e1, e2, rfl, _⟩ := h1.from_ a w hm
    obtain ⟨⟨a', w'⟩, hw, rfl⟩ := List.mem_map.1 (h2.all a ((hks _).2 e1))
    obtain ⟨v', _, e3, rfl, _⟩ := h2.from_ a' w' hw
    rw [hS.get, e2] at e3
    cases e3
    exact hw

/-- the same plan with the attributes in another order -/
inductive SamePlan : Option VarPlan → Option VarPlan → Prop
  | none : SamePlan none none
  | some (p : VarPlan) {at_ : Dict Val} (h : at_.Perm p.attrs) : SamePlan (some p) (some { p with attrs := at_ })

theorem KeyPlan.settled {env : Env} {nc : Nc} {o o' : Obj} (hS : Settled o o') {c : Nat} {k : Str} {p : Option VarPlan}
    (h : KeyPlan env nc o c k p) : ∃ p', KeyPlan env nc o' c k p' ∧ SamePlan p p' := by
  cases h with
  | skip h1 h2 => exact ⟨none, .skip (by rw [hS.base.convGet]; exact h1) h2, .none⟩
  | var h1 h2 h3 h4 h5 h6 h7 h8 h9 h10 h11 =>
    obtain ⟨a, a', ea, ea', hget⟩ := hS.api
    obtain ⟨x, x', ex, ex', hdim⟩ := hS.dims
    rw [ex] at h4
    cases h4
    have hpl : k.length + 1 = (k ++ py% "_").length := by simp
    rw [hpl] at h11
    obtain ⟨d', e1, e2⟩ := attrs_perm hS.base (ks' := subKeys o'.keys k) (fun s hs => (subKeys_mem.1 hs).symm) (fun s => by
      rw [subKeys_mem, subKeys_mem, hS.base.mem_keys]) h11
    rw [← hpl] at e1
    refine ⟨_, .var (by rw [hS.base.convGet]; exact h1) h2 (by rw [hS.getAttr]; exact h3) ex' (by rw [hdim]; exact h5) ?_
      h7 h8 h9 h10 e1, .some _ e2⟩
    rw [ea] at h6
    rw [ea']
    simp only [Option.getD_some] at h6 ⊢
    rw [hget]
    exact h6

/-- files with the same variables in the same order -/
structure LikeFile (f f' : NcFile) : Prop where
  dims : ∀ d, Dict.get? f'.dims d = Dict.get? f.dims d
  attrs : f'.attrs.Perm f.attrs
  vars : List.Forall₂ (fun p p' => p'.1 = p.1 ∧ Spec.SameVariable p.2 p'.2) f.vars f'.vars

theorem LikeFile.names {f f' : NcFile} (h : LikeFile f f') : Dict.keys f'.vars = Dict.keys f.vars := by
  have key : ∀ {a b : Dict NcVar}, List.Forall₂ (fun p p' => p'.1 = p.1 ∧ Spec.SameVariable p.2 p'.2) a b →
      b.map Prod.fst = a.map Prod.fst := by
    intro a b hab
    induction hab with
    | nil => rfl
    | cons a _ ih => rw [List.map_cons, List.map_cons, a.1, ih]
  exact key h.vars

theorem After.like {p p' : Option VarPlan} (hp : SamePlan p p') {f f' g : NcFile} (h : After p f f') (hg : LikeFile f g) :
    ∃ g', After p' g g' ∧ LikeFile f' g' := by
  cases hp with
  | none => cases h; exact ⟨g, rfl, hg⟩
  | some p hat =>
    obtain ⟨h1, t, data, h2, h3, rfl⟩ := h
    refine ⟨_, ⟨?_, t, data, h2.congr (sameDims_of_get? hg.dims), h3, rfl⟩, ?_, hg.attrs, ?_⟩
    · rw [← Bool.not_eq_true, Dict.has_iff_mem] at h1 ⊢
      rw [hg.names]
      exact h1
    · intro d
      simp only [get?_growDims, hg.dims]
    · exact List.rel_append hg.vars (.cons ⟨rfl, rfl, rfl, hat⟩ .nil)

theorem writeKeys_settled {env : Env} {nc : Nc} {o o' : Obj} (hS : Settled o o') {c : Nat} {ks : List Str} : ∀ {f f' g : NcFile},
    writeKeys env nc o c ks f = (.ok (), f') → LikeFile f g → ∃ g', writeKeys env nc o' c ks g = (.ok (), g') ∧ LikeFile f' g' := by
  induction ks with
  | nil => intro f f' g h hg; cases h; exact ⟨g, rfl, hg⟩
  | cons k ks ih =>
    intro f f' g h hg
    obtain ⟨p, f1, a, b, h⟩ := writeKeys_cons_iff.1 h
    obtain ⟨p', a', hp⟩ := a.settled hS
    obtain ⟨g1, b', hg1⟩ := b.like hp hg
    obtain ⟨g', h', hg'⟩ := ih h hg1
    exact ⟨g', writeKeys_cons_iff.2 ⟨p', g1, a', b', h'⟩, hg'⟩

theorem get?_mapValues {V W : Type} (F : V → W) (d : Dict V) (k : Str) :
    Dict.get? (d.map (fun p => (p.1, F p.2))) k = (Dict.get? d k).map F := by
  induction d with
  | nil => rfl
  | cons p d ih =>
    obtain ⟨a, v⟩ := p
    by_cases h : a = k
    · simp [Dict.get?, h]
    · simp only [List.map_cons, Dict.get?, h, if_false]
      exact ih

/-- the files of two objects with the same data -/
theorem writeFile_settled {env : Env} {nc : Nc} {o o' : Obj} (hS : Settled o o') (hk : o'.keys.Perm o.keys)
    (hn : ∀ a, o'.api = some a → (Dict.keys a).Nodup) {c : Nat} {f : NcFile} (h : writeFile env nc o c = (.ok (), f)) :
    ∃ f', writeFile env nc o' c = (.ok (), f') ∧ Spec.SameContent f f' ∧ ∀ d, Dict.get? f'.dims d = Dict.get? f.dims d := by
  obtain ⟨a, a', ea, ea', hget⟩ := hS.api
  unfold writeFile at h ⊢
  simp only [ea, ea'] at h ⊢
  cases h1 : (writeDims nc a .empty).1 with
  | error e => simp [h1] at h
  | ok u =>
    simp only [h1] at h
    obtain ⟨d1, d2⟩ := writeDims_ok (show writeDims nc a .empty = (.ok (), (writeDims nc a .empty).2) from Prod.ext h1 rfl)
    have h1' : (writeDims nc a' .empty).1 = .ok () := by
      apply writeDims_total (hn a' ea')
      · intro d _; rfl
      · intro d hd
        obtain ⟨n, hgn⟩ : ∃ n, Dict.get? a' d = some n := by
          cases hg : Dict.get? a' d with
          | none => exact absurd hd ((Dict.get?_eq_none_iff _ _).1 hg)
          | some n => exact ⟨n, rfl⟩
        rw [hget] at hgn
        exact d2 d n (Dict.mem_of_get? hgn)
    obtain ⟨d1', _⟩ := writeDims_ok (show writeDims nc a' .empty = (.ok (), (writeDims nc a' .empty).2) from Prod.ext h1' rfl)
    simp only [h1']
    rw [d1] at h
    rw [d1']
    simp only [writeGlobals_eq] at h ⊢
    cases h2 : (varAttrs env nc o 7 (o.keys.filter (fun k => Str.startsWith k (py% "GLOBAL_"))) []).1 with
    | error e => simp [NcFile.empty, h2] at h
    | ok u =>
      simp only [NcFile.empty, h2, List.nil_append] at h ⊢
      obtain ⟨w, e1, e2⟩ := attrs_perm hS.base (env := env) (nc := nc) (pre := py% "GLOBAL_")
        (ks := o.keys.filter (fun k => Str.startsWith k (py% "GLOBAL_")))
        (ks' := o'.keys.filter (fun k => Str.startsWith k (py% "GLOBAL_")))
        (fun k hk => by
          obtain ⟨g1, g2⟩ := List.mem_filter.1 hk
          exact ⟨by simpa [Str.startsWith] using g2, g1⟩)
        (fun k => by rw [List.mem_filter, List.mem_filter, hS.base.mem_keys]) (Prod.ext h2 rfl)
      have e1' : varAttrs env nc o' 7 (o'.keys.filter (fun k => Str.startsWith k (py% "GLOBAL_"))) [] = (.ok (), w) := e1
      simp only [e1']
      obtain ⟨g, p1, p2⟩ := writeKeys_perm hk.symm h
      obtain ⟨f', q1, q2⟩ := writeKeys_settled hS p1
        (g := ⟨List.map (fun p : Str × Nat => (p.1, (⟨p.2, decide (p.2 = 0)⟩ : NcDim))) a', w, []⟩)
        ⟨by
          intro d
          rw [get?_mapValues (fun n => (⟨n, decide (n = 0)⟩ : NcDim)), get?_mapValues (fun n => (⟨n, decide (n = 0)⟩ : NcDim)), hget],
        e2, .nil⟩
      refine ⟨f', q1, ⟨?_, g.vars, p2.vars, q2.vars⟩, fun d => (q2.dims d).trans (p2.dims d)⟩
      have := q2.attrs
      rw [p2.attrs] at this
      exact this

theorem checkLatest_reordered {env : Env} {o o' : Obj} (h : Spec.Reordered o o') : checkLatest env o' = checkLatest env o := by
  unfold checkLatest
  rw [reordered_public h (k := py% "GLOBAL_SOFAConventions") (by decide),
    reordered_public h (k := py% "GLOBAL_SOFAConventionsVersion") (by decide)]

/-- writing objects with the same data -/
theorem writeSofa_reordered {env : Env} {nc : Nc} {fs : FS} {name : Str} {o o' : Obj} {c : Nat} (h : Spec.Reordered o o')
    (hs : ∀ o1, resetConvention env o = .ok o1 → Spec.AgreeOnSizes o1 ∧ Spec.CustomNoMethod o1)
    (hw : (writeSofa env nc fs name o c).out = .ok ()) :
    (writeSofa env nc fs name o' c).out = .ok () ∧ ∃ path f f', withSuffix name = .ok path ∧
      (writeSofa env nc fs name o c).fs = { fs with files := Dict.put fs.files path (.nc f) } ∧
      (writeSofa env nc fs name o' c).fs = { fs with files := Dict.put fs.files path (.nc f') } ∧
      Spec.SameContent f f' ∧ ∀ d, Dict.get? f'.dims d = Dict.get? f.dims d := by
  unfold writeSofa writeSofaG at hw ⊢
  rw [checkLatest_reordered h]
  cases hp : withSuffix name with
  | error e => simp [hp] at hw
  | ok path =>
    simp only [hp, if_true] at hw ⊢
    cases hl : (checkLatest env o).1 with
    | error e => simp [hl] at hw
    | ok u =>
      simp only [hl] at hw ⊢
      cases hv : (verify env o .raise .write).out with
      | error e => simp [hv] at hw
      | ok q =>
        simp only [hv] at hw ⊢
        have hq0 : q = none := ((verifyG_raise_ok_iff _ _ _ _ _).1 hv).1
        subst hq0
        have hv2 := hv
        unfold verify at hv2
        obtain ⟨-, o1, o3, hr, hpass⟩ := (verifyG_raise_ok_iff _ _ _ _ _).1 hv2
        rcases reordered_reset (env := env) h with ⟨x, h1, h2⟩ | ⟨p1, p1', h1, h2, h3, -, -⟩
        · rw [hr] at h1; cases h1
        rw [hr] at h1
        cases h1
        obtain ⟨ha, hc⟩ := hs o1 hr
        obtain ⟨o3', hpass', hS⟩ := h3.passes hc ha hpass
        have hv' : (verify env o' .raise .write).out = .ok none :=
          (verifyG_raise_ok_iff _ _ _ _ _).2 ⟨rfl, p1', o3', h2, hpass'⟩
        have eo : (verify env o .raise .write).obj = o3 := verifyG_raise_ok_obj _ _ _ _ _ _ hr hpass
        have eo' : (verify env o' .raise .write).obj = o3' := verifyG_raise_ok_obj _ _ _ _ _ _ h2 hpass'
        have ka : o3.attrs = o.attrs := by rw [← eo]; exact (verifyG_frame referenceNames env o .raise .write).raise rfl
        have ka' : o3'.attrs = o'.attrs := by rw [← eo']; exact (verifyG_frame referenceNames env o' .raise .write).raise rfl
        simp only [hv', eo, eo'] at hw ⊢
        unfold writeDisk at hw ⊢
        cases hcw : fs.canWrite path with
        | false => simp [hcw] at hw
        | true =>
          simp only [hcw, Bool.not_true, Bool.false_eq_true, if_false] at hw ⊢
          obtain ⟨f', g1, g2, g3⟩ := writeFile_settled hS (by
              show (o3'.attrs.map Prod.fst).Perm (o3.attrs.map Prod.fst)
              rw [ka, ka']
              exact h.attrs.1.map _) (by
              intro a hap
              obtain ⟨_, api, _, hV⟩ := verify_ok hv'
              have := hV.obj
              rw [eo'] at this
              rw [this] at hap
              cases hap
              exact hV.apiOk.nodup) (show writeFile env nc o3 c = (.ok (), (writeFile env nc o3 c).2) from Prod.ext hw rfl)
          rw [g1]
          exact ⟨rfl, path, _, f', rfl, rfl, rfl, g2, g3⟩

end Sofar
