import Verif.Lemmas.IO
import Verif.Lemmas.Upgrade
/-!
# Reading an object that was written
-/
namespace Sofar

/-- what a successful call of `write_sofa` consists of -/
structure WriteOk (env : Env) (nc : Nc) (fs : FS) (filename : Str) (o : Obj) (path : Str) (f : NcFile) (o1 : Obj)
    (api : Dict Nat) (ds : Dict Str) (o' : Obj) : Prop where
  loc : withSuffix filename = .ok path
  verified : Verified env o o1 api ds .write o'
  file : FileWritten env nc o' api ds f

theorem writeSofa_ok {env : Env} {nc : Nc} {fs : FS} {filename : Str} {o : Obj} {c : Nat}
    (h : (writeSofa env nc fs filename o c).out = .ok ()) : ∃ path f o1 api ds r,
      WriteOk env nc fs filename o path f o1 api ds (writeSofa env nc fs filename o c).obj ∧
      Dict.get? (writeSofa env nc fs filename o c).fs.files path = some (.nc f) ∧
      (verify env o .raise .write).out = .ok r ∧
      (writeSofa env nc fs filename o c).obj = (verify env o .raise .write).obj := by
  unfold writeSofa writeSofaG at h ⊢
  cases hp : withSuffix filename with
  | error x => simp [hp] at h
  | ok path =>
    simp only [hp, if_true] at h ⊢
    cases hl : (checkLatest env o).1 with
    | error x => simp [hl] at h
    | ok u =>
      simp only [hl] at h ⊢
      cases hv : (verify env o .raise .write).out with
      | error x => simp [hv] at h
      | ok r =>
        simp only [hv, writeDisk] at h ⊢
        cases hc : fs.canWrite path with
        | false => simp [hc] at h
        | true =>
          simp only [hc, Bool.not_true, Bool.false_eq_true, if_false] at h ⊢
          obtain ⟨o1, api, ds, hV⟩ := verify_ok hv
          have hw : writeFile env nc (verify env o .raise .write).obj c =
              (.ok (), (writeFile env nc (verify env o .raise .write).obj c).2) := by
            rw [← h]
          refine ⟨path, _, o1, api, ds, r, ⟨hp, hV, writeFile_ok ?_ ?_ hw⟩, by simp, rfl, trivial⟩
          · rw [hV.obj]
          · rw [hV.obj]

theorem dotName_replaceGo (n k : Nat) (s : Str) (hn : s.length ≤ n) (hd : '.' ∉ s) :
    k = 0 → Spec.dotName (Str.replaceGo (py% "Data_") (py% "Data.") k s) = s := by
  induction n generalizing k s with
  | zero =>
    intro _
    have : s = [] := List.eq_nil_of_length_eq_zero (by omega)
    subst this
    cases k <;> rfl
  | succ n ih =>
    rintro rfl
    cases s with
    | nil => rfl
    | cons c t =>
      simp only [Str.replaceGo]
      split
      · rename_i hp
        rw [List.isPrefixOf_iff_prefix] at hp
        obtain ⟨r, hr⟩ := hp
        rw [← hr] at hd hn ⊢
        have ht : t = py% "ata_" ++ r := by
          simp only [List.cons_append, List.cons.injEq] at hr
          exact hr.2.symm
        rw [ht]
        simp only [List.length_cons, List.length_nil, Nat.add_sub_cancel, List.cons_append, List.nil_append,
          Str.replaceGo]
        have := ih 0 r (by simp at hn; omega) (by intro h; exact hd (by simp [h])) rfl
        simp only [Spec.dotName, List.map_cons] at this ⊢
        rw [this]
        simp
      · have := ih 0 t (by simp at hn; omega) (by intro h; exact hd (by simp [h])) rfl
        simp only [Spec.dotName, List.map_cons] at this ⊢
        rw [this]
        have : c ≠ '.' := by rintro rfl; exact hd (by simp)
        simp [this]

/-- names survive writing and reading -/
theorem dotName_ncName {k : Str} (h : '.' ∉ k) : Spec.dotName (ncName k) = k :=
  dotName_replaceGo _ 0 k (Nat.le_refl _) h rfl

theorem upper_sizes {api : Dict Nat} {alt : Str} (h : 'S' ∉ alt) :
    (Str.upper alt).map (sizeIn api) = alt.map (fun c => if c = 'S' then 1 else sizeIn api (Str.upperC c)) := by
  unfold Str.upper
  rw [List.map_map]
  apply List.map_congr_left
  intro c hc
  have : c ≠ 'S' := by rintro rfl; exact h hc
  simp [this]

theorem sizes_known {api : Dict Nat} {alt : Str} (h : ∀ c ∈ alt, ∃ n, Dict.get? api [Str.upperC c] = some n) :
    List.Forall₂ (fun c n => Dict.get? api [Str.upperC c] = some n) alt ((Str.upper alt).map (sizeIn api)) := by
  induction alt with
  | nil => exact .nil
  | cons c l ih =>
    obtain ⟨n, hn⟩ := h c (by simp)
    simp only [Str.upper, List.map_cons]
    refine .cons ?_ (ih (fun c hc => h c (by simp [hc])))
    simp [sizeIn, hn]

/-- the shape of a variable of a verified object -/
theorem verified_shape {env : Env} {o o1 : Obj} {api : Dict Nat} {ds : Dict Str} {o' : Obj} {mode : Mode}
    (hV : Verified env o o1 api ds mode o') {k : Str} {v : Val} {e : Entry} {d : Str} {n : Nat}
    (hv : Spec.IsVariable o' k v e) (hd : e.dims = some d) (hu : Spec.UniformDims d n) (hn : 1 ≤ n)
    (hl : (Spec.shapeOf v).length ≤ n) :
    ∃ alt, Spec.IsAlternative d alt ∧ Dict.get? ds k = some (Str.upper alt) ∧ alt.length = n ∧
      Spec.SameUpToOnes (Spec.shapeOf v) (alt.map (fun c => if c = 'S' then 1 else sizeIn api (Str.upperC c))) ∧
      ∀ c ∈ alt, c ≠ 'S' → ∃ n, Dict.get? api [Str.upperC c] = some n := by
  obtain ⟨alt, act, h1, h2, h3, h4, h5⟩ := hV.shape (hV.attrs.1 ▸ hv.1) hv.2.1 hd
  have ha := isAlternative_of_mem h1
  have hf := hu _ (isAlternative_of_mem (firstAlt_mem d))
  have hal := (hu alt ha).1
  refine ⟨alt, ha, h2, hal, ?_, h5⟩
  have hsh : v.shape = Spec.shapeOf v := by cases v <;> rfl
  have := compare_upToOnes hn h3 hf.1 hf.2 (by rw [hsh]; exact hl)
  unfold Spec.SameUpToOnes
  rw [← h4, hal, this, hsh]

/-- the sizes of the axes that are compared with the dimensions -/
def axes (text : Bool) (n : Nat) (s : List Nat) : List Nat := (List.range n).map (Spec.axisSize text n s)

theorem verified_axes {env : Env} {o o1 : Obj} {api : Dict Nat} {ds : Dict Str} {o' : Obj} {mode : Mode}
    (hV : Verified env o o1 api ds mode o') {k : Str} {v : Val} {e : Entry} {d : Str} {n : Nat}
    (hv : Spec.IsVariable o' k v e) (hd : e.dims = some d) (hu : Spec.UniformDims d n) (hn : 1 ≤ n)
    (hl : (Spec.shapeOf v).length ≤ n) :
    ∃ alt, Spec.IsAlternative d alt ∧ Dict.get? ds k = some (Str.upper alt) ∧ alt.length = n ∧
      Spec.SameUpToOnes (Spec.shapeOf v) (alt.map (fun c => if c = 'S' then 1 else sizeIn api (Str.upperC c))) ∧
      (∀ c ∈ alt, c ≠ 'S' → ∃ n, Dict.get? api [Str.upperC c] = some n) ∧
      alt.map (fun c => if c = 'S' then 1 else sizeIn api (Str.upperC c)) =
        axes (decide (e.typ = py% "attribute" ∨ e.typ = py% "string")) n (Spec.shapeOf v) := by
  obtain ⟨alt, act, h1, h2, h3, h4, h5⟩ := hV.shape (hV.attrs.1 ▸ hv.1) hv.2.1 hd
  have ha := isAlternative_of_mem h1
  have hf := hu _ (isAlternative_of_mem (firstAlt_mem d))
  have hal := (hu alt ha).1
  have hsh : v.shape = Spec.shapeOf v := by cases v <;> rfl
  refine ⟨alt, ha, h2, hal, ?_, h5, ?_⟩
  · have := compare_upToOnes hn h3 hf.1 hf.2 (by rw [hsh]; exact hl)
    unfold Spec.SameUpToOnes
    rw [← h4, hal, this, hsh]
  · rw [← h4, hal]
    have hax := actualShape_axis h3 hf.2
    rw [hf.1, hsh] at hax
    apply List.ext_getElem?
    intro i
    unfold axes
    rw [List.getElem?_map]
    by_cases hi : i < n
    · rw [List.getElem?_range hi, Option.map_some, ← hax i]
      exact getElem?_compareShape hi
    · rw [List.getElem?_eq_none (l := List.range n) (by simp only [List.length_range]; omega), List.getElem?_eq_none]
      · rfl
      · unfold compareShape Arr.padOnes
        simp only [List.length_append, List.length_take, List.length_replicate]
        omega

theorem nonzero_sizes {v : Val} {l : List Nat} (hp : Spec.Rectangular v) (hO : Spec.kindOf v ≠ .O)
    (he : Spec.elems v ≠ []) (hs : Spec.SameUpToOnes (Spec.shapeOf v) l) : ∀ n ∈ l, n ≠ 0 := by
  rintro n hn rfl
  have h0 : 0 ∈ l.filter (· ≠ 1) := List.mem_filter.2 ⟨hn, by simp⟩
  unfold Spec.SameUpToOnes at hs
  rw [← hs] at h0
  have h0' := List.mem_of_mem_filter h0
  have hz : ∀ m : List Nat, 0 ∈ m → m.foldr (· * ·) 1 = 0 := by
    intro m
    induction m with
    | nil => simp
    | cons a m ih =>
      intro h
      rcases List.mem_cons.1 h with h | h
      · simp [← h]
      · simp [ih h]
  apply he
  cases v with
  | arr a =>
    simp only [Spec.Rectangular, Spec.shapeOf, Spec.elems] at *
    rw [hz _ h0'] at hp
    exact List.eq_nil_of_length_eq_zero hp
  | _ => simp_all [Spec.shapeOf]

theorem forall2_map {α β : Type} {R : α → β → Prop} {f : α → β} {l : List α} (h : ∀ x ∈ l, R x (f x)) :
    List.Forall₂ R l (l.map f) := by
  rw [List.forall₂_map_right_iff]
  exact List.forall₂_same.2 h

theorem longest_le {l : List Elem} {s : Str} (h : .str s ∈ l) : s.length ≤ Spec.longest l := by
  induction l with
  | nil => simp at h
  | cons e l ih =>
    rcases List.mem_cons.1 h with h | h
    · subst h; simp only [Spec.longest]; omega
    · have := ih h
      cases e <;> simp only [Spec.longest] <;> omega

theorem verified_S {env : Env} {o o1 : Obj} {api : Dict Nat} {ds : Dict Str} {o' : Obj} {mode : Mode}
    (hV : Verified env o o1 api ds mode o') {k : Str} {v : Val} {e : Entry} {d : Str} {S : Nat}
    (hv : Spec.IsVariable o' k v e) (hd : e.dims = some d) (hS : ∀ alt, Spec.IsAlternative d alt → 'S' ∈ alt)
    (hSz : Dict.get? api (py% "S") = some S) : ∀ s, .str s ∈ Spec.elems v → s.length ≤ S := by
  obtain ⟨n, h1, h2, _⟩ := hV.apiOk.S
  rw [hSz] at h1
  cases h1
  obtain ⟨a1, a2, a3, a4⟩ := hV.attrs
  have hv1 : Dict.get? o1.attrs k = some v := by rw [a2, ← a1]; exact hv.1
  have he1 : Dict.get? o1.conv k = some e := a3 ▸ hv.2.1
  have := h2 v (firstAlt d) ⟨k, dimKeys_mem hv1 he1 hd, e, d, getAttr_of_get hv1, he1, hd, rfl⟩
    (hS _ (isAlternative_of_mem (firstAlt_mem d)))
  rw [longest_eq] at this
  intro s hs
  exact Nat.le_trans (longest_le hs) this

/-- names of variables in the file are never among the names that keep their shape -/
theorem ncName_normal {k : Str} (h : '.' ∉ k) :
    ¬ [py% "Data_IR", py% "Data_Real", py% "Data_Imag", py% "Data_SOSData_Delay"].contains (ncName k) = true := by
  intro hm
  have hd := dotName_ncName h
  simp only [List.contains_iff_mem, List.mem_cons, List.not_mem_nil, or_false] at hm
  rcases hm with hm | hm | hm | hm <;> rw [hm] at hd <;> rw [← hd] at hm <;> exact absurd hm (by decide)

theorem squeezeSingle_shape {key : Str} {a : Arr} {w : Val} (h : squeezeSingle key a = .ok w)
    (hk : ¬ [py% "Data_IR", py% "Data_Real", py% "Data_Imag", py% "Data_SOSData_Delay"].contains key = true) :
    Spec.shapeOf w = if a.shape.foldr (· * ·) 1 = 1 then a.shape.tail else a.shape := by
  unfold squeezeSingle at h
  by_cases hs : a.size = 1
  · rw [if_pos ⟨hs, hk⟩] at h
    have hs' : a.shape.foldr (· * ·) 1 = 1 := hs
    rw [if_pos hs']
    unfold firstItem at h
    split at h
    · rename_i hsh _
      rw [hsh]
      split at h <;> simp only [Except.ok.injEq] at h <;> subst h
      · rfl
      · unfold scalarOf; split <;> rfl
    · rename_i hsh _
      rw [hsh]
      simp only [Except.ok.injEq] at h
      subst h
      rfl
    · simp at h
  · rw [if_neg (fun h => hs h.1)] at h
    simp only [Except.ok.injEq] at h
    subst h
    have hs' : ¬ a.shape.foldr (· * ·) 1 = 1 := hs
    rw [if_neg hs']
    rfl

theorem formatFrom_double_shape {nc : Nc} {n : Str} {t : List Nat} {data : List Elem} {w : Val}
    (h : (formatFrom nc n ⟨.f, t, data⟩).1 = .ok w)
    (hk : ¬ [py% "Data_IR", py% "Data_Real", py% "Data_Imag", py% "Data_SOSData_Delay"].contains n = true) :
    Spec.shapeOf w = if t.foldr (· * ·) 1 = 1 then t.tail else t := by
  simp only [formatFrom, true_or, if_true] at h
  split at h <;> exact squeezeSingle_shape h hk

theorem formatFrom_string_shape {nc : Nc} {n : Str} {u : List Nat} {S : Nat} {data : List Elem} {w : Val}
    (h : (formatFrom nc n ⟨.S, u ++ [S], data⟩).1 = .ok w)
    (hk : ¬ [py% "Data_IR", py% "Data_Real", py% "Data_Imag", py% "Data_SOSData_Delay"].contains n = true) :
    Spec.shapeOf w = if u.foldr (· * ·) 1 = 1 then u.tail else u := by
  simp only [formatFrom, List.getLast?_append, List.getLast?_singleton, Option.some_or, List.dropLast_concat] at h
  split at h
  · simp at h
  · split at h
    · simp at h
    · have := squeezeSingle_shape h hk
      rw [this]
      cases u <;> rfl

/-- the form of the values of variables that were read -/
def AsRead : Val → Prop
  | .npstr _ => True
  | .num k e => k = .f ∧ e ≠ .masked
  | .arr a => a.shape = [] → a.kind = .f ∧ a.data = [.masked]
  | _ => False

theorem AsRead.ext {v w : Val} (hv : AsRead v) (hw : AsRead w) (hk : Spec.kindOf v = Spec.kindOf w)
    (hs : Spec.shapeOf v = Spec.shapeOf w) (he : Spec.elems v = Spec.elems w) : v = w := by
  cases v <;> cases w <;> simp_all [AsRead, Spec.kindOf, Spec.shapeOf, Spec.elems]
  rename_i a b
  cases a; cases b
  simp_all

theorem squeezeSingle_asRead {key : Str} {a : Arr} {w : Val} (h : squeezeSingle key a = .ok w) (hs : a.shape ≠ [])
    (hne : Spec.elems w ≠ []) (hk : a.kind = .f ∨ a.kind = .U ∧ ∀ e ∈ Spec.elems w, ∃ s, e = .str s) : AsRead w := by
  unfold squeezeSingle at h
  split at h
  · unfold firstItem at h
    split at h
    · rename_i e l hsh hd
      split at h
      · rename_i hm
        simp only [Except.ok.injEq] at h
        subst h
        exact fun _ => ⟨rfl, rfl⟩
      · rename_i hm
        simp only [Except.ok.injEq] at h
        subst h
        rcases hk with hk | ⟨hk, hst⟩
        · rw [hk]
          exact ⟨rfl, hm⟩
        · rw [hk] at hst ⊢
          cases e with
          | str t => trivial
          | _ =>
            obtain ⟨t, ht⟩ := hst _ (List.mem_singleton.2 rfl)
            cases ht
    · rename_i n s hsh hno
      simp only [Except.ok.injEq] at h
      subst h
      intro h0
      have : s = [] := h0
      subst this
      have hne' : a.data ≠ [] := hne
      cases hd : a.data with
      | nil => exact absurd hd hne'
      | cons e l => exact (hno e l hd rfl).elim
    · simp at h
  · simp only [Except.ok.injEq] at h
    subst h
    exact fun h => absurd h hs

theorem formatFrom_double_asRead {nc : Nc} {n : Str} {t : List Nat} {data : List Elem} {w : Val}
    (h : (formatFrom nc n ⟨.f, t, data⟩).1 = .ok w) (ht : t ≠ []) (hne : Spec.elems w ≠ []) : AsRead w := by
  simp only [formatFrom, true_or, if_true] at h
  split at h <;> exact squeezeSingle_asRead h ht hne (Or.inl rfl)

theorem formatFrom_string_asRead {nc : Nc} {n : Str} {t : List Nat} {data : List Elem} {w : Val}
    (h : (formatFrom nc n ⟨.S, t, data⟩).1 = .ok w) (hne : Spec.elems w ≠ [])
    (hst : ∀ e ∈ Spec.elems w, ∃ s, e = .str s) : AsRead w := by
  simp only [formatFrom] at h
  split at h
  · simp at h
  · split at h
    · simp at h
    · split at h
      · simp at h
      · refine squeezeSingle_asRead h ?_ hne (Or.inr ⟨rfl, hst⟩)
        cases hd : t.dropLast <;> simp [Arr.atleast1]

/-- the relation of a value that was read to the value that was written -/
structure ExactItem (isFill : Kind → Num → Bool) (v : Val) (e : Entry) (w : Val) : Prop where
  attr : e.typ = py% "attribute" → ∃ t, Spec.text v = some t ∧ w = .str t
  form : e.typ ≠ py% "attribute" → AsRead w
  num : e.typ = py% "double" → Spec.kindOf w = .f ∧ (Spec.kindOf v = .f → Spec.elems w = Spec.elems v) ∧
    (∀ x, .num x ∈ Spec.elems w → isFill .f x = false) ∧
    ∀ d n, e.dims = some d → Spec.UniformDims d n →
      Spec.shapeOf w = if (axes false n (Spec.shapeOf v)).foldr (· * ·) 1 = 1 then (axes false n (Spec.shapeOf v)).tail
        else axes false n (Spec.shapeOf v)
  str : e.typ = py% "string" → Spec.kindOf w = .U ∧
    Spec.elems w = (Spec.elems v).map (fun e => .str (stripElem e)) ∧
    ∀ d n, e.dims = some d → Spec.UniformDims d n → ∃ s, axes true n (Spec.shapeOf v) = s ++ [1] ∧
      Spec.shapeOf w = if s.foldr (· * ·) 1 = 1 then s.tail else s

/-- an entry of a file that agrees with the object -/
structure GoodItem (nc : Nc) (o : Obj) (api : Dict Nat) (ds : Dict Str) (i : Item) (v : Val) (e : Entry) : Prop where
  value : Dict.get? o.attrs i.name = some v
  entry : Dict.get? o.conv i.name = some e
  typ : e.typ = i.typ
  same : Spec.SameValue e.typ v i.value
  fits : Spec.ComparableType e.typ i.value
  fits' : Spec.ComparableType e.typ v
  shape : Spec.SameUpToOnes (Spec.shapeOf v) (Spec.shapeOf i.value)
  exact : ExactItem nc.isFill v e i.value
  attr : e.typ = py% "attribute" → i.dims = none
  var : e.typ ≠ py% "attribute" → ∃ d alt sizes, e.dims = some d ∧ Spec.IsAlternative d alt ∧
    Dict.get? ds i.name = some (Str.upper alt) ∧ i.dims = some (Str.upper alt) ∧
    List.Forall₂ (fun c n => Dict.get? api [Str.upperC c] = some n) (alt.filter (· ≠ 'S')) sizes ∧
    Spec.shapeOf i.value = if sizes.foldr (· * ·) 1 = 1 then sizes.tail else sizes

/-- a variable of the file agrees with the object -/
theorem good_variable {env : Env} {nc : Nc} {fs : FS} {filename : Str} {o : Obj} {path : Str} {f : NcFile} {o1 : Obj}
    {api : Dict Nat} {ds : Dict Str} {o' : Obj} (hw : WriteOk env nc fs filename o path f o1 api ds o')
    (hst : Spec.Storable env.rnd nc.isFill o') {k : Str} {p : Str × NcVar} (hp : VarWritten env nc o' api ds k p) :
    p.1 = ncName k ∧ ∃ v e w, (formatFrom nc p.1 p.2.data).1 = .ok w ∧ Spec.IsVariable o' k v e ∧
      GoodItem nc o' api ds ⟨k, w, some p.2.dims.flatten, if p.2.data.kind = .S then py% "string" else py% "double"⟩ v e := by
  obtain ⟨v, e, d, S, kind, a, b, t, data, h1, h2, h3, h4, h5, h6, h7, h8, h9, h10, h11, h12⟩ := hp.ex
  refine ⟨h10, ?_⟩
  have hvar : Spec.IsVariable o' k v e := ⟨h1, h2, h3⟩
  obtain ⟨e', he', htyp⟩ := hw.verified.types (hw.verified.attrs.1 ▸ h1)
  rw [h2] at he'
  cases he'
  obtain ⟨hprop, hne, dd, n, hdd, hu, hn, hlen⟩ := hst.shapes k v e hvar
  have hnorm := ncName_normal (hst.names k (mem_keys_of_get h1)).2.1
  rw [← h10] at hnorm
  obtain ⟨alt, ha1, ha2, ha3, ha4, hknow, haxes⟩ := verified_axes hw.verified hvar hdd hu hn hlen
  rw [h4] at ha2
  cases ha2
  have hflat : ∀ l : Str, (l.map (fun c => [c])).flatten = l := by
    intro l; induction l with
    | nil => rfl
    | cons c l ih => simp only [List.map_cons, List.flatten_cons, ih]; rfl
  rcases htyp with ⟨ht, _⟩ | ⟨ht, hnum⟩ | ⟨ht, hstr⟩
  · exact absurd ht h3
  · -- numbers
    obtain ⟨d1, d2, d3⟩ := hst.doubles k v e hvar ht
    have hkind : Spec.kindOf v = .i ∨ Spec.kindOf v = .f := by
      rcases hnum with ⟨x, rfl⟩ | ⟨x, rfl⟩ | ⟨x, rfl, hx⟩
      · exact Or.inl rfl
      · exact Or.inr rfl
      · exact hx
    have hreal : Spec.IsRealData v := ⟨hprop, by rcases hkind with h | h <;> simp [h]⟩
    have hO : Spec.kindOf v ≠ .O := by rcases hkind with h | h <;> simp [h]
    have hnS := d1 dd alt hdd ha1
    rw [← upper_sizes hnS] at ha4
    have hnz : ∀ c ∈ Str.upper alt, sizeIn api c ≠ 0 := fun c hc =>
      nonzero_sizes hprop.1 hO hne ha4 _ (List.mem_map.2 ⟨c, hc, rfl⟩)
    have hnum' : ∀ x ∈ Spec.elems v, x = .masked ∨ ∃ q, x = .num q := hprop.2.1 hreal.2
    rw [ht] at h6
    have hfill : ∀ x, .num x ∈ (Spec.elems v).map (storedElem env (Spec.kindOf v)) → nc.isFill .f x = false := by
      intro x hx
      obtain ⟨y, hy, hxy⟩ := List.mem_map.1 hx
      rcases hnum' y hy with rfl | ⟨q, rfl⟩
      · simp [storedElem] at hxy
      · by_cases hf : Spec.kindOf v = .f
        · have : storedElem env (Spec.kindOf v) (.num q) = .num q := by
            rw [hf]; cases q <;> rfl
          rw [this] at hxy
          cases hxy
          exact d2 _ hf hy
        · obtain ⟨r, rfl, hr, _⟩ := d3 q hf hy
          simp only [storedElem, if_neg hf, Elem.num.injEq] at hxy
          rw [← hxy]
          exact hr
    obtain ⟨rfl, w, g1, g2, g3, g4, g5⟩ := double_read (n := p.1) h6 h7 h8 h9 hreal
      (by rw [← List.length_pos_iff]; simp only [Str.upper, List.length_map]; omega) hnz ha4 hfill
    have htt := shape_fits h8 hnz
    have hwne : Spec.elems w ≠ [] := by rw [g2]; simpa using hne
    have hPw : Spec.Proper w := by
      refine ⟨g4, fun _ y hy => ?_, fun h => by rw [g5] at h; simp at h⟩
      rw [g2] at hy
      obtain ⟨x, hx, rfl⟩ := List.mem_map.1 hy
      rcases hnum' x hx with rfl | ⟨q, rfl⟩
      · exact Or.inl rfl
      · right
        by_cases hf : Spec.kindOf v = .f
        · exact ⟨q, by rw [hf]; cases q <;> rfl⟩
        · obtain ⟨r, rfl, _, _⟩ := d3 q hf hx
          exact ⟨.fin (env.rnd r), by simp only [storedElem, if_neg hf]⟩
    refine ⟨v, e, w, by rw [h12]; exact g1, hvar, ?_⟩
    refine ⟨h1, h2, ?_, Or.inr (Or.inl ⟨ht, g3, ?_⟩), Or.inr (Or.inl ⟨ht, hPw, by simp [g5]⟩),
      Or.inr (Or.inl ⟨ht, hreal⟩), g3, ⟨fun h => absurd h h3, fun _ => ?_, fun _ => ⟨g5, ?_, ?_, ?_⟩,
        fun h => absurd (ht.symm.trans h) (by decide)⟩, fun h => absurd h h3, fun _ => ⟨dd, alt, (Str.upper alt).map (sizeIn api), hdd, ha1, h4, by rw [h11, hflat], ?_, ?_⟩⟩
    · simp only [h12, ht]; rfl
    · simp only [g2]
      apply forall2_map
      intro x hx
      rcases hnum' x hx with rfl | ⟨q, rfl⟩
      · exact .masked_left _
      · by_cases hf : Spec.kindOf v = .f
        · have : storedElem env (Spec.kindOf v) (.num q) = .num q := by rw [hf]; cases q <;> rfl
          rw [this]
          exact .special q
        · obtain ⟨r, rfl, _, hc⟩ := d3 q hf hx
          simp only [storedElem, if_neg hf]
          exact hc
    · refine formatFrom_double_asRead g1 ?_ hwne
      rw [htt, ← List.length_pos_iff]
      simp only [Str.upper, List.length_map]
      omega
    · intro hf
      simp only [g2]
      refine (List.map_congr_left (g := id) fun x hx => ?_).trans (List.map_id _)
      rcases hnum' x hx with rfl | ⟨q, rfl⟩
      · rfl
      · rw [hf]; cases q <;> rfl
    · simp only [g2]
      exact hfill
    · intro d' n' hd' hu'
      rw [hdd] at hd'
      cases hd'
      have hnn : n' = n := (hu' _ ha1).1.symm.trans ha3
      subst hnn
      have hax : axes false n' (Spec.shapeOf v) = t := by
        rw [htt, upper_sizes hnS, haxes, ht]
        rfl
      rw [hax]
      exact formatFrom_double_shape g1 hnorm
    · rw [List.filter_eq_self.2 (by intro c hc; simp only [decide_eq_true_eq]; rintro rfl; exact hnS hc)]
      exact sizes_known (fun c hc => hknow c hc (by rintro rfl; exact hnS hc))
    · rw [← htt]
      exact formatFrom_double_shape g1 hnorm
  · -- text
    obtain ⟨s1, k', v', e', s', hv', ht', hs', hs0⟩ := hst.strings k v e hvar ht
    have hkind : Spec.kindOf v = .U := by
      rcases hstr with (⟨s, rfl⟩ | ⟨s, rfl⟩) | ⟨x, rfl, hx⟩
      · rfl
      · rfl
      · exact hx
    have hO : Spec.kindOf v ≠ .O := by simp [hkind]
    obtain ⟨al, rfl, hal⟩ := s1 dd alt hdd ha1
    have hS0 : S ≠ 0 := by
      obtain ⟨_, _, dd', n', hdd', _⟩ := hst.shapes k' v' e' hv'
      have := verified_S hw.verified hv' hdd' (fun alt halt => by
        obtain ⟨a, rfl, _⟩ := (hst.strings k' v' e' hv' ht').1 dd' alt hdd' halt
        simp) h5 s' hs'
      have := List.length_pos_iff.2 hs0
      omega
    have hsz : Spec.SameUpToOnes (Spec.shapeOf v) ((Str.upper al).map (sizeIn api)) := by
      rw [upper_sizes hal]
      unfold Spec.SameUpToOnes at ha4 ⊢
      rw [ha4, List.map_append, List.filter_append]
      simp
    have hup : Str.upper (al ++ py% "S") = Str.upper al ++ py% "S" := by
      simp only [Str.upper, List.map_append]
      rfl
    rw [hup] at h4 h6 h8 h11
    have hlen' := verified_S hw.verified hvar hdd (fun alt halt => by
        obtain ⟨a, rfl, _⟩ := s1 dd alt hdd halt
        simp) h5
    have hnz : ∀ c ∈ Str.upper al, sizeIn api c ≠ 0 := fun c hc =>
      nonzero_sizes hprop.1 hO hne hsz _ (List.mem_map.2 ⟨c, hc, rfl⟩)
    rw [ht] at h6
    have hasc : ∀ e ∈ Spec.elems v, ∃ s, e = .str s ∧ Str.isAscii s = true := by
      have h6' := h6
      unfold formatFor at h6'
      rw [if_neg (by decide), if_pos rfl] at h6'
      cases ha : asciiElems (toArr v).data with
      | error e => simp [ha] at h6'
      | ok u => rw [(toArr_spec hO).2.2] at ha; exact asciiElems_ok ha
    obtain ⟨rfl, w, g1, g2, g3, g4, g5⟩ := string_read (nc := nc) (n := p.1) h6 h7 h8 h9 h5 hS0 hprop.1 hO hnz hsz hlen'
    have hshape : Spec.shapeOf w = if ((Str.upper al).map (sizeIn api)).foldr (· * ·) 1 = 1
        then ((Str.upper al).map (sizeIn api)).tail else (Str.upper al).map (sizeIn api) := by
      have hsz' : sizeIn api 'S' = S := by simp [sizeIn, h5]
      have htt := shape_fits h8 (by
        intro c hc
        rcases List.mem_append.1 hc with h | h
        · exact hnz c h
        · have : c = 'S' := by simpa using h
          rw [this, hsz']; exact hS0)
      rw [List.map_append] at htt
      have htt' : t = (Str.upper al).map (sizeIn api) ++ [S] := by rw [htt]; simp [hsz']
      rw [htt'] at g1
      exact formatFrom_string_shape g1 hnorm
    have hPw : Spec.Proper w := by
      refine ⟨g4, fun h => by rw [g5] at h; simp at h, fun _ y hy => ?_⟩
      rw [g2] at hy
      obtain ⟨x, hx, rfl⟩ := List.mem_map.1 hy
      exact ⟨_, rfl⟩
    refine ⟨v, e, w, by rw [h12]; exact g1, hvar, ?_⟩
    refine ⟨h1, h2, ?_, Or.inr (Or.inr ⟨ht, g3, ?_⟩), Or.inr (Or.inr ⟨ht, hPw, Or.inl g5, ?_⟩),
      Or.inr (Or.inr ⟨ht, hprop, Or.inl hkind, ?_⟩), g3, ⟨fun h => absurd h h3, fun _ => ?_,
        fun h => absurd (ht.symm.trans h) (by decide), fun _ => ⟨g5, g2, ?_⟩⟩, fun h => absurd h h3,
      fun _ => ⟨dd, al ++ py% "S", (Str.upper al).map (sizeIn api), hdd, ha1, by rw [h4, hup], by rw [h11, hflat, hup], ?_, ?_⟩⟩
    · simp only [h12, ht]; rfl
    · simp only [g2]
      apply forall2_map
      intro x hx
      obtain ⟨s, rfl, _⟩ := hasc x hx
      obtain ⟨m, hm⟩ := stripNul_spec s
      exact ⟨s, stripNul s, stripNul s, m, 0, rfl, rfl, hm, by simp⟩
    · intro s hs c hc
      rw [g2] at hs
      obtain ⟨x, hx, hxs⟩ := List.mem_map.1 hs
      obtain ⟨t', rfl, hta⟩ := hasc x hx
      simp only [stripElem, Elem.str.injEq] at hxs
      subst hxs
      obtain ⟨m, hm⟩ := stripNul_spec t'
      simp only [Str.isAscii, List.all_eq_true, decide_eq_true_eq] at hta
      exact hta c (by rw [hm]; simp [hc])
    · intro s hs c hc
      obtain ⟨t', ht', hta⟩ := hasc _ hs
      cases ht'
      simp only [Str.isAscii, List.all_eq_true, decide_eq_true_eq] at hta
      exact hta c hc
    · refine formatFrom_string_asRead g1 ?_ ?_
      · rw [g2]; simpa using hne
      · intro e he
        rw [g2] at he
        obtain ⟨x, _, rfl⟩ := List.mem_map.1 he
        exact ⟨_, rfl⟩
    · intro d' n' hd' hu'
      rw [hdd] at hd'
      cases hd'
      have hnn : n' = n := (hu' _ ha1).1.symm.trans ha3
      subst hnn
      refine ⟨(Str.upper al).map (sizeIn api), ?_, ?_⟩
      · rw [upper_sizes hal]
        have : decide (e.typ = py% "attribute" ∨ e.typ = py% "string") = true := by rw [ht]; rfl
        rw [this] at haxes
        rw [← haxes, List.map_append]
        rfl
      · exact hshape
    · have hfil : (al ++ py% "S").filter (· ≠ 'S') = al := by
        have : al.filter (· ≠ 'S') = al := List.filter_eq_self.2 (by
          intro c hc; simp only [decide_eq_true_eq]; rintro rfl; exact hal hc)
        rw [List.filter_append, this]
        simp
      rw [hfil]
      exact sizes_known (fun c hc => hknow c (by simp [hc]) (by rintro rfl; exact hal hc))
    · exact hshape

theorem ncText_id {t : Str} (h : Char.ofNat 0 ∉ t) : ncText t = t := by
  have hc : ∀ c ∈ t, decide (c ≠ nul) = true := by
    intro c hc
    simp only [decide_eq_true_eq]
    rintro rfl
    exact h hc
  unfold ncText
  rw [List.filter_eq_self.2 hc]
  have : ∀ l : Str, (∀ c ∈ l, decide (c ≠ nul) = true) → l.takeWhile (fun c => decide (c ≠ nul)) = l := by
    intro l
    induction l with
    | nil => simp
    | cons c l ih => intro h; simp only [List.takeWhile_cons, h c (by simp), if_true, ih (fun c hc => h c (by simp [hc]))]
  rw [this t hc]
  simp

/-- an attribute in the file agrees with the object -/
theorem good_attribute {env : Env} {nc : Nc} {fs : FS} {filename : Str} {o : Obj} {path : Str} {f : NcFile} {o1 : Obj}
    {api : Dict Nat} {ds : Dict Str} {o' : Obj} (hw : WriteOk env nc fs filename o path f o1 api ds o')
    (hst : Spec.Storable env.rnd nc.isFill o') {pre : Str} {ks : List Str} {d : Dict Val}
    (ha : AttrsWritten env nc o' pre ks d)
    (hpre : pre = py% "GLOBAL_" ∨ ∃ x w ex, Spec.IsVariable o' x w ex ∧ pre = x ++ py% "_")
    {a : Str} {w : Val} (hm : (a, w) ∈ d) :
    ∃ v e, Spec.IsAttribute o' (pre ++ a) v ∧ GoodItem nc o' api ds ⟨pre ++ a, w, none, py% "attribute"⟩ v e := by
  obtain ⟨v, h1, h2, rfl, _⟩ := ha.from_ a w hm
  obtain ⟨e, he, htyp⟩ := hw.verified.types (hw.verified.attrs.1 ▸ h2)
  have hat : e.typ = py% "attribute" := by
    apply Classical.byContradiction
    intro hne
    obtain ⟨s1, s2⟩ := hst.separate _ v e ⟨h2, he, hne⟩
    rcases hpre with rfl | ⟨x, w, ex, hx, rfl⟩
    · exact s1 (List.prefix_append _ _)
    · exact s2 x w ex hx (List.prefix_append _ _)
  have hIs : Spec.IsAttribute o' (pre ++ a) v := ⟨h2, e, he, hat⟩
  obtain ⟨_, hnul⟩ := hst.attributes _ v hIs
  refine ⟨v, e, hIs, ?_⟩
  have hstr : Spec.IsString v := by
    rcases htyp with ⟨_, h⟩ | ⟨h, _⟩ | ⟨h, _⟩
    · exact h
    · rw [hat] at h; exact absurd h (by decide)
    · rw [hat] at h; exact absurd h (by decide)
  obtain ⟨t, ht, hp, hsh⟩ : ∃ t, Spec.text v = some t ∧ pyStr env v = t ∧ Spec.shapeOf v = [] := by
    rcases hstr with ⟨s, rfl⟩ | ⟨s, rfl⟩
    · exact ⟨s, rfl, rfl, rfl⟩
    · exact ⟨s, rfl, rfl, rfl⟩
  have hv : (Val.str (ncText (pyStr env v))) = .str t := by rw [hp, ncText_id (hnul t ht)]
  refine ⟨h2, he, hat, Or.inl ⟨hat, t, ht, ?_⟩, Or.inl ⟨hat, t, ?_⟩, Or.inl ⟨hat, t, ht⟩, ?_,
    ⟨fun _ => ⟨t, ht, hv⟩, fun h => absurd hat h, fun h => absurd (hat.symm.trans h) (by decide),
      fun h => absurd (hat.symm.trans h) (by decide)⟩, fun _ => rfl, fun h => absurd hat h⟩
  · simp only [hv]; rfl
  · simp only [hv]; rfl
  · simp only [hv, hsh]; rfl

/-- everything in the file agrees with the object, and everything of the object is in the file -/
theorem good_items {env : Env} {nc : Nc} {fs : FS} {filename : Str} {o : Obj} {path : Str} {f : NcFile} {o1 : Obj}
    {api : Dict Nat} {ds : Dict Str} {o' : Obj} (hw : WriteOk env nc fs filename o path f o1 api ds o')
    (hst : Spec.Storable env.rnd nc.isFill o') :
    ∃ l, fileItems nc f = .ok l ∧ (∀ i ∈ l, ∃ v e, GoodItem nc o' api ds i v e) ∧ ∀ k, Spec.IsData o' k → k ∈ l.map (·.name) := by
  have hdot : ∀ k ∈ o'.keys, Spec.dotName (ncName k) = k := fun k hk => dotName_ncName (hst.names k hk).2.1
  have hg := attrItems_total (nc := nc) (pre := py% "GLOBAL_") (d := f.attrs) (fun a v hm => by
    obtain ⟨_, _, _, _, h1, h2, _⟩ := hw.file.attrs.from_ a v hm
    exact ⟨h1, h2⟩)
  have hitems : ∀ n x, (n, x) ∈ f.vars → ∃ a, (varItems nc n x).1 = .ok a := by
    intro n x hm
    obtain ⟨k, hk, hV⟩ := hw.file.from_ _ hm
    obtain ⟨h1, v, e, w, h2, h3, h4⟩ := good_variable hw hst hV
    have hat := attrItems_total (nc := nc) (pre := sofarName n ++ py% "_") (d := withoutSkipped x.attrs) (fun a v hm => by
      obtain ⟨_, _, _, _, h1, h2, _⟩ := hV.attrs.from_ a v (List.mem_of_mem_filter hm)
      exact ⟨h1, h2⟩)
    unfold varItems
    simp only [h2, hat]
    exact ⟨_, rfl⟩
  obtain ⟨lv, hlv⟩ := allVarItems_total hitems
  have hl : fileItems nc f = .ok (f.attrs.map (fun p => ⟨py% "GLOBAL_" ++ p.1, p.2, none, py% "attribute"⟩) ++ lv) := by
    unfold fileItems
    rw [hg]
    simp only [hlv]
  refine ⟨_, hl, ?_, ?_⟩
  · intro i hi
    rcases List.mem_append.1 hi with hi | hi
    · obtain ⟨⟨a, w⟩, hm, rfl⟩ := List.mem_map.1 hi
      obtain ⟨v, e, _, h⟩ := good_attribute hw hst hw.file.attrs (Or.inl rfl) hm
      exact ⟨v, e, h⟩
    · obtain ⟨n, x, a, hm, ha, hia⟩ := (allVarItems_mem hlv i).1 hi
      obtain ⟨k, hk, hV⟩ := hw.file.from_ _ hm
      obtain ⟨h1, v, e, w, h2, h3, h4⟩ := good_variable hw hst hV
      obtain ⟨w', hw', rfl⟩ := varItems_ok ha
      simp only at h1 h2 h4
      rw [h2] at hw'
      cases hw'
      rw [h1, hdot k hk] at hia
      rcases List.mem_cons.1 hia with rfl | hia
      · exact ⟨v, e, h4⟩
      · obtain ⟨⟨a, w'⟩, hm', rfl⟩ := List.mem_map.1 hia
        obtain ⟨v', e', _, h⟩ := good_attribute hw hst hV.attrs (Or.inr ⟨k, v, e, h3, rfl⟩) (List.mem_of_mem_filter hm')
        exact ⟨v', e', h⟩
  · intro k hk
    rw [fileItems_names hl]
    obtain ⟨v, hv⟩ := get_of_mem_keys hk
    obtain ⟨e, he, hall⟩ := hw.file.all k hk
    by_cases hat : e.typ = py% "attribute"
    · rcases (hst.attributes k v ⟨hv, e, he, hat⟩).1 with ⟨a, rfl⟩ | ⟨x, a, w, ex, rfl, hx⟩
      · have := hw.file.attrs.all a (List.mem_filter.2 ⟨hk, by simp [Str.startsWith]⟩)
        obtain ⟨⟨a', w⟩, hm, rfl⟩ := List.mem_map.1 this
        exact .globalAttribute a' w hm
      · have hxk : x ∈ o'.keys := mem_keys_of_get hx.1
        obtain ⟨ex', hex, hall'⟩ := hw.file.all x hxk
        rw [hx.2.1] at hex
        cases hex
        obtain ⟨⟨n, y⟩, hm, hV⟩ := hall' hx.2.2
        have := hV.attrs.all a (by
          rw [subKeys_mem]
          simp only [List.append_assoc, List.cons_append, List.nil_append]
          exact ⟨hk, ⟨a, by simp⟩⟩)
        obtain ⟨⟨a', w⟩, hm', rfl⟩ := List.mem_map.1 this
        obtain ⟨h1, _⟩ := good_variable hw hst hV
        have := Spec.InFile.variableAttribute n y a' w hm hm' (by
          rintro rfl
          exact (hst.names _ hk).2.2 ⟨x, by simp⟩)
        simp only at h1
        rw [h1, hdot x hxk] at this
        exact this
    · obtain ⟨⟨n, y⟩, hm, hV⟩ := hall hat
      obtain ⟨h1, _⟩ := good_variable hw hst hV
      have := Spec.InFile.variableData n y hm
      simp only at h1
      rw [h1, hdot k hk] at this
      exact this

/-- entry of the convention for custom data that was read -/
def itemEntry (i : Item) : Entry := customEntry none (i.dims.map customDims) i.typ

/-- convention and custom data while reading -/
structure Tracked (C : Dict Entry) (names : List Item) (st : Reading) : Prop where
  std : ∀ k e, Dict.get? C k = some e → Dict.get? st.obj.conv k = some e
  extra : ∀ k, Dict.get? C k = none → k ∈ names.map (·.name) → ∃ j ∈ names, j.name = k ∧
    Dict.get? st.obj.conv k = some (itemEntry j) ∧ Dict.get? (st.obj.custom.getD []) k = some (itemEntry j)
  noExtra : ∀ k, Dict.get? C k = none → k ∉ names.map (·.name) → Dict.get? st.obj.conv k = none
  cust : ∀ k e, Dict.get? (st.obj.custom.getD []) k = some e → Dict.get? C k = none ∧ k ∈ names.map (·.name)
  nodup : (Dict.keys (st.obj.custom.getD [])).Nodup
  attrs : ∀ k ∈ Dict.keys st.obj.attrs, k ∈ names.map (·.name) ∨ Dict.get? C k ≠ none
  made : st.obj.custom ≠ none → ∃ k, k ∈ names.map (·.name) ∧ Dict.get? C k = none

theorem Tracked.step {C : Dict Entry} {names : List Item} {st st' : Reading} {i : Item} (ht : Tracked C names st)
    (hl : Loaded st st' i) (hn : Spec.OrdinaryName i.name) : Tracked C (names ++ [i]) st' := by
  have hmem : ∀ k, k ∈ (names ++ [i]).map (·.name) ↔ k ∈ names.map (·.name) ∨ k = i.name := by
    intro k; simp
  have hattrs : ∀ k ∈ Dict.keys st'.obj.attrs, k ∈ (names ++ [i]).map (·.name) ∨ Dict.get? C k ≠ none := by
    intro k hk
    rw [hl.attrs, Dict.mem_keys_put] at hk
    rw [hmem]
    rcases hk with hk | hk
    · exact Or.inl (Or.inr hk)
    · rcases ht.attrs k hk with h | h
      · exact Or.inl (Or.inl h)
      · exact Or.inr h
  -- the convention does not change
  have same : st'.obj.conv = st.obj.conv → st'.obj.custom = st.obj.custom →
      (Dict.get? C i.name = none → i.name ∈ names.map (·.name)) → Tracked C (names ++ [i]) st' := by
    intro h1 h2 h3
    refine ⟨fun k e h => by rw [h1]; exact ht.std k e h, ?_, ?_, ?_, by rw [h2]; exact ht.nodup, hattrs, ?_⟩
    · intro k hC hk
      have hk' : k ∈ names.map (·.name) := by
        rcases (hmem k).1 hk with h | h
        · exact h
        · rw [h]; exact h3 (h ▸ hC)
      obtain ⟨j, j1, j2, j3, j4⟩ := ht.extra k hC hk'
      exact ⟨j, by simp [j1], j2, by rw [h1]; exact j3, by rw [h2]; exact j4⟩
    · intro k hC hk
      rw [hmem, not_or] at hk
      rw [h1]
      exact ht.noExtra k hC hk.1
    · intro k e h
      rw [h2] at h
      obtain ⟨a, b⟩ := ht.cust k e h
      exact ⟨a, (hmem k).2 (Or.inl b)⟩
    · rw [h2]
      intro hne
      obtain ⟨k, k1, k2⟩ := ht.made hne
      exact ⟨k, (hmem k).2 (Or.inl k1), k2⟩
  rcases hl.api with ⟨h1, h2, h3, _⟩ | ⟨h1, _, h2 | h2⟩
  · apply same h2 h3
    intro hC
    obtain ⟨v, hv⟩ := (hasAttr_data hn.1 hn.2).1 h1
    rcases ht.attrs _ (mem_keys_of_get hv) with h | h
    · exact h
    · exact absurd hC h
  · apply same h2.2.1 h2.2.2
    intro hC
    apply Classical.byContradiction
    intro hk
    obtain ⟨e, he⟩ := (Dict.has_iff _ _).1 h2.1
    rw [ht.noExtra _ hC hk] at he
    simp at he
  · obtain ⟨h2, h3, h4⟩ := h2
    have hnone : Dict.get? st.obj.conv i.name = none := by
      cases h : Dict.get? st.obj.conv i.name with
      | none => rfl
      | some e => rw [(Dict.has_iff _ _).2 ⟨e, h⟩] at h2; simp at h2
    have hC : Dict.get? C i.name = none := by
      cases h : Dict.get? C i.name with
      | none => rfl
      | some e => rw [ht.std _ _ h] at hnone; simp at hnone
    refine ⟨?_, ?_, ?_, ?_, ?_, hattrs, fun _ => ⟨i.name, (hmem _).2 (Or.inr rfl), hC⟩⟩
    · intro k e h
      rw [h3]
      have : k ≠ i.name := by rintro rfl; rw [hC] at h; simp at h
      rw [Dict.get?_put_ne _ _ this]
      exact ht.std k e h
    · intro k hCk hk
      by_cases hki : k = i.name
      · refine ⟨i, by simp, hki.symm, ?_, ?_⟩
        · rw [h3, hki, Dict.get?_put_self]; rfl
        · rw [h4, hki]; simp only [Option.getD_some]; rw [Dict.get?_put_self]; rfl
      · obtain ⟨j, j1, j2, j3, j4⟩ := ht.extra k hCk (by rcases (hmem k).1 hk with h | h; exact h; exact absurd h hki)
        refine ⟨j, by simp [j1], j2, ?_, ?_⟩
        · rw [h3, Dict.get?_put_ne _ _ hki]; exact j3
        · rw [h4]; simp only [Option.getD_some]; rw [Dict.get?_put_ne _ _ hki]; exact j4
    · intro k hCk hk
      rw [hmem, not_or] at hk
      rw [h3, Dict.get?_put_ne _ _ hk.2]
      exact ht.noExtra k hCk hk.1
    · intro k e h
      rw [h4] at h
      simp only [Option.getD_some] at h
      by_cases hki : k = i.name
      · exact ⟨hki ▸ hC, (hmem k).2 (Or.inr hki)⟩
      · rw [Dict.get?_put_ne _ _ hki] at h
        obtain ⟨a, b⟩ := ht.cust k e h
        exact ⟨a, (hmem k).2 (Or.inl b)⟩
    · rw [h4]
      exact Dict.nodup_put _ _ ht.nodup

theorem Tracked.steps {C : Dict Entry} {l names : List Item} {st st' : Reading} (ht : Tracked C names st)
    (hp : st.obj.prot = false) (hl : loadItems l st = .ok st') (hn : ∀ i ∈ l, Spec.OrdinaryName i.name) :
    Tracked C (names ++ l) st' := by
  induction l generalizing st names with
  | nil => simp only [loadItems, Except.ok.injEq] at hl; subst hl; simpa using ht
  | cons i l ih =>
    simp only [loadItems] at hl
    split at hl
    · simp at hl
    · rename_i st1 h1
      have hL := loadItem_ok hp h1
      have := ih (ht.step hL (hn i (by simp))) hL.prot hl (fun j hj => hn j (by simp [hj]))
      simpa using this

theorem addDefaults_conv {m : Bool} {conv : Dict Entry} {o o' : Obj} (h : addDefaults m conv o = .ok o') :
    o'.conv = o.conv ∧ o'.custom = o.custom := by
  induction conv generalizing o with
  | nil => simp only [addDefaults, Except.ok.injEq] at h; subst h; exact ⟨rfl, rfl⟩
  | cons p l ih =>
    obtain ⟨k, e⟩ := p
    simp only [addDefaults] at h
    split at h
    · exact ih h
    · split at h
      · simp at h
      · rename_i d _
        split at h
        · simp at h
        · obtain ⟨a, b⟩ := ih h
          rw [a, b]
          rcases setAttr_cases o k d with ⟨x, _, h2, _⟩ | ⟨b, _, _, _, h2⟩ | ⟨w, _, _, _, _, h2, _⟩ <;> rw [h2] <;>
            exact ⟨rfl, rfl⟩

/-- convention of a new object that names its convention and version correctly -/
theorem newSofa_conv {env : Env} {c v : Str} {arg : VerifyArg} {new : Obj}
    (h : (initSofa env c false (.exact v) arg).out = .ok new)
    (hc : ∃ w, Dict.get? new.attrs (py% "GLOBAL_SOFAConventions") = some w ∧ Spec.text w = some c)
    (hv : ∃ w, Dict.get? new.attrs (py% "GLOBAL_SOFAConventionsVersion") = some w ∧ Spec.text w = some v) :
    loadConvention env c (.exact v) = .ok new.conv ∧ new.custom = none := by
  unfold initSofa at h
  cases hl : loadConvention env c (.exact v) with
  | error x => simp [hl] at h
  | ok std =>
    simp only [hl] at h
    cases hs : conventionToSofa env false (emptyObj std) with
    | error x => simp [hs] at h
    | ok o0 =>
      simp only [hs] at h
      have ho : o0.conv = std ∧ o0.custom = none := by
        unfold conventionToSofa at hs
        split at hs
        · simp at hs
        · rename_i o1 hd
          simp only [Except.ok.injEq] at hs
          subst hs
          exact addDefaults_conv hd
      cases hcv : conventionVersion std with
      | error x => simp [hcv] at h
      | ok cv =>
        simp only [hcv] at h
        obtain ⟨b, hb⟩ : ∃ b, (finishInit env false cv b o0).out = .ok new := by
          cases arg with
          | yes => exact ⟨_, h⟩
          | no => exact ⟨_, h⟩
          | auto =>
            simp only at h
            split at h
            · simp at h
            · exact ⟨_, h⟩
        unfold finishInit at hb
        split at hb
        · simp only at hb
          cases hvn : (verifyNew env o0 .raise .read).out with
          | error x => simp [hvn] at hb
          | ok r =>
            simp only [hvn, Except.ok.injEq] at hb
            unfold verifyNew at hvn hb
            obtain ⟨_, o1, o3, h1, h2⟩ := (verifyG_raise_ok_iff _ _ _ _ _).1 hvn
            rw [verifyG_raise_ok_obj _ _ _ _ _ _ h1 h2] at hb
            obtain ⟨api, ha, _⟩ := phaseDims_ok h2.dims
            have hsh := h2.shapes
            rw [ha] at hsh
            obtain ⟨dims, hd, _⟩ := phaseShapes_nil hsh
            rw [hd] at hb
            obtain ⟨wc, hwc, htc⟩ := hc
            obtain ⟨wv, hwv, htv⟩ := hv
            obtain ⟨cc, kk, hf, _⟩ := resetConvention_frame h1
            have hat : new.attrs = o0.attrs := by rw [← hb, hf]
            rw [hat] at hwc hwv
            obtain ⟨cv', c', vv, conv', r1, r2, r3, r4, r5, r6⟩ := resetConvention_inv h1
            rw [getAttr_of_get hwc] at r1
            rw [getAttr_of_get hwv] at r3
            cases r1
            cases r3
            rw [asStr_text, htc] at r2
            cases r2
            rw [pyStr_text htv, hl] at r5
            cases r5
            rw [ho.2] at r6
            rw [← hb, r6]
            exact ⟨rfl, rfl⟩
        · split at hb
          · simp at hb
          · simp only [Except.ok.injEq] at hb; subst hb; exact ⟨by rw [← ho.1], ho.2⟩
          · simp only [Except.ok.injEq] at hb; subst hb; exact ⟨by rw [← ho.1], ho.2⟩

/-- convention and custom data of the object that was read -/
theorem read_back {env : Env} {nc : Nc} {fs : FS} {filename : Str} {arg : VerifyArg} {vb : Bool} {o : Obj} {path : Str}
    {f : NcFile} {c v : Str} {new o0 : Obj} (h : ReadOk env nc fs filename arg vb o path f c v new o0) {l : List Item}
    (hl : fileItems nc f = .ok l) (hn : ∀ i ∈ l, Spec.OrdinaryName i.name)
    (hc : ∃ w, Dict.get? new.attrs (py% "GLOBAL_SOFAConventions") = some w ∧ Spec.text w = some c)
    (hv : ∃ w, Dict.get? new.attrs (py% "GLOBAL_SOFAConventionsVersion") = some w ∧ Spec.text w = some v)
    (hknown : ∀ k, Spec.IsData new k → Dict.get? new.conv k ≠ none)
    (hc' : ∃ w, Dict.get? o.attrs (py% "GLOBAL_SOFAConventions") = some w ∧ Spec.text w = some c)
    (hv' : ∃ w, Dict.get? o.attrs (py% "GLOBAL_SOFAConventionsVersion") = some w ∧ Spec.text w = some v) :
    ((Dict.keys o.attrs).Nodup ∧ (Dict.keys (o.custom.getD [])).Nodup ∧
      (∀ k e, Dict.get? (o.custom.getD []) k = some e → Spec.IsData o k) ∧
      (o.custom ≠ none → ∃ k, Spec.IsData o k ∧ Dict.get? new.conv k = none)) ∧ (∀ k, Spec.IsData o k ↔ k ∈ l.map (·.name)) ∧
    (∀ k w, Dict.get? o.attrs k = some w → (∃ i ∈ l, i.name = k ∧ i.value = w) ∧
      ((∃ e, Dict.get? new.conv k = some e ∧ Dict.get? o.conv k = some e ∧ Dict.get? (o.custom.getD []) k = none) ∨
       (Dict.get? new.conv k = none ∧ ∃ j ∈ l, j.name = k ∧ Dict.get? o.conv k = some (itemEntry j) ∧
        Dict.get? (o.custom.getD []) k = some (itemEntry j)))) := by
  obtain ⟨hstd, hcust⟩ := newSofa_conv h.created hc hv
  have hnn := initSofa_nodup h.created
  obtain ⟨l', st, hl', hF⟩ := loadFile_iff hnn h.load
  rw [hl] at hl'
  cases hl'
  have hT : Tracked new.conv ([] ++ l) st := by
    apply Tracked.steps (st := ⟨{ new with prot := false }, [], []⟩) ?_ rfl hF.load hn
    refine ⟨fun k e h => h, by simp, fun k h _ => h, ?_, ?_, ?_, fun h => absurd hcust h⟩
    · intro k e h; simp [hcust] at h
    · simp [hcust, Dict.keys]
    · intro k hk
      exact Or.inr (hknown k hk)
  rw [List.nil_append] at hT
  -- custom data is kept
  have hcu : ∀ k, k ∈ l.map (·.name) → Dict.get? (o0.custom.getD []) k = Dict.get? (st.obj.custom.getD []) k := by
    intro k hk
    cases ho : o0.custom with
    | none => rw [hF.noCustom ho]
    | some cu =>
      obtain ⟨c', h1, h2⟩ := hF.custom cu ho
      rw [h1, h2]
      simp only [Option.getD_some]
      rw [Dict.get?_filter]
      intro v
      have : (l.map (·.name)).contains k = true := by simpa using hk
      simp only [this, Bool.not_true, Bool.and_false, Bool.not_false]
  have hcn : (Dict.keys (o0.custom.getD [])).Nodup := by
    cases ho : o0.custom with
    | none => simp [Dict.keys]
    | some cu =>
      obtain ⟨c', h1, h2⟩ := hF.custom cu ho
      have := hT.nodup
      rw [h1] at this
      rw [h2]
      exact Dict.nodup_filter _ this
  have hkeys : ∀ k, Spec.IsData o k ↔ k ∈ l.map (·.name) := by
    intro k
    rw [← hF.keys k]
    unfold Spec.IsData
    rw [h.attrs]
  have hnd : (Dict.keys o.attrs).Nodup := by
    rw [h.attrs, hF.attrs, (loadItems_ok (by rfl) hF.load).2.2]
    exact Dict.nodup_filter _ (nodup_foldl_items _ _ hnn)
  have hcn' : (Dict.keys (o.custom.getD [])).Nodup := by
    rcases h.verified with rfl | ⟨r, hr1, hr2⟩
    · exact hcn
    · obtain ⟨o1, api, ds, hV⟩ := verify_ok hr1
      rw [hr2] at hV
      rw [hV.attrs.2.2.2]
      obtain ⟨_, _, _, conv', _, _, _, _, _, r6⟩ := resetConvention_inv hV.reset
      cases hcc : o0.custom with
      | none => rw [hcc] at r6; subst r6; simp [hcc, Dict.keys]
      | some cu =>
        rw [hcc] at r6 hcn
        subst r6
        exact Dict.nodup_filter _ hcn
  -- custom entries belong to data
  have hsub0 : ∀ k e, Dict.get? (o0.custom.getD []) k = some e → Spec.IsData o k := by
    intro k e h0
    rw [hkeys]
    cases ho : o0.custom with
    | none => rw [ho] at h0; simp at h0
    | some cu =>
      obtain ⟨c', h1, h2⟩ := hF.custom cu ho
      rw [ho, Option.getD_some, h2] at h0
      have hm := (List.mem_filter.1 (Dict.mem_of_get? h0)).1
      have hnd' := hT.nodup
      rw [h1] at hnd'
      exact (hT.cust k e (by rw [h1]; exact Dict.get?_of_mem hnd' hm)).2
  have hsub : ∀ k e, Dict.get? (o.custom.getD []) k = some e → Spec.IsData o k := by
    rcases h.verified with rfl | ⟨r, hr1, hr2⟩
    · exact hsub0
    · obtain ⟨o1, api, ds, hV⟩ := verify_ok hr1
      rw [hr2] at hV
      rw [hV.attrs.2.2.2]
      obtain ⟨_, _, _, conv', _, _, _, _, _, r6⟩ := resetConvention_inv hV.reset
      intro k e he
      cases hcc : o0.custom with
      | none => rw [hcc] at r6; subst r6; simp at he
      | some cu =>
        rw [hcc] at r6 hcn hsub0
        subst r6
        simp only [Option.getD_some] at he hcn hsub0
        rw [(get?_mergeCustom conv' cu k hcn).2] at he
        split at he
        · simp at he
        · exact hsub0 k e he
  have hmade0 : o0.custom ≠ none → ∃ k, Spec.IsData o k ∧ Dict.get? new.conv k = none := by
    intro hne
    obtain ⟨cu, ho⟩ := Option.ne_none_iff_exists'.1 hne
    obtain ⟨c', h1, h2⟩ := hF.custom cu ho
    obtain ⟨k, k1, k2⟩ := hT.made (by rw [h1]; simp)
    exact ⟨k, (hkeys k).2 k1, k2⟩
  have hmade : o.custom ≠ none → ∃ k, Spec.IsData o k ∧ Dict.get? new.conv k = none := by
    rcases h.verified with rfl | ⟨r, hr1, hr2⟩
    · exact hmade0
    · intro hne
      apply hmade0
      intro h0
      obtain ⟨o1, api, ds, hV⟩ := verify_ok hr1
      rw [hr2] at hV
      rw [hV.attrs.2.2.2] at hne
      obtain ⟨_, _, _, conv', _, _, _, _, _, r6⟩ := resetConvention_inv hV.reset
      rw [h0] at r6
      subst r6
      exact hne rfl
  refine ⟨⟨hnd, hcn', hsub, hmade⟩, hkeys, ?_⟩
  intro k w hw
  have hkl : k ∈ l.map (·.name) := (hkeys k).1 (mem_keys_of_get hw)
  refine ⟨hF.get (h.attrs ▸ hw), ?_⟩
  have base : (∃ e, Dict.get? new.conv k = some e ∧ Dict.get? o0.conv k = some e ∧ Dict.get? (o0.custom.getD []) k = none) ∨
       (Dict.get? new.conv k = none ∧ ∃ j ∈ l, j.name = k ∧ Dict.get? o0.conv k = some (itemEntry j) ∧
        Dict.get? (o0.custom.getD []) k = some (itemEntry j)) := by
    rw [hF.conv, hcu k hkl]
    cases hC : Dict.get? new.conv k with
    | some e =>
      refine Or.inl ⟨e, rfl, hT.std k e hC, ?_⟩
      cases hx : Dict.get? (st.obj.custom.getD []) k with
      | none => rfl
      | some x => have := (hT.cust k x hx).1; rw [hC] at this; simp at this
    | none =>
      obtain ⟨j, j1, j2, j3, j4⟩ := hT.extra k hC hkl
      exact Or.inr ⟨rfl, j, j1, j2, j3, j4⟩
  rcases h.verified with rfl | ⟨r, hr1, hr2⟩
  · exact base
  · obtain ⟨o1, api, ds, hV⟩ := verify_ok hr1
    rw [hr2] at hV
    obtain ⟨a1, a2, a3, a4⟩ := hV.attrs
    rw [a3, a4]
    obtain ⟨cv', c', vv, conv', r1, r2, r3, r4, r5, r6⟩ := resetConvention_inv hV.reset
    obtain ⟨wc, hwc, htc⟩ := hc'
    obtain ⟨wv, hwv, htv⟩ := hv'
    rw [a1] at hwc hwv
    rw [getAttr_of_get hwc] at r1
    rw [getAttr_of_get hwv] at r3
    cases r1
    cases r3
    rw [asStr_text, htc] at r2
    cases r2
    rw [pyStr_text htv, hstd] at r5
    cases r5
    cases hcc : o0.custom with
    | none =>
      rw [hcc] at r6 base
      subst r6
      simp only
      rcases base with ⟨e, b1, b2, b3⟩ | ⟨_, j, _, _, _, b3⟩
      · exact Or.inl ⟨e, b1, b1, b3⟩
      · simp at b3
    | some cu =>
      rw [hcc] at r6 base hcn
      subst r6
      simp only [Option.getD_some] at base hcn ⊢
      obtain ⟨m1, m2⟩ := get?_mergeCustom new.conv cu k hcn
      rcases base with ⟨e, b1, b2, b3⟩ | ⟨b0, j, b1, b2, b3, b4⟩
      · rw [b1] at m1 m2
        exact Or.inl ⟨e, b1, m1, m2⟩
      · rw [b0] at m1 m2
        exact Or.inr ⟨b0, j, b1, b2, by rw [m1]; exact b4, by rw [m2]; exact b4⟩

/-- entries of the convention are not replaced by custom entries -/
theorem resetConvention_std {env : Env} {o o1 : Obj} {c v : Str} {conv : Dict Entry} (h : resetConvention env o = .ok o1)
    (hc : ∃ w, Dict.get? o.attrs (py% "GLOBAL_SOFAConventions") = some w ∧ Spec.text w = some c)
    (hv : ∃ w, Dict.get? o.attrs (py% "GLOBAL_SOFAConventionsVersion") = some w ∧ Spec.text w = some v)
    (hl : loadConvention env c (.exact v) = .ok conv) {k : Str} {e : Entry} (hk : Dict.get? conv k = some e) :
    Dict.get? o1.conv k = some e := by
  obtain ⟨cv, c', vv, conv', h1, h2, h3, h4, h5, h6⟩ := resetConvention_inv h
  obtain ⟨wc, hwc, htc⟩ := hc
  obtain ⟨wv, hwv, htv⟩ := hv
  rw [getAttr_of_get hwc] at h1
  rw [getAttr_of_get hwv] at h3
  cases h1
  cases h3
  rw [asStr_text, htc] at h2
  cases h2
  rw [pyStr_text htv, hl] at h5
  cases h5
  rw [h6]
  cases o.custom with
  | none => exact hk
  | some cu =>
    simp only [mergeCustom]
    rw [get?_foldl_put_other, hk]
    intro hm
    obtain ⟨p, hp, rfl⟩ := List.mem_map.1 hm
    have := (List.mem_filter.1 hp).2
    rw [(Dict.has_iff conv p.1).2 ⟨e, hk⟩] at this
    simp at this

/-- custom entries after `_reset_convention` -/
theorem resetConvention_custom {env : Env} {o o1 : Obj} {c v : Str} {conv cu : Dict Entry}
    (h : resetConvention env o = .ok o1)
    (hc : ∃ w, Dict.get? o.attrs (py% "GLOBAL_SOFAConventions") = some w ∧ Spec.text w = some c)
    (hv : ∃ w, Dict.get? o.attrs (py% "GLOBAL_SOFAConventionsVersion") = some w ∧ Spec.text w = some v)
    (hl : loadConvention env c (.exact v) = .ok conv) (hn : ∀ d, o.custom = some d → (d.map Prod.fst).Nodup)
    (hcu : o1.custom = some cu) {k : Str} {e : Entry} (hk : Dict.get? cu k = some e) :
    Dict.get? conv k = none ∧ Dict.get? o1.conv k = some e := by
  obtain ⟨cv, c', vv, conv', h1, h2, h3, h4, h5, h6⟩ := resetConvention_inv h
  obtain ⟨wc, hwc, htc⟩ := hc
  obtain ⟨wv, hwv, htv⟩ := hv
  rw [getAttr_of_get hwc] at h1
  rw [getAttr_of_get hwv] at h3
  cases h1
  cases h3
  rw [asStr_text, htc] at h2
  cases h2
  rw [pyStr_text htv, hl] at h5
  cases h5
  cases ho : o.custom with
  | none => rw [ho] at h6; subst h6; cases hcu
  | some cust =>
    rw [ho] at h6
    subst h6
    simp only [Option.some.injEq] at hcu
    subst hcu
    obtain ⟨g1, g2⟩ := get?_mergeCustom conv cust k (hn _ ho)
    rw [g2] at hk
    cases hs : Dict.get? conv k with
    | some x => rw [hs] at hk; cases hk
    | none =>
      rw [hs] at hk
      exact ⟨rfl, by rw [g1, hs]; exact hk⟩

theorem alternative_single {d alt : Str} (h : ¬ (py% ", ") <:+: d) (ha : Spec.IsAlternative d alt) : alt = d := by
  obtain ⟨l, r, hj, hall⟩ := ha
  cases l with
  | nil =>
    cases r with
    | nil => simpa [Str.join] using hj
    | cons b r =>
      refine absurd ?_ h
      rw [← hj]
      exact ⟨alt, _, by simp [Str.join]; rfl⟩
  | cons a l =>
    refine absurd ?_ h
    rw [← hj]
    cases l with
    | nil => exact ⟨a, _, by simp [Str.join]; rfl⟩
    | cons b l => exact ⟨a, _, by simp [Str.join]; rfl⟩

theorem lowerC_lowerC (c : Char) : Str.lowerC (Str.lowerC c) = Str.lowerC c := by
  have hA : 'A'.toNat = 65 := rfl
  have hZ : 'Z'.toNat = 90 := rfl
  unfold Str.lowerC
  rw [hA, hZ]
  by_cases h : 65 ≤ c.toNat ∧ c.toNat ≤ 90
  · have h1 : (Char.ofNat (c.toNat + 32)).toNat = c.toNat + 32 := ofNat_toNat (by omega)
    rw [if_pos h, h1, if_neg (by omega)]
  · rw [if_neg h, if_neg h]

theorem upperC_lowerC (c : Char) : Str.upperC (Str.lowerC c) = Str.upperC c := by
  have ha : 'a'.toNat = 97 := rfl
  have hz : 'z'.toNat = 122 := rfl
  have hA : 'A'.toNat = 65 := rfl
  have hZ : 'Z'.toNat = 90 := rfl
  unfold Str.lowerC Str.upperC
  rw [ha, hz, hA, hZ]
  by_cases h : 65 ≤ c.toNat ∧ c.toNat ≤ 90
  · have h1 : (Char.ofNat (c.toNat + 32)).toNat = c.toNat + 32 := ofNat_toNat (by omega)
    rw [if_pos h, h1, if_pos (by omega), if_neg (by omega), Nat.add_sub_cancel, Char.ofNat_toNat]
  · rw [if_neg h]

theorem customDims_stored {given d : Str} (h : Spec.CustomLetters given d) : customDims d = d := by
  unfold Spec.CustomLetters at h
  subst h
  simp only [customDims, List.map_map, List.map_inj_left, Function.comp_apply, standardDims, List.contains_iff_mem]
  intro a _
  by_cases hm : Str.upperC a ∈ py% "ERMNCIS"
  · rw [if_pos hm, upperC_upperC, if_pos hm]
  · rw [if_neg hm, upperC_lowerC, if_neg hm, lowerC_lowerC]


/-- global attributes of the file -/
theorem file_global {env : Env} {nc : Nc} {fs : FS} {filename : Str} {o : Obj} {path : Str} {f : NcFile} {o1 : Obj}
    {api : Dict Nat} {ds : Dict Str} {o' : Obj} (hw : WriteOk env nc fs filename o path f o1 api ds o')
    (hst : Spec.Storable env.rnd nc.isFill o') {a t : Str}
    (ht : ∃ w, Dict.get? o'.attrs (py% "GLOBAL_" ++ a) = some w ∧ Spec.text w = some t) :
    Dict.get? f.attrs a = some (.str t) := by
  obtain ⟨w, hw1, hw2⟩ := ht
  have hm := hw.file.attrs.all a (List.mem_filter.2 ⟨mem_keys_of_get hw1, by simp [Str.startsWith]⟩)
  obtain ⟨x, hx⟩ := (Dict.has_iff _ _).1 ((Dict.has_iff_mem _ _).2 hm)
  have hmem : (a, x) ∈ f.attrs := Dict.mem_of_get? hx
  obtain ⟨v, h1, h2, rfl, _⟩ := hw.file.attrs.from_ a x hmem
  obtain ⟨v', e', hat, _⟩ := good_attribute hw hst hw.file.attrs (Or.inl rfl) hmem
  rw [hw1] at h2
  cases h2
  have hv' := hat.1
  rw [hw1] at hv'
  cases hv'
  rw [pyStr_text hw2, ncText_id ((hst.attributes _ _ hat).2 t hw2)] at hx
  exact hx

/-- what is known about an object that was written and read, before or after its verification -/
theorem round_trip_of {env : Env} {nc : Nc} {fs : FS} {filename : Str} {o : Obj} {compression : Nat} {c v : Str}
    {arg : VerifyArg} {verbose : Bool} {new o2 : Obj} {path' : Str} {f' : NcFile} {c' v' : Str} {new' o0 : Obj}
    (hw : (writeSofa env nc fs filename o compression).out = .ok ())
    (hs : Spec.Storable env.rnd nc.isFill (writeSofa env nc fs filename o compression).obj)
    (hc : Spec.HasText o (py% "GLOBAL_SOFAConventions") c) (hv : Spec.HasText o (py% "GLOBAL_SOFAConventionsVersion") v)
    (hnew : (initSofa env c false (.exact v) arg).out = .ok new) (hd : Spec.DescribesItself c v new)
    (hR : ReadOk env nc (writeSofa env nc fs filename o compression).fs filename arg verbose o2 path' f' c' v' new' o0) :
    ∃ o1 api ds, Verified env o o1 api ds .write (writeSofa env nc fs filename o compression).obj ∧
      ((Dict.keys o2.attrs).Nodup ∧ (Dict.keys (o2.custom.getD [])).Nodup ∧
        (∀ k e, Dict.get? (o2.custom.getD []) k = some e → Spec.IsData o2 k) ∧
        (o2.custom ≠ none → ∃ k, Spec.IsData o2 k ∧ Dict.get? new.conv k = none)) ∧
      (∀ k, Spec.IsData (writeSofa env nc fs filename o compression).obj k ↔ Spec.IsData o2 k) ∧
      ∀ k v w, Dict.get? (writeSofa env nc fs filename o compression).obj.attrs k = some v →
        Dict.get? o2.attrs k = some w → ∃ i e e2, i.name = k ∧ i.value = w ∧
        GoodItem nc (writeSofa env nc fs filename o compression).obj api ds i v e ∧
        Dict.get? o2.conv k = some e2 ∧ e2.typ = e.typ ∧
        ((Dict.get? new.conv k = some e ∧ e2 = e ∧ Dict.get? (o2.custom.getD []) k = none) ∨
         (Dict.get? new.conv k = none ∧ (∃ cd, ((e.typ = py% "attribute" ∧ cd = none) ∨ (e.typ ≠ py% "attribute" ∧
            ∃ d alt, e.dims = some d ∧ Spec.IsAlternative d alt ∧ Dict.get? ds k = some (Str.upper alt) ∧
              cd = some (customDims (Str.upper alt)))) ∧ e2 = customEntry none cd e.typ) ∧
          Dict.get? (o2.custom.getD []) k = some e2)) := by
  obtain ⟨path, f, o1, api, ds, r, hW, hfile, hver, hobj⟩ := writeSofa_ok hw
  generalize (writeSofa env nc fs filename o compression).obj = o' at *
  generalize (writeSofa env nc fs filename o compression).fs = fs' at *
  have hat := hW.verified.attrs
  unfold Spec.HasText at hc hv
  have hc' := hc
  have hv' := hv
  rw [← hat.1] at hc hv
  -- the same file
  have hp : path' = path := by have h1 := hR.loc; have h2 := hW.loc; rw [h2] at h1; simpa using h1.symm
  subst hp
  have hf : f' = f := by have h1 := hR.file; rw [hfile] at h1; simpa using h1.symm
  subst hf
  have hcc : c' = c := by
    obtain ⟨w, h1, h2⟩ := hR.conv
    rw [file_global hW hs (a := py% "SOFAConventions") hc] at h1
    cases h1
    simpa [Spec.text] using h2.symm
  have hvv : v' = v := by
    obtain ⟨w, h1, h2⟩ := hR.version
    rw [file_global hW hs (a := py% "SOFAConventionsVersion") hv] at h1
    cases h1
    simpa [Spec.text] using h2.symm
  subst hcc hvv
  have hnn : new' = new := by have h1 := hR.created; rw [hnew] at h1; simpa using h1.symm
  subst hnn
  obtain ⟨l, hl, hgood, hall⟩ := good_items hW hs
  have hord : ∀ i ∈ l, Spec.OrdinaryName i.name := by
    intro i hi
    obtain ⟨v, e, hg⟩ := hgood i hi
    exact (hs.names i.name (mem_keys_of_get hg.value)).1
  -- values of the object that was read
  have hnd := initSofa_nodup hR.created
  obtain ⟨l', st, hl', hF⟩ := loadFile_iff hnd hR.load
  rw [hl] at hl'
  cases hl'
  have hval : ∀ k w, Dict.get? o2.attrs k = some w → ∃ i ∈ l, i.name = k ∧ i.value = w := by
    intro k w hw
    exact hF.get (hR.attrs ▸ hw)
  have hkeys : ∀ k, Spec.IsData o2 k ↔ k ∈ l.map (·.name) := by
    intro k
    rw [← hF.keys k]
    unfold Spec.IsData
    rw [hR.attrs]
  have htext : ∀ k t, (py% "GLOBAL_") <+: k → (∃ w, Dict.get? o'.attrs k = some w ∧ Spec.text w = some t) →
      ∃ w, Dict.get? o2.attrs k = some w ∧ Spec.text w = some t := by
    rintro k t hpre ⟨w, h1, h2⟩
    obtain ⟨w', hw'⟩ := get_of_mem_keys ((hkeys k).2 (hall k (mem_keys_of_get h1)))
    obtain ⟨i, hi, rfl, rfl⟩ := hval k w' hw'
    obtain ⟨v, e', hg⟩ := hgood i hi
    have hv := hg.value
    rw [h1] at hv
    cases hv
    have h4 : e'.typ = py% "attribute" := by
      apply Classical.byContradiction
      intro hne
      exact (hs.separate _ _ _ ⟨hg.value, hg.entry, hne⟩).1 hpre
    refine ⟨_, hw', ?_⟩
    rcases hg.same with ⟨_, t', h5, h6⟩ | ⟨h5, _⟩ | ⟨h5, _⟩
    · rw [h2] at h5; cases h5; exact h6
    · rw [h4] at h5; exact absurd h5 (by decide)
    · rw [h4] at h5; exact absurd h5 (by decide)
  obtain ⟨⟨hnd2, hcn2, hsub2, hmade2⟩, _, hback⟩ := read_back hR hl hord hd.name hd.version (fun k hk h => (Dict.get?_eq_none_iff _ _).1 h (hd.listed k hk))
    (htext _ _ (by decide) hc) (htext _ _ (by decide) hv)
  obtain ⟨hstd, _⟩ := newSofa_conv hnew hd.name hd.version
  -- the types are the same
  have htyp : ∀ k v w, Dict.get? o'.attrs k = some v → Dict.get? o2.attrs k = some w →
      ∃ i e e2, i.name = k ∧ i.value = w ∧ GoodItem nc o' api ds i v e ∧ Dict.get? o2.conv k = some e2 ∧ e2.typ = e.typ ∧
        ((Dict.get? new'.conv k = some e ∧ e2 = e ∧ Dict.get? (o2.custom.getD []) k = none) ∨
         (Dict.get? new'.conv k = none ∧ (∃ cd, ((e.typ = py% "attribute" ∧ cd = none) ∨ (e.typ ≠ py% "attribute" ∧
            ∃ d alt, e.dims = some d ∧ Spec.IsAlternative d alt ∧ Dict.get? ds k = some (Str.upper alt) ∧
              cd = some (customDims (Str.upper alt)))) ∧ e2 = customEntry none cd e.typ) ∧
          Dict.get? (o2.custom.getD []) k = some e2)) := by
    intro k v w h1 h2
    obtain ⟨⟨i, hi, rfl, rfl⟩, hb⟩ := hback k w h2
    obtain ⟨v', e, hg⟩ := hgood i hi
    have hgv := hg.value
    rw [h1] at hgv
    cases hgv
    rcases hb with ⟨e2, b1, b2, b3⟩ | ⟨b0, j, hj, hjn, b2, b3⟩
    · have := resetConvention_std hW.verified.reset hc' hv' hstd b1
      rw [← hat.2.2.1, hg.entry] at this
      cases this
      exact ⟨i, e, e, rfl, rfl, hg, b2, rfl, Or.inl ⟨b1, rfl, b3⟩⟩
    · obtain ⟨vj, ej, hgj⟩ := hgood j hj
      have := hgj.entry
      rw [hjn, hg.entry] at this
      cases this
      refine ⟨i, e, itemEntry j, rfl, rfl, hg, b2, hgj.typ.symm, Or.inr ⟨b0, ?_, b3⟩⟩
      by_cases ht : e.typ = py% "attribute"
      · exact ⟨none, Or.inl ⟨ht, rfl⟩, by rw [itemEntry, hgj.attr ht, hgj.typ]; rfl⟩
      · obtain ⟨d, alt, sizes, d1, d2, d3, d4, _⟩ := hgj.var ht
        obtain ⟨d', alt', sizes', d1', d2', d3', d4', _⟩ := hg.var ht
        exact ⟨some (customDims (Str.upper alt)), Or.inr ⟨ht, d, alt, d1, d2, by rw [← hjn]; exact d3, rfl⟩, by rw [itemEntry, d4, hgj.typ]; rfl⟩
  refine ⟨o1, api, ds, hW.verified, ⟨hnd2, hcn2, hsub2, hmade2⟩, ?_, htyp⟩
  have hIs : ∀ k, Spec.IsData o' k ↔ Spec.IsData o2 k := by
    intro k
    rw [hkeys]
    constructor
    · exact hall k
    · intro hk
      obtain ⟨i, hi, rfl⟩ := List.mem_map.1 hk
      obtain ⟨v, e, hg⟩ := hgood i hi
      exact mem_keys_of_get hg.value
  exact hIs

/-- what is known about an object that was written and read -/
theorem round_trip {env : Env} {nc : Nc} {fs : FS} {filename : Str} {o : Obj} {compression : Nat} {c v : Str}
    {arg : VerifyArg} {verbose : Bool} {new o2 : Obj}
    (hw : (writeSofa env nc fs filename o compression).out = .ok ())
    (hs : Spec.Storable env.rnd nc.isFill (writeSofa env nc fs filename o compression).obj)
    (hc : Spec.HasText o (py% "GLOBAL_SOFAConventions") c) (hv : Spec.HasText o (py% "GLOBAL_SOFAConventionsVersion") v)
    (hnew : (initSofa env c false (.exact v) arg).out = .ok new) (hd : Spec.DescribesItself c v new)
    (hr : (readSofa env nc (writeSofa env nc fs filename o compression).fs filename arg verbose).out = .ok o2) :
    ∃ o1 api ds, Verified env o o1 api ds .write (writeSofa env nc fs filename o compression).obj ∧
      ((Dict.keys o2.attrs).Nodup ∧ (Dict.keys (o2.custom.getD [])).Nodup ∧
        (∀ k e, Dict.get? (o2.custom.getD []) k = some e → Spec.IsData o2 k) ∧
        (o2.custom ≠ none → ∃ k, Spec.IsData o2 k ∧ Dict.get? new.conv k = none)) ∧
      (∀ k, Spec.IsData (writeSofa env nc fs filename o compression).obj k ↔ Spec.IsData o2 k) ∧
      ∀ k v w, Dict.get? (writeSofa env nc fs filename o compression).obj.attrs k = some v →
        Dict.get? o2.attrs k = some w → ∃ i e e2, i.name = k ∧ i.value = w ∧
        GoodItem nc (writeSofa env nc fs filename o compression).obj api ds i v e ∧
        Dict.get? o2.conv k = some e2 ∧ e2.typ = e.typ ∧
        ((Dict.get? new.conv k = some e ∧ e2 = e ∧ Dict.get? (o2.custom.getD []) k = none) ∨
         (Dict.get? new.conv k = none ∧ (∃ cd, ((e.typ = py% "attribute" ∧ cd = none) ∨ (e.typ ≠ py% "attribute" ∧
            ∃ d alt, e.dims = some d ∧ Spec.IsAlternative d alt ∧ Dict.get? ds k = some (Str.upper alt) ∧
              cd = some (customDims (Str.upper alt)))) ∧ e2 = customEntry none cd e.typ) ∧
          Dict.get? (o2.custom.getD []) k = some e2)) := by
  obtain ⟨path', f', c', v', new', o0, hR⟩ := readSofa_ok hr
  exact round_trip_of hw hs hc hv hnew hd hR

end Sofar
