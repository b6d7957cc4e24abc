import Verif.Lemmas.Adding
import Verif.Props.Total
import Verif.Props.Custom
/-!
# C69: adding custom data keeps valid objects valid
-/
namespace Sofar

/-- C69: adding custom data that fits to an object that was verified and follows its convention gives an object that
can be verified and follows its convention (so that more data can be added), and `verify` passes. `w` is the stored
value; the name must not be a name of the convention (up to the prefix `GLOBAL_`). `add_attribute` is the case of the
type `attribute` without dimensions. Missing: `Spec.Fitting` is about the stored value, and lists are stored as rows,
see `C69_refuted`. -/
theorem C69_added_partial (env : Env) (o : Obj) (size : Char → Nat) (mode : Mode) (name : Str) (v : Inp) (w : Val) (typ : Str)
    (dims : Option Str) (hr : resetConvention env o = .ok o) (hc : Spec.Checkable o) (hrules : Spec.RegularRules env o)
    (hf : Spec.Conforms env o (decide (mode = .write))) (hs : Spec.FitsSizes o size)
    (hob : ∀ key rule, (key, rule) ∈ env.rules → Spec.RuleObeyed env.aliases o size key rule)
    (n : Obj) (hn : Spec.CanCreate env o n)
    (hcust : ∀ c, o.custom = some c → ∀ k ∈ c.map Prod.fst, ∀ m ∈ n.conv.map Prod.fst,
      Str.replace m (py% "GLOBAL_") [] ≠ Str.replace k (py% "GLOBAL_") [])
    (hnorm : ∀ m ∈ n.conv.map Prod.fst, Str.replace m (py% "GLOBAL_") [] ≠ Str.replace name (py% "GLOBAL_") [])
    (hunknown : name ∉ o.conv.map Prod.fst)
    (hadd : (addVariable o name v typ dims).out = .ok ())
    (hw : Dict.get? (addVariable o name v typ dims).obj.attrs name = some w)
    (hfit : Spec.Fitting env o size (decide (mode = .write)) name w typ dims) :
    let o' := (addVariable o name v typ dims).obj
    (verify env o' .raise mode).out = .ok none ∧
    resetConvention env o' = .ok o' ∧ Spec.Checkable o' ∧ Spec.RegularRules env o' ∧
    Spec.Conforms env o' (decide (mode = .write)) ∧ Spec.FitsSizes o' size ∧
    (∀ key rule, (key, rule) ∈ env.rules → Spec.RuleObeyed env.aliases o' size key rule) := by
  have hun : Dict.get? o.conv name = none := (Dict.get?_eq_none_iff _ _).2 hunknown
  obtain ⟨hce, hpriv, w', hw'⟩ := addEntry_ok_inv hadd
  have hnew := checkEntry_new hce
  have hres : addVariable o name v typ dims = _ := addEntry_ok o name v w' typ dims hce hw' hpriv
  have hh : Dict.has o.conv name = false := by simp [Dict.has, hun]
  simp only [registerCustom, hh, Bool.false_eq_true, if_false] at hres
  rw [hres] at hw ⊢
  simp only [Dict.get?_put_self, Option.some.injEq] at hw
  subst hw
  generalize he : customEntry none ((dims.map Str.upper).map customDims) typ = e
  intro o'
  have het : e.typ = typ := by rw [← he]; rfl
  have hfresh : Dict.get? o.attrs name = none := by
    cases hg : Dict.get? o.attrs name with
    | none => rfl
    | some y =>
      have : o.hasAttr name = true := by simp [Obj.hasAttr, Dict.has, hg]
      rw [this] at hnew; cases hnew
  have ha : AddedEntry o o' name w' e := ⟨rfl, rfl, rfl, hfresh, hun⟩
  have hd : ∀ given, dims = some given → ∃ s, e.dims = some s ∧ Spec.CustomLetters given s := by
    rintro d rfl
    exact ⟨customDims d, by rw [← he]; simp [customEntry, customDims_upper],
      by simp [Spec.CustomLetters, customDims, standardDims]⟩
  have hnone : dims = none → e.dims = none := by rintro rfl; rw [← he]; rfl
  subst het
  have hreset : resetConvention env o' = .ok o' := reset_added hr hun hnew
  have hc' := ha.checkable hfit hd hnone hc
  have hr' := ha.regular hfit hrules hob
  have hdep : name ≠ py% "GLOBAL_SOFAConventions" := by
    rintro rfl
    obtain ⟨cv, _, _, _, h1, _⟩ := hn
    rw [hfresh] at h1; cases h1
  have hlegal : Spec.LegalName o'.conv name e :=
    checkEntry_legal hce rfl (fun k hk => by rw [ha.conv, Dict.mem_keys_put]; exact Or.inr hk) hfit.notPrivate
      hfit.notApi hfit.glob
  have hf' := ha.conforms hfit (by rw [← he]; rfl) hd hnone hs hob hlegal hdep hf
  refine ⟨(C58_accepted env o' o' mode hreset hc' hr' hf' ?_).1, hreset, hc', hr', hf', ha.fitsSizes hfit hd hnone hs,
    fun key rule hm => ha.obeyed (hfit.rules key rule hm) (hob key rule hm)⟩
  intro c hcc
  refine ⟨n, ?_, ?_⟩
  · obtain ⟨cv, c', vv, v', h1, h2, h3, h4, h5⟩ := hn
    exact ⟨cv, c', vv, v', ha.keep h1, h2, ha.keep h3, h4, h5⟩
  · rw [ha.custom, Option.some.injEq] at hcc
    subst hcc
    intro k hk m hm
    rcases (Dict.mem_keys_put _ _ _ _).1 hk with rfl | hk
    · exact hnorm m hm
    · cases hcu : o.custom with
      | none => simp [hcu] at hk
      | some cu => rw [hcu] at hk; exact hcust cu hcu k hk m hm

example (o : Obj) (name : Str) (v : Inp) : addAttribute o name v = addVariable o name v (py% "attribute") none := rfl

/-- a matrix of temperatures with the custom dimension T -/
def exTemperature : Inp := .val (.arr (exNums .f [1, 3] [20, 21, 22]))

/-- the hypotheses are met by a new object and a variable with a custom dimension -/
example : resetConvention exEnv exSofa = .ok exSofa ∧ Spec.Checkable exSofa ∧ Spec.RegularRules exEnv exSofa ∧
    Spec.Conforms exEnv exSofa true ∧ Spec.FitsSizes exSofa exSizes ∧
    (∀ key rule, (key, rule) ∈ exEnv.rules → Spec.RuleObeyed exEnv.aliases exSofa exSizes key rule) ∧
    Spec.CanCreate exEnv exSofa exSofa ∧ exSofa.custom = none ∧
    (∀ m ∈ exSofa.conv.map Prod.fst, Str.replace m (py% "GLOBAL_") [] ≠ Str.replace (py% "Temperature") (py% "GLOBAL_") []) ∧
    py% "Temperature" ∉ exSofa.conv.map Prod.fst ∧
    (addVariable exSofa (py% "Temperature") exTemperature (py% "double") (some (py% "mt"))).out = .ok () ∧
    Spec.Fitting exEnv exSofa exSizes true (py% "Temperature") (.arr (exNums .f [1, 3] [20, 21, 22])) (py% "double")
      (some (py% "mt")) := by
  have hob := exRules_obeyed exSofa (by decide +kernel) (by decide +kernel) (by decide +kernel) (by decide +kernel)
  refine ⟨by decide +kernel, checkableB_sound (by decide +kernel), regularRulesB_sound (by decide +kernel),
    conformsB_sound (by decide +kernel) exSizes (by decide +kernel) hob, fitsB_sound (by decide +kernel), hob,
    ⟨.str (py% "FIR"), py% "FIR", .str (py% "1.0"), py% "1.0", by decide +kernel, rfl, by decide +kernel, rfl,
      by decide +kernel⟩, by decide +kernel, by decide +kernel, by decide +kernel, by decide +kernel, ?_⟩
  refine ⟨hasTypeB_sound (by decide +kernel), by decide +kernel, by decide +kernel, fun h => ?_, ?_, fun h => ?_, ?_⟩
  · exact absurd h (by decide +kernel)
  · intro key rule hm
    simp only [exEnv, List.mem_cons, List.not_mem_nil, or_false, Prod.mk.injEq] at hm
    rcases hm with ⟨rfl, _⟩ | ⟨rfl, _⟩
    · decide
    · decide
  · exact absurd h (by decide +kernel)
  · intro given stored hg hs
    cases hg
    have : stored = py% "Mt" := hs.trans (by decide)
    subst this
    refine ⟨by decide, by decide, ?_, ?_⟩
    · rintro (h | h)
      · exact absurd rfl h
      · exact absurd h (by decide)
    · intro i c hi
      match i, hi with
      | 0, hi =>
        cases hi
        exact ⟨by rw [if_neg (by decide)]; exact sizedB_sound (by decide +kernel), by decide⟩
      | 1, hi => cases hi; exact ⟨by rw [if_pos (by decide)]; decide, by decide⟩
      | i + 2, hi => simp at hi

/-- C69 fails for lists: three numbers with one custom dimension are accepted by `add_variable` if they are given as a
list, but the object is rejected afterwards, because the size of the dimension is taken from the first axis of the row
that the list was converted to. With an array, `verify` passes. (The text also shows that problems of custom variables
are reported twice.) -/
theorem C69_refuted : ∃ (env : Env) (o : Obj) (a : Arr) (m : Str), a.shape = [3] ∧
    (verify env o .raise .write).out = .ok none ∧
    (addVariable o (py% "Foo") (.list a) (py% "double") (some (py% "K"))).out = .ok () ∧
    (verify env (addVariable o (py% "Foo") (.list a) (py% "double") (some (py% "K"))).obj .raise .write).out =
      .error (.valueError m) ∧
    (verify env (addVariable o (py% "Foo") (.val (.arr a)) (py% "double") (some (py% "K"))).obj .raise .write).out =
      .ok none := by
  refine ⟨exEnv, exSofa, exNums .f [3] [1, 2, 3], py% "\nERRORS\n------\nDetected variables of wrong shape:\n- Foo has shape (3,) but must have (K=1)\n- Foo has shape (3,) but must have (K=1)\n",
    rfl, by decide +kernel, by decide +kernel, by decide +kernel, by decide +kernel⟩

end Sofar
