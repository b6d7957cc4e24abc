import Verif.Spec.Checkable
import Verif.Spec.Text
/-!
# Vocabulary for the report of `Sofa.verify`

The problems that the documentation of `Sofa.verify` (sofar/sofa.py:896-939) lists, when they are present, and the
text that names them. The definitions do not use the modelled functions (except for `str.replace`).
-/
namespace Sofar.Spec

/-- The problems of an object. The names are those of the data in the object. -/
inductive Problem where
  /-- mandatory data is missing -/
  | missing (k : Str)
  /-- data has the wrong type, which is described by a text -/
  | wrongType (k : Str) (text : Str)
  /-- an attribute belongs to no variable -/
  | noVariable (k : Str)
  /-- the name of an attribute contains no underscore -/
  | noUnderscore (k : Str)
  /-- the name of a variable contains underscores -/
  | underscores (k : Str)
  /-- the name contains a key word -/
  | reserved (k : Str)
  /-- custom data has the name of data of the convention -/
  | taken (k : Str)
  /-- a variable has a shape that is none of the required ones; the required sizes are given with the dimensions -/
  | shape (k : Str) (shape : List Nat) (required : List (List (Char × Nat)))
  /-- the value `s` is not allowed -/
  | value (k s : Str) (allowed : List Str)
  /-- `g` must be given if `k` is given -/
  | needs (g k : Str)
  /-- `g` must be given if `k` has the value `t` -/
  | needsFor (g k t : Str)
  /-- `g` has the value `s` but must have certain values if `k` has the value `t` -/
  | valueFor (g s : Str) (allowed : List Str) (k t : Str)
  /-- the dimension `d` of size `n` must have other sizes (described by a text) if `k` has the value `t` -/
  | size (d : Str) (n : Nat) (sizes : Str) (k t : Str)
  /-- the unit `u` contains upper case letters -/
  | upperCase (k u : Str)
  /-- the convention is deprecated -/
  | deprecated (convention new : Str)

/-- Missing data and data of wrong type is looked for first. -/
def Problem.First : Problem → Prop
  | .missing _ => True
  | .wrongType _ _ => True
  | _ => False

/-- Heading of the problems of the same kind. -/
def Problem.heading : Problem → Str
  | .missing _ => py% "Detected missing mandatory data call sofa.add_missing() to fix this):\n"
  | .wrongType _ _ => py% "Detected data of wrong type:\n"
  | .noVariable _ => py% "Detected attributes with missing variables:\n"
  | .noUnderscore _ => py% "Detected attribute names with too many or little underscores. Names must have the form Variable_Attribute, Data_Attribute (one underscore), or Data_Variable_Attribute (two underscores):\n"
  | .underscores _ => py% "Detected variable names with too many underscores.Underscores are only allowed for the variable Data:\n"
  | .reserved _ => py% "Detected variable or attribute with reserved key words PRIVATE, API, or GLOBAL:\n"
  | .taken _ => py% "Detected custom variable or attribute with reserved names. Custom data shall not have the same name as data contained in the convention itself:\n"
  | .shape _ _ _ => py% "Detected variables of wrong shape:\n"
  | .value _ _ _ => py% "Detected violations of the SOFA convention:\n"
  | .needs _ _ => py% "Detected violations of the SOFA convention:\n"
  | .needsFor _ _ _ => py% "Detected violations of the SOFA convention:\n"
  | .valueFor _ _ _ _ _ => py% "Detected violations of the SOFA convention:\n"
  | .size _ _ _ _ _ => py% "Detected violations of the SOFA convention:\n"
  | .upperCase _ _ => py% "Detected violations of the SOFA convention:\n"
  | .deprecated _ _ => py% "Detected deprecations:\n"

/-- Dimensions and their sizes, e.g. `(M=2, C=3)`. -/
def requiredText (l : List (Char × Nat)) : Str :=
  py% "(" ++ Str.join (py% ", ") (l.map (fun p => p.1 :: '=' :: Str.ofNat p.2)) ++ py% ")"

/-- The line that names the problem. -/
def Problem.line : Problem → Str
  | .missing k => py% "- " ++ k ++ py% "\n"
  | .wrongType k text => py% "- " ++ k ++ text ++ py% "\n"
  | .noVariable k => py% "- " ++ k ++ py% "\n"
  | .noUnderscore k => py% "- " ++ k ++ py% "\n"
  | .underscores k => py% "- " ++ k ++ py% "\n"
  | .reserved k => py% "- " ++ k ++ py% "\n"
  | .taken k => py% "- " ++ k ++ py% "\n"
  | .shape k s required => py% "- " ++ k ++ py% " has shape " ++ Str.ofTuple s ++ py% " but must have "
      ++ Str.join (py% ", ") (required.map requiredText) ++ py% "\n"
  | .value k s allowed => py% "- " ++ k ++ py% " is " ++ s ++ py% " but must be "
      ++ Str.join (py% ", ") allowed ++ py% "\n"
  | .needs g k => py% "- " ++ g ++ py% " must be given if " ++ k ++ py% " is in SOFA object\n"
  | .needsFor g k t => py% "- " ++ g ++ py% " must be given if " ++ k ++ py% " is " ++ t ++ py% "\n"
  | .valueFor g s allowed k t => py% "- " ++ g ++ py% " is " ++ s ++ py% " but must be "
      ++ Str.join (py% ", ") allowed ++ py% " if " ++ k ++ py% " is " ++ t ++ py% "\n"
  | .size d n sizes k t => py% "- Dimension " ++ d ++ py% " is of size " ++ Str.ofNat n ++ py% " but must be "
      ++ sizes ++ py% " if " ++ k ++ py% " is " ++ t ++ py% "\n"
  | .upperCase k u => py% "- " ++ k ++ py% " is " ++ u
      ++ py% " but must contain only lower case letters when writing SOFA files to disk.\n"
  | .deprecated c new => py% "- GLOBAL_SOFAConventions is " ++ c
      ++ py% ", which is deprecated. Use Sofa.upgrade_convention() to upgrade to " ++ new

/-- Text about a value that does not have the data type `typ`. The names of types are not modelled. -/
def typeText (env : Env) (typ : Str) (v : Val) : Str :=
  if typ = py% "attribute" then py% " must be string but is " ++ env.typeName v
  else if typ = py% "double" then py% " must be int or float but is " ++ env.typeName v
  else if typ = py% "string" then
    match v with
    | .arr a => py% " must be U or S but is " ++ env.dtypeName a
    | v => py% " must be string or numpy array but is " ++ env.typeName v
  else py% ": Error in convention. Type must be double, string, or attribute but is " ++ typ

/-- The items that a rule demands for the value `t` of the object's entry `k`. -/
def Demands (o : Obj) (rule : Rule) (k t : Str) (items : List SpecItem) : Prop :=
  ∃ v t0 sp, Dict.get? o.attrs k = some v ∧ text v = some t0 ∧ t = ruleValue t0 ∧ rule.specific = some sp ∧
    Dict.get? sp t = some items

/-- The problems of an object with a single rule. `sizes` are the sizes of the dimensions of the object. -/
def Breaks (fmt : Val → Str) (aliases : Dict Str) (o : Obj) (sizes : Dict Nat) (key : Str) (rule : Rule) : Problem → Prop
  | .value k s l => k = sofarName key ∧ rule.value = some l ∧
      ∃ v, Dict.get? o.attrs k = some v ∧ s = shown fmt v ∧ ¬ Allowed aliases k v l
  | .needs g k => k = sofarName key ∧ (∃ v, Dict.get? o.attrs k = some v) ∧
      ∃ g' ∈ rule.general, g = sofarName g' ∧ Dict.get? o.attrs g = none
  | .needsFor g k t => k = sofarName key ∧ ∃ items g' ref, Demands o rule k t items ∧ SpecItem.dep g' ref ∈ items ∧
      g = sofarName g' ∧ Dict.get? o.attrs g = none
  | .valueFor g s l k t => k = sofarName key ∧ ∃ items g' w, Demands o rule k t items ∧ SpecItem.dep g' (some l) ∈ items ∧
      g = sofarName g' ∧ Dict.get? o.attrs g = some w ∧ s = shown fmt w ∧ ¬ Allowed aliases g w l
  | .size d n str k t => k = sofarName key ∧ ∃ items ls ns, Demands o rule k t items ∧ SpecItem.dims ls ∈ items ∧
      (d, ns, str) ∈ ls ∧ Dict.get? sizes d = some n ∧ n ∉ ns
  | _ => False

/-- The alternatives of the dimensions `d` in their order. -/
def Alternatives (d : Str) (alts : List Str) : Prop :=
  d = Str.join (py% ", ") alts ∧ alts ≠ [] ∧ ∀ a ∈ alts, ¬ (py% ", ") <:+: a

/-- The shape of a variable fits none of the alternatives of its dimensions. `shape` has as many axes as the last
alternative, `required` are the sizes that the alternatives require. -/
def WrongShape (o : Obj) (sizes : Dict Nat) (k : Str) (shape : List Nat) (required : List (List (Char × Nat))) : Prop :=
  ∃ v e d alts first last, VariableWith o k v e d ∧ Alternatives d alts ∧ alts.head? = some first ∧
    alts.getLast? = some last ∧
    (∀ a ∈ alts, ∃ i c, a[i]? = some c ∧
      axisSize (decide (e.typ = py% "attribute" ∨ e.typ = py% "string")) first.length v.shape i ≠
        (if c = 'S' then 1 else (Dict.get? sizes [Str.upperC c]).getD 0)) ∧
    shape = (List.range last.length).map
      (axisSize (decide (e.typ = py% "attribute" ∨ e.typ = py% "string")) first.length v.shape) ∧
    required = alts.map (fun a => a.map (fun c => (Str.upperC c, (Dict.get? sizes [Str.upperC c]).getD 0)))

/-- The problem is present in the object. `names` are the names of the convention without custom data, `sizes` the
sizes of the dimensions; `write` adds the demands for writing files. -/
def Problem.Present (env : Env) (o : Obj) (names : List Str) (sizes : Dict Nat) (write : Bool) : Problem → Prop
  | .missing k => ∃ e f, (k, e) ∈ o.conv ∧ e.flags = some f ∧ 'm' ∈ f ∧ k ∉ o.attrs.map Prod.fst
  | .wrongType k text => ∃ v e, Dict.get? o.attrs k = some v ∧ Dict.get? o.conv k = some e ∧ ¬ HasType e.typ v ∧
      text = typeText env e.typ v
  | .noVariable k => k ∈ o.attrs.map Prod.fst ∧ ∃ e var rest, Dict.get? o.conv k = some e ∧ e.typ = py% "attribute" ∧
      k = var ++ '_' :: rest ∧ '_' ∉ rest ∧ var ∉ o.conv.map Prod.fst ∧ ¬ (py% "GLOBAL_") <+: k
  | .noUnderscore k => k ∈ o.attrs.map Prod.fst ∧ ∃ e, Dict.get? o.conv k = some e ∧ e.typ = py% "attribute" ∧ '_' ∉ k
  | .underscores k => k ∈ o.attrs.map Prod.fst ∧ ∃ e p s, Dict.get? o.conv k = some e ∧ e.typ ≠ py% "attribute" ∧
      k = p ++ '_' :: s ∧ ¬ (py% "Data") <:+ p
  | .reserved k => k ∈ o.attrs.map Prod.fst ∧ ((py% "PRIVATE") <+: k ∨ (py% "API") <+: k ∨
      ((py% "GLOBAL") <+: k ∧ (¬ (py% "GLOBAL_") <+: k ∨
        ∃ e, Dict.get? o.conv k = some e ∧ e.typ ≠ py% "attribute")))
  | .taken k => ∃ c, o.custom = some c ∧ k ∈ c.map Prod.fst ∧
      ∃ n ∈ names, Str.replace n (py% "GLOBAL_") [] = Str.replace k (py% "GLOBAL_") []
  | .shape k s required => WrongShape o sizes k s required
  | .upperCase k u => write = true ∧ (py% "Units") <:+ k ∧
      ∃ v, Dict.get? o.attrs k = some v ∧ text v = some u ∧ Str.lower u ≠ u
  | .deprecated c new => write = true ∧ ∃ v, Dict.get? o.attrs (py% "GLOBAL_SOFAConventions") = some v ∧
      text v = some c ∧ Dict.get? env.deprecations c = some new
  | p => ∃ key rule, (key, rule) ∈ env.rules ∧ Breaks env.fmt env.aliases o sizes key rule p

/-- The warnings of the verification: a deprecated convention (that is a problem only for writing files), and the
preliminary version of the convention. -/
def Warning (env : Env) (o : Obj) (write : Bool) (w : Str) : Prop :=
  ∃ c v t q, Dict.get? o.attrs (py% "GLOBAL_SOFAConventions") = some c ∧
    Dict.get? o.attrs (py% "GLOBAL_SOFAConventionsVersion") = some v ∧ text v = some t ∧ pyFloat t = some q ∧
    w = (if write then [] else
        match (text c).bind (fun s => (Dict.get? env.deprecations s).map (Problem.deprecated s)) with
        | some p => p.heading ++ p.line
        | none => []) ++
      (if q < 1 then py% "\n\nDetected preliminary conventions version " ++ t ++
        py% ":\n - Upgrade data to version >= 1.0 if possible. Preliminary conventions might change in the future, which could invalidate data that was written before the changes." else [])

/-- The text consists of sections with heading and lines; every line names a problem that belongs to the section, and
every problem is named in its section. -/
def Reports (problems : Problem → Prop) (text : Str) : Prop :=
  ∃ sections : List (Str × List Str), text = (sections.map (fun s => s.1 ++ s.2.flatten)).flatten ∧
    (∀ s ∈ sections, s.2 ≠ [] ∧ ∀ l ∈ s.2, ∃ p, problems p ∧ p.heading = s.1 ∧ l = p.line) ∧
    ∀ p, problems p → ∃ s ∈ sections, s.1 = p.heading ∧ p.line ∈ s.2

end Sofar.Spec
