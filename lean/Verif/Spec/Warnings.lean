import Verif.Spec.IO
/-!
# Vocabulary for warnings about versions
-/
namespace Sofar.Spec

/-- A preliminary version: zero before the dot and at least one digit after the dot, e.g. `0.3`. -/
def Preliminary (v : Str) : Prop := ∃ d, v = '0' :: '.' :: d ∧ d ≠ [] ∧ ∀ c ∈ d, c ∈ py% "0123456789"

/-- What warnings about the preliminary version `v` say. -/
def preliminaryNotice (v : Str) : Str := py% "Detected preliminary conventions version " ++ v

/-- There was a warning about the preliminary version `v`. -/
def WarnsPreliminary (ev : List Event) (v : Str) : Prop := ∃ t, Event.warn t ∈ ev ∧ preliminaryNotice v <:+: t

/-- The warning about the outdated version `v`. -/
def outdatedNotice (v : Str) : Str :=
  py% "Writing SOFA object with outdated Convention version " ++ v ++
    py% ". It is recommend to upgrade  data with Sofa.upgrade_convention() before writing to disk if possible."

/-- The content of a file of a convention states the given version. -/
def States (content : Dict Entry) (v : Str) : Prop :=
  ∀ k e, (k, e) ∈ content → sofarName k = py% "GLOBAL_SOFAConventionsVersion" → e.default = .val (.str v)

end Sofar.Spec
