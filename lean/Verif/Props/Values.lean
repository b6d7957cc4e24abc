import Verif.Lemmas.Values
import Verif.Props.Verify
/-!
# C68: the outcome of the verification does not depend on the numbers in the arrays
-/
namespace Sofar

/-- C68: if numbers in an array are replaced by other numbers, i.e. an array of the same shape and data type is
assigned, `verify` has the same outcome (result or exception with the same text, same warnings and prints), and
`get_dimension` gives the same sizes. -/
theorem C68_values (env : Env) (o : Obj) (k : Str) (a b : Arr) (mode : Mode) (ih : IH) (d : Str)
    (hk : k ≠ py% "GLOBAL_SOFAConventionsVersion") (ha : Dict.get? o.attrs k = some (.arr a))
    (hs : Spec.SameForm env a b) (hok : (setAttr o k (.val (.arr b))).out = .ok ()) :
    (verify env (setAttr o k (.val (.arr b))).obj ih mode).out = (verify env o ih mode).out ∧
    (verify env (setAttr o k (.val (.arr b))).obj ih mode).ev = (verify env o ih mode).ev ∧
    (getDimension env (setAttr o k (.val (.arr b))).obj d).out = (getDimension env o d).out := by
  have hl : Like env o (setAttr o k (.val (.arr b))).obj := by
    revert hok
    unfold setAttr
    simp only [normalise]
    split
    · intro h; simp at h
    split
    · intro h; simp at h
    split
    · intro h; simp at h
    split
    · intro h; simp at h
    split
    · intro h; simp at h
    intro _
    have hkeys : k ∈ Dict.keys o.attrs := (Dict.has_iff_mem _ k).1 ((Dict.has_iff _ k).2 ⟨_, ha⟩)
    refine ⟨?_, ?_, ?_, rfl, rfl, rfl, rfl, rfl, rfl⟩
    · simp [Dict.keys_put, hkeys]
    · intro j v hv
      by_cases hj : j = k
      · subst hj
        rw [ha] at hv
        cases hv
        exact ⟨.arr b, by simp, Or.inr ⟨a, b, rfl, rfl, hs⟩⟩
      · exact ⟨v, by simp [Dict.get?_put, hj, hv], .rfl' _⟩
    · unfold Obj.getAttr
      simp only [Dict.get?_put, if_neg (Ne.symm hk)]
      have : Obj.hasAttr { o with attrs := Dict.put o.attrs k (.arr b) } (py% "GLOBAL_SOFAConventionsVersion") =
          o.hasAttr (py% "GLOBAL_SOFAConventionsVersion") := by
        rw [Bool.eq_iff_iff, hasAttr_public _ _ (by decide), hasAttr_public _ _ (by decide)]
        simp only [Dict.has_put, Bool.or_eq_true, decide_eq_true_eq]
        grind
      rw [this]
  obtain ⟨h1, h2, _⟩ := hl.verify ih mode
  exact ⟨h1, h2, (hl.getDimension d).1⟩

/-- doubling the samples of the example -/
example : Dict.get? exSofa.attrs (py% "Data_IR") = some (.arr (exNums .i [1, 2, 3] [1, 2, 3, 4, 5, 6])) ∧
    Spec.SameForm exEnv (exNums .i [1, 2, 3] [1, 2, 3, 4, 5, 6]) (exNums .i [1, 2, 3] [2, 4, 6, 8, 10, 12]) ∧
    (setAttr exSofa (py% "Data_IR") (.val (.arr (exNums .i [1, 2, 3] [2, 4, 6, 8, 10, 12])))).out = .ok () ∧
    (verify exEnv exSofa .raise .write).out = .ok none := by
  refine ⟨by decide +kernel, ⟨⟨Or.inl rfl, rfl⟩, rfl, rfl, fun s => ?_, rfl, rfl⟩, by decide +kernel, by decide +kernel⟩
  simp [exNums]

end Sofar
