import Verif.Lemmas.Order
import Verif.Props.Init
import Verif.Props.Adding
/-!
# C89: the order of the data does not matter
-/
namespace Sofar

/-! ## Examples -/

/-- the data of the example in reverse order -/
def exReversed : Obj := { exSofa with attrs := exSofa.attrs.reverse }

theorem exReversed_reordered : Spec.Reordered exSofa exReversed :=
  ⟨⟨List.reverse_perm _, by decide +kernel⟩, Or.inl ⟨by decide +kernel, by decide +kernel⟩⟩

/-- a variable along a new dimension, or with one element -/
def exAnyQ (o : Obj) : Ret Unit := addVariable o (py% "Offset") (.val (.arr (exNums .f [1, 1] [20]))) (py% "double") (some (py% "q, I"))

/-- a variable along the new dimension -/
def exFiveQ (o : Obj) : Ret Unit :=
  addVariable o (py% "Times") (.val (.arr (exNums .f [5, 1] [1, 2, 3, 4, 5]))) (py% "double") (some (py% "q"))

/-- C89: Whether an object passes the verification does not depend on the order of its data and of its custom entries,
provided that no two variables define different sizes of the same dimension. (Missing: without this condition the claim is
false, see `C89_refuted`. Custom variables named like methods are excluded.) -/
theorem C89_verify_partial (env : Env) (o o' : Obj) (h : Spec.Reordered o o')
    (hs : ∀ o1, resetConvention env o = .ok o1 → Spec.AgreeOnSizes o1 ∧ Spec.CustomNoMethod o1) (mode : Mode) :
    (verify env o' .raise mode).out = .ok none ↔ (verify env o .raise mode).out = .ok none := by
  unfold verify
  rw [verifyG_raise_ok_iff, verifyG_raise_ok_iff]
  rcases reordered_reset (env := env) h with ⟨x, h1, h2⟩ | ⟨o1, o1', h1, h2, h3, -, -⟩
  · simp [h1, h2]
  · obtain ⟨ha, hc⟩ := hs o1 h1
    simp only [h1, h2, Except.ok.injEq, true_and]
    constructor
    · rintro ⟨_, o3, rfl, hp⟩
      obtain ⟨o3', hp', _⟩ := h3.symm.passes (h3.noMethod hc) (h3.agree ha) hp
      exact ⟨o1, o3', rfl, hp'⟩
    · rintro ⟨_, o3, rfl, hp⟩
      obtain ⟨o3', hp', _⟩ := h3.passes hc ha hp
      exact ⟨o1', o3', rfl, hp'⟩

/-- C89: The sizes of the dimensions of a valid object do not depend on the order either. -/
theorem C89_sizes_partial (env : Env) (o o' : Obj) (h : Spec.Reordered o o')
    (hs : ∀ o1, resetConvention env o = .ok o1 → Spec.AgreeOnSizes o1 ∧ Spec.CustomNoMethod o1)
    (hv : (verify env o .raise .write).out = .ok none) (d : Str) :
    (getDimension env o' d).out = (getDimension env o d).out := by
  have hv' := (C89_verify_partial env o o' h hs .write).2 hv
  unfold verify at hv hv'
  obtain ⟨-, o1, o3, hr, hp⟩ := (verifyG_raise_ok_iff _ _ _ _ _).1 hv
  rcases reordered_reset (env := env) h with ⟨x, h1, h2⟩ | ⟨p1, p1', h1, h2, h3, -, -⟩
  · rw [hr] at h1; simp at h1
  · obtain rfl : o1 = p1 := by rw [hr] at h1; simpa using h1
    obtain ⟨ha, hc⟩ := hs o1 h1
    obtain ⟨o3', hp', hset⟩ := h3.passes hc ha hp
    obtain ⟨a, a', e1, e2, hget⟩ := hset.api
    have g1 : (verify env o .raise .write).obj = o3 := verifyG_raise_ok_obj _ _ _ _ _ _ hr hp
    have g2 : (verify env o' .raise .write).obj = o3' := verifyG_raise_ok_obj _ _ _ _ _ _ h2 hp'
    rw [getDimension_raise (api := a) hv (by rw [g1]; exact e1), getDimension_raise (api := a') hv' (by rw [g2]; exact e2), hget]

/-- the hypotheses are met by the example in reverse order -/
example : Spec.Reordered exSofa exReversed ∧ exReversed.attrs ≠ exSofa.attrs ∧
    (∀ o1, resetConvention exEnv exSofa = .ok o1 → Spec.AgreeOnSizes o1 ∧ Spec.CustomNoMethod o1) ∧
    (verify exEnv exReversed .raise .write).out = .ok none ∧ (getDimension exEnv exReversed (py% "N")).out = .ok 3 := by
  have hr : resetConvention exEnv exSofa = .ok exSofa := by decide +kernel
  have hs : ∀ o1, resetConvention exEnv exSofa = .ok o1 → Spec.AgreeOnSizes o1 ∧ Spec.CustomNoMethod o1 := by
    intro o1 h
    rw [hr] at h
    obtain rfl : exSofa = o1 := by simpa using h
    refine ⟨agreeB_sound (by decide +kernel), fun c k e hc _ => ?_⟩
    have : exSofa.custom = none := by decide +kernel
    rw [this] at hc
    simp at hc
  refine ⟨exReversed_reordered, by decide +kernel, hs, ?_, ?_⟩
  · exact (C89_verify_partial _ _ _ exReversed_reordered hs .write).2 (by decide +kernel)
  · rw [C89_sizes_partial _ _ _ exReversed_reordered hs (by decide +kernel)]
    decide +kernel

/-- C89: Adding two variables in either order gives the same object up to the order of the data. -/
theorem C89_calls (o : Obj) (ha : (o.attrs.map Prod.fst).Nodup)
    (hcu : ∀ c, o.custom = some c → (c.map Prod.fst).Nodup) (n n' : Str) (v v' : Inp) (t t' : Str) (d d' : Option Str)
    (h1 : (addVariable o n v t d).out = .ok ()) (h2 : (addVariable (addVariable o n v t d).obj n' v' t' d').out = .ok ())
    (h3 : (addVariable o n' v' t' d').out = .ok ()) (h4 : (addVariable (addVariable o n' v' t' d').obj n v t d).out = .ok ()) :
    Spec.Reordered (addVariable (addVariable o n v t d).obj n' v' t' d').obj
      (addVariable (addVariable o n' v' t' d').obj n v t d).obj := by
  refine addEntry_order ha ?_ h1 h2 h3 h4
  cases hc : o.custom with
  | none => simp
  | some c => exact hcu c hc

/-- C89 is false if two variables may define different sizes of the same dimension: the order of two calls of `add_variable`
decides whether the object is valid. The variable that comes last wins. If this is the variable with five elements, the other
variable matches its second alternative. If the other one is last, the dimension has size one and five elements are too
many. -/
theorem C89_refuted : ∃ (env : Env) (o : Obj), let a := (exFiveQ (exAnyQ o).obj).obj; let b := (exAnyQ (exFiveQ o).obj).obj
    Spec.Reordered a b ∧ (verify env a .raise .write).out = .ok none ∧ (verify env b .raise .write).out ≠ .ok none := by
  refine ⟨exEnv, exSofa, ?_, by decide +kernel, by decide +kernel⟩
  exact C89_calls exSofa (by decide +kernel) (fun c hc => by
      have : exSofa.custom = none := by decide +kernel
      rw [this] at hc
      simp at hc) _ _ _ _ _ _ _ _ (by decide +kernel) (by decide +kernel) (by decide +kernel) (by decide +kernel)

/-- the two variables contradict each other -/
example : ¬ Spec.AgreeOnSizes (exFiveQ (exAnyQ exSofa).obj).obj := by
  intro h
  have h1 : Spec.Defines (exFiveQ (exAnyQ exSofa).obj).obj (py% "Offset") 'Q' 1 :=
    ⟨.arr (exNums .f [1, 1] [20]), customEntry none (some (py% "q, I")) (py% "double"), py% "q, I", py% "q", 0, 'q',
      ⟨by decide +kernel, by decide +kernel, by decide +kernel⟩, isFirst_firstAlt (py% "q, I"), rfl, by decide, by decide,
      by decide +kernel⟩
  have h2 : Spec.Defines (exFiveQ (exAnyQ exSofa).obj).obj (py% "Times") 'Q' 5 :=
    ⟨.arr (exNums .f [5, 1] [1, 2, 3, 4, 5]), customEntry none (some (py% "q")) (py% "double"), py% "q", py% "q", 0, 'q',
      ⟨by decide +kernel, by decide +kernel, by decide +kernel⟩, isFirst_firstAlt (py% "q"), rfl, by decide, by decide,
      by decide +kernel⟩
  exact absurd (h _ _ 'Q' 1 5 h1 h2 (by decide)) (by decide)

end Sofar
