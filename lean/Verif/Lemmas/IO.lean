import Verif.Lemmas.RoundTrip
/-!
# Reading and writing
-/
namespace Sofar

/-- what a successful call of `read_sofa` consists of -/
structure ReadOk (env : Env) (nc : Nc) (fs : FS) (filename : Str) (arg : VerifyArg) (verbose : Bool) (o : Obj)
    (path : Str) (f : NcFile) (c v : Str) (new o0 : Obj) : Prop where
  loc : withSuffix filename = .ok path
  file : Dict.get? fs.files path = some (.nc f)
  conv : ∃ w, Dict.get? f.attrs (py% "SOFAConventions") = some w ∧ Spec.text w = some c
  version : ∃ w, Dict.get? f.attrs (py% "SOFAConventionsVersion") = some w ∧ Spec.text w = some v
  known : verifyConvention env v c = .ok ()
  created : (initSofa env c false (.exact v) arg).out = .ok new
  load : (loadFile nc f new verbose).out = .ok o0
  attrs : o.attrs = o0.attrs
  no : arg = .no → o = o0
  verified : o = o0 ∨ ∃ r, (verify env o0 .raise .read).out = .ok r ∧ (verify env o0 .raise .read).obj = o

theorem verifyRead_ok {env : Env} {o o' : Obj} {v : Str} {arg : VerifyArg} (h : (verifyRead env o v arg).out = .ok o') :
    o'.attrs = o.attrs ∧ (arg = .no → o' = o) ∧
    (o' = o ∨ ∃ r, (verify env o .raise .read).out = .ok r ∧ (verify env o .raise .read).obj = o') := by
  have go : ∀ x : Created, x = (let r := verify env o .raise .read
      match r.out with
      | .error _ => ⟨.error (.valueError (py% "The SOFA object could not be verified")), r.ev⟩
      | .ok _ => ⟨.ok r.obj, r.ev⟩) → x.out = .ok o' →
      ∃ r, (verify env o .raise .read).out = .ok r ∧ (verify env o .raise .read).obj = o' := by
    intro x hx hxo
    subst hx
    cases hv : (verify env o .raise .read).out with
    | error e => simp [hv] at hxo
    | ok r => simp only [hv, Except.ok.injEq] at hxo; exact ⟨r, rfl, hxo⟩
  have key : ∀ r, (verify env o .raise .read).out = .ok r → (verify env o .raise .read).obj = o' → o'.attrs = o.attrs := by
    intro r h1 h2
    obtain ⟨o1, api, dims, hV⟩ := verify_ok h1
    rw [h2] at hV
    exact hV.attrs.1
  unfold verifyRead at h
  cases arg with
  | no => simp only [Bool.false_eq_true, if_false, Except.ok.injEq] at h; subst h; simp
  | yes =>
    obtain ⟨r, h1, h2⟩ := go _ rfl h
    exact ⟨key r h1 h2, by simp, Or.inr ⟨r, h1, h2⟩⟩
  | auto =>
    dsimp only at h
    split at h
    · simp at h
    · rename_i b _
      cases b with
      | false => simp only [Bool.false_eq_true, if_false, Except.ok.injEq] at h; subst h; simp
      | true =>
        obtain ⟨r, h1, h2⟩ := go _ rfl h
        exact ⟨key r h1 h2, by simp, Or.inr ⟨r, h1, h2⟩⟩

theorem readSofa_ok {env : Env} {nc : Nc} {fs : FS} {filename : Str} {arg : VerifyArg} {verbose : Bool} {o : Obj}
    (h : (readSofa env nc fs filename arg verbose).out = .ok o) :
    ∃ path f c v new o0, ReadOk env nc fs filename arg verbose o path f c v new o0 := by
  unfold readSofa at h
  cases ho : openFile fs filename with
  | error e => simp [ho] at h
  | ok f =>
    simp only [ho] at h
    unfold openFile at ho
    cases hp : withSuffix filename with
    | error e => simp [hp] at ho
    | ok path =>
      simp only [hp] at ho
      split at ho
      · simp at ho
      · simp at ho
      · rename_i g hg
        simp only [Except.ok.injEq] at ho
        subst ho
        unfold fileAttr at h
        cases hc : Dict.get? g.attrs (py% "SOFAConventions") with
        | none => simp [hc] at h
        | some cv =>
          cases hv : Dict.get? g.attrs (py% "SOFAConventionsVersion") with
          | none => simp [hc, hv] at h
          | some vv =>
            simp only [hc, hv] at h
            cases hcs : cv.asStr with
            | none => simp [hcs] at h
            | some c =>
              cases hvs : vv.asStr with
              | none => simp [hcs, hvs] at h
              | some v =>
                simp only [hcs, hvs] at h
                cases hk : verifyConvention env v c with
                | error e => simp [hk] at h
                | ok u =>
                  simp only [hk] at h
                  cases hi : (initSofa env c false (.exact v) arg).out with
                  | error e => simp [hi] at h
                  | ok new =>
                    simp only [hi] at h
                    cases hl : (loadFile nc g new verbose).out with
                    | error e => simp [hl] at h
                    | ok o0 =>
                      simp only [hl] at h
                      obtain ⟨h1, h2, h3⟩ := verifyRead_ok h
                      exact ⟨path, g, c, v, new, o0, ⟨hp, hg, ⟨cv, hc, by rw [← asStr_text, hcs]⟩,
                        ⟨vv, hv, by rw [← asStr_text, hvs]⟩, hk, hi, hl, h1, h2, h3⟩⟩

end Sofar
