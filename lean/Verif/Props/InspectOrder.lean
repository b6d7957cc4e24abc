import Verif.Lemmas.InspectOrder
import Verif.Props.StreamOrder
/-!
# C104: the order of the data in a file and `SofaStream.inspect`
-/
namespace Sofar

/-- C104: `SofaStream.inspect` prints the same title and the same entries (each ends with a line break), those of the global
attributes before those of the variables and their attributes, if the file contains the same in another order. -/
theorem C104_inspect (env : Env) (nc : Nc) (f f' : NcFile) (h : Spec.SameContent f f') (hn : Spec.OnceNames f) (t : Str)
    (ht : streamInspect env nc f = .ok t) :
    ∃ (title : Str) (G G' L L' : List Str), t = title ++ G.flatten ++ L.flatten ∧
      streamInspect env nc f' = .ok (title ++ G'.flatten ++ L'.flatten) ∧ G'.Perm G ∧ L'.Perm L ∧
      G.length = f.attrs.length ∧ L.length = (f.vars.map (fun p => p.2.attrs.length + 1)).sum ∧
      ∀ l ∈ title :: G ++ L, ∃ q, l = q ++ py% "\n" := by
  have hg : ∀ k, ncGet f'.attrs k = ncGet f.attrs k := by
    intro k
    unfold ncGet
    rw [get?_perm ⟨h.attrs, hn.globals⟩]
  unfold streamInspect at ht ⊢
  simp only [hg]
  split at ht
  · split at ht
    · cases ht
    · rename_i u hu
      obtain ⟨L, L', rfl, h2, h3, hlen, h4⟩ := streamVars_same h hn hu
      cases ht
      refine ⟨_, f.attrs.map (fun p => py% "GLOBAL_" ++ p.1 ++ py% " : " ++ showVal env p.2 ++ py% "\n"),
        f'.attrs.map (fun p => py% "GLOBAL_" ++ p.1 ++ py% " : " ++ showVal env p.2 ++ py% "\n"), L, L',
        by rw [List.flatMap_def], by rw [h2, List.flatMap_def], h.attrs.map _, h3, by simp, hlen, ?_⟩
      intro l hl
      simp only [List.cons_append, List.mem_cons, List.mem_append, List.mem_map] at hl
      rcases hl with rfl | ⟨p, _, rfl⟩ | hl
      · exact ⟨_, rfl⟩
      · exact ⟨py% "GLOBAL_" ++ p.1 ++ py% " : " ++ showVal env p.2, by simp⟩
      · exact h4 l hl
  all_goals cases ht

/-- a file from back to front: the text is another one with the same entries -/
example : ∃ t t', streamInspect exTextEnv exNc (exTextFile exTextSofa) = .ok t ∧
    streamInspect exTextEnv exNc (exBackwards (exTextFile exTextSofa)) = .ok t' ∧ t.length = t'.length := by
  have h : ∀ p ∈ (exTextFile exTextSofa).vars, (p.2.attrs.map Prod.fst).Nodup := by decide +kernel
  cases ht : streamInspect exTextEnv exNc (exTextFile exTextSofa) with
  | error e =>
    have : (streamInspect exTextEnv exNc (exTextFile exTextSofa)).isOk = true := by decide +kernel
    simp [ht, Except.isOk, Except.toBool] at this
  | ok t =>
    obtain ⟨title, G, G', L, L', h1, h2, h3, h4, _⟩ := C104_inspect exTextEnv exNc _ _ (exBackwards_same _)
      ⟨by decide +kernel, by decide +kernel, fun n x hm => h (n, x) hm⟩ t ht
    refine ⟨t, _, rfl, h2, ?_⟩
    have e3 := (h3.flatten).length_eq
    have e4 := (h4.flatten).length_eq
    simp only [h1, List.length_append, e3, e4]

end Sofar
