import Verif.Model.Text
import Verif.Spec.Text
import Verif.Lemmas.Dims
import Verif.Lemmas.Total
/-!
# Texts about objects and files
-/
namespace Sofar

theorem setByText_spec (d : Str) (conv : Dict Entry) : Spec.SetBy conv d (setByText d conv) := by
  induction conv with
  | nil => exact Or.inl ⟨rfl, by simp⟩
  | cons p l ih =>
    obtain ⟨k, e⟩ := p
    have skip : (∀ dims, e.dims = some dims → ¬ Str.lower d <:+: dims) →
        setByText d ((k, e) :: l) = setByText d l → Spec.SetBy ((k, e) :: l) d (setByText d ((k, e) :: l)) := by
      intro h heq
      rw [heq]
      rcases ih with ⟨h1, h2⟩ | ⟨b, k', e', a, dims, h1, h2, h3, h4, h5⟩
      · refine Or.inl ⟨h1, ?_⟩
        intro k1 e1 dims hm hd
        rcases List.mem_cons.1 hm with hm | hm
        · cases hm; exact h dims hd
        · exact h2 k1 e1 dims hm hd
      · refine Or.inr ⟨(k, e) :: b, k', e', a, dims, by rw [h1]; rfl, h2, h3, ?_, h5⟩
        intro k1 e1 dims' hm hd
        rcases List.mem_cons.1 hm with hm | hm
        · cases hm; exact h dims' hd
        · exact h4 k1 e1 dims' hm hd
    cases hd : e.dims with
    | none => exact skip (by simp [hd]) (by simp [setByText, hd])
    | some dims =>
      by_cases hs : Str.hasSub dims (Str.lower d) = true
      · refine Or.inr ⟨[], k, e, l, dims, rfl, hd, (hasSub_iff _ _).1 hs, by simp, ?_⟩
        simp [setByText, hd, hs]
      · refine skip ?_ (by simp [setByText, hd, hs])
        intro dims' h'
        rw [hd] at h'
        cases h'
        rwa [← hasSub_iff]

theorem dimText_eq {t r em n : Str} (hn : meaningN t = some n) (d : Str) (k : Nat) :
    dimText (meanings n (meaningRE (py% "receiver") r) (meaningRE (py% "emitter") em)) d k =
      d ++ py% " = " ++ Str.ofNat k ++ py% " " ++ Spec.meaning t r em d := by
  have hN : n = (if (py% "FIR") <+: t then py% "samples" else if (py% "TF") <+: t then py% "frequencies"
      else py% "SOS coefficients") := by
    unfold meaningN Str.startsWith at hn
    simp only [List.isPrefixOf_iff_prefix] at hn
    repeat' split at hn
    all_goals first | (simp at hn; done) | (simp only [Option.some.injEq] at hn; subst hn; simp [*])
  have hR : ∀ who ty : Str, meaningRE who ty =
      if (py% "harmonic") <:+: ty then who ++ py% " spherical harmonics coefficients" else who := by
    intro who ty
    unfold meaningRE
    simp only [hasSub_iff]
  unfold dimText Spec.meaning meanings
  rw [hR, hR, ← hN]
  congr 1
  simp only [Dict.get?, eq_comm (b := d)]
  repeat' split
  all_goals simp

theorem dimsText_eq {t r em n : Str} (hn : meaningN t = some n) (conv : Dict Entry) (api : Dict Nat) :
    dimsText (meanings n (meaningRE (py% "receiver") r) (meaningRE (py% "emitter") em)) conv api =
      (api.map (fun p => (p.1, p.2, setByText p.1 conv))).flatMap
        (fun l => Spec.dimensionLine t r em l.1 l.2.1 l.2.2) := by
  induction api with
  | nil => rfl
  | cons p l ih =>
    obtain ⟨d, k⟩ := p
    simp only [dimsText, dimText_eq hn, ih, List.map_cons, List.flatMap_cons, Spec.dimensionLine, List.append_assoc]

theorem meaningN_isSome {t : Str} : (∃ n, meaningN t = some n) ↔ Spec.KnownDataType t := by
  unfold meaningN Str.startsWith Spec.KnownDataType
  simp only [List.isPrefixOf_iff_prefix]
  repeat' split
  all_goals simp [*]

/-! ## shapes as text -/

theorem foldl_sizes (l : List (Nat × Str)) (init : Str) :
    l.foldl (fun t (p : Nat × Str) => t ++ p.2 ++ py% "=" ++ Str.ofNat p.1 ++ py% ", ") init =
      init ++ (l.map (fun p => p.2 ++ py% "=" ++ Str.ofNat p.1)).flatMap (· ++ py% ", ") := by
  induction l generalizing init with
  | nil => simp
  | cons p l ih => rw [List.foldl_cons, ih]; simp [List.append_assoc]

theorem flatMap_join (x : Str) (l : List Str) :
    (x :: l).flatMap (· ++ py% ", ") = Str.join (py% ", ") (x :: l) ++ py% ", " := by
  induction l generalizing x with
  | nil => simp [Str.join]
  | cons y l ih =>
    rw [List.flatMap_cons, ih]
    simp [Str.join]

theorem dropEnd_append (s t : Str) : Str.dropEnd (s ++ t) t.length = s := by
  simp [Str.dropEnd]

theorem shapeText_eq {dims : List Str} (h : dims ≠ []) (shape : List Nat) :
    shapeText dims shape = Spec.sizesText dims shape := by
  unfold shapeText Spec.sizesText
  simp only [foldl_sizes]
  have hz : ((Arr.padOnes dims.length shape).zip dims).map (fun p => p.2 ++ py% "=" ++ Str.ofNat p.1) =
      (List.range dims.length).map (fun i => dims.getD i [] ++ py% "=" ++ Str.ofNat (shape.getD i 1)) := by
    apply List.ext_getElem
    · simp [Arr.padOnes]; omega
    · intro i h1 h2
      simp only [List.length_map, List.length_range] at h2
      simp only [List.getElem_map, List.getElem_zip, List.getElem_range]
      have e1 : dims.getD i [] = dims[i] := by simp [List.getD_eq_getElem?_getD, h2]
      have e2 := getD_padOnes dims.length shape i
      have hl : i < (Arr.padOnes dims.length shape).length := by simp [Arr.padOnes]; omega
      rw [List.getD_eq_getElem?_getD, List.getElem?_eq_getElem hl] at e2
      simp only [Option.getD_some] at e2
      rw [e1, ← e2]
  rw [hz]
  obtain ⟨n, hn⟩ : ∃ n, dims.length = n + 1 := ⟨dims.length - 1, by
    have : dims.length ≠ 0 := by simpa using h
    omega⟩
  rw [hn, List.range_succ_eq_map, List.map_cons, flatMap_join, ← List.append_assoc]
  exact congrArg (· ++ _) (dropEnd_append _ _)

/-! ## verify for all ways of handling issues -/

theorem passes_any {inner : Env → Obj → Inner} {env : Env} {o o1 o3 : Obj} {mode : Mode}
    (hr : resetConvention env o = .ok o1) (h : Passes (inner env o1) env o1 o3 mode) (ih : IH) :
    (verifyG inner env o ih mode).out = .ok none ∧ (verifyG inner env o ih mode).obj = o3 := by
  obtain ⟨w, hw⟩ := h.deprec
  have hb : (verifyBody (inner env o1) env o1 o1.keys ih mode [] []).out = .ok none ∧
      (verifyBody (inner env o1) env o1 o1.keys ih mode [] []).obj = o3 := by
    unfold verifyBody
    simp only [h.names, h.custom, h.dims, h.shapes]
    refine ⟨?_, verifyTail_obj ..⟩
    unfold verifyTail
    simp only [h.rules, hw, List.nil_append]
    obtain ⟨i, hi⟩ := handle_noerr w ih
    cases ih <;> simp_all
  rw [verifyG_present inner env o o1 ih mode hr h.mandatory, h.types]
  exact hb

theorem verify_any {env : Env} {o : Obj} {mode : Mode} {r : Option Str} (h : (verify env o .raise mode).out = .ok r)
    (ih : IH) : (verify env o ih mode).out = .ok none ∧ (verify env o ih mode).obj = (verify env o .raise mode).obj := by
  obtain ⟨_, o1, o3, h1, h2⟩ := (verifyG_raise_ok_iff _ _ _ _ _).1 h
  have a := passes_any h1 h2 ih
  have b := passes_any h1 h2 .raise
  exact ⟨a.1, a.2.trans b.2.symm⟩

/-! ## inspect -/

theorem concatE_texts {α : Type} {f : α → Except Exc Str} {l : List α} {t : Str} (h : concatE f l = .ok t) :
    Spec.Texts (fun x s => f x = .ok s) l t := by
  induction l generalizing t with
  | nil => simp only [concatE, Except.ok.injEq] at h; subst h; exact .nil
  | cons x l ih =>
    simp only [concatE] at h
    cases hf : f x with
    | error e => simp [hf] at h
    | ok s =>
      cases hl : concatE f l with
      | error e => simp [hf, hl] at h
      | ok t' =>
        simp only [hf, hl, Except.ok.injEq] at h
        subst h
        exact .cons _ _ _ _ hf (ih hl)

theorem Texts.imp {α : Type} {P Q : α → Str → Prop} {l : List α} {t : Str} (h : Spec.Texts P l t)
    (hpq : ∀ x ∈ l, ∀ s, P x s → Q x s) : Spec.Texts Q l t := by
  induction h with
  | nil => exact .nil
  | cons x l t s hp _ ih =>
    exact .cons _ _ _ _ (hpq x (by simp) _ hp) (ih (fun y hy => hpq y (by simp [hy])))

theorem showVal_eq (env : Env) (v : Val) : showVal env v = Spec.shown env.fmt v := by
  cases v <;> rfl

theorem count_arr (a : Arr) : Spec.count (.arr a) = a.size := by
  simp only [Spec.count, Arr.size, prod_eq]

theorem sizeOf_count {v : Val} {n : Nat} (h : sizeOf? v = .ok n) : n = Spec.count v := by
  cases v with
  | arr a => simp only [sizeOf?, Except.ok.injEq] at h; rw [count_arr, h]
  | num k e => simpa [sizeOf?, Spec.count] using h.symm
  | npstr s => simpa [sizeOf?, Spec.count] using h.symm
  | str s => simp [sizeOf?] at h
  | dict => simp [sizeOf?] at h
  | obj t => simp [sizeOf?] at h

theorem inspectKey_ok {env : Env} {o : Obj} {k t : Str} (hk : k ∈ o.keys)
    (hd : ∀ D d, o.dims = some D → Dict.get? D k = some d → d ≠ []) (h : inspectKey env o k = .ok t) :
    Spec.EntryText env.fmt o k t := by
  obtain ⟨v, hv⟩ := (Dict.has_iff _ _).1 ((Dict.has_iff_mem _ _).2 hk)
  unfold inspectKey at h
  rw [getAttr_of_get hv] at h
  simp only at h
  cases he : Dict.get? o.conv k with
  | none => simp [he] at h
  | some e =>
    simp only [he] at h
    refine ⟨v, e, hv, he, ?_⟩
    by_cases hty : e.typ = py% "attribute"
    · rw [if_pos hty] at h
      left
      refine ⟨Or.inl hty, ?_⟩
      rw [← showVal_eq]
      simpa using h.symm
    · rw [if_neg hty] at h
      cases hs : sizeOf? v with
      | error x => simp [hs] at h
      | ok n =>
        simp only [hs] at h
        have hn := sizeOf_count hs
        by_cases h1 : n = 1
        · rw [if_pos h1] at h
          left
          refine ⟨Or.inr (hn ▸ h1), ?_⟩
          rw [← showVal_eq]
          simpa using h.symm
        · rw [if_neg h1] at h
          right
          split at h
          · rename_i a D hD
            split at h
            · simp at h
            · rename_i d hdd
              refine ⟨hty, hn ▸ h1, a, D, d, rfl, hD, hdd, ?_⟩
              have hne : d.map (fun c => [c]) ≠ [] := by simpa using hd D d hD hdd
              rw [shapeText_eq hne, Except.ok.injEq] at h
              by_cases h7 : n < 7
              · right
                rw [if_pos h7] at h
                refine ⟨by omega, ?_⟩
                rw [← h]
                simp only [valuesText, List.append_assoc]
                rfl
              · left
                rw [if_neg h7] at h
                refine ⟨by omega, ?_⟩
                rw [← h]
                simp
          · simp at h

end Sofar
