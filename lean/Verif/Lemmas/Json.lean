import Verif.Spec.Json
import Verif.Lemmas.Attr
/-!
# Json text: proofs
-/
namespace Sofar

/-! ## Texts -/

theorem hexValue_hexDigit : ∀ n < 16, hexValue (hexDigit n) = some n := by decide

theorem hexFour_uEscape {n : Nat} (h : n < 65536) :
    hexFour (hexDigit (n / 4096 % 16)) (hexDigit (n / 256 % 16)) (hexDigit (n / 16 % 16)) (hexDigit (n % 16)) = some n := by
  unfold hexFour
  rw [hexValue_hexDigit _ (Nat.mod_lt _ (by decide)), hexValue_hexDigit _ (Nat.mod_lt _ (by decide)),
    hexValue_hexDigit _ (Nat.mod_lt _ (by decide)), hexValue_hexDigit _ (Nat.mod_lt _ (by decide))]
  simp only [Option.some.injEq]
  omega

theorem scanUnits_uEscape {n : Nat} (h : n < 65536) (rest : Str) :
    scanUnits (uEscape n ++ rest) = (scanUnits rest).map (fun p => (n :: p.1, p.2)) := by
  simp only [uEscape, List.cons_append, List.nil_append]
  rw [scanUnits]
  simp only [show ('\\' : Char) ≠ '"' by decide, if_false, if_true, hexFour_uEscape h]
  cases scanUnits rest <;> rfl

theorem char_range (c : Char) : c.toNat < 0xd800 ∨ (0xdfff < c.toNat ∧ c.toNat < 0x110000) := c.valid

theorem charUnits_lt (c : Char) : ∀ n ∈ charUnits c, n < 65536 := by
  intro n hn
  unfold charUnits at hn
  split at hn
  · simp only [List.mem_singleton] at hn; omega
  · simp only [List.mem_cons, List.not_mem_nil, or_false] at hn; omega

theorem scanUnits_escapes (l : List Nat) (h : ∀ n ∈ l, n < 65536) (rest : Str) :
    scanUnits (l.flatMap uEscape ++ rest) = (scanUnits rest).map (fun p => (l ++ p.1, p.2)) := by
  induction l with
  | nil => cases h : scanUnits rest <;> simp [h]
  | cons n l ih =>
    simp only [List.flatMap_cons, List.append_assoc]
    rw [scanUnits_uEscape (h n (by simp)), ih (fun m hm => h m (by simp [hm]))]
    cases scanUnits rest <;> simp

theorem scanUnits_char (c : Char) (rest : Str) :
    scanUnits (dumpChar c ++ rest) = (scanUnits rest).map (fun p => (charUnits c ++ p.1, p.2)) := by
  have key : ∀ (e : Char) (n : Nat), e ≠ 'u' → backslash e = some n →
      scanUnits ('\\' :: e :: rest) = (scanUnits rest).map (fun p => (n :: p.1, p.2)) := by
    intro e n h1 h2
    rw [scanUnits.eq_def]
    simp only [show ('\\' : Char) ≠ '"' by decide, if_false, if_true]
    split
    · rename_i heq; simp only [List.cons.injEq] at heq; exact absurd heq.1 h1
    · rename_i heq
      simp only [List.cons.injEq] at heq
      obtain ⟨rfl, rfl⟩ := heq
      rw [h2]
      cases scanUnits rest <;> rfl
    · rename_i heq; simp at heq
  unfold dumpChar
  split
  · rename_i h; subst h; exact key '"' 34 (by decide) (by decide)
  split
  · rename_i h; subst h; exact key '\\' 92 (by decide) (by decide)
  split
  · rename_i h; subst h; exact key 'n' 10 (by decide) (by decide)
  split
  · rename_i h; subst h; exact key 'r' 13 (by decide) (by decide)
  split
  · rename_i h; subst h; exact key 't' 9 (by decide) (by decide)
  split
  · rename_i h
    have : charUnits c = [12] := by unfold charUnits; rw [h]; rfl
    rw [this]
    exact key 'f' 12 (by decide) (by decide)
  split
  · rename_i h
    have : charUnits c = [8] := by unfold charUnits; rw [h]; rfl
    rw [this]
    exact key 'b' 8 (by decide) (by decide)
  split
  · rename_i h1 h2 _ _ _ _ _ h3
    have : charUnits c = [c.toNat] := by unfold charUnits; rw [if_pos (by omega)]
    rw [this]
    simp only [List.cons_append, List.nil_append]
    rw [scanUnits.eq_def]
    simp only [h1, h2, if_false, show ¬ c.toNat < 32 by omega]
    cases scanUnits rest <;> rfl
  · exact scanUnits_escapes _ (charUnits_lt c) rest

theorem joinUnits_char (c : Char) (l : List Nat) : joinUnits (charUnits c ++ l) = (joinUnits l).map (c :: ·) := by
  have hr := char_range c
  unfold charUnits
  split
  · rename_i h
    cases l with
    | nil =>
      simp only [List.append_nil, joinUnits]
      rw [if_neg (by omega), Char.ofNat_toNat]
      rfl
    | cons m l =>
      simp only [List.cons_append, List.nil_append, joinUnits]
      rw [if_neg (by omega), if_neg (by omega), Char.ofNat_toNat]
  · rename_i h
    simp only [List.cons_append, List.nil_append, joinUnits]
    rw [if_pos (by omega), if_pos (by omega)]
    have : 65536 + (55296 + (c.toNat - 65536) / 1024 % 1024 - 55296) * 1024 + (56320 + (c.toNat - 65536) % 1024 - 56320) = c.toNat := by
      omega
    rw [this, Char.ofNat_toNat]

theorem joinUnits_text (s : Str) : joinUnits (s.flatMap charUnits) = some s := by
  induction s with
  | nil => rfl
  | cons c s ih => simp [joinUnits_char, ih]

theorem scanUnits_text (s rest : Str) : scanUnits (s.flatMap dumpChar ++ '"' :: rest) = some (s.flatMap charUnits, rest) := by
  induction s with
  | nil => rw [scanUnits.eq_def]; simp
  | cons c s ih =>
    simp only [List.flatMap_cons, List.append_assoc]
    rw [scanUnits_char, ih]
    rfl

theorem scanString_text (s rest : Str) : scanString (s.flatMap dumpChar ++ '"' :: rest) = some (s, rest) := by
  simp [scanString, scanUnits_text, joinUnits_text]

/-! ## Numbers -/

/-- the text does not continue a number -/
def Stop (rest : Str) : Prop := ∀ c t, rest = c :: t → isDecimal c = false ∧ c ≠ '.' ∧ c ≠ 'e' ∧ c ≠ 'E'

theorem takeWhile_stop {d rest : Str} (hd : ∀ c ∈ d, isDecimal c = true) (hr : ∀ c t, rest = c :: t → isDecimal c = false) :
    (d ++ rest).takeWhile isDecimal = d ∧ (d ++ rest).dropWhile isDecimal = rest := by
  induction d with
  | nil =>
    cases rest with
    | nil => simp
    | cons c t => simp [hr c t rfl]
  | cons c d ih =>
    have := ih (fun x hx => hd x (by simp [hx]))
    simp [hd c (by simp), this]

theorem scanFrac_stop {rest : Str} (h : ∀ t, rest ≠ '.' :: t) : scanFrac rest = ([], rest) := by
  unfold scanFrac
  split
  · rename_i t; exact absurd rfl (h t)
  · rfl

theorem scanExp_stop {rest : Str} (h : ∀ c t, rest = c :: t → c ≠ 'e' ∧ c ≠ 'E') : scanExp rest = ([], rest) := by
  unfold scanExp
  split
  · rename_i c t
    have := h c t rfl
    simp [this]
  · rfl

theorem decimal_of_mem {c : Char} (h : c ∈ py% "0123456789") : isDecimal c = true := by
  have : ∀ c ∈ py% "0123456789", isDecimal c = true := by decide
  exact this c h

theorem scanDigits_text {d rest : Str} (hd : Spec.DigitText d) (h0 : d.head? = some '0' → d = ['0'])
    (hr : ∀ c t, rest = c :: t → isDecimal c = false) : scanDigits (d ++ rest) = some (d, rest) := by
  obtain ⟨hne, hall⟩ := hd
  cases d with
  | nil => exact absurd rfl hne
  | cons c d =>
    simp only [List.cons_append, scanDigits]
    split
    · rename_i hc
      subst hc
      have := h0 rfl
      simp only [List.cons.injEq, true_and] at this
      subst this
      rfl
    · have ht := takeWhile_stop (d := d) (rest := rest) (fun x hx => decimal_of_mem (hall x (by simp [hx]))) hr
      rw [if_pos (decimal_of_mem (hall c (by simp))), ht.1, ht.2]

theorem digitsGo_append (a : Nat) (s t : Str) : Str.digitsGo a (s ++ t) = (Str.digitsGo a s).bind (fun b => Str.digitsGo b t) := by
  induction s generalizing a with
  | nil => simp [Str.digitsGo]
  | cons c s ih =>
    simp only [List.cons_append, Str.digitsGo]
    cases Str.digit? c with
    | none => rfl
    | some d => exact ih _

theorem digit_digitChar : ∀ n < 10, Str.digit? n.digitChar = some n := by decide

theorem digitChar_mem : ∀ n < 10, n.digitChar ∈ py% "0123456789" := by decide

theorem digitsGo_toDigits (n : Nat) : Str.digitsGo 0 (Nat.toDigits 10 n) = some n := by
  induction n using Nat.strongRecOn with
  | _ n ih =>
    by_cases h : n < 10
    · rw [Nat.toDigits_of_lt_base h]
      simp [Str.digitsGo, digit_digitChar n h]
    · rw [Nat.toDigits_of_base_le (by decide) (by omega), digitsGo_append, ih (n / 10) (by omega)]
      simp only [Option.bind_some, Str.digitsGo, digit_digitChar _ (Nat.mod_lt n (show 0 < 10 by decide)), Option.some.injEq]
      omega

theorem toDigits_text (n : Nat) : Spec.DigitText (Nat.toDigits 10 n) ∧
    ((Nat.toDigits 10 n).head? = some '0' → Nat.toDigits 10 n = ['0']) := by
  induction n using Nat.strongRecOn with
  | _ n ih =>
    by_cases h : n < 10
    · rw [Nat.toDigits_of_lt_base h]
      refine ⟨⟨by simp, by simpa using digitChar_mem n h⟩, by simp⟩
    · obtain ⟨h1, h2⟩ := ih (n / 10) (by omega)
      rw [Nat.toDigits_of_base_le (by decide) (by omega)]
      refine ⟨⟨by simp, ?_⟩, ?_⟩
      · intro c hc
        rcases List.mem_append.1 hc with hc | hc
        · exact h1.2 c hc
        · simp only [List.mem_singleton] at hc
          subst hc
          exact digitChar_mem _ (Nat.mod_lt n (by decide))
      · intro hh
        exfalso
        cases hd : Nat.toDigits 10 (n / 10) with
        | nil => exact h1.1 hd
        | cons c l =>
          rw [hd] at hh h2
          simp only [List.cons_append, List.head?_cons, Option.some.injEq] at hh
          have h3 := h2 (by simp [hh])
          have h4 := digitsGo_toDigits (n / 10)
          rw [hd, h3] at h4
          have h5 : Str.digitsGo 0 ['0'] = some 0 := by decide
          rw [h5] at h4
          simp only [Option.some.injEq] at h4
          omega

theorem digits_toDigits (n : Nat) : Str.digits? (Nat.toDigits 10 n) = some n := by
  unfold Str.digits?
  rw [digitsGo_toDigits]
  have := (toDigits_text n).1.1
  cases h : Nat.toDigits 10 n with
  | nil => exact absurd h this
  | cons c l => rfl

theorem startsWith_minus (s : Str) : Str.startsWith ('-' :: s) (py% "-") = true := by
  simp [Str.startsWith]

theorem startsWith_ne {c p : Char} {s ps : Str} (h : c ≠ p) : Str.startsWith (c :: s) (p :: ps) = false := by
  simp [Str.startsWith, List.isPrefixOf, h.symm]

theorem scanNumber_int (float : Str → Option Num) (i : Int) {rest : Str} (hr : Stop rest) :
    scanNumber float (dumpInt i ++ rest) = some (.int i, rest) := by
  have hdec : ∀ c t, rest = c :: t → isDecimal c = false := fun c t h => (hr c t h).1
  have hf : scanFrac rest = ([], rest) := scanFrac_stop (fun t h => (hr _ t h).2.1 rfl)
  have he : scanExp rest = ([], rest) := scanExp_stop (fun c t h => (hr c t h).2.2)
  cases i with
  | ofNat n =>
    obtain ⟨h1, h2⟩ := toDigits_text n
    have hneg : Str.startsWith (Nat.toDigits 10 n ++ rest) (py% "-") = false := by
      cases hd : Nat.toDigits 10 n with
      | nil => exact absurd hd h1.1
      | cons c l =>
        refine startsWith_ne (fun hc => ?_)
        have := decimal_of_mem (h1.2 c (by simp [hd]))
        rw [hc] at this
        exact absurd this (by decide)
    simp only [dumpInt, Str.ofNat, scanNumber, hneg, Bool.false_eq_true, if_false, scanDigits_text h1 h2 hdec, hf, he,
      and_self, if_true, digits_toDigits]
    rfl
  | negSucc n =>
    obtain ⟨h1, h2⟩ := toDigits_text (n + 1)
    simp only [dumpInt, Str.ofNat, scanNumber, List.cons_append, startsWith_minus, if_true, List.drop_succ_cons, List.drop_zero,
      scanDigits_text h1 h2 hdec, hf, he, and_self, digits_toDigits]
    rfl

theorem scanNumber_float (float : Str → Option Num) {s rest : Str} {x : Num} (hs : Spec.FloatText s) (hx : float s = some x)
    (hr : Stop rest) : scanNumber float (s ++ rest) = some (.float x, rest) := by
  obtain ⟨sign, d, f, e, rfl, hsign, hd, h0, hf, he, hne⟩ := hs
  have hdec : ∀ c t, rest = c :: t → isDecimal c = false := fun c t h => (hr c t h).1
  have hexp : scanExp (e ++ rest) = (e, rest) := by
    rcases he with rfl | ⟨sg, e', rfl, hsg, hde⟩
    · exact scanExp_stop (fun c t h => (hr c t h).2.2)
    · have ht := takeWhile_stop (d := e') (rest := rest) (fun x hx => decimal_of_mem (hde.2 x hx)) hdec
      have hsc : scanSign (sg ++ (e' ++ rest)) = (sg, e' ++ rest) := by
        rcases hsg with rfl | rfl | rfl
        · cases he' : e' with
          | nil => exact absurd he' hde.1
          | cons c l =>
            have hc := decimal_of_mem (hde.2 c (by simp [he']))
            simp only [List.nil_append, List.cons_append, scanSign]
            rw [if_neg]
            rintro (rfl | rfl) <;> exact absurd hc (by decide)
        · simp [scanSign]
        · simp [scanSign]
      have hemp : ¬ ((e' ++ rest).takeWhile isDecimal).isEmpty = true := by
        rw [ht.1]
        cases he' : e' with
        | nil => exact absurd he' hde.1
        | cons => simp
      simp only [List.cons_append, List.append_assoc, scanExp, true_or, if_true, hsc]
      rw [if_neg hemp, ht.1, ht.2]
  have hE : ∀ c t, e ++ rest = c :: t → isDecimal c = false ∧ c ≠ '.' := by
    intro c t h
    rcases he with rfl | ⟨sg, e', rfl, _, _⟩
    · exact ⟨(hr c t h).1, (hr c t h).2.1⟩
    · simp only [List.cons_append, List.cons.injEq] at h
      obtain ⟨rfl, _⟩ := h
      decide
  have hfrac : scanFrac (f ++ (e ++ rest)) = (f, e ++ rest) := by
    rcases hf with rfl | ⟨f', rfl, hdf⟩
    · exact scanFrac_stop (fun t h => (hE _ t h).2 rfl)
    · have ht := takeWhile_stop (d := f') (rest := e ++ rest) (fun x hx => decimal_of_mem (hdf.2 x hx)) (fun c t h => (hE c t h).1)
      have hemp : ¬ ((f' ++ (e ++ rest)).takeWhile isDecimal).isEmpty = true := by
        rw [ht.1]
        cases hf' : f' with
        | nil => exact absurd hf' hdf.1
        | cons => simp
      simp only [List.cons_append, scanFrac]
      rw [if_neg hemp, ht.1, ht.2]
  have hF : ∀ c t, f ++ (e ++ rest) = c :: t → isDecimal c = false := by
    intro c t h
    rcases hf with rfl | ⟨f', rfl, _⟩
    · exact (hE c t h).1
    · simp only [List.cons_append, List.cons.injEq] at h
      obtain ⟨rfl, _⟩ := h
      decide
  have hdig := scanDigits_text hd h0 hF
  have hno : ¬ (f = [] ∧ e = []) := by rintro ⟨rfl, rfl⟩; simp at hne
  rcases hsign with rfl | rfl
  · have hneg : Str.startsWith (d ++ (f ++ (e ++ rest))) (py% "-") = false := by
      cases hd' : d with
      | nil => exact absurd hd' hd.1
      | cons c l =>
        refine startsWith_ne (fun hc => ?_)
        have := decimal_of_mem (hd.2 c (by simp [hd']))
        rw [hc] at this
        exact absurd this (by decide)
    simp only [List.nil_append, List.append_assoc] at hx ⊢
    simp only [scanNumber, hneg, Bool.false_eq_true, if_false, hdig, hfrac, hexp, hno, List.nil_append, List.append_assoc, hx]
  · simp only [List.cons_append, List.nil_append, List.append_assoc] at hx ⊢
    simp only [scanNumber, startsWith_minus, if_true, List.drop_succ_cons, List.drop_zero, hdig, hfrac, hexp, hno, if_false,
      List.cons_append, List.nil_append, List.append_assoc, hx]

/-! ## Values -/

theorem scanPlain_number {float : Str → Option Num} {c : Char} {t : Str} {r : Json × Str} (hn : c ≠ 'n') (ht : c ≠ 't') (hf : c ≠ 'f')
    (h : scanNumber float (c :: t) = some r) : scanPlain float (c :: t) = some r := by
  simp only [scanPlain, startsWith_ne hn, startsWith_ne ht, startsWith_ne hf, h, Bool.false_eq_true, if_false]

/-- characters that begin a number -/
def NumberStart (c : Char) : Prop := c = '-' ∨ c ∈ py% "0123456789"

theorem numberStart_ne {c : Char} (h : NumberStart c) :
    c ≠ 'n' ∧ c ≠ 't' ∧ c ≠ 'f' ∧ c ≠ '"' ∧ c ≠ '{' ∧ c ≠ '[' ∧ c ≠ ']' ∧ c ≠ ' ' ∧ c ≠ '\t' ∧ c ≠ '\n' ∧ c ≠ '\r' := by
  have : ∀ c ∈ '-' :: py% "0123456789",
    c ≠ 'n' ∧ c ≠ 't' ∧ c ≠ 'f' ∧ c ≠ '"' ∧ c ≠ '{' ∧ c ≠ '[' ∧ c ≠ ']' ∧ c ≠ ' ' ∧ c ≠ '\t' ∧ c ≠ '\n' ∧ c ≠ '\r' := by decide
  refine this c ?_
  rcases h with rfl | h
  · simp
  · exact List.mem_cons_of_mem _ h

theorem dumpInt_start (i : Int) : ∃ c t, dumpInt i = c :: t ∧ NumberStart c := by
  cases i with
  | ofNat n =>
    have h := (toDigits_text n).1
    cases hd : Nat.toDigits 10 n with
    | nil => exact absurd hd h.1
    | cons c l => exact ⟨c, l, hd, Or.inr (h.2 c (by simp [hd]))⟩
  | negSucc n => exact ⟨'-', _, rfl, Or.inl rfl⟩

theorem floatText_start {s : Str} (h : Spec.FloatText s) : ∃ c t, s = c :: t ∧ NumberStart c := by
  obtain ⟨sign, d, f, e, rfl, hsign, hd, _⟩ := h
  rcases hsign with rfl | rfl
  · cases hd' : d with
    | nil => exact absurd hd' hd.1
    | cons c l => exact ⟨c, l ++ f ++ e, by simp, Or.inr (hd.2 c (by simp [hd']))⟩
  · exact ⟨'-', d ++ f ++ e, by simp, Or.inl rfl⟩

theorem scanValue_number {float : Str → Option Num} {n : Nat} {s rest : Str} {v : Json} (hs : ∃ c t, s = c :: t ∧ NumberStart c)
    (h : scanNumber float (s ++ rest) = some (v, rest)) : scanValue float (n + 1) (s ++ rest) = some (v, rest) := by
  obtain ⟨c, t, rfl, hc⟩ := hs
  obtain ⟨h1, h2, h3, h4, h5, h6, _⟩ := numberStart_ne hc
  simp only [List.cons_append] at h ⊢
  rw [scanValue]
  simp only [h4, h5, h6, if_false]
  exact scanPlain_number h1 h2 h3 h

/-- white space -/
def IsSpace (c : Char) : Prop := c = ' ' ∨ c = '\t' ∨ c = '\n' ∨ c = '\r'

theorem skipSpace_of {c : Char} {t : Str} (h : ¬ IsSpace c) : skipSpace (c :: t) = c :: t := by
  rw [skipSpace]
  exact if_neg h

theorem skipSpace_newLine (n : Nat) {c : Char} {t : Str} (h : ¬ IsSpace c) : skipSpace (newLine n ++ c :: t) = c :: t := by
  have : ∀ k, skipSpace (List.replicate k ' ' ++ c :: t) = c :: t := by
    intro k
    induction k with
    | zero => exact skipSpace_of h
    | succ k ih => rw [List.replicate_succ, List.cons_append, skipSpace]; simpa using ih
  unfold newLine
  rw [List.cons_append, skipSpace]
  simpa using this (4 * n)

/-- the first character of a value -/
theorem dumpValue_start (repr : Rat → Str) (float : Str → Option Num) (n : Nat) {v : Json} (h : Spec.Regular repr float v) :
    ∃ c t, dumpValue repr n v = c :: t ∧ ¬ IsSpace c ∧ c ≠ ']' := by
  have hnum : ∀ {s : Str}, (∃ c t, s = c :: t ∧ NumberStart c) → ∃ c t, s = c :: t ∧ ¬ IsSpace c ∧ c ≠ ']' := by
    rintro s ⟨c, t, rfl, hc⟩
    have := numberStart_ne hc
    refine ⟨c, t, rfl, ?_, this.2.2.2.2.2.2.1⟩
    unfold IsSpace
    simp [this]
  cases h with
  | null => exact ⟨_, _, rfl, by unfold IsSpace; decide, by decide⟩
  | bool b => cases b <;> exact ⟨_, _, rfl, by unfold IsSpace; decide, by decide⟩
  | int i => simp only [dumpValue]; exact hnum (dumpInt_start i)
  | float x hx =>
    cases x with
    | fin q => simp only [dumpValue, dumpFloat]; exact hnum (floatText_start (hx q rfl).1)
    | nan => exact ⟨_, _, rfl, by unfold IsSpace; decide, by decide⟩
    | pinf => exact ⟨_, _, rfl, by unfold IsSpace; decide, by decide⟩
    | ninf => exact ⟨_, _, rfl, by unfold IsSpace; decide, by decide⟩
  | str s => exact ⟨_, _, rfl, by unfold IsSpace; decide, by decide⟩
  | arr l _ => cases l <;> exact ⟨_, _, rfl, by unfold IsSpace; decide, by decide⟩
  | obj d _ _ =>
    cases d with
    | nil => exact ⟨_, _, rfl, by unfold IsSpace; decide, by decide⟩
    | cons p d => exact ⟨_, _, rfl, by unfold IsSpace; decide, by decide⟩

theorem stop_cons {c : Char} {t : Str} (h : isDecimal c = false ∧ c ≠ '.' ∧ c ≠ 'e' ∧ c ≠ 'E') : Stop (c :: t) := by
  intro c' t' h'
  simp only [List.cons.injEq] at h'
  obtain ⟨rfl, rfl⟩ := h'
  exact h

theorem stop_newLine (n : Nat) (t : Str) : Stop (newLine n ++ t) := stop_cons (by decide)

/-- what is proved about every value -/
def Reads (repr : Rat → Str) (float : Str → Option Num) (v : Json) : Prop :=
  ∀ level rest n, Stop rest → (dumpValue repr level v).length ≤ n →
    scanValue float n (dumpValue repr level v ++ rest) = some (v, rest)

theorem scanItems_dump (repr : Rat → Str) (float : Str → Option Num) (level k : Nat) (rest : Str) :
    ∀ (l : List Json) (v : Json) (n : Nat), Reads repr float v → (∀ w ∈ l, Reads repr float w ∧ Spec.Regular repr float w) →
      (dumpValue repr level v).length + (dumpItems repr level l).length + 1 ≤ n →
      scanItems float n (dumpValue repr level v ++ (dumpItems repr level l ++ (newLine k ++ ']' :: rest))) = some (v :: l, rest)
  | [], v, n, hv, _, hn => by
    cases n with
    | zero => omega
    | succ n =>
      rw [scanItems]
      rw [hv level _ n (by simp only [dumpItems, List.nil_append]; exact stop_newLine k _) (by omega)]
      simp only [dumpItems, List.nil_append, skipSpace_newLine k (show ¬ IsSpace ']' by unfold IsSpace; decide)]
  | w :: l, v, n, hv, hl, hn => by
    cases n with
    | zero => omega
    | succ n =>
      obtain ⟨hw, hwr⟩ := hl w (by simp)
      obtain ⟨c, t, hc, hsp, _⟩ := dumpValue_start repr float level hwr
      have ih := scanItems_dump repr float level k rest l w n hw (fun x hx => hl x (by simp [hx])) (by
        simp only [dumpItems, List.length_cons, List.length_append] at hn
        omega)
      rw [scanItems]
      rw [hv level _ n (by simp only [dumpItems, List.cons_append]; exact stop_cons (by decide)) (by omega)]
      simp only [dumpItems, List.cons_append, List.append_assoc, skipSpace_of (show ¬ IsSpace ',' by unfold IsSpace; decide)]
      rw [hc, List.cons_append] at ih ⊢
      rw [skipSpace_newLine level hsp, ih]
      rfl

theorem scanFields_dump (repr : Rat → Str) (float : Str → Option Num) (level k : Nat) (rest : Str) :
    ∀ (d : List (Str × Json)) (key : Str) (v : Json) (n : Nat), (Reads repr float v ∧ Spec.Regular repr float v) →
      (∀ p ∈ d, Reads repr float p.2 ∧ Spec.Regular repr float p.2) →
      (dumpValue repr level v).length + (dumpFields repr level d).length + 1 ≤ n →
      scanFields float n (key.flatMap dumpChar ++ '"' :: ':' :: ' ' :: (dumpValue repr level v ++
        (dumpFields repr level d ++ (newLine k ++ '}' :: rest)))) = some ((key, v) :: d, rest)
  | [], key, v, n, hv, _, hn => by
    cases n with
    | zero => omega
    | succ n =>
      obtain ⟨hv, hvr⟩ := hv
      obtain ⟨c, t, hc, hsp, _⟩ := dumpValue_start repr float level hvr
      have h1 := hv level (newLine k ++ '}' :: rest) n (stop_newLine k _) (by omega)
      rw [scanFields, scanString_text]
      simp only [dumpFields, List.nil_append, skipSpace_of (show ¬ IsSpace ':' by unfold IsSpace; decide)]
      have h2 : skipSpace (' ' :: (dumpValue repr level v ++ (newLine k ++ '}' :: rest))) =
          dumpValue repr level v ++ (newLine k ++ '}' :: rest) := by
        rw [skipSpace, hc, List.cons_append]
        simpa using skipSpace_of hsp
      rw [h2, h1]
      simp only [skipSpace_newLine k (show ¬ IsSpace '}' by unfold IsSpace; decide)]
  | (key', w) :: d, key, v, n, hv, hl, hn => by
    cases n with
    | zero => omega
    | succ n =>
      obtain ⟨hv, hvr⟩ := hv
      obtain ⟨c, t, hc, hsp, _⟩ := dumpValue_start repr float level hvr
      have ih := scanFields_dump repr float level k rest d key' w n (hl (key', w) (by simp)) (fun x hx => hl x (by simp [hx])) (by
        simp only [dumpFields, List.length_cons, List.length_append] at hn
        omega)
      have h1 := hv level (dumpFields repr level ((key', w) :: d) ++ (newLine k ++ '}' :: rest)) n
        (by simp only [dumpFields, List.cons_append]; exact stop_cons (by decide)) (by omega)
      rw [scanFields, scanString_text]
      simp only [skipSpace_of (show ¬ IsSpace ':' by unfold IsSpace; decide)]
      have h2 : skipSpace (' ' :: (dumpValue repr level v ++ (dumpFields repr level ((key', w) :: d) ++ (newLine k ++ '}' :: rest)))) =
          dumpValue repr level v ++ (dumpFields repr level ((key', w) :: d) ++ (newLine k ++ '}' :: rest)) := by
        rw [skipSpace, hc, List.cons_append]
        simpa using skipSpace_of hsp
      rw [h2, h1]
      simp only [dumpFields, dumpStr, List.cons_append, List.append_assoc, List.nil_append,
        skipSpace_of (show ¬ IsSpace ',' by unfold IsSpace; decide),
        skipSpace_newLine level (show ¬ IsSpace '"' by unfold IsSpace; decide)]
      rw [ih]
      rfl

theorem ofList_nodup {V : Type} (d : List (Str × V)) (h : (d.map Prod.fst).Nodup) : Dict.ofList d = d := by
  have key : ∀ (d e : List (Str × V)), ((e ++ d).map Prod.fst).Nodup → d.foldl (fun e p => Dict.put e p.1 p.2) e = e ++ d := by
    intro d
    induction d with
    | nil => intro e _; simp
    | cons p d ih =>
      intro e he
      have hput : ∀ (e : List (Str × V)), p.1 ∉ e.map Prod.fst → Dict.put e p.1 p.2 = e ++ [p] := by
        intro e
        induction e with
        | nil => intro _; rfl
        | cons q e ihe =>
          intro hq
          simp only [List.map_cons, List.mem_cons, not_or] at hq
          simp only [Dict.put, if_neg (Ne.symm hq.1), ihe hq.2, List.cons_append]
      have hp : p.1 ∉ e.map Prod.fst := by
        intro hmem
        rw [List.map_append, List.nodup_append] at he
        exact he.2.2 p.1 hmem p.1 (by simp) rfl
      rw [List.foldl_cons, hput e hp, ih (e ++ [p]) (by simpa using he)]
      simp
  simpa [Dict.ofList] using key d [] (by simpa using h)

theorem reads_regular {repr : Rat → Str} {float : Str → Option Num} {v : Json} (h : Spec.Regular repr float v) : Reads repr float v := by
  induction h with
  | null =>
    intro level rest n _ hn
    cases n with
    | zero => simp [dumpValue] at hn
    | succ n => rfl
  | bool b =>
    intro level rest n _ hn
    cases n with
    | zero => cases b <;> simp [dumpValue] at hn
    | succ n => cases b <;> rfl
  | int i =>
    intro level rest n hs hn
    simp only [dumpValue] at hn ⊢
    cases n with
    | zero => obtain ⟨c, t, h, _⟩ := dumpInt_start i; simp [h] at hn
    | succ n => exact scanValue_number (dumpInt_start i) (scanNumber_int float i hs)
  | float x hx =>
    intro level rest n hs hn
    simp only [dumpValue] at hn ⊢
    cases x with
    | fin q =>
      obtain ⟨h1, h2⟩ := hx q rfl
      simp only [dumpFloat] at hn ⊢
      cases n with
      | zero => obtain ⟨c, t, h, _⟩ := floatText_start h1; simp [h] at hn
      | succ n => exact scanValue_number (floatText_start h1) (scanNumber_float float h1 h2 hs)
    | nan =>
      cases n with
      | zero => simp [dumpFloat] at hn
      | succ n => rfl
    | pinf =>
      cases n with
      | zero => simp [dumpFloat] at hn
      | succ n => rfl
    | ninf =>
      cases n with
      | zero => simp [dumpFloat] at hn
      | succ n => rfl
  | str s =>
    intro level rest n _ hn
    cases n with
    | zero => simp [dumpValue, dumpStr] at hn
    | succ n =>
      simp only [dumpValue, dumpStr, List.cons_append, List.append_assoc, List.nil_append]
      rw [scanValue]
      simp [scanString_text]
  | arr l hl ih =>
    intro level rest n _ hn
    cases n with
    | zero => cases l <;> simp [dumpValue] at hn
    | succ n =>
      cases l with
      | nil => rfl
      | cons v l =>
        obtain ⟨c, t, hc, hsp, hb⟩ := dumpValue_start repr float (level + 1) (hl v (by simp))
        have h1 := scanItems_dump repr float (level + 1) level rest l v n (ih v (by simp))
          (fun w hw => ⟨ih w (by simp [hw]), hl w (by simp [hw])⟩) (by
            simp only [dumpValue, List.length_cons, List.length_append, newLine] at hn
            omega)
        simp only [dumpValue, List.cons_append, List.append_assoc, List.nil_append]
        rw [scanValue]
        rw [hc, List.cons_append] at h1 ⊢
        rw [skipSpace_newLine (level + 1) hsp]
        simp only [show ('[' : Char) ≠ '"' by decide, show ('[' : Char) ≠ '{' by decide, if_false, if_true]
        split
        · rename_i heq; simp only [List.cons.injEq] at heq; exact absurd heq.1 hb
        · rw [h1]; rfl
  | obj d hnd hd ih =>
    intro level rest n _ hn
    cases n with
    | zero =>
      cases d with
      | nil => simp [dumpValue] at hn
      | cons p d => simp [dumpValue] at hn
    | succ n =>
      cases d with
      | nil => rfl
      | cons p d =>
        obtain ⟨k, v⟩ := p
        have h1 := scanFields_dump repr float (level + 1) level rest d k v n ⟨ih (k, v) (by simp), hd (k, v) (by simp)⟩
          (fun w hw => ⟨ih w (by simp [hw]), hd w (by simp [hw])⟩) (by
            simp only [dumpValue, List.length_cons, List.length_append, newLine] at hn
            omega)
        simp only [dumpValue, dumpStr, List.cons_append, List.append_assoc, List.nil_append]
        rw [scanValue]
        simp only [show ('{' : Char) ≠ '"' by decide, if_false, if_true,
          skipSpace_newLine (level + 1) (show ¬ IsSpace '"' by unfold IsSpace; decide)]
        rw [h1]
        simp [ofList_nodup _ hnd]

theorem loads_dumps {repr : Rat → Str} {float : Str → Option Num} {v : Json} (h : Spec.Regular repr float v) :
    loads float (dumps repr v) = some v := by
  obtain ⟨c, t, hc, hsp, _⟩ := dumpValue_start repr float 0 h
  have h1 := reads_regular h 0 [] ((dumps repr v).length + 1) (fun c t h => by simp at h) (by unfold dumps; omega)
  unfold loads
  have h2 : skipSpace (dumps repr v) = dumpValue repr 0 v ++ [] := by
    unfold dumps
    rw [hc, skipSpace_of hsp]
    simp
  rw [h2, h1]
  rfl

end Sofar
