/-
The texts of schema statements for PostgreSQL, which reads them in lower case outside of quotes.
-/
import Verif.Proofs.DdlSqlite
import Verif.Spec.PgDdl

namespace Butane.PgP
open Butane.Ddl Butane.PgCat Butane.DdlP Spec
open Butane.Sql (isWordChar isWordStart isDigit upper)

variable {res : String → Bool} {kw : String → Bool}

/-! ### Characters -/

theorem ascii_cases {P : Char → Prop} (h : ∀ n : Fin 128, P (Char.ofNat n)) {c : Char}
    (hc : c.toNat < 128) : P c := by
  have := h ⟨c.toNat, hc⟩
  rwa [Char.ofNat_toNat] at this

theorem wordChar_ascii {c : Char} (h : isWordChar c = true) : c.toNat < 128 := by
  simp only [isWordChar, isWordStart, isDigit, Bool.or_eq_true, Bool.and_eq_true,
    decide_eq_true_eq, beq_iff_eq] at h
  rcases h with ((h | h) | h) | h
  · omega
  · omega
  · subst h; decide
  · omega

theorem wordStart_char {c : Char} (h : isWordStart c = true) : isWordChar c = true := by
  simp [isWordChar, h]

theorem lower_wordChar {c : Char} (h : isWordChar c = true) : isWordChar c.toLower = true := by
  revert h
  by_cases hc : c.toNat < 128
  · exact ascii_cases (P := fun c => isWordChar c = true → isWordChar c.toLower = true) (by decide) hc
  · exact fun h => absurd (wordChar_ascii h) hc

theorem lower_wordStart {c : Char} (h : isWordStart c = true) : isWordStart c.toLower = true :=
  ascii_cases (P := fun c => isWordStart c = true → isWordStart c.toLower = true) (by decide)
    (wordChar_ascii (wordStart_char h)) h

theorem upper_lower_char {c : Char} (h : isWordChar c = true) : c.toLower.toUpper = c.toUpper :=
  ascii_cases (P := fun c => c.toLower.toUpper = c.toUpper) (by decide) (wordChar_ascii h)

theorem lower_lower_char (c : Char) : c.toLower.toLower = c.toLower := by
  by_cases hc : c.toNat < 128
  · exact ascii_cases (P := fun c => c.toLower.toLower = c.toLower) (by decide) hc
  · have : c.toLower = c := by
      unfold Char.toLower
      rw [dif_neg]
      intro h
      have h2 := h.2
      rw [UInt32.le_iff_toNat_le] at h2
      have : c.val.toNat = c.toNat := rfl
      have e : ('Z' : Char).val.toNat = 90 := rfl
      omega
    rw [this, this]

theorem wordChar_unquoted {c : Char} (h : isWordChar c = true) : c ≠ '"' ∧ c ≠ '\'' := by
  constructor <;> (rintro rfl; revert h; decide)

/-! ### Reading in lower case -/

/-- The text leaves no quote open. -/
def Closed (t : Text) : Prop := ∀ r, foldCase none (t ++ r) = foldCase none t ++ foldCase none r

theorem closed_nil : Closed [] := fun _ => rfl

theorem Closed.append {a b : Text} (ha : Closed a) (hb : Closed b) : Closed (a ++ b) := by
  intro r
  rw [List.append_assoc, ha, hb, ha, List.append_assoc]

theorem closed_cons {c : Char} (h1 : c ≠ '"') (h2 : c ≠ '\'') {t : Text} (ht : Closed t) :
    Closed (c :: t) := by
  intro r
  simp only [List.cons_append, foldCase, h1, h2, or_self, ↓reduceIte]
  rw [ht]

theorem fold_plain {t : Text} (h : ∀ c ∈ t, c ≠ '"' ∧ c ≠ '\'') :
    foldCase none t = t.map Char.toLower := by
  induction t with
  | nil => rfl
  | cons c t ih =>
    have hc := h c (List.mem_cons_self ..)
    simp only [foldCase, hc.1, hc.2, or_self, ↓reduceIte, List.map_cons]
    rw [ih fun x hx => h x (List.mem_cons_of_mem _ hx)]

theorem closed_plain {t : Text} (h : ∀ c ∈ t, c ≠ '"' ∧ c ≠ '\'') : Closed t := by
  induction t with
  | nil => exact closed_nil
  | cons c t ih =>
    exact closed_cons (h c (List.mem_cons_self ..)).1 (h c (List.mem_cons_self ..)).2
      (ih fun x hx => h x (List.mem_cons_of_mem _ hx))

theorem fold_inside {q : Char} {t : Text} (h : q ∉ t) (r : Text) :
    foldCase (some q) (t ++ q :: r) = t ++ q :: foldCase none r := by
  induction t with
  | nil => simp [foldCase]
  | cons c t ih =>
    have hc : c ≠ q := fun e => h (e ▸ List.mem_cons_self ..)
    simp only [List.cons_append, foldCase, hc, ↓reduceIte]
    rw [ih fun hm => h (List.mem_cons_of_mem _ hm)]

theorem fold_quoted {q : Char} (hq : q = '"' ∨ q = '\'') {t : Text} (h : q ∉ t) (r : Text) :
    foldCase none (q :: t ++ [q] ++ r) = q :: t ++ [q] ++ foldCase none r := by
  simp only [List.cons_append, List.append_assoc, List.nil_append, foldCase, hq, ↓reduceIte]
  rw [fold_inside h]

theorem closed_quoted {q : Char} (hq : q = '"' ∨ q = '\'') {t : Text} (h : q ∉ t) :
    Closed (q :: t ++ [q]) ∧ foldCase none (q :: t ++ [q]) = q :: t ++ [q] := by
  have h0 := fold_quoted hq h []
  rw [List.append_nil] at h0
  have h0' : foldCase none (q :: t ++ [q]) = q :: t ++ [q] := by simpa [foldCase] using h0
  exact ⟨fun r => by rw [fold_quoted hq h, h0'], h0'⟩

/-! ### Tokens -/

/-- PostgreSQL reads the text as these tokens, before a break. -/
def FLex (res : String → Bool) (t : Text) (k : List Tok) : Prop :=
  Closed t ∧ LexTo res (foldCase none t) k

/-- PostgreSQL reads the text as these tokens, whatever follows. -/
def FOpens (res : String → Bool) (t : Text) (k : List Tok) : Prop :=
  Closed t ∧ Opens res (foldCase none t) k

theorem fold_startsBreak {t : Text} (h : startsBreak t = true) :
    startsBreak (foldCase none t) = true := by
  cases t with
  | nil => cases h
  | cons c t =>
    have hc : c = ' ' ∨ c = '\n' ∨ c = '(' ∨ c = ')' ∨ c = ',' ∨ c = ';' := by
      simpa [startsBreak, or_assoc] using h
    rcases hc with hc | hc | hc | hc | hc | hc <;> subst hc <;> rfl

theorem FLex.append {t1 t2 : Text} {k1 k2 : List Tok} (h1 : FLex res t1 k1)
    (hs : startsBreak t2 = true) (h2 : FLex res t2 k2) : FLex res (t1 ++ t2) (k1 ++ k2) := by
  refine ⟨h1.1.append h2.1, ?_⟩
  rw [h1.1]
  exact h1.2.append (softB (fold_startsBreak hs)) h2.2

theorem FLex.opens {t1 t2 : Text} {k1 k2 : List Tok} (h1 : FLex res t1 k1)
    (hs : startsBreak t2 = true) (h2 : FOpens res t2 k2) : FOpens res (t1 ++ t2) (k1 ++ k2) := by
  refine ⟨h1.1.append h2.1, ?_⟩
  rw [h1.1]
  exact h1.2.opens (brkB (fold_startsBreak hs)) h2.2

theorem FOpens.then {t1 t2 : Text} {k1 k2 : List Tok} (h1 : FOpens res t1 k1)
    (h2 : FLex res t2 k2) : FLex res (t1 ++ t2) (k1 ++ k2) := by
  refine ⟨h1.1.append h2.1, ?_⟩
  rw [h1.1]
  exact h1.2.then h2.2

theorem FOpens.trans {t1 t2 : Text} {k1 k2 : List Tok} (h1 : FOpens res t1 k1)
    (h2 : FOpens res t2 k2) : FOpens res (t1 ++ t2) (k1 ++ k2) := by
  refine ⟨h1.1.append h2.1, ?_⟩
  rw [h1.1]
  exact h1.2.trans h2.2

theorem FOpens.flex {t : Text} {k : List Tok} (h : FOpens res t k) : FLex res t k :=
  ⟨h.1, h.2.lexTo⟩

theorem fopens_nil : FOpens res [] [] := ⟨closed_nil, opens_nil⟩

/-- No quotes in the text. -/
def unquoted (t : Text) : Bool := t.all fun c => c != '"' && c != '\''

theorem closed_of_unquoted {t : Text} (h : unquoted t = true) : Closed t :=
  closed_plain fun c hc => by
    have := List.all_eq_true.1 h c hc
    simpa using this

/-- A fixed text. -/
theorem fopens {t : Text} {k : List Tok} (h : unquoted t = true)
    (ho : Opens res (foldCase none t) k) : FOpens res t k := ⟨closed_of_unquoted h, ho⟩

theorem flex_join {sep : Text} {ks : List Tok} (ho : FOpens res sep ks)
    (hb : startsBreak sep = true) {ts : List Text} {kss : List (List Tok)}
    (h : AllMatch (FLex res) ts kss) : FLex res (joinText sep ts) (joinToks ks kss) := by
  induction h with
  | nil => exact fopens_nil.flex
  | cons h1 h2 ih =>
    cases h2 with
    | nil => exact h1
    | cons h3 h4 =>
      simp only [joinText, joinToks, List.append_assoc] at ih ⊢
      refine h1.append ?_ (ho.then ih)
      cases sep with
      | nil => cases hb
      | cons c s => exact hb

/-! ### Names -/

theorem lower_toList (s : String) : (lower s).toList = s.toList.map Char.toLower := by
  simp [lower]

theorem name_chars {s : String} (h : IsName s) : ∀ c ∈ s.toList, isWordChar c = true := by
  obtain ⟨c, cs, he, hc, hcs⟩ := h
  rw [he]
  intro x hx
  rcases List.mem_cons.1 hx with rfl | hx
  · exact wordStart_char hc
  · exact List.all_eq_true.1 hcs x hx

theorem isName_lower {s : String} (h : IsName s) : IsName (lower s) := by
  obtain ⟨c, cs, he, hc, hcs⟩ := h
  refine ⟨c.toLower, cs.map Char.toLower, by rw [lower_toList, he]; rfl, lower_wordStart hc, ?_⟩
  rw [List.all_eq_true]
  intro x hx
  obtain ⟨y, hy, rfl⟩ := List.mem_map.1 hx
  exact lower_wordChar (List.all_eq_true.1 hcs y hy)

theorem upper_lower {s : String} (h : IsName s) : upper (lower s).toList = upper s.toList := by
  unfold upper
  rw [lower_toList, List.map_map]
  congr 1
  exact List.map_congr_left fun c hc => upper_lower_char (name_chars h c hc)

theorem closed_name {s : String} (h : IsName s) :
    Closed s.toList ∧ foldCase none s.toList = (lower s).toList := by
  have hq : ∀ c ∈ s.toList, c ≠ '"' ∧ c ≠ '\'' := fun c hc => wordChar_unquoted (name_chars h c hc)
  exact ⟨closed_plain hq, by rw [fold_plain hq, lower_toList]⟩

theorem flex_word {s : String} (hs : IsName s) :
    FLex res s.toList [wordTok res (lower s).toList] := by
  obtain ⟨h1, h2⟩ := closed_name hs
  exact ⟨h1, by rw [h2]; exact lex_word (isName_lower hs)⟩

theorem flex_quoteName (hk : PgWords kw res) {s : String} (hs : PgName kw s) :
    FLex res (quoteName kw s) [.ident (lower s)] := by
  unfold quoteName
  split
  · next hkw =>
    have hq : '"' ∉ s.toList := fun h => name_no_quote hs.1 _ h rfl
    obtain ⟨h1, h2⟩ := closed_quoted (.inl rfl) hq
    refine ⟨h1, ?_⟩
    rw [h2, hs.2 hkw]
    intro r _
    rw [List.cons_append, List.cons_append, lex_cons, List.append_assoc]
    show lexFrom res (.quoted []) (s.toList ++ '"' :: r) = _
    rw [lex_quoted _ _ _ (name_no_quote hs.1)]
    simp
  · next hkw =>
    have h := flex_word (res := res) hs.1
    rw [wordTok_ident] at h
    · exact h
    · rw [upper_lower hs.1]
      exact fun hc => hkw (hk.covers s (.inl hc))
    · cases hr : res (lower s) with
      | false => rfl
      | true => exact absurd (hk.covers s (.inr hr)) hkw

end Butane.PgP
