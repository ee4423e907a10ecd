/-
The texts of schema statements read back as the expected tokens.
-/
import Verif.Spec.DdlNames
import Verif.Proofs.Lex

namespace Butane.DdlP
open Butane.Ddl Spec
open Butane.Sql (isWordChar isWordStart isDigit upper)

/-- The rest of the text begins with something that ends every word and literal. -/
def Break : List Char → Prop
  | [] => True
  | c :: _ => c = ' ' ∨ c = '\n' ∨ c = '(' ∨ c = ')' ∨ c = ',' ∨ c = ';'

/-- The text reads as these tokens, before a break. -/
def LexTo (res : String → Bool) (t : Text) (k : List Tok) : Prop :=
  ∀ r, Break r → lexFrom res .idle (t ++ r) = k ++ lexFrom res .idle r

/-- The text reads as these tokens, whatever follows. -/
def Opens (res : String → Bool) (t : Text) (k : List Tok) : Prop :=
  ∀ r, lexFrom res .idle (t ++ r) = k ++ lexFrom res .idle r

/-- The text begins with a break or is empty. -/
def Soft (t : Text) : Prop := ∀ r, Break r → Break (t ++ r)

variable {res : String → Bool} {kw : String → Bool}

theorem soft_nil : Soft [] := fun _ h => h
theorem soft_space (t : Text) : Soft (' ' :: t) := fun _ _ => .inl rfl
theorem soft_nl (t : Text) : Soft ('\n' :: t) := fun _ _ => .inr (.inl rfl)
theorem soft_lparen (t : Text) : Soft ('(' :: t) := fun _ _ => .inr (.inr (.inl rfl))
theorem soft_rparen (t : Text) : Soft (')' :: t) := fun _ _ => .inr (.inr (.inr (.inl rfl)))
theorem soft_comma (t : Text) : Soft (',' :: t) := fun _ _ => .inr (.inr (.inr (.inr (.inl rfl))))
theorem soft_semi (t : Text) : Soft (';' :: t) := fun _ _ => .inr (.inr (.inr (.inr (.inr rfl))))

theorem LexTo.append {t1 t2 : Text} {k1 k2 : List Tok} (h1 : LexTo res t1 k1) (hs : Soft t2)
    (h2 : LexTo res t2 k2) : LexTo res (t1 ++ t2) (k1 ++ k2) := by
  intro r hr
  rw [List.append_assoc, h1 _ (hs r hr), h2 r hr, List.append_assoc]

theorem LexTo.opens {t1 t2 : Text} {k1 k2 : List Tok} (h1 : LexTo res t1 k1) (hs : ∀ r, Break (t2 ++ r))
    (h2 : Opens res t2 k2) : Opens res (t1 ++ t2) (k1 ++ k2) := by
  intro r
  rw [List.append_assoc, h1 _ (hs r), h2 r, List.append_assoc]

theorem Opens.lexTo {t : Text} {k : List Tok} (h : Opens res t k) : LexTo res t k := fun r _ => h r

theorem Opens.then {t1 t2 : Text} {k1 k2 : List Tok} (h1 : Opens res t1 k1)
    (h2 : LexTo res t2 k2) : LexTo res (t1 ++ t2) (k1 ++ k2) := by
  intro r hr
  rw [List.append_assoc, h1, h2 r hr, List.append_assoc]

theorem Opens.trans {t1 t2 : Text} {k1 k2 : List Tok} (h1 : Opens res t1 k1)
    (h2 : Opens res t2 k2) : Opens res (t1 ++ t2) (k1 ++ k2) := by
  intro r
  rw [List.append_assoc, h1, h2 r, List.append_assoc]

theorem lexTo_nil : LexTo res [] [] := fun _ _ => rfl

theorem opens_nil : Opens res [] [] := fun _ => rfl

/-! ### Words -/

theorem lex_cons (m : Mode) (c : Char) (cs : List Char) :
    lexFrom res m (c :: cs) = (step res m c).1 ++ lexFrom res (step res m c).2 cs := rfl

theorem break_props {c : Char} {r : List Char} (h : Break (c :: r)) :
    isWordChar c = false ∧ isDigit c = false ∧ c ≠ '\'' ∧ c ≠ '.' ∧ c ≠ '"' := by
  rcases h with h | h | h | h | h | h <;> subst h <;> decide

theorem flush_rest (m : Mode) (c : Char) (cs : List Char) :
    (flush res m c).1 ++ lexFrom res (flush res m c).2 cs =
      pending res m ++ lexFrom res .idle (c :: cs) := by
  simp [flush, lexFrom, step, List.append_assoc]

theorem lex_word_end (acc : List Char) (r : List Char) (h : Break r) :
    lexFrom res (.word acc) r = wordTok res acc.reverse :: lexFrom res .idle r := by
  cases r with
  | nil => rfl
  | cons c cs =>
    obtain ⟨h1, h2, h3, -, -⟩ := break_props h
    rw [lex_cons]
    simp only [step, h1, h3, false_and, ↓reduceIte, Bool.false_eq_true]
    simpa [pending] using flush_rest (.word acc) c cs

theorem lex_word_cont (acc : List Char) (cs r : List Char) (h : cs.all isWordChar = true) :
    lexFrom res (.word acc) (cs ++ r) = lexFrom res (.word (cs.reverse ++ acc)) r := by
  induction cs generalizing acc with
  | nil => rfl
  | cons c cs ih =>
    simp only [List.all_cons, Bool.and_eq_true] at h
    rw [List.cons_append, lex_cons]
    simp only [step, h.1, ↓reduceIte, List.nil_append]
    rw [ih _ h.2]
    simp

theorem lex_word {s : String} (hs : IsName s) : LexTo res s.toList [wordTok res s.toList] := by
  intro r hr
  obtain ⟨c, cs, he, hc, hcs⟩ := hs
  rw [he, List.cons_append, lex_cons]
  simp only [step, start, wordStart_not_digit hc, hc, ↓reduceIte, Bool.false_eq_true,
    List.nil_append]
  rw [lex_word_cont _ _ _ hcs, lex_word_end _ _ hr]
  simp

theorem lex_quoted (acc cs r : List Char) (h : ∀ c ∈ cs, c ≠ '"') :
    lexFrom res (.quoted acc) (cs ++ '"' :: r) =
      .ident (String.ofList (acc.reverse ++ cs)) :: lexFrom res .idle r := by
  induction cs generalizing acc with
  | nil =>
    rw [List.nil_append, lex_cons]
    simp [step]
  | cons c cs ih =>
    rw [List.cons_append, lex_cons]
    have hc := h c (List.mem_cons_self ..)
    simp only [step, hc, ↓reduceIte, List.nil_append]
    rw [ih _ fun x hx => h x (List.mem_cons_of_mem _ hx)]
    simp

theorem wordTok_ident {s : String} (h1 : upper s.toList ∉ Ddl.grammarWords) (h2 : res s = false) :
    wordTok res s.toList = .ident s := by
  simp [wordTok, h1, h2]

theorem lex_quoteName (hk : CoversDdl kw res) {s : String} (hs : IsName s) :
    LexTo res (quoteName kw s) [.ident s] := by
  unfold quoteName
  split
  · intro r _
    show lexFrom res .idle ('"' :: s.toList ++ ['"'] ++ r) = _
    rw [List.cons_append, List.cons_append, lex_cons]
    rw [List.append_assoc]
    show lexFrom res (.quoted []) (s.toList ++ '"' :: r) = _
    rw [lex_quoted _ _ _ (name_no_quote hs)]
    simp
  · rename_i hn
    have h := lex_word (res := res) hs
    rw [wordTok_ident] at h
    · exact h
    · exact fun hc => hn (hk s (.inl hc))
    · cases hr : res s with
      | false => rfl
      | true => exact absurd (hk s (.inr hr)) hn

/-! ### Literals -/

theorem lex_num_cont (acc cs r : List Char) (h : ∀ d ∈ cs, isDigit d = true ∨ d = '.') :
    lexFrom res (.num acc) (cs ++ r) = lexFrom res (.num (cs.reverse ++ acc)) r := by
  induction cs generalizing acc with
  | nil => rfl
  | cons c cs ih =>
    rw [List.cons_append, lex_cons]
    have hc := h c (List.mem_cons_self ..)
    simp only [step, hc, ↓reduceIte, List.nil_append]
    rw [ih _ fun x hx => h x (List.mem_cons_of_mem _ hx)]
    simp

theorem lex_numeral {s : List Char} (h : IsNumeral s) : LexTo res s [.num s] := by
  intro r hr
  obtain ⟨c, cs, rfl, hc, hcs⟩ := h
  rw [List.cons_append, lex_cons]
  simp only [step, start, hc, ↓reduceIte, List.nil_append]
  rw [lex_num_cont _ _ _ hcs]
  cases r with
  | nil => simp [lexFrom, pending]
  | cons d r =>
    obtain ⟨h1, h2, h3, h4, -⟩ := break_props hr
    rw [lex_cons]
    simp only [step, h1, h2, h4, or_self, ↓reduceIte, Bool.false_eq_true]
    simpa [pending] using flush_rest (res := res) (.num (cs.reverse ++ [c])) d r

theorem lex_str_cont (acc cs r : List Char) (h : '\'' ∉ cs) :
    lexFrom res (.str acc) (cs ++ r) = lexFrom res (.str (cs.reverse ++ acc)) r := by
  induction cs generalizing acc with
  | nil => rfl
  | cons c cs ih =>
    rw [List.cons_append, lex_cons]
    have hc : c ≠ '\'' := fun e => h (e ▸ List.mem_cons_self ..)
    simp only [step, hc, ↓reduceIte, List.nil_append]
    rw [ih _ fun x => h (List.mem_cons_of_mem _ x)]
    simp

theorem lex_strQ (acc r : List Char) (h : Break r) :
    lexFrom res (.strQ acc) r = .str acc.reverse :: lexFrom res .idle r := by
  cases r with
  | nil => rfl
  | cons c r =>
    obtain ⟨h1, h2, h3, h4, -⟩ := break_props h
    rw [lex_cons]
    simp only [step, h3, ↓reduceIte]
    simpa [pending] using flush_rest (res := res) (.strQ acc) c r

theorem lex_squote {s : List Char} (h : '\'' ∉ s) : LexTo res (squote s) [.str s] := by
  intro r hr
  show lexFrom res .idle ('\'' :: s ++ ['\''] ++ r) = _
  rw [List.cons_append, List.cons_append, lex_cons, List.append_assoc]
  show lexFrom res (.str []) (s ++ '\'' :: r) = _
  rw [lex_str_cont _ _ _ h, lex_cons]
  simp only [step, ↓reduceIte, List.nil_append, List.append_nil]
  rw [lex_strQ _ _ hr]
  simp

theorem lex_hex_cont (acc cs r : List Char) (h : '\'' ∉ cs) :
    lexFrom res (.hex acc) (cs ++ r) = lexFrom res (.hex (cs.reverse ++ acc)) r := by
  induction cs generalizing acc with
  | nil => rfl
  | cons c cs ih =>
    rw [List.cons_append, lex_cons]
    have hc : c ≠ '\'' := fun e => h (e ▸ List.mem_cons_self ..)
    simp only [step, hc, ↓reduceIte, List.nil_append]
    rw [ih _ fun x => h (List.mem_cons_of_mem _ x)]
    simp

theorem lex_hex {s : List Char} (h : '\'' ∉ s) : Opens res ('x' :: squote s) [.hex s] := by
  intro r
  show lexFrom res .idle ('x' :: ('\'' :: s ++ ['\'']) ++ r) = _
  rw [List.cons_append, lex_cons, List.cons_append, List.cons_append]
  show lexFrom res (.word ['x']) ('\'' :: (s ++ ['\''] ++ r)) = _
  rw [lex_cons, List.append_assoc]
  show lexFrom res (.hex []) (s ++ '\'' :: r) = _
  rw [lex_hex_cont _ _ _ h, lex_cons]
  simp [step]

theorem digits_numeral {s : Text} (h : ∃ c r, s = c :: r ∧ isDigit c = true ∧ r.all isDigit = true) :
    IsNumeral s := by
  obtain ⟨c, r, h1, h2, h3⟩ := h
  exact ⟨c, r, h1, h2, fun d hd => .inl (List.all_eq_true.1 h3 d hd)⟩

end Butane.DdlP
