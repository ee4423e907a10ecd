/-
Sending a script statement by statement is the same as executing it as a whole.
-/
import Verif.Model.TursoDdl
import Verif.Spec.TursoDdl
import Verif.Proofs.DdlParse

namespace Butane.DdlP
open Butane.Ddl Spec TursoDdl
open Butane.Sql (isWordChar isWordStart isDigit upper)

variable {res : String → Bool}

/-! ### What cannot be read is no statement -/

theorem litTok_bad {t : Tok} {l : Lit} (h : litTok t = some l) : t ≠ .bad := by
  rintro rfl
  cases h

theorem pType_bad {r : List Tok} (h : Tok.bad ∈ r) : Tok.bad ∈ (pType r).2 := by
  induction r with
  | nil => cases h
  | cons t r ih =>
    cases t <;> simp only [pType] <;> first
      | exact h
      | (rcases List.mem_cons.1 h with h | h
         · cases h
         · exact ih h)

theorem pCons_bad {r r' : List Tok} {cs : List Con} (h : pCons r = some (cs, r'))
    (hb : Tok.bad ∈ r) : Tok.bad ∈ r' := by
  fun_induction pCons r generalizing cs r' <;> simp_all
  rename_i hlit ih
  rcases hb with rfl | hb
  · exact absurd rfl (litTok_bad hlit)
  · exact ih hb

theorem pColDef_bad {r r' : List Tok} {c : ColDef} (h : pColDef r = some (c, r'))
    (hb : Tok.bad ∈ r) : Tok.bad ∈ r' := by
  unfold pColDef at h
  split at h
  · rename_i n r
    cases hp : pCons (pType r).2 with
    | none => rw [hp] at h; cases h
    | some x =>
      obtain ⟨cs, r''⟩ := x
      rw [hp] at h
      simp only [Option.some.injEq, Prod.mk.injEq] at h
      obtain ⟨-, rfl⟩ := h
      refine pCons_bad hp (pType_bad ?_)
      rcases List.mem_cons.1 hb with hb | hb
      · cases hb
      · exact hb
  · cases h

theorem pFks_bad {sq : Bool} {r r' : List Tok} {fs : List RefCon} (h : pFks sq r = some (fs, r'))
    (hb : Tok.bad ∈ r) : Tok.bad ∈ r' := by
  fun_induction pFks sq r generalizing fs r' <;> simp_all

theorem pBody_bad {sq : Bool} {n : Nat} {r r' : List Tok} {cs : List ColDef} {fs : List RefCon}
    (h : pBody sq n r = some (cs, fs, r')) (hb : Tok.bad ∈ r) : Tok.bad ∈ r' := by
  fun_induction pBody sq n r generalizing cs fs r'
  · cases h
  · rename_i hc
    cases h
    have := pColDef_bad hc hb
    simpa using this
  · rename_i hc _ _ hf
    cases h
    have := pColDef_bad hc hb
    exact pFks_bad hf (by simpa using this)
  · cases h
  · rename_i hc _ _ _ hf ih
    cases h
    have := pColDef_bad hc hb
    exact ih hf (by simpa using this)
  · cases h
  · cases h

theorem pNames_bad {r r' : List Tok} {ns : List String} (h : pNames r = some (ns, r'))
    (hb : Tok.bad ∈ r) : Tok.bad ∈ r' := by
  fun_induction pNames r generalizing ns r' <;> simp_all

theorem pCreate_bad {sq i : Bool} {r : List Tok} {s : DStmt} (h : pCreate sq i r = some s) :
    Tok.bad ∉ r := by
  intro hb
  unfold pCreate at h
  split at h
  · rename_i n r
    have hb : Tok.bad ∈ r := by simpa using hb
    split at h
    · rename_i hp
      cases pBody_bad hp hb
    · rename_i hp
      simpa using pBody_bad hp hb
    · cases h
  · cases h

theorem pAlter_bad {t : String} {r : List Tok} {s : DStmt} (h : pAlter true t r = some s) :
    Tok.bad ∉ r := by
  intro hb
  unfold pAlter at h
  split at h
  · rename_i r
    have hb : Tok.bad ∈ r := by simpa using hb
    split at h
    · rename_i hp
      cases pColDef_bad hp hb
    · cases h
  · simp at hb
  · simp at hb
  · simp at h

theorem parseStmt_bad {r : List Tok} {s : DStmt} (h : parseStmt true r = some s) :
    Tok.bad ∉ r := by
  intro hb
  unfold parseStmt at h
  split at h
  · exact pCreate_bad h (by simpa using hb)
  · exact pCreate_bad h (by simpa using hb)
  · simp at hb
  · exact pAlter_bad h (by simpa using hb)
  · rename_i r
    have hb : Tok.bad ∈ r := by simpa using hb
    split at h
    · rename_i hp
      simpa using pNames_bad hp hb
    · cases h
  · cases h

/-! ### Characters -/

theorem space_props {c : Char} (h : isSpace c = true) :
    isWordStart c = false ∧ isDigit c = false ∧ isWordChar c = false ∧ c ≠ '\'' ∧ c ≠ '"' ∧
      c ≠ '.' ∧ c ≠ '(' ∧ c ≠ ')' ∧ c ≠ ',' ∧ c ≠ ';' ∧ c ≠ '-' := by
  have key : ∀ d : Char, (isSpace d = false) → c ≠ d := by
    rintro d hd rfl
    rw [h] at hd
    cases hd
  have hw : isWordStart c = false := by
    have hu : (c == '_') = false := by simpa using key '_' (by decide)
    simp only [isSpace, Bool.or_eq_true, Bool.and_eq_true, decide_eq_true_eq, beq_iff_eq] at h
    simp only [isWordStart, hu, Bool.or_false, Bool.or_eq_false_iff, Bool.and_eq_false_imp,
      decide_eq_true_eq, decide_eq_false_iff_not]
    omega
  have hd : isDigit c = false := by
    simp only [isSpace, Bool.or_eq_true, Bool.and_eq_true, decide_eq_true_eq, beq_iff_eq] at h
    simp only [isDigit, Bool.and_eq_false_imp, decide_eq_true_eq, decide_eq_false_iff_not]
    omega
  exact ⟨hw, hd, by simp [isWordChar, hw, hd], key _ (by decide), key _ (by decide),
    key _ (by decide), key _ (by decide), key _ (by decide), key _ (by decide),
    key _ (by decide), key _ (by decide)⟩

theorem start_space {c : Char} (h : isSpace c = true) :
    start c = ([], .idle) ∨ start c = ([.bad], .idle) := by
  obtain ⟨h1, h2, -, h4, h5, -, h7, h8, h9, h10, h11⟩ := space_props h
  simp only [start, h1, h2, h4, h5, h7, h8, h9, h10, h11, Bool.false_eq_true, ↓reduceIte]
  by_cases hs : c = ' ' ∨ c = '\n'
  · exact .inl (by rw [if_pos hs])
  · exact .inr (by rw [if_neg hs])

/-- A character that is no space begins a token. -/
theorem start_solid {c : Char} (h : isSpace c = false) :
    (start c).1 ≠ [] ∨ (start c).2 ≠ .idle := by
  have hs : ¬ (c = ' ' ∨ c = '\n') := by
    rintro (rfl | rfl) <;> simp [isSpace] at h
  unfold start
  repeat' split
  all_goals simp_all

/-- The mode after reading a text. -/
def endMode (res : String → Bool) : Mode → List Char → Mode
  | m, [] => m
  | m, c :: cs => endMode res (step res m c).2 cs

/-- The mode is inside quotes. -/
def quoteOf : Mode → Quote
  | .quoted _ => .name
  | .str _ => .string
  | .hex _ => .string
  | _ => .outside

theorem pending_inside {m : Mode} (h : quoteOf m ≠ .outside) : pending res m = [.bad] := by
  cases m <;> first | rfl | exact absurd rfl h

theorem pending_semi (m : Mode) : Tok.semi ∉ pending res m := by
  cases m <;> simp [pending]
  rename_i acc
  unfold wordTok
  repeat' split
  all_goals simp

theorem lex_end (m : Mode) (cs : List Char) :
    ∃ K, lexFrom res m cs = K ++ pending res (endMode res m cs) := by
  induction cs generalizing m with
  | nil => exact ⟨[], rfl⟩
  | cons c cs ih =>
    obtain ⟨K, h⟩ := ih (step res m c).2
    exact ⟨(step res m c).1 ++ K, by rw [lex_cons, h, endMode, List.append_assoc]⟩

theorem quote_start (c : Char) : quoteOf (start c).2 =
    if c = '\'' then .string else if c = '"' then .name else .outside := by
  by_cases h1 : c = '\''
  · subst h1; rfl
  by_cases h2 : c = '"'
  · subst h2; rfl
  rw [if_neg h1, if_neg h2]
  unfold start
  repeat' split
  all_goals first | rfl | exact absurd (by assumption) h1 | exact absurd (by assumption) h2

theorem wordChar_noquote {c : Char} (h : isWordChar c = true) : c ≠ '\'' ∧ c ≠ '"' ∧ c ≠ ';' := by
  refine ⟨?_, ?_, ?_⟩ <;> rintro rfl <;> revert h <;> decide

theorem quote_step (m : Mode) (c : Char) : quoteOf (step res m c).2 =
    match quoteOf m with
    | .outside => if c = '\'' then .string else if c = '"' then .name else .outside
    | .string => if c = '\'' then .outside else .string
    | .name => if c = '"' then .outside else .name := by
  cases m with
  | idle => exact quote_start c
  | word acc =>
    simp only [step, quoteOf]
    by_cases h : isWordChar c = true
    · obtain ⟨h1, h2, -⟩ := wordChar_noquote h
      simp only [h, h1, h2, ↓reduceIte, quoteOf]
    · simp only [h, ↓reduceIte, Bool.false_eq_true]
      by_cases hx : c = '\'' ∧ (acc = ['x'] ∨ acc = ['X'])
      · rw [if_pos hx]
        simp only [hx.1, ↓reduceIte]
      · rw [if_neg hx]
        exact quote_start c
  | num acc =>
    simp only [step, quoteOf]
    by_cases h0 : isDigit c = true ∨ c = '.'
    · have h12 : c ≠ '\'' ∧ c ≠ '"' := by
        rcases h0 with h | rfl
        · have := wordChar_noquote (c := c) (by simp [isWordChar, h])
          exact ⟨this.1, this.2.1⟩
        · decide
      simp only [h0, h12.1, h12.2, ↓reduceIte, quoteOf]
    · simp only [h0, ↓reduceIte]
      by_cases h : isWordChar c = true
      · obtain ⟨h1, h2, -⟩ := wordChar_noquote h
        simp only [h, h1, h2, ↓reduceIte, quoteOf]
      · simp only [h, ↓reduceIte, Bool.false_eq_true]
        exact quote_start c
  | quoted acc =>
    simp only [step]
    by_cases h : c = '"' <;> simp [h, quoteOf]
  | str acc =>
    simp only [step]
    by_cases h : c = '\'' <;> simp [h, quoteOf]
  | strQ acc =>
    simp only [step]
    by_cases h : c = '\''
    · simp [h, quoteOf]
    · rw [if_neg h]
      exact quote_start c
  | hex acc =>
    simp only [step]
    by_cases h : c = '\'' <;> simp [h, quoteOf]

/-- Reading one character, for the position of semicolons. -/
theorem quoted_step (m : Mode) (c : Char) (cs : List Char) :
    semicolonQuoted (quoteOf m) (c :: cs) =
      ((decide (quoteOf m ≠ .outside) && c == ';') ||
        semicolonQuoted (quoteOf (step res m c).2) cs) := by
  rw [quote_step]
  by_cases h1 : c = '\''
  · subst h1
    cases quoteOf m <;> simp [semicolonQuoted]
  by_cases h2 : c = '"'
  · subst h2
    cases quoteOf m <;> simp [semicolonQuoted]
  cases quoteOf m <;> simp [semicolonQuoted, h1, h2]

/-! ### Pieces -/

theorem split_ne (t : Text) : splitSemicolons t ≠ [] := by
  cases t with
  | nil => simp [splitSemicolons]
  | cons c t =>
    simp only [splitSemicolons]
    repeat' split
    all_goals simp

theorem split_cons {c : Char} (h : c ≠ ';') (t : Text) :
    ∃ p ps, splitSemicolons t = p :: ps ∧ splitSemicolons (c :: t) = (c :: p) :: ps := by
  cases hs : splitSemicolons t with
  | nil => exact absurd hs (split_ne t)
  | cons p ps => exact ⟨p, ps, rfl, by simp only [splitSemicolons, h, ↓reduceIte, hs]⟩

theorem split_semi (t : Text) : splitSemicolons (';' :: t) = [] :: splitSemicolons t := by
  simp [splitSemicolons]

theorem split_free {t : Text} {p : Text} (h : p ∈ splitSemicolons t) : ';' ∉ p := by
  induction t generalizing p with
  | nil =>
    simp only [splitSemicolons, List.mem_singleton] at h
    simp [h]
  | cons c t ih =>
    by_cases hc : c = ';'
    · subst hc
      rw [split_semi] at h
      rcases List.mem_cons.1 h with rfl | h
      · simp
      · exact ih h
    · obtain ⟨q, qs, h1, h2⟩ := split_cons hc t
      rw [h2] at h
      rw [h1] at ih
      rcases List.mem_cons.1 h with rfl | h
      · simp only [List.mem_cons, not_or]
        exact ⟨Ne.symm hc, ih (List.mem_cons_self ..)⟩
      · exact ih (List.mem_cons_of_mem _ h)

theorem split_of_free {t : Text} (h : ';' ∉ t) : splitSemicolons t = [t] := by
  induction t with
  | nil => rfl
  | cons c t ih =>
    simp only [List.mem_cons, not_or] at h
    simp only [splitSemicolons, Ne.symm h.1, ↓reduceIte, ih h.2]

theorem quoted_of_free {t : Text} (h : ';' ∉ t) (m : Mode) :
    semicolonQuoted (quoteOf m) t = false := by
  induction t generalizing m with
  | nil => cases quoteOf m <;> rfl
  | cons c t ih =>
    simp only [List.mem_cons, not_or] at h
    have hc : (c == ';') = false := by simpa using Ne.symm h.1
    rw [quoted_step (res := fun _ => false), ih h.2, hc]
    simp

/-- The tokens of the pieces; the first begins in the given mode. -/
def lexPieces (res : String → Bool) (m : Mode) : List Text → List (List Tok)
  | [] => []
  | p :: ps => lexFrom res m p :: ps.map (lexFrom res .idle)

theorem splitSemi_single {K : List Tok} (h : Tok.semi ∉ K) : splitSemi K = [K] := by
  induction K with
  | nil => rfl
  | cons t K ih =>
    simp only [List.mem_cons, not_or] at h
    have := ih h.2
    cases t <;> first | exact absurd rfl h.1 | simp only [splitSemi, this]

theorem splitSemi_prefix {K R : List Tok} (h : Tok.semi ∉ K) :
    ∃ s ss, splitSemi R = s :: ss ∧ splitSemi (K ++ R) = (K ++ s) :: ss := by
  cases hr : splitSemi R with
  | nil => exact absurd hr (splitSemi_ne R)
  | cons s ss =>
    refine ⟨s, ss, rfl, ?_⟩
    induction K with
    | nil => exact hr
    | cons t K ih =>
      simp only [List.mem_cons, not_or] at h
      have := ih h.2
      rw [List.cons_append]
      cases t <;> first | exact absurd rfl h.1 | simp only [splitSemi, this, List.cons_append]

theorem start_semi {c : Char} (h : c ≠ ';') : Tok.semi ∉ (start c).1 := by
  unfold start
  repeat' split
  all_goals first | exact absurd (by assumption) h | simp

theorem step_semi {c : Char} (h : c ≠ ';') (m : Mode) : Tok.semi ∉ (step res m c).1 := by
  have hf : ∀ m, Tok.semi ∉ (flush res m c).1 := by
    intro m
    simp only [flush, List.mem_append, not_or]
    exact ⟨pending_semi m, start_semi h⟩
  cases m <;> simp only [step]
  · exact start_semi h
  all_goals (repeat' split)
  all_goals first | exact hf _ | simp

theorem step_at_semi {m : Mode} (h : quoteOf m = .outside) :
    step res m ';' = (pending res m ++ [.semi], .idle) := by
  cases m <;> first | rfl | cases h

/-- The statements of a script are the pieces between the semicolons. -/
theorem splitSemi_lex (m : Mode) {t : Text} (h : semicolonQuoted (quoteOf m) t = false) :
    splitSemi (lexFrom res m t) = lexPieces res m (splitSemicolons t) := by
  induction t generalizing m with
  | nil => exact splitSemi_single (pending_semi m)
  | cons c t ih =>
    rw [quoted_step (res := res), Bool.or_eq_false_iff] at h
    rw [lex_cons]
    by_cases hc : c = ';'
    · subst hc
      have ho : quoteOf m = .outside := by
        have := h.1
        simp at this
        exact this
      rw [split_semi, step_at_semi ho]
      have := ih .idle (by simpa only [step_at_semi ho] using h.2)
      rw [List.append_assoc, List.singleton_append, splitSemi_append (pending_semi m), this]
      cases hs : splitSemicolons t with
      | nil => exact absurd hs (split_ne t)
      | cons p ps => rfl
    · obtain ⟨p, ps, h1, h2⟩ := split_cons hc t
      have := ih _ h.2
      rw [h1] at this
      obtain ⟨s, ss, g1, g2⟩ := splitSemi_prefix (R := lexFrom res (step res m c).2 t)
        (step_semi (res := res) hc m)
      rw [g2, h2]
      rw [this] at g1
      simp only [lexPieces, List.cons.injEq] at g1 ⊢
      rw [← g1.1, ← g1.2]
      exact ⟨rfl, rfl⟩

/-- A semicolon between quotes cuts the quoted text: one of the pieces ends inside it. -/
theorem split_open (m : Mode) {t : Text} (h : semicolonQuoted (quoteOf m) t = true) :
    ∃ p ps, splitSemicolons t = p :: ps ∧ (quoteOf (endMode res m p) ≠ .outside ∨
      ∃ q ∈ ps, quoteOf (endMode res .idle q) ≠ .outside) := by
  induction t generalizing m with
  | nil => cases hq : quoteOf m <;> rw [hq] at h <;> cases h
  | cons c t ih =>
    by_cases hc : c = ';'
    · subst hc
      refine ⟨[], _, split_semi t, ?_⟩
      by_cases ho : quoteOf m = .outside
      · right
        rw [quoted_step (res := res), ho, step_at_semi ho] at h
        obtain ⟨p, ps, h1, h2⟩ := ih .idle (by simpa using h)
        rw [h1]
        rcases h2 with h2 | ⟨q, hq, h2⟩
        · exact ⟨p, List.mem_cons_self .., h2⟩
        · exact ⟨q, List.mem_cons_of_mem _ hq, h2⟩
      · exact .inl ho
    · obtain ⟨p, ps, h1, h2⟩ := split_cons hc t
      have hc' : (c == ';') = false := by simpa using hc
      rw [quoted_step (res := res), hc', Bool.and_false, Bool.false_or] at h
      obtain ⟨q, qs, g1, g2⟩ := ih _ h
      rw [h1] at g1
      cases g1
      exact ⟨_, _, h2, g2⟩

/-! ### Spaces around a statement -/

theorem lex_space {c : Char} (h : isSpace c = true) {t : Text}
    (hb : Tok.bad ∉ lexFrom res .idle (c :: t)) :
    lexFrom res .idle (c :: t) = lexFrom res .idle t := by
  rw [lex_cons] at hb ⊢
  simp only [step] at hb ⊢
  rcases start_space h with e | e
  · rw [e]; rfl
  · rw [e] at hb
    simp at hb

theorem lex_space_end {c : Char} (h : isSpace c = true) (m : Mode) {t : Text}
    (hb : Tok.bad ∉ lexFrom res m (t ++ [c])) :
    lexFrom res m (t ++ [c]) = lexFrom res m t := by
  induction t generalizing m with
  | nil =>
    obtain ⟨h1, h2, h3, h4, h5, h6, -⟩ := space_props h
    have hflush : ∀ m, Tok.bad ∉ (flush res m c).1 ++ pending res (flush res m c).2 →
        (flush res m c).1 ++ pending res (flush res m c).2 = pending res m := by
      intro m hb
      simp only [flush] at hb ⊢
      rcases start_space h with e | e
      · rw [e]; simp [pending]
      · rw [e] at hb
        simp at hb
    rw [List.nil_append, lex_cons] at hb ⊢
    cases m with
    | idle => exact hflush .idle hb
    | word acc =>
      simp only [step, h3, h4, false_and, ↓reduceIte, Bool.false_eq_true] at hb ⊢
      exact hflush (.word acc) hb
    | num acc =>
      simp only [step, h2, h3, h6, or_self, ↓reduceIte, Bool.false_eq_true] at hb ⊢
      exact hflush (.num acc) hb
    | strQ acc =>
      simp only [step, h4, ↓reduceIte] at hb ⊢
      exact hflush (.strQ acc) hb
    | quoted acc => simp [step, h5, lexFrom, pending]
    | str acc => simp [step, h4, lexFrom, pending]
    | hex acc => simp [step, h4, lexFrom, pending]
  | cons d t ih =>
    rw [List.cons_append, lex_cons] at hb ⊢
    rw [ih _ fun hh => hb (List.mem_append_right _ hh)]
    rfl

theorem lex_trimEnd (u : Text) (hb : Tok.bad ∉ lexFrom res .idle u.reverse) :
    lexFrom res .idle (u.dropWhile isSpace).reverse = lexFrom res .idle u.reverse := by
  induction u with
  | nil => rfl
  | cons c u ih =>
    by_cases h : isSpace c = true
    · rw [List.dropWhile_cons_of_pos h]
      rw [List.reverse_cons] at hb ⊢
      have := lex_space_end h .idle hb
      rw [this] at hb ⊢
      exact ih hb
    · rw [List.dropWhile_cons_of_neg h]

/-- Spaces around a readable statement do not change how it is read. -/
theorem lex_trim {t : Text} (hb : Tok.bad ∉ lex res t) : lex res (trim t) = lex res t := by
  unfold lex at hb ⊢
  have h1 : lexFrom res .idle (t.dropWhile isSpace) = lexFrom res .idle t := by
    induction t with
    | nil => rfl
    | cons c t ih =>
      by_cases h : isSpace c = true
      · rw [List.dropWhile_cons_of_pos h]
        have := lex_space h hb
        rw [this] at hb ⊢
        exact ih hb
      · rw [List.dropWhile_cons_of_neg h]
  unfold trim
  rw [lex_trimEnd _ (by rw [List.reverse_reverse, h1]; exact hb), List.reverse_reverse, h1]

theorem trim_head {t : Text} {c : Char} {r : Text} (h : trim t = c :: r) : isSpace c = false := by
  have hp : trim t <+: t.dropWhile isSpace := by
    unfold trim
    have := List.dropWhile_suffix isSpace (l := (t.dropWhile isSpace).reverse)
    rw [← List.reverse_prefix, List.reverse_reverse] at this
    exact this
  rw [h] at hp
  obtain ⟨x, hx⟩ := hp
  have := List.head?_dropWhile_not isSpace t
  rw [← hx] at this
  simpa using this

theorem lex_busy {m : Mode} (h : m ≠ .idle) (t : Text) : lexFrom res m t ≠ [] := by
  induction t generalizing m with
  | nil =>
    rw [lexFrom]
    cases m <;> first | exact absurd rfl h | simp [pending]
  | cons c t ih =>
    rw [lex_cons]
    intro hh
    obtain ⟨h1, h2⟩ := List.append_eq_nil_iff.1 hh
    refine ih (m := (step res m c).2) ?_ h2
    have hf : ∀ m : Mode, m ≠ .idle → (flush res m c).1 ≠ [] := by
      intro m hm e
      simp only [flush] at e
      obtain ⟨e, -⟩ := List.append_eq_nil_iff.1 e
      cases m <;> first | exact absurd rfl hm | simp [pending] at e
    cases m <;> simp only [step] at h1 ⊢
    · exact absurd rfl h
    all_goals (repeat' split)
    all_goals simp_all

/-- A readable piece is empty as a text if it is empty as a statement. -/
theorem trim_empty {t : Text} (hb : Tok.bad ∉ lex res t) : trim t = [] ↔ lex res t = [] := by
  rw [← lex_trim hb]
  constructor
  · intro h
    rw [h]
    rfl
  · intro h
    cases ht : trim t with
    | nil => rfl
    | cons c r =>
      rw [ht] at h
      unfold lex at h
      rw [lex_cons] at h
      simp only [step] at h
      obtain ⟨h1, h2⟩ := List.append_eq_nil_iff.1 h
      rcases start_solid (trim_head ht) with e | e
      · exact absurd h1 e
      · exact absurd h2 (lex_busy e r)

/-! ### Sending the statements -/

theorem mem_splitSemi {L K : List Tok} {x : Tok} (h : K ∈ splitSemi L) (hx : x ∈ K) : x ∈ L := by
  induction L generalizing K with
  | nil =>
    simp only [splitSemi, List.mem_singleton] at h
    rw [h] at hx
    exact hx
  | cons t L ih =>
    by_cases ht : t = .semi
    · subst ht
      simp only [splitSemi] at h
      rcases List.mem_cons.1 h with rfl | h
      · cases hx
      · exact List.mem_cons_of_mem _ (ih h hx)
    · obtain ⟨s, ss, g1, g2⟩ := splitSemi_prefix (K := [t]) (R := L) (by simpa using Ne.symm ht)
      rw [List.singleton_append] at g2
      rw [g2] at h
      rw [g1] at ih
      rcases List.mem_cons.1 h with rfl | h
      · rcases List.mem_append.1 hx with hx | hx
        · exact List.mem_cons.2 (.inl (by simpa using hx))
        · exact List.mem_cons_of_mem _ (ih (List.mem_cons_self ..) hx)
      · exact List.mem_cons_of_mem _ (ih (List.mem_cons_of_mem _ h) hx)

theorem parse_piece {t : Text} (h : ';' ∉ t) : Ddl.parse true res t = parseAll true [lex res t] := by
  unfold Ddl.parse lex
  rw [splitSemi_lex .idle (quoted_of_free h .idle), split_of_free h]
  rfl

theorem mem_trim {t : Text} {c : Char} (h : c ∈ trim t) : c ∈ t := by
  unfold trim at h
  rw [List.mem_reverse] at h
  have := (List.dropWhile_suffix _).subset h
  rw [List.mem_reverse] at this
  exact (List.dropWhile_suffix _).subset this

theorem sendAll_pieces (e : TursoEnv) {ps : List Text} (h : ∀ p ∈ ps, Tok.bad ∉ lex res p ∧ ';' ∉ p)
    (db : SDb) :
    tursoSendAll e res db ((ps.map trim).filter fun s => !s.isEmpty) =
      (parseAll true (ps.map (lex res))).bind (tursoAll e db) := by
  induction ps generalizing db with
  | nil => rfl
  | cons p ps ih =>
    obtain ⟨h1, h2⟩ := h p (List.mem_cons_self ..)
    have ih := ih fun q hq => h q (List.mem_cons_of_mem _ hq)
    have hparse : Ddl.parse true res (trim p) = parseAll true [lex res p] := by
      rw [parse_piece (fun hh => h2 (mem_trim hh)), lex_trim h1]
    simp only [List.map_cons]
    cases hl : lex res p with
    | nil =>
      have : trim p = [] := (trim_empty h1).2 hl
      rw [List.filter_cons_of_neg (by simp [this])]
      rw [ih]
      rfl
    | cons k K =>
      have : trim p ≠ [] := fun e => by
        rw [(trim_empty h1).1 e] at hl
        cases hl
      rw [List.filter_cons_of_pos (by cases ht : trim p <;> simp_all)]
      simp only [tursoSendAll, tursoSend, hparse, hl, parseAll]
      cases hs : parseStmt true (k :: K) with
      | none => rfl
      | some s =>
        simp only
        cases hx : tursoExec e db s with
        | none =>
          cases parseAll true (ps.map (lex res)) with
          | none => rfl
          | some ss => simp [tursoAll, hx]
        | some db' =>
          simp only [ih]
          cases parseAll true (ps.map (lex res)) with
          | none => rfl
          | some ss => simp [tursoAll, hx]

/-- A script that can be read and has no quoted semicolon. -/
theorem send_script (e : TursoEnv) {text : Text} (hb : Tok.bad ∉ lex res text)
    (hq : semicolonQuoted .outside text = false) (db : SDb) :
    tursoSendAll e res db (statements text) =
      (Ddl.parse true res text).bind (tursoAll e db) := by
  have hs : splitSemi (lex res text) = (splitSemicolons text).map (lex res) := by
    have := splitSemi_lex (res := res) .idle hq
    cases hs : splitSemicolons text with
    | nil => exact absurd hs (split_ne text)
    | cons p ps => rw [hs] at this; exact this
  unfold statements Ddl.parse
  rw [hs]
  refine sendAll_pieces e (fun p hp => ⟨fun hh => hb ?_, split_free hp⟩) db
  refine mem_splitSemi (K := lex res p) ?_ hh
  rw [hs]
  exact List.mem_map_of_mem hp

theorem sendAll_none (e : TursoEnv) {ts : List Text} {t : Text} (ht : t ∈ ts)
    (h : ∀ db, tursoSend e res db t = none) (db : SDb) : tursoSendAll e res db ts = none := by
  induction ts generalizing db with
  | nil => cases ht
  | cons u ts ih =>
    simp only [tursoSendAll]
    rcases List.mem_cons.1 ht with rfl | ht
    · rw [h]
    · cases tursoSend e res db u with
      | none => rfl
      | some db' => exact ih ht db'

theorem endMode_append (m : Mode) (t u : Text) :
    endMode res m (t ++ u) = endMode res (endMode res m t) u := by
  induction t generalizing m with
  | nil => rfl
  | cons c t ih => exact ih _

theorem quote_space {c : Char} (h : isSpace c = true) (m : Mode) :
    quoteOf (step res m c).2 = quoteOf m := by
  obtain ⟨-, -, -, h4, h5, -⟩ := space_props h
  rw [quote_step]
  cases quoteOf m <;> simp [h4, h5]

theorem endMode_trimEnd (m : Mode) (u : Text) :
    quoteOf (endMode res m (u.dropWhile isSpace).reverse) = quoteOf (endMode res m u.reverse) := by
  induction u with
  | nil => rfl
  | cons c u ih =>
    by_cases h : isSpace c = true
    · rw [List.dropWhile_cons_of_pos h, List.reverse_cons, endMode_append, ih]
      exact (quote_space h _).symm
    · rw [List.dropWhile_cons_of_neg h]

theorem endMode_trim (t : Text) :
    quoteOf (endMode res .idle (trim t)) = quoteOf (endMode res .idle t) := by
  unfold trim
  rw [endMode_trimEnd, List.reverse_reverse]
  induction t with
  | nil => rfl
  | cons c t ih =>
    by_cases h : isSpace c = true
    · rw [List.dropWhile_cons_of_pos h, ih]
      have : (step res .idle c).2 = .idle := by
        rcases start_space h with e | e <;> simp only [step, e]
      simp only [endMode, this]
    · rw [List.dropWhile_cons_of_neg h]

/-- A script with a quoted semicolon fails. -/
theorem send_quoted (e : TursoEnv) {text : Text} (hq : semicolonQuoted .outside text = true)
    (db : SDb) : tursoSendAll e res db (statements text) = none := by
  obtain ⟨p, ps, h1, h2⟩ := split_open (res := res) .idle hq
  obtain ⟨q, hq, ho⟩ : ∃ q ∈ splitSemicolons text, quoteOf (endMode res .idle q) ≠ .outside := by
    rw [h1]
    rcases h2 with h2 | ⟨q, hq, h2⟩
    · exact ⟨p, List.mem_cons_self .., h2⟩
    · exact ⟨q, List.mem_cons_of_mem _ hq, h2⟩
  have ho' : quoteOf (endMode res .idle (trim q)) ≠ .outside := by rwa [endMode_trim]
  have hbad : Tok.bad ∈ lex res (trim q) := by
    obtain ⟨K, hK⟩ := lex_end (res := res) .idle (trim q)
    unfold lex
    rw [hK, pending_inside ho']
    simp
  refine sendAll_none e (t := trim q) ?_ ?_ db
  · unfold statements
    refine List.mem_filter.2 ⟨List.mem_map_of_mem hq, ?_⟩
    cases ht : trim q with
    | nil => rw [ht] at ho'; exact absurd rfl ho'
    | cons => rfl
  · intro db
    unfold tursoSend
    rw [parse_piece (fun hh => split_free hq (mem_trim hh))]
    cases hl : lex res (trim q) with
    | nil => rw [hl] at hbad; cases hbad
    | cons k K =>
      have : parseStmt true (k :: K) = none := by
        cases hs : parseStmt true (k :: K) with
        | none => rfl
        | some s => exact absurd (hl ▸ hbad) (parseStmt_bad hs)
      simp only [parseAll, this]

theorem parseAll_bad {Ks : List (List Tok)} {ss : List DStmt} (h : parseAll true Ks = some ss) :
    ∀ K ∈ Ks, Tok.bad ∉ K := by
  induction Ks generalizing ss with
  | nil => simp
  | cons K Ks ih =>
    intro K' hK'
    cases K with
    | nil =>
      rcases List.mem_cons.1 hK' with rfl | hK'
      · simp
      · exact ih h K' hK'
    | cons k K =>
      simp only [parseAll] at h
      cases hs : parseStmt true (k :: K) with
      | none => simp [hs] at h
      | some s =>
        cases hr : parseAll true Ks with
        | none => simp [hs, hr] at h
        | some xs =>
          rcases List.mem_cons.1 hK' with rfl | hK'
          · exact parseStmt_bad hs
          · exact ih hr K' hK'

theorem splitSemi_mem {L : List Tok} {x : Tok} (hx : x ∈ L) (hs : x ≠ .semi) :
    ∃ K ∈ splitSemi L, x ∈ K := by
  induction L with
  | nil => cases hx
  | cons t L ih =>
    by_cases ht : t = .semi
    · subst ht
      rcases List.mem_cons.1 hx with rfl | hx
      · exact absurd rfl hs
      · obtain ⟨K, h1, h2⟩ := ih hx
        exact ⟨K, by simp only [splitSemi]; exact List.mem_cons_of_mem _ h1, h2⟩
    · obtain ⟨s, ss, g1, g2⟩ := splitSemi_prefix (K := [t]) (R := L) (by simpa using Ne.symm ht)
      rw [List.singleton_append] at g2
      rw [g2]
      rcases List.mem_cons.1 hx with rfl | hx
      · exact ⟨_, List.mem_cons_self .., by simp⟩
      · obtain ⟨K, h1, h2⟩ := ih hx
        rw [g1] at h1
        rcases List.mem_cons.1 h1 with rfl | h1
        · exact ⟨_, List.mem_cons_self .., List.mem_append_right _ h2⟩
        · exact ⟨K, List.mem_cons_of_mem _ h1, h2⟩

/-- A script that is read has no unreadable part. -/
theorem parse_readable {text : Text} {ss : List DStmt} (h : Ddl.parse true res text = some ss) :
    Tok.bad ∉ lex res text := by
  intro hb
  obtain ⟨K, h1, h2⟩ := splitSemi_mem hb (by simp)
  exact parseAll_bad h K h1 h2

theorem execute_eq (e : TursoEnv) (res : String → Bool) (db : SDb) (text : Text) :
    TursoDdl.execute (tursoSend e res) db text = tursoSendAll e res db (TursoDdl.statements text) := by
  unfold TursoDdl.execute
  generalize TursoDdl.statements text = ts
  induction ts generalizing db with
  | nil => rfl
  | cons t ts ih =>
    simp only [TursoDdl.sendEach, tursoSendAll]
    cases tursoSend e res db t with
    | none => rfl
    | some d => exact ih d

end Butane.DdlP
