/-
The generated text of a condition reads back as the expected tokens.
-/
import Verif.Model.SqlGen
import Verif.Spec.Filter

namespace Butane
open Sql Spec


/-! ### Tokens of words and numbers -/

/-- The rest of the text does not continue a word or a number. -/
def Delim : List Char → Prop
  | [] => True
  | c :: _ => isWordChar c = false

theorem isDigit_wordChar {c : Char} (h : isDigit c = true) : isWordChar c = true := by
  simp [isWordChar, h]

theorem lexFrom_append_step (res) (s : LState) (c : Char) (cs : List Char) :
    lexFrom res s (c :: cs) = (step res s c).1 ++ lexFrom res (step res s c).2 cs := rfl

theorem flush_rest (res) (mo : Mode) (m : Nat) (c : Char) (cs : List Char) :
    (flush res ⟨mo, m⟩ c).1 ++ lexFrom res (flush res ⟨mo, m⟩ c).2 cs =
      pending res mo ++ lexFrom res ⟨.idle, m⟩ (c :: cs) := by
  simp [flush, lexFrom, step, List.append_assoc]

theorem lex_word_end (res) (acc) (m : Nat) (r : List Char) (h : Delim r) :
    lexFrom res ⟨.word acc, m⟩ r = wordTok res acc.reverse :: lexFrom res ⟨.idle, m⟩ r := by
  cases r with
  | nil => rfl
  | cons c cs =>
    have hc : isWordChar c = false := h
    rw [lexFrom_append_step]
    simp only [step, hc]
    simpa [pending] using flush_rest res (.word acc) m c cs

theorem lex_num_end (res) (neg) (n m : Nat) (r : List Char) (h : Delim r) :
    lexFrom res ⟨.num neg n, m⟩ r =
      .int (if neg then -(n : Int) else n) :: lexFrom res ⟨.idle, m⟩ r := by
  cases r with
  | nil => rfl
  | cons c cs =>
    have hc : isWordChar c = false := h
    have hd : isDigit c = false := by
      cases hd : isDigit c with
      | false => rfl
      | true => rw [isDigit_wordChar hd] at hc; cases hc
    rw [lexFrom_append_step]
    simp only [step, hc, hd]
    simpa [pending] using flush_rest res (.num neg n) m c cs

theorem lex_dollar_end (res) (n m : Nat) (hn : n ≠ 0) (r : List Char) (h : Delim r) :
    lexFrom res ⟨.dollarNum n, m⟩ r = .param (n - 1) :: lexFrom res ⟨.idle, m⟩ r := by
  cases r with
  | nil => simp [lexFrom, pending, hn]
  | cons c cs =>
    have hc : isWordChar c = false := h
    have hd : isDigit c = false := by
      cases hd : isDigit c with
      | false => rfl
      | true => rw [isDigit_wordChar hd] at hc; cases hc
    rw [lexFrom_append_step]
    simp only [step, hc, hd]
    simpa [pending, hn] using flush_rest res (.dollarNum n) m c cs

theorem lex_word_cont (res) (acc) (m : Nat) (cs r : List Char) (h : cs.all isWordChar = true) :
    lexFrom res ⟨.word acc, m⟩ (cs ++ r) = lexFrom res ⟨.word (cs.reverse ++ acc), m⟩ r := by
  induction cs generalizing acc with
  | nil => rfl
  | cons c cs ih =>
    rw [List.all_cons, Bool.and_eq_true] at h
    rw [List.cons_append, lexFrom_append_step]
    simp only [step, h.1, if_true, List.nil_append]
    rw [ih _ h.2]
    simp

theorem wordStart_not_digit {c : Char} (h : isWordStart c = true) : isDigit c = false := by
  cases hd : isDigit c with
  | false => rfl
  | true =>
    simp only [isDigit, Bool.and_eq_true, decide_eq_true_eq] at hd
    simp only [isWordStart, Bool.or_eq_true, Bool.and_eq_true, decide_eq_true_eq, beq_iff_eq] at h
    rcases h with (h | h) | h
    · omega
    · omega
    · subst h
      exact absurd hd (by decide)

theorem lex_name (res) (s : String) (hs : IsName s) (m : Nat) (r : List Char) (h : Delim r) :
    lexFrom res ⟨.idle, m⟩ (s.toList ++ r) =
      wordTok res s.toList :: lexFrom res ⟨.idle, m⟩ r := by
  obtain ⟨c, cs, he, hc, hcs⟩ := hs
  rw [he, List.cons_append, lexFrom_append_step]
  have hd := wordStart_not_digit hc
  simp only [step, start, hd, hc, if_true, List.nil_append, Bool.false_eq_true, if_false]
  rw [lex_word_cont _ _ _ _ _ hcs, lex_word_end _ _ _ _ h]
  simp

theorem wordTok_plain {kw res : String → Bool} (hk : CoversReserved kw res) {s : String}
    (h : kw s = false) : wordTok res s.toList = .ident s := by
  unfold wordTok
  have h1 : upper s.toList ∉ grammarWords := by
    intro hu; rw [hk s (.inl hu)] at h; cases h
  have h2 : res (String.ofList s.toList) = false := by
    rw [String.ofList_toList]
    cases hr : res s with
    | false => rfl
    | true => rw [hk s (.inr hr)] at h; cases h
  rw [if_neg h1, h2]
  simp

theorem lex_plain {res : String → Bool} {s : String}
    (hs : PlainName res s) (m : Nat) (r : List Char) (h : Delim r) :
    lexFrom res ⟨.idle, m⟩ (s.toList ++ r) = .ident s :: lexFrom res ⟨.idle, m⟩ r := by
  rw [lex_name res s hs.1 m r h]
  unfold wordTok
  rw [if_neg hs.2.1, String.ofList_toList, hs.2.2]
  simp

theorem plain_of_kw {kw res : String → Bool} (hk : CoversReserved kw res) {s : String}
    (hs : IsName s) (h : kw s = false) : PlainName res s := by
  refine ⟨hs, fun hu => ?_, ?_⟩
  · rw [hk s (.inl hu)] at h
    cases h
  · cases hr : res s with
    | false => rfl
    | true => rw [hk s (.inr hr)] at h; cases h

theorem name_no_quote {s : String} (hs : IsName s) : ∀ c ∈ s.toList, c ≠ '"' := by
  obtain ⟨c, cs, he, hc, hcs⟩ := hs
  rw [he]
  intro x hx hq
  subst hq
  rcases List.mem_cons.1 hx with h | h
  · subst h; revert hc; decide
  · exact absurd (List.all_eq_true.1 hcs _ h) (by decide)

theorem lex_quoted_cont (res) (acc) (m : Nat) (cs r : List Char) (h : ∀ c ∈ cs, c ≠ '"') :
    lexFrom res ⟨.quoted acc, m⟩ (cs ++ '"' :: r) =
      .ident (String.ofList (acc.reverse ++ cs)) :: lexFrom res ⟨.idle, m⟩ r := by
  induction cs generalizing acc with
  | nil =>
    rw [List.nil_append, lexFrom_append_step]
    simp [step]
  | cons c cs ih =>
    rw [List.cons_append, lexFrom_append_step]
    have hc : c ≠ '"' := h c (List.mem_cons_self ..)
    simp only [step, hc, if_false, List.nil_append]
    rw [ih _ (fun x hx => h x (List.mem_cons_of_mem _ hx))]
    simp

theorem lex_quoteWord {d : Dialect} {res : String → Bool} (hk : CoversReserved d.keyword res)
    {s : String} (hs : IsName s) (m : Nat) (r : List Char) (h : Delim r) :
    lexFrom res ⟨.idle, m⟩ (quoteWord d s ++ r) = .ident s :: lexFrom res ⟨.idle, m⟩ r := by
  unfold quoteWord
  cases hkw : d.keyword s with
  | false => simpa using lex_plain (plain_of_kw hk hs hkw) m r h
  | true =>
    simp only [if_true, List.cons_append, List.append_assoc, List.nil_append]
    rw [lexFrom_append_step]
    have : step res ⟨.idle, m⟩ '"' = ([], ⟨.quoted [], m⟩) := rfl
    rw [this]
    simp only [List.nil_append]
    rw [lex_quoted_cont _ _ _ _ _ (name_no_quote hs)]
    simp

/-! ### Numbers -/

def numVal (a : Nat) (cs : List Char) : Nat := cs.foldl (fun a c => 10 * a + digitVal c) a

theorem digitChar_toNat {d : Nat} (h : d < 10) : (digitChar d).toNat = 48 + d := by
  unfold digitChar
  have : d = 0 ∨ d = 1 ∨ d = 2 ∨ d = 3 ∨ d = 4 ∨ d = 5 ∨ d = 6 ∨ d = 7 ∨ d = 8 ∨ d = 9 := by omega
  rcases this with h | h | h | h | h | h | h | h | h | h <;> subst h <;> rfl

theorem isDigit_digitChar {d : Nat} (h : d < 10) : isDigit (digitChar d) = true := by
  simp only [isDigit, digitChar_toNat h, Bool.and_eq_true, decide_eq_true_eq]
  omega

theorem digitVal_digitChar {d : Nat} (h : d < 10) : digitVal (digitChar d) = d := by
  simp only [digitVal, digitChar_toNat h]
  omega

theorem natDigits_fuel (n : Nat) : ∀ f g, n ≤ f → n ≤ g → natDigits f n = natDigits g n := by
  induction n using Nat.strongRecOn with
  | ind n ih =>
    intro f g hf hg
    by_cases h : n < 10
    · have key : ∀ f, natDigits f n = [digitChar n] := by
        intro f
        cases f with
        | zero => simp [natDigits, Nat.mod_eq_of_lt h]
        | succ f => simp [natDigits, h]
      rw [key, key]
    · obtain ⟨f, rfl⟩ : ∃ k, f = k + 1 := ⟨f - 1, by omega⟩
      obtain ⟨g, rfl⟩ : ∃ k, g = k + 1 := ⟨g - 1, by omega⟩
      simp only [natDigits, if_neg h]
      rw [ih (n / 10) (by omega) f g (by omega) (by omega)]

theorem natText_eq (n : Nat) : natText n =
    if n < 10 then [digitChar n] else natText (n / 10) ++ [digitChar (n % 10)] := by
  unfold natText
  by_cases h : n < 10
  · cases n with
    | zero => rfl
    | succ n => simp [natDigits, h]
  · obtain ⟨f, rfl⟩ : ∃ k, n = k + 1 := ⟨n - 1, by omega⟩
    simp only [natDigits, if_neg h]
    rw [natDigits_fuel ((f + 1) / 10) f ((f + 1) / 10) (by omega) (by omega)]

theorem natText_spec (n : Nat) :
    ∃ c cs, natText n = c :: cs ∧ isDigit c = true ∧ cs.all isDigit = true ∧
      numVal 0 (natText n) = n := by
  induction n using Nat.strongRecOn with
  | ind n ih =>
    rw [natText_eq]
    by_cases h : n < 10
    · rw [if_pos h]
      exact ⟨_, _, rfl, isDigit_digitChar h, rfl, by simp [numVal, digitVal_digitChar h]⟩
    · rw [if_neg h]
      obtain ⟨c, cs, he, hc, hcs, hv⟩ := ih (n / 10) (by omega)
      have hm : n % 10 < 10 := Nat.mod_lt _ (by decide)
      refine ⟨c, cs ++ [digitChar (n % 10)], by rw [he]; rfl, hc, ?_, ?_⟩
      · simp [hcs, isDigit_digitChar hm]
      · have : numVal 0 (natText (n / 10) ++ [digitChar (n % 10)]) =
            10 * numVal 0 (natText (n / 10)) + digitVal (digitChar (n % 10)) := by
          simp [numVal, List.foldl_append]
        rw [this, hv, digitVal_digitChar hm]
        omega

theorem lex_num_cont (res) (neg) (a m : Nat) (cs r : List Char) (h : cs.all isDigit = true) :
    lexFrom res ⟨.num neg a, m⟩ (cs ++ r) = lexFrom res ⟨.num neg (numVal a cs), m⟩ r := by
  induction cs generalizing a with
  | nil => rfl
  | cons c cs ih =>
    rw [List.all_cons, Bool.and_eq_true] at h
    rw [List.cons_append, lexFrom_append_step]
    simp only [step, h.1, if_true, List.nil_append]
    rw [ih _ h.2]
    rfl

theorem lex_dollar_cont (res) (a m : Nat) (cs r : List Char) (h : cs.all isDigit = true) :
    lexFrom res ⟨.dollarNum a, m⟩ (cs ++ r) = lexFrom res ⟨.dollarNum (numVal a cs), m⟩ r := by
  induction cs generalizing a with
  | nil => rfl
  | cons c cs ih =>
    rw [List.all_cons, Bool.and_eq_true] at h
    rw [List.cons_append, lexFrom_append_step]
    simp only [step, h.1, if_true, List.nil_append]
    rw [ih _ h.2]
    rfl

theorem lex_int (res) (i : Int) (m : Nat) (r : List Char) (h : Delim r) :
    lexFrom res ⟨.idle, m⟩ (intText i ++ r) = .int i :: lexFrom res ⟨.idle, m⟩ r := by
  cases i with
  | ofNat n =>
    obtain ⟨c, cs, he, hc, hcs, hv⟩ := natText_spec n
    have hv' : numVal (digitVal c) cs = n := by
      rw [he] at hv
      simpa [numVal] using hv
    simp only [intText, he, List.cons_append]
    rw [lexFrom_append_step]
    simp only [step, start, hc, if_true, List.nil_append]
    rw [lex_num_cont _ _ _ _ _ _ hcs, lex_num_end _ _ _ _ _ h, hv']
    rfl
  | negSucc n =>
    obtain ⟨c, cs, he, hc, hcs, hv⟩ := natText_spec (n + 1)
    have hv' : numVal (digitVal c) cs = n + 1 := by
      rw [he] at hv
      simpa [numVal] using hv
    simp only [intText, he, List.cons_append]
    rw [lexFrom_append_step]
    have hs : step res ⟨.idle, m⟩ '-' = ([], ⟨.minus, m⟩) := rfl
    rw [hs, lexFrom_append_step]
    simp only [step, hc, if_true, List.nil_append]
    rw [lex_num_cont _ _ _ _ _ _ hcs, lex_num_end _ _ _ _ _ h, hv']
    rfl

/-- `$1`, `$2`, ... -/
theorem lex_dollar (res) (n : Nat) (m : Nat) (r : List Char) (h : Delim r) :
    lexFrom res ⟨.idle, m⟩ ('$' :: natText (n + 1) ++ r) = .param n :: lexFrom res ⟨.idle, m⟩ r := by
  obtain ⟨c, cs, he, hc, hcs, hv⟩ := natText_spec (n + 1)
  have hv' : numVal (digitVal c) cs = n + 1 := by
    rw [he] at hv
    simpa [numVal] using hv
  simp only [he, List.cons_append]
  rw [lexFrom_append_step]
  have hs : step res ⟨.idle, m⟩ '$' = ([], ⟨.dollar, m⟩) := rfl
  rw [hs, lexFrom_append_step]
  simp only [step, hc, if_true, List.nil_append]
  rw [lex_dollar_cont _ _ _ _ _ hcs, hv', lex_dollar_end _ _ _ (by omega) _ h]
  rfl

/-! ### Placeholders -/

/-- The placeholders of a dialect read back as consecutive parameters, up to `bound`.
`cnt n` is how many `?` the tokenizer has seen after `n` placeholders. -/
def PhReads (d : Dialect) (res : String → Bool) (cnt : Nat → Nat) (bound : Nat) : Prop :=
  ∀ k, k < bound → ∀ r, Delim r →
    lexFrom res ⟨.idle, cnt k⟩ (d.ph k ++ r) = .param k :: lexFrom res ⟨.idle, cnt (k + 1)⟩ r

theorem phReads_sqlite (kw res) (bound : Nat) :
    PhReads (sqliteDialect kw) res (fun n => n) bound := by
  intro k _ r _
  rfl

theorem pgCounter_toInt {k : Nat} (h : k < 127) : (pgCounter k).toInt = (k : Int) + 1 := by
  unfold pgCounter
  rw [Int8.toInt_ofNat_of_lt (by omega)]
  omega

theorem phReads_pg (kw res) : PhReads (pgDialect kw) res (fun _ => 0) 127 := by
  intro k hk r hr
  have : pgPlaceholder k = '$' :: natText (k + 1) := by
    unfold pgPlaceholder
    rw [pgCounter_toInt hk]
    rfl
  show lexFrom res _ (pgPlaceholder k ++ r) = _
  rw [this]
  exact lex_dollar res k 0 r hr

/-! ### Tokens of an expression -/

/-- Number of placeholders of a value. -/
def cntVal : SqlVal → Nat
  | .int _ => 0
  | .bigInt _ => 0
  | _ => 1

def cntVals : List SqlVal → Nat
  | [] => 0
  | v :: vs => cntVal v + cntVals vs

def toksVal (v : SqlVal) (n : Nat) : List Tok :=
  match v with
  | .int i => [.int i.toInt]
  | .bigInt i => [.int i.toInt]
  | _ => [.param n]

def toksVals : List SqlVal → Nat → List Tok
  | [], _ => []
  | [v], n => toksVal v n
  | v :: w :: rest, n => toksVal v n ++ .comma :: toksVals (w :: rest) (n + cntVal v)

def toksCol (c : QColumn) : List Tok :=
  match c.table with
  | some t => [.ident t, .dot, .ident c.name]
  | none => [.ident c.name]

def toksJoins : List Join → List Tok
  | [] => []
  | j :: js =>
    [.kw "INNER", .kw "JOIN", .ident j.joinTable, .kw "ON"] ++ toksCol j.col1 ++ .op .eq ::
      (toksCol j.col2 ++ toksJoins js)

def opTok : CmpOp → Tok
  | .like => .kw "LIKE"
  | o => .op o

mutual
def cntBool : BoolExpr → Nat
  | .true_ => 0
  | .cmp op _ e => if isNullTest op e then 0 else cntExpr e
  | .allOf cs => cntAll cs
  | .and a b => cntBool a + cntBool b
  | .or a b => cntBool a + cntBool b
  | .not a => cntBool a
  | .subquery _ _ _ e => cntBool e
  | .inVals _ vs => cntVals vs
  | .subqueryJoin _ _ _ _ e => cntBool e
def cntAll : List BoolExpr → Nat
  | [] => 0
  | c :: cs => cntBool c + cntAll cs
def cntExpr : Expr → Nat
  | .val v => cntVal v
  | .column _ => 0
  | .placeholder => 1
  | .condition c => cntBool c
end

/-- The tokens of a null test. -/
def toksNull (op : CmpOp) (col : String) : List Tok :=
  if op = .eq then [.ident col, .kw "IS", .kw "NULL"]
  else [.ident col, .kw "IS", .kw "NOT", .kw "NULL"]

mutual
def toksBool : BoolExpr → Nat → List Tok
  | .true_, _ => [.kw "TRUE"]
  | .cmp op col e, n =>
    if isNullTest op e then toksNull op col else .ident col :: opTok op :: toksExpr e n
  | .allOf cs, n => toksAll cs n
  | .and a b, n => toksBool a n ++ .kw "AND" :: toksBool b (n + cntBool a)
  | .or a b, n => toksBool a n ++ .kw "OR" :: toksBool b (n + cntBool a)
  | .not a, n => .kw "NOT" :: toksBool a n
  | .subquery col t c e, n =>
    [.ident col, .kw "IN", .lparen, .kw "SELECT", .ident c, .kw "FROM", .ident t, .kw "WHERE"] ++
      toksBool e n ++ [.rparen]
  | .inVals col vs, n => [.ident col, .kw "IN", .lparen] ++ toksVals vs n ++ [.rparen]
  | .subqueryJoin col t c js e, n =>
    [.ident col, .kw "IN", .lparen, .kw "SELECT"] ++ toksCol c ++ [.kw "FROM", .ident t] ++
      toksJoins js ++ .kw "WHERE" :: toksBool e n ++ [.rparen]
def toksAll : List BoolExpr → Nat → List Tok
  | [], _ => []
  | [c], n => toksBool c n
  | c :: c' :: rest, n => toksBool c n ++ .kw "AND" :: toksAll (c' :: rest) (n + cntBool c)
def toksExpr : Expr → Nat → List Tok
  | .val v, n => toksVal v n
  | .column c, _ => [.ident c]
  | .placeholder, n => [.param n]
  | .condition c, n => toksBool c n
end

theorem renderVal_n (d : Dialect) (v : SqlVal) (n : Nat) : (renderVal d v n).n = n + cntVal v := by
  cases v <;> rfl

theorem renderVals_n (d : Dialect) (vs : List SqlVal) (n : Nat) :
    (renderVals d vs n).n = n + cntVals vs := by
  induction vs generalizing n with
  | nil => rfl
  | cons v rest ih =>
    cases rest with
    | nil => simp [renderVals, renderVal_n, cntVals]
    | cons w rest =>
      simp only [renderVals]
      rw [ih, renderVal_n]
      simp only [cntVals]
      omega

/-- `text` reads as `toks` and takes the placeholder count from `n` to `n'`. -/
def Reads (res : String → Bool) (cnt : Nat → Nat) (text : Text) (n n' : Nat) (toks : List Tok) :
    Prop :=
  ∀ r, Delim r → lexFrom res ⟨.idle, cnt n⟩ (text ++ r) = toks ++ lexFrom res ⟨.idle, cnt n'⟩ r

section
variable {d : Dialect} {res : String → Bool} {cnt : Nat → Nat} {B : Nat}

theorem reads_val (hp : PhReads d res cnt B) (v : SqlVal) (n : Nat) (hb : n + cntVal v ≤ B) :
    Reads res cnt (renderVal d v n).text n (n + cntVal v) (toksVal v n) := by
  intro r hr
  cases v with
  | int i => exact lex_int res _ _ r hr
  | bigInt i => exact lex_int res _ _ r hr
  | _ => exact hp n (by simp only [cntVal] at hb; omega) r hr

theorem reads_vals (hp : PhReads d res cnt B) (vs : List SqlVal) (n : Nat)
    (hb : n + cntVals vs ≤ B) :
    Reads res cnt (renderVals d vs n).text n (n + cntVals vs) (toksVals vs n) := by
  induction vs generalizing n with
  | nil => intro r _; rfl
  | cons v rest ih =>
    cases rest with
    | nil =>
      have := reads_val hp v n (by simpa [cntVals] using hb)
      simpa [renderVals, cntVals, toksVals] using this
    | cons w rest =>
      intro r hr
      simp only [renderVals, renderVal_n, List.append_assoc]
      have hb' : n + cntVal v + cntVals (w :: rest) ≤ B := by
        simp only [cntVals] at hb ⊢; omega
      rw [reads_val hp v n (by omega) _ (show Delim (lit ", " ++ _) from rfl)]
      have hs : ∀ m t, lexFrom res ⟨.idle, m⟩ (lit ", " ++ t) =
          .comma :: lexFrom res ⟨.idle, m⟩ t := fun _ _ => rfl
      rw [hs, ih _ hb' r hr]
      simp only [toksVals, List.append_assoc, List.cons_append, cntVals, Nat.add_assoc]

theorem lex_sqlColumn (hk : CoversReserved d.keyword res) {c : QColumn}
    (hc : ColName res c) (m : Nat) (r : List Char) (h : Delim r) :
    lexFrom res ⟨.idle, m⟩ (sqlColumn d c ++ r) = toksCol c ++ lexFrom res ⟨.idle, m⟩ r := by
  obtain ⟨t, name⟩ := c
  cases t with
  | none => exact lex_plain hc m r h
  | some t =>
    obtain ⟨h1, h2⟩ := hc
    simp only [sqlColumn, List.append_assoc]
    rw [lex_quoteWord hk h1 m _ (show Delim (lit "." ++ _) from rfl)]
    have hs : ∀ t, lexFrom res ⟨.idle, m⟩ (lit "." ++ t) =
          .dot :: lexFrom res ⟨.idle, m⟩ t := fun _ => rfl
    rw [hs, lex_quoteWord hk h2 m r h]
    rfl

theorem lex_sqlJoin (hk : CoversReserved d.keyword res) {js : List Join} (hl : js.length ≤ 1)
    (hj : ∀ j ∈ js, IsName j.joinTable ∧ ColName res j.col1 ∧ ColName res j.col2)
    (m : Nat) (r : List Char) (h : Delim r) :
    lexFrom res ⟨.idle, m⟩ (sqlJoins d js ++ r) = toksJoins js ++ lexFrom res ⟨.idle, m⟩ r := by
  match js, hl with
  | [], _ => rfl
  | [j], _ =>
    obtain ⟨h1, h2, h3⟩ := hj j (List.mem_cons_self ..)
    simp only [sqlJoins, List.append_assoc, List.nil_append]
    have e1 : ∀ t, lexFrom res ⟨.idle, m⟩ (lit "INNER JOIN " ++ t) =
          .kw "INNER" :: .kw "JOIN" :: lexFrom res ⟨.idle, m⟩ t := fun _ => rfl
    have e2 : ∀ t, lexFrom res ⟨.idle, m⟩ (lit " ON " ++ t) =
          .kw "ON" :: lexFrom res ⟨.idle, m⟩ t := fun _ => rfl
    have e3 : ∀ t, lexFrom res ⟨.idle, m⟩ (lit " = " ++ t) =
          .op .eq :: lexFrom res ⟨.idle, m⟩ t := fun _ => rfl
    rw [e1, lex_quoteWord hk h1 m _ (show Delim (lit " ON " ++ _) from rfl), e2,
      lex_sqlColumn hk h2 m _ (show Delim (lit " = " ++ _) from rfl), e3,
      lex_sqlColumn hk h3 m _ h]
    simp [toksJoins]

/-- A rendered comparison that is not a null test. -/
theorem render_cmp {op : CmpOp} {col : String} {e : Expr} (h : isNullTest op e = false) (n : Nat) :
    renderBool d (.cmp op col e) n =
      ⟨col.toList ++ opText op ++ (renderExpr d e n).text, (renderExpr d e n).vals,
        (renderExpr d e n).n⟩ := by
  cases op <;> cases e <;> (try rfl) <;> rename_i v <;> cases v <;> first | rfl | cases h

theorem isNullTest_true {op : CmpOp} {e : Expr} (h : isNullTest op e = true) :
    e = .val .null ∧ (op = .eq ∨ op = .ne) := by
  cases op <;> cases e <;> (try cases h) <;> rename_i v <;> cases v <;> (try cases h) <;> simp

theorem delim_opText (op : CmpOp) (t : Text) : Delim (opText op ++ t) := by
  cases op <;> rfl

theorem lex_opText (op : CmpOp) (m : Nat) (t : Text) :
    lexFrom res ⟨.idle, m⟩ (opText op ++ t) = opTok op :: lexFrom res ⟨.idle, m⟩ t := by
  cases op <;> rfl

mutual
theorem renderBool_n (d : Dialect) :
    (e : BoolExpr) → (n : Nat) → (renderBool d e n).n = n + cntBool e
  | .true_, _ => rfl
  | .cmp op col e, n => by
    cases h : isNullTest op e with
    | false => rw [render_cmp h]; simpa [cntBool, h] using renderExpr_n d e n
    | true => obtain ⟨rfl, rfl | rfl⟩ := isNullTest_true h <;> rfl
  | .allOf cs, n => by simpa [renderBool, cntBool] using renderAll_n d cs n
  | .and a b, n => by
    simp only [renderBool, cntBool]
    rw [renderBool_n d b, renderBool_n d a]
    omega
  | .or a b, n => by
    simp only [renderBool, cntBool]
    rw [renderBool_n d b, renderBool_n d a]
    omega
  | .not a, n => by simpa [renderBool, cntBool] using renderBool_n d a n
  | .subquery _ _ _ e, n => by simpa [renderBool, cntBool] using renderBool_n d e n
  | .inVals _ vs, n => by simpa [renderBool, cntBool] using renderVals_n d vs n
  | .subqueryJoin _ _ _ _ e, n => by simpa [renderBool, cntBool] using renderBool_n d e n
theorem renderAll_n (d : Dialect) :
    (cs : List BoolExpr) → (n : Nat) → (renderAll d cs n).n = n + cntAll cs
  | [], _ => rfl
  | [c], n => by simpa [renderAll, cntAll] using renderBool_n d c n
  | c :: c' :: rest, n => by
    simp only [renderAll]
    rw [renderAll_n d (c' :: rest), renderBool_n d c]
    simp only [cntAll]
    omega
theorem renderExpr_n (d : Dialect) :
    (e : Expr) → (n : Nat) → (renderExpr d e n).n = n + cntExpr e
  | .column _, _ => rfl
  | .val v, n => by simpa [renderExpr, cntExpr] using renderVal_n d v n
  | .placeholder, _ => rfl
  | .condition c, n => by simpa [renderExpr, cntExpr] using renderBool_n d c n
end

mutual
theorem reads_bool (hk : CoversReserved d.keyword res) (hp : PhReads d res cnt B) :
    (e : BoolExpr) → OneJoin e → NamesOK res e → (n : Nat) →
    n + cntBool e ≤ B →
    Reads res cnt (renderBool d e n).text n (n + cntBool e) (toksBool e n)
  | .true_, _, _, n, _ => by
    intro r hr
    have e1 : ∀ m, lexFrom res ⟨.idle, m⟩ (lit "TRUE" ++ r) =
        lexFrom res ⟨.word ['E', 'U', 'R', 'T'], m⟩ r := fun _ => rfl
    simp only [renderBool]
    rw [e1, lex_word_end _ _ _ _ hr]
    rfl
  | .cmp op col e, h, hn, n, hb => by
    simp only [OneJoin] at h
    simp only [NamesOK] at hn
    obtain ⟨hc, hn⟩ := hn
    intro r hr
    cases hnull : isNullTest op e with
    | false =>
      have hcn : cntBool (.cmp op col e) = cntExpr e := by simp [cntBool, hnull]
      rw [hcn] at hb ⊢
      simp only [render_cmp hnull, List.append_assoc, toksBool, hnull]
      rw [lex_plain hc _ _ (delim_opText op _), lex_opText, reads_expr hk hp e h hn n hb r hr]
      rfl
    | true =>
      obtain ⟨rfl, rfl | rfl⟩ := isNullTest_true hnull
      · simp only [renderBool, List.append_assoc]
        rw [lex_plain hc _ _ (show Delim (lit " IS NULL" ++ r) from rfl)]
        have e1 : ∀ m, lexFrom res ⟨.idle, m⟩ (lit " IS NULL" ++ r) =
            .kw "IS" :: lexFrom res ⟨.word ['L', 'L', 'U', 'N'], m⟩ r := fun _ => rfl
        rw [e1, lex_word_end _ _ _ _ hr]
        rfl
      · simp only [renderBool, List.append_assoc]
        rw [lex_plain hc _ _ (show Delim (lit " IS NOT NULL" ++ r) from rfl)]
        have e1 : ∀ m, lexFrom res ⟨.idle, m⟩ (lit " IS NOT NULL" ++ r) =
            .kw "IS" :: .kw "NOT" :: lexFrom res ⟨.word ['L', 'L', 'U', 'N'], m⟩ r := fun _ => rfl
        rw [e1, lex_word_end _ _ _ _ hr]
        rfl
  | .allOf cs, h, hn, n, hb => by
    simp only [OneJoin] at h
    simp only [NamesOK] at hn
    simp only [renderBool, cntBool, toksBool]
    exact reads_all hk hp cs h hn n (by simpa [cntBool] using hb)
  | .and a b, h, hn, n, hb => by
    simp only [OneJoin] at h
    simp only [NamesOK] at hn
    simp only [cntBool] at hb
    intro r hr
    simp only [renderBool, cntBool, toksBool, List.append_assoc, renderBool_n d a]
    rw [reads_bool hk hp a h.1 hn.1 n (by omega) _ (show Delim (lit " AND " ++ _) from rfl)]
    have e1 : ∀ m t, lexFrom res ⟨.idle, m⟩ (lit " AND " ++ t) =
        .kw "AND" :: lexFrom res ⟨.idle, m⟩ t := fun _ _ => rfl
    rw [e1, reads_bool hk hp b h.2 hn.2 _ (by omega) r hr]
    simp [Nat.add_assoc]
  | .or a b, h, hn, n, hb => by
    simp only [OneJoin] at h
    simp only [NamesOK] at hn
    simp only [cntBool] at hb
    intro r hr
    simp only [renderBool, cntBool, toksBool, List.append_assoc, renderBool_n d a]
    rw [reads_bool hk hp a h.1 hn.1 n (by omega) _ (show Delim (lit " OR " ++ _) from rfl)]
    have e1 : ∀ m t, lexFrom res ⟨.idle, m⟩ (lit " OR " ++ t) =
        .kw "OR" :: lexFrom res ⟨.idle, m⟩ t := fun _ _ => rfl
    rw [e1, reads_bool hk hp b h.2 hn.2 _ (by omega) r hr]
    simp [Nat.add_assoc]
  | .not a, h, hn, n, hb => by
    simp only [OneJoin] at h
    simp only [NamesOK] at hn
    simp only [cntBool] at hb
    intro r hr
    simp only [renderBool, cntBool, toksBool, List.append_assoc]
    have e1 : ∀ m t, lexFrom res ⟨.idle, m⟩ (lit "NOT " ++ t) =
        .kw "NOT" :: lexFrom res ⟨.idle, m⟩ t := fun _ _ => rfl
    rw [e1, reads_bool hk hp a h hn n hb r hr]
    rfl
  | .subquery col t c e, h, hn, n, hb => by
    simp only [OneJoin] at h
    simp only [NamesOK] at hn
    simp only [cntBool] at hb
    obtain ⟨h1, h2, h3, h4⟩ := hn
    intro r hr
    simp only [renderBool, cntBool, toksBool, List.append_assoc]
    have e1 : ∀ m t, lexFrom res ⟨.idle, m⟩ (lit " IN (SELECT " ++ t) =
        .kw "IN" :: .lparen :: .kw "SELECT" :: lexFrom res ⟨.idle, m⟩ t := fun _ _ => rfl
    have e2 : ∀ m t, lexFrom res ⟨.idle, m⟩ (lit " FROM " ++ t) =
        .kw "FROM" :: lexFrom res ⟨.idle, m⟩ t := fun _ _ => rfl
    have e3 : ∀ m t, lexFrom res ⟨.idle, m⟩ (lit " WHERE " ++ t) =
        .kw "WHERE" :: lexFrom res ⟨.idle, m⟩ t := fun _ _ => rfl
    have e4 : ∀ m t, lexFrom res ⟨.idle, m⟩ (lit ")" ++ t) =
        .rparen :: lexFrom res ⟨.idle, m⟩ t := fun _ _ => rfl
    rw [lex_quoteWord hk h1 _ _ (show Delim (lit " IN (SELECT " ++ _) from rfl), e1,
      lex_quoteWord hk h3 _ _ (show Delim (lit " FROM " ++ _) from rfl), e2,
      lex_quoteWord hk h2 _ _ (show Delim (lit " WHERE " ++ _) from rfl), e3,
      reads_bool hk hp e h h4 n hb _ (show Delim (lit ")" ++ r) from rfl), e4]
    simp
  | .inVals col vs, h, hn, n, hb => by
    simp only [NamesOK] at hn
    simp only [cntBool] at hb
    intro r hr
    simp only [renderBool, cntBool, toksBool, List.append_assoc]
    have e1 : ∀ m t, lexFrom res ⟨.idle, m⟩ (lit " IN (" ++ t) =
        .kw "IN" :: .lparen :: lexFrom res ⟨.idle, m⟩ t := fun _ _ => rfl
    have e4 : ∀ m t, lexFrom res ⟨.idle, m⟩ (lit ")" ++ t) =
        .rparen :: lexFrom res ⟨.idle, m⟩ t := fun _ _ => rfl
    rw [lex_quoteWord hk hn _ _ (show Delim (lit " IN (" ++ _) from rfl), e1,
      reads_vals hp vs n hb _ (show Delim (lit ")" ++ r) from rfl), e4]
    simp
  | .subqueryJoin col t c js e, h, hn, n, hb => by
    simp only [OneJoin] at h
    simp only [NamesOK] at hn
    simp only [cntBool] at hb
    obtain ⟨h1, h2, h3, hj, h4⟩ := hn
    intro r hr
    simp only [renderBool, cntBool, toksBool, List.append_assoc]
    have e1 : ∀ m t, lexFrom res ⟨.idle, m⟩ (lit " IN (SELECT " ++ t) =
        .kw "IN" :: .lparen :: .kw "SELECT" :: lexFrom res ⟨.idle, m⟩ t := fun _ _ => rfl
    have e2 : ∀ m t, lexFrom res ⟨.idle, m⟩ (lit " FROM " ++ t) =
        .kw "FROM" :: lexFrom res ⟨.idle, m⟩ t := fun _ _ => rfl
    have e3 : ∀ m t, lexFrom res ⟨.idle, m⟩ (lit " WHERE " ++ t) =
        .kw "WHERE" :: lexFrom res ⟨.idle, m⟩ t := fun _ _ => rfl
    have e4 : ∀ m t, lexFrom res ⟨.idle, m⟩ (lit ")" ++ t) =
        .rparen :: lexFrom res ⟨.idle, m⟩ t := fun _ _ => rfl
    have e5 : ∀ m t, lexFrom res ⟨.idle, m⟩ (lit " " ++ t) = lexFrom res ⟨.idle, m⟩ t :=
      fun _ _ => rfl
    rw [lex_quoteWord hk h1 _ _ (show Delim (lit " IN (SELECT " ++ _) from rfl), e1,
      lex_sqlColumn hk h3 _ _ (show Delim (lit " FROM " ++ _) from rfl), e2,
      lex_quoteWord hk h2 _ _ (show Delim (lit " " ++ _) from rfl), e5,
      lex_sqlJoin hk h.1 hj _ _ (show Delim (lit " WHERE " ++ _) from rfl), e3,
      reads_bool hk hp e h.2 h4 n hb _ (show Delim (lit ")" ++ r) from rfl), e4]
    simp
theorem reads_all (hk : CoversReserved d.keyword res) (hp : PhReads d res cnt B) :
    (cs : List BoolExpr) → OneJoinAll cs → NamesAllOK res cs → (n : Nat) →
    n + cntAll cs ≤ B →
    Reads res cnt (renderAll d cs n).text n (n + cntAll cs) (toksAll cs n)
  | [], _, _, _, _ => fun r _ => rfl
  | [c], h, hn, n, hb => by
    simp only [OneJoinAll] at h
    simp only [NamesAllOK] at hn
    simp only [cntAll] at hb ⊢
    simp only [renderAll, toksAll]
    exact reads_bool hk hp c h.1 hn.1 n (by omega)
  | c :: c' :: rest, h, hn, n, hb => by
    have h1 : OneJoin c ∧ OneJoinAll (c' :: rest) := by
      simpa [OneJoinAll] using h
    have hn1 : NamesOK res c ∧ NamesAllOK res (c' :: rest) := by
      simpa [NamesAllOK] using hn
    have hb1 : n + cntBool c + cntAll (c' :: rest) ≤ B := by
      simp only [cntAll] at hb ⊢; omega
    intro r hr
    simp only [renderAll, toksAll, List.append_assoc, renderBool_n d c]
    rw [reads_bool hk hp c h1.1 hn1.1 n (by omega) _
      (show Delim (lit " AND " ++ _) from rfl)]
    have e1 : ∀ m t, lexFrom res ⟨.idle, m⟩ (lit " AND " ++ t) =
        .kw "AND" :: lexFrom res ⟨.idle, m⟩ t := fun _ _ => rfl
    rw [e1, reads_all hk hp (c' :: rest) h1.2 hn1.2 _ hb1 r hr]
    simp [cntAll, Nat.add_assoc]
theorem reads_expr (hk : CoversReserved d.keyword res) (hp : PhReads d res cnt B) :
    (e : Expr) → OneJoinExpr e → NamesExprOK res e → (n : Nat) → n + cntExpr e ≤ B →
    Reads res cnt (renderExpr d e n).text n (n + cntExpr e) (toksExpr e n)
  | .column c, _, hn, n, _ => fun r hr => by
    simp only [NamesExprOK] at hn
    exact lex_quoteWord hk hn _ r hr
  | .val v, _, _, n, hb => by
    simpa [renderExpr, cntExpr, toksExpr] using reads_val hp v n (by simpa [cntExpr] using hb)
  | .placeholder, _, _, n, hb => by
    simp only [cntExpr] at hb
    exact fun r hr => hp n (by omega) r hr
  | .condition c, h, hn, n, hb => by
    simp only [OneJoinExpr] at h
    simp only [NamesExprOK] at hn
    simp only [renderExpr, cntExpr, toksExpr]
    exact reads_bool hk hp c h hn n (by simpa [cntExpr] using hb)
end

/-- The text of a condition, read alone, has the expected tokens. -/
theorem lex_renderBool (hk : CoversReserved d.keyword res) (hp : PhReads d res cnt B)
    (h0 : cnt 0 = 0) {e : BoolExpr} (h : OneJoin e) (hn : NamesOK res e)
    (hb : cntBool e ≤ B) : lex res (renderBool d e 0).text = toksBool e 0 := by
  have := reads_bool hk hp e h hn 0 (by omega) [] trivial
  rw [h0] at this
  simpa [lex, lexFrom, pending] using this

end

end Butane
