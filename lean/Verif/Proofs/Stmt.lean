/-
The generated statements read back as the expected statements.
-/
import Verif.Model.Statements
import Verif.Proofs.Filter
import Verif.Spec.Stmt

namespace Butane
open Sql Spec

section
variable {d : Dialect} {res : String → Bool} {cnt : Nat → Nat} {B : Nat}

/-! ### Composing readable texts -/

/-- A text that never continues a word. -/
def Soft (t : Text) : Prop := ∀ r, Delim r → Delim (t ++ r)

theorem soft_nil : Soft [] := fun _ h => h

theorem soft_cons {c : Char} (h : isWordChar c = false) (t : Text) : Soft (c :: t) := fun _ _ => h

theorem Reads.append {t1 t2 : Text} {n n1 n2 : Nat} {k1 k2 : List Tok}
    (h1 : Reads res cnt t1 n n1 k1) (hs : Soft t2) (h2 : Reads res cnt t2 n1 n2 k2) :
    Reads res cnt (t1 ++ t2) n n2 (k1 ++ k2) := by
  intro r hr
  rw [List.append_assoc, h1 _ (hs r hr), h2 r hr, List.append_assoc]

/-- A text with a fixed reading whatever follows. -/
def Opens (res : String → Bool) (t : Text) (k : List Tok) : Prop :=
  ∀ m r, lexFrom res ⟨.idle, m⟩ (t ++ r) = k ++ lexFrom res ⟨.idle, m⟩ r

theorem Opens.reads {t t2 : Text} {k k2 : List Tok} {n n2 : Nat} (h : Opens res t k)
    (h2 : Reads res cnt t2 n n2 k2) : Reads res cnt (t ++ t2) n n2 (k ++ k2) := by
  intro r hr
  rw [List.append_assoc, h, h2 r hr, List.append_assoc]

theorem Opens.reads' {t : Text} {k : List Tok} {n : Nat} (h : Opens res t k) :
    Reads res cnt t n n k := fun r _ => h _ r

theorem reads_nil (n : Nat) : Reads res cnt [] n n [] := fun _ _ => rfl

theorem reads_word (hk : CoversReserved d.keyword res) {s : String} (hs : IsName s) (n : Nat) :
    Reads res cnt (quoteWord d s) n n [.ident s] :=
  fun r hr => lex_quoteWord hk hs _ r hr

theorem Reads.lex {t : Text} {n : Nat} {k : List Tok} (h : Reads res cnt t 0 n k)
    (h0 : cnt 0 = 0) : lex res t = k := by
  have := h [] trivial
  rw [h0] at this
  simpa [Sql.lex, lexFrom, pending] using this

/-! ### Comma-separated lists -/

/-- Tokens separated by commas. -/
def sepToks : List (List Tok) → List Tok
  | [] => []
  | [t] => t
  | t :: u :: rest => t ++ .comma :: sepToks (u :: rest)

inductive ReadsList (res : String → Bool) (cnt : Nat → Nat) :
    List Text → Nat → Nat → List (List Tok) → Prop
  | nil (n) : ReadsList res cnt [] n n []
  | cons {t n n1 k ts n2 ks} : Reads res cnt t n n1 k → ReadsList res cnt ts n1 n2 ks →
      ReadsList res cnt (t :: ts) n n2 (k :: ks)

theorem ReadsList.commaSep {ts n n' ks} (h : ReadsList res cnt ts n n' ks) :
    Reads res cnt (commaSep ts) n n' (sepToks ks) := by
  induction h with
  | nil n => exact reads_nil n
  | cons h1 h2 ih =>
    cases h2 with
    | nil => simpa [Butane.commaSep, sepToks] using h1
    | cons h3 h4 =>
      simp only [Butane.commaSep, sepToks, List.append_assoc] at ih ⊢
      refine h1.append (soft_cons (by decide) _) ?_
      exact Opens.reads (k := [.comma]) (fun _ _ => rfl) ih

theorem readsList_words (hk : CoversReserved d.keyword res) {cs : List String}
    (hs : ∀ c ∈ cs, IsName c) (n : Nat) :
    ReadsList res cnt (cs.map (quoteWord d)) n n (cs.map fun c => [.ident c]) := by
  induction cs with
  | nil => exact .nil n
  | cons c cs ih =>
    exact .cons (reads_word hk (hs c (List.mem_cons_self ..)) n)
      (ih fun x hx => hs x (List.mem_cons_of_mem _ hx))

theorem reads_listColumns (hk : CoversReserved d.keyword res) {cs : List String}
    (hs : ∀ c ∈ cs, IsName c) (n : Nat) :
    Reads res cnt (listColumns d cs) n n (sepToks (cs.map fun c => [.ident c])) :=
  (readsList_words hk hs n).commaSep

/-- The parameters `n`, `n+1`, ... -/
def paramToks (n count : Nat) : List (List Tok) := (List.range' n count).map fun i => [.param i]

theorem readsList_phs {f : Nat → Text} {n count : Nat}
    (h : ∀ i, i < count → Reads res cnt (f i) (n + i) (n + i + 1) [.param (n + i)]) :
    ReadsList res cnt ((List.range count).map f) n (n + count) (paramToks n count) := by
  induction count generalizing n f with
  | zero => exact .nil n
  | succ k ih =>
    rw [List.range_succ_eq_map, List.map_cons, List.map_map]
    have h0 := h 0 (by omega)
    have := ih (f := f ∘ Nat.succ) (n := n + 1) (fun i hi => by
      have := h (i + 1) (by omega)
      simpa [Nat.add_assoc, Nat.add_comm, Nat.add_left_comm] using this)
    rw [show n + 1 + k = n + (k + 1) by omega] at this
    exact .cons (by simpa using h0) this

theorem reads_phList (hp : PhReads d res cnt B) {n count : Nat} (hb : n + count ≤ B) :
    Reads res cnt (commaSep (phList d n count)) n (n + count) (sepToks (paramToks n count)) :=
  (readsList_phs (f := fun i => d.ph (n + i)) fun i hi r hr => hp (n + i) (by omega) r hr).commaSep

theorem sepToks_len (ks : List (List Tok)) : ks.length ≤ (sepToks ks).length + 1 := by
  induction ks with
  | nil => simp
  | cons k ks ih =>
    cases ks with
    | nil => simp
    | cons k' ks => simp only [sepToks, List.length_cons, List.length_append] at ih ⊢; omega

/-- No rest begins with a comma. -/
def NoComma : List Tok → Prop
  | .comma :: _ => False
  | _ => True

theorem pNames_ok {cs : List String} (hne : cs ≠ []) {r : List Tok} (hr : NoComma r) :
    pNames (sepToks (cs.map fun c => [.ident c]) ++ r) = some (cs, r) := by
  induction cs with
  | nil => exact absurd rfl hne
  | cons c cs ih =>
    cases cs with
    | nil =>
      simp only [List.map, sepToks, List.cons_append, List.nil_append]
      unfold pNames
      split
      · next he =>
        simp only [List.cons.injEq] at he
        rw [he.2] at hr
        exact hr.elim
      · next he =>
        simp only [List.cons.injEq, Tok.ident.injEq] at he
        obtain ⟨rfl, rfl⟩ := he
        rfl
      · next h1 h2 => exact absurd rfl (h2 _ _)
    | cons c' cs =>
      have := ih (by simp)
      simp only [List.map, sepToks, List.cons_append, List.nil_append] at this ⊢
      rw [pNames, this]

/-- Tokens that read as one operand. -/
def IsOperand (k : List Tok) (o : Operand) : Prop :=
  ∀ r, NoDot r → pOperand (k ++ r) = some (o, r)

inductive Operands : List (List Tok) → List Operand → Prop
  | nil : Operands [] []
  | cons {k o ks os} : IsOperand k o → Operands ks os → Operands (k :: ks) (o :: os)

theorem pList_ok {ks : List (List Tok)} {os : List Operand}
    (h : Operands ks os) (hne : ks ≠ []) (r : List Tok) {F : Nat}
    (hF : ks.length ≤ F) : pList F (sepToks ks ++ .rparen :: r) = some (os, r) := by
  induction h generalizing F with
  | nil => exact absurd rfl hne
  | cons h1 h2 ih =>
    obtain ⟨F, rfl⟩ : ∃ k, F = k + 1 := ⟨F - 1, by simp at hF; omega⟩
    cases h2 with
    | nil =>
      simp only [sepToks, pList]
      rw [h1 _ (show NoDot (.rparen :: r) from trivial)]
    | cons h3 h4 =>
      have := ih (by simp) (F := F) (by simp at hF ⊢; omega)
      simp only [sepToks, List.append_assoc, List.cons_append, pList] at this ⊢
      rw [h1 _ (show NoDot (.comma :: _) from trivial)]
      simp only
      rw [this]

theorem isOperand_params (n count : Nat) :
    Operands (paramToks n count) ((List.range' n count).map .param) := by
  unfold paramToks
  induction count generalizing n with
  | zero => exact .nil
  | succ k ih =>
    rw [List.range'_succ]
    exact .cons (fun r _ => rfl) (ih (n + 1))


theorem paramToks_ne {n count : Nat} (h : 0 < count) : paramToks n count ≠ [] := by
  cases count with
  | zero => omega
  | succ k => simp [paramToks, List.range'_succ]

theorem paramToks_len (n count : Nat) : (paramToks n count).length = count := by
  simp [paramToks]

/-! ### INSERT -/

def toksInsert (table : String) (cols : List String) : List Tok :=
  [.kw "INSERT", .kw "INTO", .ident table] ++
  (match cols with
   | [] => [.kw "DEFAULT", .kw "VALUES"]
   | _ => .lparen :: (sepToks (cols.map fun c => [.ident c]) ++
          [.rparen, .kw "VALUES", .lparen] ++ sepToks (paramToks 0 cols.length) ++ [.rparen]))

theorem reads_insert (hk : CoversReserved d.keyword res) (hp : PhReads d res cnt B)
    {table : String} {cols : List String} (ht : IsName table) (hs : ∀ c ∈ cols, IsName c)
    (hb : cols.length ≤ B) :
    Reads res cnt (sqlInsert d table cols) 0 cols.length (toksInsert table cols) := by
  unfold sqlInsert toksInsert
  cases cols with
  | nil =>
    rw [List.append_assoc, List.append_assoc]
    refine Opens.reads (k := [.kw "INSERT", .kw "INTO"]) (fun _ _ => rfl) ?_
    refine Reads.append (k1 := [.ident table]) (reads_word hk ht 0) (soft_cons (by decide) _) ?_
    exact Opens.reads' (fun _ _ => rfl)
  | cons c cs =>
    simp only [List.append_assoc]
    refine Opens.reads (k := [.kw "INSERT", .kw "INTO"]) (fun _ _ => rfl) ?_
    refine Reads.append (k1 := [.ident table]) (reads_word hk ht 0) (soft_cons (by decide) _) ?_
    refine Opens.reads (t := lit " ") (k := []) (fun _ _ => rfl) ?_
    refine Opens.reads (t := lit "(") (k := [.lparen]) (fun _ _ => rfl) ?_
    refine Reads.append (reads_listColumns hk hs 0) (soft_cons (by decide) _) ?_
    refine Opens.reads (t := lit ") VALUES (") (k := [.rparen, .kw "VALUES", .lparen])
      (fun _ _ => rfl) ?_
    have := reads_phList hp (n := 0) (count := (c :: cs).length) (by omega)
    rw [Nat.zero_add] at this
    refine Reads.append this (soft_cons (by decide) _) ?_
    exact Opens.reads' (fun _ _ => rfl)

/-- The rest of an `INSERT` after its values. -/
def IsTail (r : List Tok) (conf : Option Conflict) (ret : Option String) : Prop :=
  pTail r = some (conf, ret)

theorem parse_insert {sq : Bool} {table : String} {cols : List String} (hne : cols ≠ [])
    {r : List Tok} {conf ret} (hr : pTail r = some (conf, ret)) :
    parseStmt sq (toksInsert table cols ++ r) =
      some (.insert table cols ((List.range cols.length).map .param) conf ret) := by
  have hl : 0 < cols.length := List.length_pos_iff.2 hne
  have e : toksInsert table cols = [.kw "INSERT", .kw "INTO", .ident table, .lparen] ++
      (sepToks (cols.map fun c => [.ident c]) ++
          ([.rparen, .kw "VALUES", .lparen] ++ (sepToks (paramToks 0 cols.length) ++ [.rparen]))) := by
    unfold toksInsert
    cases cols with
    | nil => exact absurd rfl hne
    | cons c cs => simp
  rw [e]
  simp only [List.append_assoc, List.cons_append, List.nil_append, parseStmt]
  rw [pNames_ok hne (by trivial)]
  simp only
  rw [pList_ok (isOperand_params 0 cols.length) (paramToks_ne hl) r (by
    rw [paramToks_len]
    have := sepToks_len (paramToks 0 cols.length)
    rw [paramToks_len] at this
    simp only [List.length_append, List.length_cons]
    omega)]
  simp only
  rw [hr]
  simp [List.range_eq_range']

theorem parse_insert_default {sq : Bool} {table : String} {r : List Tok} {ret}
    (hr : pReturning r = some ret) :
    parseStmt sq (toksInsert table [] ++ r) = some (.insert table [] [] none ret) := by
  simp only [toksInsert, List.cons_append, List.nil_append, parseStmt]
  rw [hr]

/-! ### Upsert -/

def toksConflict (cols : List String) (pkcol : String) : List Tok :=
  [.kw "ON", .kw "CONFLICT", .lparen, .ident pkcol, .rparen, .kw "DO"] ++
  (if cols.length > 1 then
    [.kw "UPDATE", .kw "SET", .lparen] ++ sepToks (cols.map fun c => [.ident c]) ++
      [.rparen, .op .eq, .lparen] ++
      sepToks (cols.map fun c => [.ident "excluded", .dot, .ident c]) ++ [.rparen]
   else [.kw "NOTHING"])

theorem readsList_excluded (hk : CoversReserved d.keyword res) (hx : res "excluded" = false)
    {cs : List String} (hs : ∀ c ∈ cs, IsName c) (n : Nat) :
    ReadsList res cnt (cs.map fun c => lit "excluded." ++ quoteWord d c) n n
      (cs.map fun c => [.ident "excluded", .dot, .ident c]) := by
  induction cs with
  | nil => exact .nil n
  | cons c cs ih =>
    refine .cons ?_ (ih fun x hx => hs x (List.mem_cons_of_mem _ hx))
    refine Opens.reads (k := [.ident "excluded", .dot]) ?_
      (reads_word hk (hs c (List.mem_cons_self ..)) n)
    intro m r
    have h1 : wordTok res ("excluded".toList) = .ident "excluded" := by
      simp only [wordTok]
      rw [if_neg (by decide)]
      have : String.ofList "excluded".toList = "excluded" := by decide
      rw [this, hx]
      rfl
    have : lexFrom res ⟨.idle, m⟩ (lit "excluded." ++ r) =
      [wordTok res "excluded".toList, .dot] ++ lexFrom res ⟨.idle, m⟩ r := rfl
    rw [this, h1]

theorem reads_upsert (hk : CoversReserved d.keyword res) (hx : res "excluded" = false)
    {table pkcol : String} {cols : List String} (hne : cols ≠ [])
    (ht : IsName table) (hpk : IsName pkcol) (hs : ∀ c ∈ cols, IsName c)
    {phs : List Text} (hphs : ReadsList res cnt phs 0 cols.length (paramToks 0 cols.length)) :
    Reads res cnt (sqlUpsert d phs table cols pkcol) 0 cols.length
      (toksInsert table cols ++ toksConflict cols pkcol) := by
  have e : toksInsert table cols = [.kw "INSERT", .kw "INTO"] ++ ([.ident table] ++ ([.lparen] ++
      (sepToks (cols.map fun c => [.ident c]) ++
          ([.rparen, .kw "VALUES", .lparen] ++ (sepToks (paramToks 0 cols.length) ++ [.rparen]))))) := by
    unfold toksInsert
    cases cols with
    | nil => exact absurd rfl hne
    | cons c cs => simp
  rw [e]
  unfold sqlUpsert toksConflict
  simp only [List.append_assoc]
  refine Opens.reads (k := [.kw "INSERT", .kw "INTO"]) (fun _ _ => rfl) ?_
  refine Reads.append (k1 := [.ident table]) (reads_word hk ht 0) (soft_cons (by decide) _) ?_
  refine Opens.reads (t := lit " (") (k := [.lparen]) (fun _ _ => rfl) ?_
  refine Reads.append (reads_listColumns hk hs 0) (soft_cons (by decide) _) ?_
  refine Opens.reads (t := lit ") VALUES (") (k := [.rparen, .kw "VALUES", .lparen])
    (fun _ _ => rfl) ?_
  refine Reads.append hphs.commaSep (soft_cons (by decide) _) ?_
  refine Opens.reads (t := lit ")") (k := [.rparen]) (fun _ _ => rfl) ?_
  refine Opens.reads (t := lit " ON CONFLICT (") (k := [.kw "ON", .kw "CONFLICT", .lparen])
    (fun _ _ => rfl) ?_
  refine Reads.append (k1 := [.ident pkcol]) (reads_word hk hpk _) (soft_cons (by decide) _) ?_
  refine Opens.reads (t := lit ") DO ") (k := [.rparen, .kw "DO"]) (fun _ _ => rfl) ?_
  by_cases hl : cols.length > 1
  · rw [if_pos hl, if_pos hl]
    refine Opens.reads (t := lit "UPDATE SET (") (k := [.kw "UPDATE", .kw "SET", .lparen])
      (fun _ _ => rfl) ?_
    refine Reads.append (reads_listColumns hk hs _) (soft_cons (by decide) _) ?_
    refine Opens.reads (t := lit ") = (") (k := [.rparen, .op .eq, .lparen]) (fun _ _ => rfl) ?_
    refine Reads.append (readsList_excluded hk hx hs _).commaSep (soft_cons (by decide) _) ?_
    exact Opens.reads' (fun _ _ => rfl)
  · rw [if_neg hl, if_neg hl]
    intro r hr
    have e1 : ∀ m, lexFrom res ⟨.idle, m⟩ (lit "NOTHING" ++ r) =
        lexFrom res ⟨.word "NOTHING".toList.reverse, m⟩ r := fun _ => rfl
    rw [e1, lex_word_end _ _ _ _ hr]
    rfl

theorem isOperand_excluded (cs : List String) :
    Operands (cs.map fun c => [.ident "excluded", .dot, .ident c])
      (cs.map fun c => .col (some "excluded") c) := by
  induction cs with
  | nil => exact .nil
  | cons c cs ih => exact .cons (fun r _ => rfl) ih

theorem pTail_conflict {cols : List String} {pkcol : String} :
    pTail (toksConflict cols pkcol) = some (some ⟨pkcol,
      if cols.length > 1 then some (cols, cols.map fun c => .col (some "excluded") c) else none⟩,
      none) := by
  unfold toksConflict
  by_cases hl : cols.length > 1
  · have hne : cols ≠ [] := by intro h; simp [h] at hl
    rw [if_pos hl, if_pos hl]
    simp only [List.append_assoc, List.cons_append, List.nil_append, pTail]
    rw [pNames_ok hne (by trivial)]
    simp only
    have := sepToks_len (cols.map fun c => [.ident "excluded", .dot, .ident c])
    rw [pList_ok (isOperand_excluded cols) (by simpa using hne) [] (by
      simp only [List.length_append, List.length_cons, List.length_nil]
      omega)]
    rfl
  · rw [if_neg hl, if_neg hl]
    rfl

/-! ### UPDATE -/

def setToks (cols : List String) (n : Nat) : List (List Tok) :=
  match cols with
  | [] => []
  | c :: cs => [.ident c, .op .eq, .param n] :: setToks cs (n + 1)

def toksUpdate (table pkcol : String) (cols : List String) : List Tok :=
  [.kw "UPDATE", .ident table, .kw "SET"] ++ sepToks (setToks cols 0) ++
    [.kw "WHERE", .ident pkcol, .op .eq, .param cols.length]

theorem readsList_assigns (hk : CoversReserved d.keyword res) (hp : PhReads d res cnt B)
    {cols : List String} (hs : ∀ c ∈ cols, IsName c) {n : Nat} (hb : n + cols.length ≤ B) :
    ReadsList res cnt (sqlAssigns d cols n) n (n + cols.length) (setToks cols n) := by
  induction cols generalizing n with
  | nil => exact .nil n
  | cons c cs ih =>
    have := ih (n := n + 1) (fun x hx => hs x (List.mem_cons_of_mem _ hx))
      (by simp at hb; omega)
    rw [show n + 1 + cs.length = n + (c :: cs).length by simp; omega] at this
    refine .cons ?_ this
    rw [List.append_assoc]
    refine Reads.append (k1 := [.ident c]) (reads_word hk (hs c (List.mem_cons_self ..)) n)
      (soft_cons (by decide) _) ?_
    refine Opens.reads (t := lit " = ") (k := [.op .eq]) (fun _ _ => rfl) ?_
    intro r hr
    exact hp n (by simp at hb; omega) r hr

theorem reads_update (hk : CoversReserved d.keyword res) (hp : PhReads d res cnt B)
    {table pkcol : String} {cols : List String} (ht : IsName table) (hpk : IsName pkcol)
    (hs : ∀ c ∈ cols, IsName c) (hb : cols.length + 1 ≤ B) :
    Reads res cnt (sqlUpdate d table pkcol cols) 0 (cols.length + 1)
      (toksUpdate table pkcol cols) := by
  unfold sqlUpdate toksUpdate
  simp only [List.append_assoc]
  refine Opens.reads (k := [.kw "UPDATE"]) (fun _ _ => rfl) ?_
  refine Reads.append (k1 := [.ident table]) (reads_word hk ht 0) (soft_cons (by decide) _) ?_
  refine Opens.reads (t := lit " SET ") (k := [.kw "SET"]) (fun _ _ => rfl) ?_
  have := readsList_assigns hk hp hs (n := 0) (by omega)
  rw [Nat.zero_add] at this
  refine Reads.append this.commaSep (soft_cons (by decide) _) ?_
  refine Opens.reads (t := lit " WHERE ") (k := [.kw "WHERE"]) (fun _ _ => rfl) ?_
  refine Reads.append (k1 := [.ident pkcol]) (reads_word hk hpk _) (soft_cons (by decide) _) ?_
  refine Opens.reads (t := lit " = ") (k := [.op .eq]) (fun _ _ => rfl) ?_
  intro r hr
  exact hp _ (by omega) r hr

def setsOf (cols : List String) (n : Nat) : List (String × Operand) :=
  match cols with
  | [] => []
  | c :: cs => (c, .param n) :: setsOf cs (n + 1)

theorem pSets_ok {cols : List String} (hne : cols ≠ []) (n : Nat) {r : List Tok} (hr : NoComma r)
    {F : Nat} (hF : cols.length ≤ F) :
    pSets F (sepToks (setToks cols n) ++ r) = some (setsOf cols n, r) := by
  induction cols generalizing n F with
  | nil => exact absurd rfl hne
  | cons c cs ih =>
    obtain ⟨F, rfl⟩ : ∃ k, F = k + 1 := ⟨F - 1, by simp at hF; omega⟩
    cases cs with
    | nil =>
      simp only [setToks, sepToks, List.cons_append, List.nil_append, pSets, pOperand, setsOf]
      split
      · next he =>
        simp only [Option.some.injEq, Prod.mk.injEq] at he
        rw [he.2] at hr
        exact hr.elim
      · next he =>
        simp only [Option.some.injEq, Prod.mk.injEq] at he
        obtain ⟨rfl, rfl⟩ := he
        rfl
      · next he => cases he
    | cons c' cs =>
      have := ih (by simp) (n + 1) (F := F) (by simp at hF ⊢; omega)
      simp only [setToks, sepToks, List.cons_append, List.nil_append] at this ⊢
      rw [pSets]
      simp only [pOperand]
      rw [this]
      rfl

theorem setToks_len (cols : List String) (n : Nat) : (setToks cols n).length = cols.length := by
  induction cols generalizing n with
  | nil => rfl
  | cons c cs ih => simp [setToks, ih]

theorem parse_update {sq : Bool} {table pkcol : String} {cols : List String} (hne : cols ≠ []) :
    parseStmt sq (toksUpdate table pkcol cols) =
      some (.update table (setsOf cols 0)
        (.any [.all [.cmp .eq (.col none pkcol) (.param cols.length)]])) := by
  unfold toksUpdate
  simp only [List.append_assoc, List.cons_append, List.nil_append, parseStmt]
  have hl := sepToks_len (setToks cols 0)
  rw [setToks_len] at hl
  rw [pSets_ok hne 0 (by trivial) (by
    simp only [List.length_append, List.length_cons, List.length_nil]; omega)]
  rfl

/-! ### DELETE -/

theorem reads_delete (hk : CoversReserved d.keyword res) (hp : PhReads d res cnt B)
    {table : String} (ht : IsName table) {e : BoolExpr} (h : OneJoin e) (hn : NamesOK res e)
    (hb : cntBool e ≤ B) :
    Reads res cnt (sqlDelete d table e).text 0 (cntBool e)
      ([.kw "DELETE", .kw "FROM", .ident table, .kw "WHERE"] ++ toksBool e 0) := by
  have := reads_bool hk hp e h hn 0 (by omega)
  rw [Nat.zero_add] at this
  simp only [sqlDelete, List.append_assoc]
  refine Opens.reads (k := [.kw "DELETE", .kw "FROM"]) (fun _ _ => rfl) ?_
  refine Reads.append (k1 := [.ident table]) (reads_word hk ht 0) (soft_cons (by decide) _) ?_
  exact Opens.reads (t := lit " WHERE ") (k := [.kw "WHERE"]) (fun _ _ => rfl) this

theorem pCond_ok {sq : Bool} {e : BoolExpr} (h : NeedsNoParens sq .or e) {r : List Tok}
    (hr : FollowOr r) : pCond sq (toksBool e 0 ++ r) = some (.any (disjs e 0), r) := by
  have := pOr_ok e h 0 r [] r (.inl ⟨hr, rfl, rfl⟩) (3 * (toksBool e 0 ++ r).length + 3)
    (Nat.le_refl _)
  unfold pCond
  rw [this]
  simp

theorem parse_delete {sq : Bool} {table : String} {e : BoolExpr} (h : NeedsNoParens sq .or e) :
    parseStmt sq ([.kw "DELETE", .kw "FROM", .ident table, .kw "WHERE"] ++ toksBool e 0) =
      some (.delete table (.any (disjs e 0))) := by
  have := pCond_ok h (r := []) trivial
  rw [List.append_nil] at this
  simp only [List.cons_append, List.nil_append, parseStmt]
  rw [this]

/-! ### SELECT -/

def toksOrders (os : List Order) : List (List Tok) :=
  os.map fun o => [.ident o.column, .kw (match o.direction with | .asc => "ASC" | .desc => "DESC")]

theorem readsList_orders (hk : CoversReserved d.keyword res) {os : List Order}
    (hs : ∀ o ∈ os, IsName o.column) (n : Nat) :
    ReadsList res cnt (os.map fun o => quoteWord d o.column ++ lit " " ++
      (match o.direction with | .asc => lit "ASC" | .desc => lit "DESC")) n n (toksOrders os) := by
  induction os with
  | nil => exact .nil n
  | cons o os ih =>
    refine .cons ?_ (ih fun x hx => hs x (List.mem_cons_of_mem _ hx))
    show Reads res cnt (_ ++ _ ++ _) n n _
    rw [List.append_assoc]
    refine Reads.append (k1 := [.ident o.column]) (reads_word hk (hs o (List.mem_cons_self ..)) n)
      (soft_cons (by decide) _) ?_
    refine Opens.reads (t := lit " ") (k := []) (fun _ _ => rfl) ?_
    intro r hr
    cases o.direction with
    | asc =>
      have e1 : ∀ m, lexFrom res ⟨.idle, m⟩ (lit "ASC" ++ r) =
        lexFrom res ⟨.word "ASC".toList.reverse, m⟩ r := fun _ => rfl
      simp only
      rw [e1, lex_word_end _ _ _ _ hr]
      rfl
    | desc =>
      have e1 : ∀ m, lexFrom res ⟨.idle, m⟩ (lit "DESC" ++ r) =
        lexFrom res ⟨.word "DESC".toList.reverse, m⟩ r := fun _ => rfl
      simp only
      rw [e1, lex_word_end _ _ _ _ hr]
      rfl

def toksOrderBy (os : List Order) : List Tok :=
  match os with
  | [] => []
  | o :: os => [.kw "ORDER", .kw "BY"] ++ sepToks (toksOrders (o :: os))

theorem reads_orderClause (hk : CoversReserved d.keyword res) {os : List Order}
    (hs : ∀ o ∈ os, IsName o.column) (n : Nat) :
    Reads res cnt (orderClause d os) n n (toksOrderBy os) := by
  cases os with
  | nil => exact reads_nil n
  | cons o os =>
    exact Opens.reads (t := lit " ORDER BY ") (k := [.kw "ORDER", .kw "BY"]) (fun _ _ => rfl)
      (readsList_orders hk hs n).commaSep

theorem soft_orderClause (os : List Order) : Soft (orderClause d os) := by
  cases os with
  | nil => exact soft_nil
  | cons o os => exact soft_cons (by decide) _

def dirOf (o : Order) : String × Dir := (o.column, o.direction)

theorem pOrders_ok {os : List Order} (hne : os ≠ []) {r : List Tok} (hr : NoComma r) {F : Nat}
    (hF : os.length ≤ F) :
    pOrders F (sepToks (toksOrders os) ++ r) = some (os.map dirOf, r) := by
  induction os generalizing F with
  | nil => exact absurd rfl hne
  | cons o os ih =>
    obtain ⟨F, rfl⟩ : ∃ k, F = k + 1 := ⟨F - 1, by simp at hF; omega⟩
    have hd : ∀ r, pDir (.kw (match o.direction with | .asc => "ASC" | .desc => "DESC") :: r) =
        some (o.direction, r) := by
      intro r
      cases o.direction <;> rfl
    cases os with
    | nil =>
      simp only [toksOrders, List.map, sepToks, List.cons_append, List.nil_append, pOrders]
      rw [hd]
      split
      · next he =>
        simp only [Option.some.injEq, Prod.mk.injEq] at he
        rw [he.2] at hr
        exact hr.elim
      · next he =>
        simp only [Option.some.injEq, Prod.mk.injEq] at he
        obtain ⟨rfl, rfl⟩ := he
        rfl
      · next he => cases he
    | cons o' os =>
      have := ih (by simp) (F := F) (by simp at hF ⊢; omega)
      simp only [toksOrders, List.map, sepToks, List.cons_append, List.nil_append] at this ⊢
      rw [pOrders, hd]
      simp only
      rw [this]
      rfl

def toksLimit (l : Option Int32) : List Tok :=
  match l with | some l => [.kw "LIMIT", .int l.toInt] | none => []

def toksOffset (o : Option Int32) : List Tok :=
  match o with | some o => [.kw "OFFSET", .int o.toInt] | none => []

theorem reads_limit (l : Option Int32) (n : Nat) :
    Reads res cnt (match l with | some l => sqlLimit l | none => []) n n (toksLimit l) := by
  cases l with
  | none => exact reads_nil n
  | some l =>
    exact Opens.reads (t := lit " LIMIT ") (k := [.kw "LIMIT"]) (fun _ _ => rfl)
      (fun r hr => lex_int res _ _ r hr)

theorem soft_limit (l : Option Int32) : Soft (match l with | some l => sqlLimit l | none => []) := by
  cases l with
  | none => exact soft_nil
  | some l => exact soft_cons (by decide) _

theorem reads_offset (o : Option Int32) (n : Nat) :
    Reads res cnt (match o with | some o => sqlOffset o | none => []) n n (toksOffset o) := by
  cases o with
  | none => exact reads_nil n
  | some l =>
    exact Opens.reads (t := lit " OFFSET ") (k := [.kw "OFFSET"]) (fun _ _ => rfl)
      (fun r hr => lex_int res _ _ r hr)

theorem soft_offset (o : Option Int32) :
    Soft (match o with | some o => sqlOffset o | none => []) := by
  cases o with
  | none => exact soft_nil
  | some l => exact soft_cons (by decide) _

def cntWhere (e : Option BoolExpr) : Nat := match e with | none => 0 | some e => cntBool e

def toksWhere (e : Option BoolExpr) : List Tok :=
  match e with | none => [] | some e => .kw "WHERE" :: toksBool e 0

theorem reads_where (hk : CoversReserved d.keyword res) (hp : PhReads d res cnt B)
    {e : Option BoolExpr} (h : ∀ x ∈ e, OneJoin x) (hn : ∀ x ∈ e, NamesOK res x)
    (hb : cntWhere e ≤ B) :
    Reads res cnt (whereClause d e).text 0 (cntWhere e) (toksWhere e) := by
  cases e with
  | none => exact reads_nil 0
  | some e =>
    have hb' : cntBool e ≤ B := hb
    have := reads_bool hk hp e (h e rfl) (hn e rfl) 0 (by omega)
    rw [Nat.zero_add] at this
    exact Opens.reads (t := lit " WHERE ") (k := [.kw "WHERE"]) (fun _ _ => rfl) this

theorem soft_where (e : Option BoolExpr) : Soft (whereClause d e).text := by
  cases e with
  | none => exact soft_nil
  | some e => exact soft_cons (by decide) _

theorem soft_append {a b : Text} (ha : Soft a) (hb : Soft b) : Soft (a ++ b) := by
  intro r hr
  rw [List.append_assoc]
  exact ha _ (hb r hr)

def toksSelect (table : String) (cols : List String) (e : Option BoolExpr)
    (l o : Option Int32) (os : List Order) : List Tok :=
  .kw "SELECT" :: (sepToks (cols.map fun c => [.ident c]) ++ .kw "FROM" :: .ident table ::
    (toksWhere e ++ (toksOrderBy os ++ (toksLimit l ++ toksOffset o))))

theorem reads_select (hk : CoversReserved d.keyword res) (hp : PhReads d res cnt B)
    {table : String} {cols : List String} (ht : IsName table) (hs : ∀ c ∈ cols, IsName c)
    {e : Option BoolExpr} (h : ∀ x ∈ e, OneJoin x) (hn : ∀ x ∈ e, NamesOK res x)
    {os : List Order} (ho : ∀ o ∈ os, IsName o.column)
    (l o : Option Int32) (hb : cntWhere e ≤ B) :
    Reads res cnt (sqlSelect d cols table ++ (whereClause d e).text ++ orderClause d os ++
        (match l with | some l => sqlLimit l | none => []) ++
        (match o with | some o => sqlOffset o | none => [])) 0 (cntWhere e)
      (toksSelect table cols e l o os) := by
  unfold sqlSelect toksSelect
  simp only [List.append_assoc]
  refine Opens.reads (k := [.kw "SELECT"]) (fun _ _ => rfl) ?_
  refine Reads.append (reads_listColumns hk hs 0) (soft_cons (by decide) _) ?_
  refine Opens.reads (t := lit " FROM ") (k := [.kw "FROM"]) (fun _ _ => rfl) ?_
  refine Reads.append (k1 := [.ident table]) (reads_word hk ht 0)
    (soft_append (soft_where e) (soft_append (soft_orderClause os)
      (soft_append (soft_limit l) (soft_offset o)))) ?_
  refine (reads_where hk hp h hn hb).append (soft_append (soft_orderClause os)
      (soft_append (soft_limit l) (soft_offset o))) ?_
  refine (reads_orderClause hk ho _).append (soft_append (soft_limit l) (soft_offset o)) ?_
  exact (reads_limit l _).append (soft_offset o) (reads_offset o _)

theorem pLimits_ok (sq : Bool) (l o : Option Int32) (h : sq = true → l = none → o = none) :
    pLimits sq (toksLimit l ++ toksOffset o) = some (l.map (·.toInt), o.map (·.toInt)) := by
  cases l <;> cases o <;> cases sq <;> simp_all [toksLimit, toksOffset, pLimits]

/-- What may follow the `WHERE` and `ORDER BY` clauses. -/
theorem tail_limits (l o : Option Int32) :
    toksLimit l ++ toksOffset o = [] ∨ (∃ r, toksLimit l ++ toksOffset o = .kw "LIMIT" :: r) ∨
      ∃ r, toksLimit l ++ toksOffset o = .kw "OFFSET" :: r := by
  cases l <;> cases o <;> simp [toksLimit, toksOffset]

theorem pOrderBy_ok (os : List Order) (l o : Option Int32) :
    pOrderBy (toksOrderBy os ++ (toksLimit l ++ toksOffset o)) =
      some (os.map dirOf, toksLimit l ++ toksOffset o) := by
  have hc := tail_limits l o
  cases os with
  | nil =>
    simp only [toksOrderBy, List.nil_append]
    rcases hc with h | ⟨r, h⟩ | ⟨r, h⟩ <;> rw [h] <;> rfl
  | cons a os =>
    simp only [toksOrderBy, List.append_assoc, List.cons_append, List.nil_append, pOrderBy]
    refine pOrders_ok (by simp) ?_ ?_
    · rcases hc with h | ⟨r, h⟩ | ⟨r, h⟩ <;> rw [h] <;> trivial
    · have := sepToks_len (toksOrders (a :: os))
      have h1 : (toksOrders (a :: os)).length = (a :: os).length := by simp [toksOrders]
      rw [h1] at this
      have h2 : 2 ≤ (sepToks (toksOrders (a :: os))).length := by
        cases os <;> simp [toksOrders, sepToks]
      have h3 : (a :: os).length ≤ (sepToks (toksOrders (a :: os))).length := by
        clear hc this h1 h2
        induction os generalizing a with
        | nil => simp [toksOrders, sepToks]
        | cons b os ih =>
          have := ih b
          simp only [toksOrders, List.map, sepToks, List.length_append, List.length_cons] at this ⊢
          omega
      simp only [List.length_append]
      omega

theorem parse_select {sq : Bool} {table : String} {cols : List String} (hne : cols ≠ [])
    {e : Option BoolExpr} (h : ∀ x ∈ e, NeedsNoParens sq .or x) (os : List Order)
    (l o : Option Int32) (hlo : sq = true → l = none → o = none) :
    parseStmt sq (toksSelect table cols e l o os) =
      some (.select ⟨cols, table, e.map fun e => .any (disjs e 0), os.map dirOf,
        l.map (·.toInt), o.map (·.toInt)⟩) := by
  unfold toksSelect
  simp only [parseStmt, pSelect]
  rw [pNames_ok hne (by trivial)]
  simp only
  have hw : pWhere sq (toksWhere e ++ (toksOrderBy os ++ (toksLimit l ++ toksOffset o))) =
      some (e.map fun e => .any (disjs e 0), toksOrderBy os ++ (toksLimit l ++ toksOffset o)) := by
    have hf : toksOrderBy os ++ (toksLimit l ++ toksOffset o) = [] ∨
        ∃ r, toksOrderBy os ++ (toksLimit l ++ toksOffset o) = .kw "ORDER" :: r ∨
          toksOrderBy os ++ (toksLimit l ++ toksOffset o) = .kw "LIMIT" :: r ∨
          toksOrderBy os ++ (toksLimit l ++ toksOffset o) = .kw "OFFSET" :: r := by
      cases os with
      | nil =>
        rcases tail_limits l o with h | ⟨r, h⟩ | ⟨r, h⟩ <;> simp [toksOrderBy, h]
      | cons a os => exact .inr ⟨_, .inl rfl⟩
    cases e with
    | none =>
      simp only [toksWhere, List.nil_append, Option.map_none]
      rcases hf with hf | ⟨r, hf | hf | hf⟩ <;> rw [hf] <;> rfl
    | some e =>
      simp only [toksWhere, List.cons_append, pWhere]
      rw [pCond_ok (h e rfl)]
      · rfl
      · rcases hf with hf | ⟨r, hf | hf | hf⟩ <;> rw [hf] <;> trivial
  rw [hw]
  simp only
  rw [pOrderBy_ok]
  simp only
  rw [pLimits_ok sq l o hlo]
  rfl

end

end Butane
