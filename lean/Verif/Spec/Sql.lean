/-
How a database reads SQL text: tokens, grammar and three-valued evaluation.
This is the environment's side of the contract; it is written from the SQL language and
does not use the code generator.

Simplifications: identifiers are compared case-sensitively; a doubled quote inside a
quoted identifier is not an escape; string literals are not read (the generator never
writes one in a query).
-/
import Verif.Model.Query

namespace Butane.Sql

/-! ### Tokens -/

inductive Tok where
  | kw (w : String)       -- a keyword of the grammar, upper-cased
  | ident (s : String)    -- an identifier, quoted or not
  | reserved (w : String) -- a reserved word the grammar below does not use
  | int (i : Int)
  | param (k : Nat)       -- the k-th bound value, from zero
  | lparen | rparen | comma | dot
  | op (o : CmpOp)        -- = <> < > <= >=
  | bad
deriving DecidableEq, Repr

/-- The words the grammar uses. -/
def grammarWords : List String :=
  ["TRUE", "NULL", "IS", "NOT", "AND", "OR", "IN", "LIKE", "SELECT", "FROM", "WHERE",
   "INNER", "JOIN", "ON", "ORDER", "BY", "ASC", "DESC", "LIMIT", "OFFSET", "DELETE",
   "INSERT", "INTO", "VALUES", "DEFAULT", "UPDATE", "SET", "CONFLICT", "DO", "NOTHING",
   "RETURNING", "DISTINCT"]

def upper (cs : List Char) : String := String.ofList (cs.map Char.toUpper)

/-- An unquoted word: keyword, other reserved word, or identifier.  `reserved` says
which further words the database refuses as identifiers. -/
def wordTok (reserved : String → Bool) (cs : List Char) : Tok :=
  if upper cs ∈ grammarWords then .kw (upper cs)
  else if reserved (String.ofList cs) then .reserved (String.ofList cs)
  else .ident (String.ofList cs)

def isDigit (c : Char) : Bool := decide (48 ≤ c.toNat) && decide (c.toNat ≤ 57)
def isWordStart (c : Char) : Bool :=
  (decide (97 ≤ c.toNat) && decide (c.toNat ≤ 122)) ||
  (decide (65 ≤ c.toNat) && decide (c.toNat ≤ 90)) || c == '_'
def isWordChar (c : Char) : Bool := isWordStart c || isDigit c
def digitVal (c : Char) : Nat := c.toNat - 48

/-- What the tokenizer is in the middle of. -/
inductive Mode where
  | idle
  | word (acc : List Char)
  | num (neg : Bool) (n : Nat)
  | minus
  | dollar
  | dollarNum (n : Nat)
  | quoted (acc : List Char)
  | less
  | greater
deriving DecidableEq, Repr

/-- Tokenizer state: the mode and the number of `?` read so far (the `k`-th `?` of a
statement stands for its `k`-th parameter). -/
structure LState where
  mode : Mode
  marks : Nat
deriving DecidableEq, Repr

/-- Reading a character between tokens. -/
def start (c : Char) (m : Nat) : List Tok × LState :=
  if isDigit c then ([], ⟨.num false (digitVal c), m⟩)
  else if isWordStart c then ([], ⟨.word [c], m⟩)
  else if c = ' ' then ([], ⟨.idle, m⟩)
  else if c = '(' then ([.lparen], ⟨.idle, m⟩)
  else if c = ')' then ([.rparen], ⟨.idle, m⟩)
  else if c = ',' then ([.comma], ⟨.idle, m⟩)
  else if c = '.' then ([.dot], ⟨.idle, m⟩)
  else if c = '=' then ([.op .eq], ⟨.idle, m⟩)
  else if c = '<' then ([], ⟨.less, m⟩)
  else if c = '>' then ([], ⟨.greater, m⟩)
  else if c = '?' then ([.param m], ⟨.idle, m + 1⟩)
  else if c = '$' then ([], ⟨.dollar, m⟩)
  else if c = '-' then ([], ⟨.minus, m⟩)
  else if c = '"' then ([], ⟨.quoted [], m⟩)
  else ([.bad], ⟨.idle, m⟩)

/-- The pending token of a mode. -/
def pending (reserved : String → Bool) : Mode → List Tok
  | .idle => []
  | .word acc => [wordTok reserved acc.reverse]
  | .num neg n => [.int (if neg then -(n : Int) else n)]
  | .minus => [.bad]
  | .dollar => [.bad]
  | .dollarNum n => [if n = 0 then .bad else .param (n - 1)]
  | .quoted _ => [.bad]
  | .less => [.op .lt]
  | .greater => [.op .gt]

/-- The mode's pending token is complete; `c` begins something new. -/
def flush (reserved : String → Bool) (s : LState) (c : Char) : List Tok × LState :=
  (pending reserved s.mode ++ (start c s.marks).1, (start c s.marks).2)

/-- Reading one character. -/
def step (reserved : String → Bool) (s : LState) (c : Char) : List Tok × LState :=
  match s.mode with
  | .idle => start c s.marks
  | .word acc => if isWordChar c then ([], ⟨.word (c :: acc), s.marks⟩) else flush reserved s c
  | .num neg n =>
    if isDigit c then ([], ⟨.num neg (10 * n + digitVal c), s.marks⟩)
    else if isWordChar c then ([.bad], ⟨.idle, s.marks⟩)
    else flush reserved s c
  | .minus => if isDigit c then ([], ⟨.num true (digitVal c), s.marks⟩) else flush reserved s c
  | .dollar => if isDigit c then ([], ⟨.dollarNum (digitVal c), s.marks⟩) else flush reserved s c
  | .dollarNum n =>
    if isDigit c then ([], ⟨.dollarNum (10 * n + digitVal c), s.marks⟩)
    else if isWordChar c then ([.bad], ⟨.idle, s.marks⟩)
    else flush reserved s c
  | .quoted acc =>
    if c = '"' then ([.ident (String.ofList acc.reverse)], ⟨.idle, s.marks⟩)
    else ([], ⟨.quoted (c :: acc), s.marks⟩)
  | .less =>
    if c = '=' then ([.op .le], ⟨.idle, s.marks⟩)
    else if c = '>' then ([.op .ne], ⟨.idle, s.marks⟩)
    else flush reserved s c
  | .greater => if c = '=' then ([.op .ge], ⟨.idle, s.marks⟩) else flush reserved s c

/-- Reading the rest of a text. -/
def lexFrom (reserved : String → Bool) : LState → List Char → List Tok
  | s, [] => pending reserved s.mode
  | s, c :: cs => (step reserved s c).1 ++ lexFrom reserved (step reserved s c).2 cs

/-- The tokens of a statement. -/
def lex (reserved : String → Bool) (cs : List Char) : List Tok := lexFrom reserved ⟨.idle, 0⟩ cs

/-! ### Conditions -/

inductive Operand where
  | col (table : Option String) (name : String)
  | int (i : Int)
  | param (k : Nat)
  | null
deriving DecidableEq, Repr

/-- `INNER JOIN table ON left = right`. -/
structure SJoin where
  table : String
  left : Operand
  right : Operand
deriving DecidableEq, Repr

/-- A search condition.  `AND` and `OR` chains are kept as lists: both are associative. -/
inductive Cond where
  | true_
  | cmp (op : CmpOp) (a b : Operand)
  | isNull (a : Operand)
  | notNull (a : Operand)
  | inList (a : Operand) (bs : List Operand)
  | inSelect (a sel : Operand) (table : String) (joins : List SJoin) (w : Cond)
  | not (c : Cond)
  | all (cs : List Cond)
  | any (cs : List Cond)
deriving Repr

/-- `name` or `table.name`. -/
def pColumn : List Tok → Option (Operand × List Tok)
  | .ident t :: .dot :: .ident c :: r => some (.col (some t) c, r)
  | .ident c :: r => some (.col none c, r)
  | _ => none

def pOperand : List Tok → Option (Operand × List Tok)
  | .int i :: r => some (.int i, r)
  | .param k :: r => some (.param k, r)
  | .kw "NULL" :: r => some (.null, r)
  | ts => pColumn ts

/-- `v, v, ...)`. -/
def pList : Nat → List Tok → Option (List Operand × List Tok)
  | 0, _ => none
  | f + 1, ts =>
    match pOperand ts with
    | some (v, .comma :: r) =>
      match pList f r with
      | some (vs, r') => some (v :: vs, r')
      | none => none
    | some (v, .rparen :: r) => some ([v], r)
    | _ => none

/-- `INNER JOIN t ON a = b ...` up to `WHERE`. -/
def pJoins : Nat → List Tok → Option (List SJoin × List Tok)
  | 0, _ => none
  | _ + 1, .kw "WHERE" :: r => some ([], r)
  | f + 1, .kw "INNER" :: .kw "JOIN" :: .ident t :: .kw "ON" :: r =>
    match pColumn r with
    | some (a, .op .eq :: r) =>
      match pColumn r with
      | some (b, r) =>
        match pJoins f r with
        | some (js, r) => some (⟨t, a, b⟩ :: js, r)
        | none => none
      | none => none
    | _ => none
  | _ + 1, _ => none

mutual
/-- Lowest precedence: `OR`.  `emptyIn` says whether `IN ()` is accepted (SQLite) or a
syntax error (PostgreSQL); the number bounds the recursion. -/
def pOr (emptyIn : Bool) : Nat → List Tok → Option (List Cond × List Tok)
  | 0, _ => none
  | f + 1, ts =>
    match pAnd emptyIn f ts with
    | some (cs, .kw "OR" :: r) =>
      match pOr emptyIn f r with
      | some (ds, r') => some (.all cs :: ds, r')
      | none => none
    | some (cs, r) => some ([.all cs], r)
    | none => none
/-- `AND` binds tighter than `OR`. -/
def pAnd (emptyIn : Bool) : Nat → List Tok → Option (List Cond × List Tok)
  | 0, _ => none
  | f + 1, ts =>
    match pNot emptyIn f ts with
    | some (c, .kw "AND" :: r) =>
      match pAnd emptyIn f r with
      | some (cs, r') => some (c :: cs, r')
      | none => none
    | some (c, r) => some ([c], r)
    | none => none
/-- `NOT` binds tighter than `AND` and looser than a comparison. -/
def pNot (emptyIn : Bool) : Nat → List Tok → Option (Cond × List Tok)
  | 0, _ => none
  | f + 1, .kw "NOT" :: r =>
    match pNot emptyIn f r with
    | some (c, r') => some (.not c, r')
    | none => none
  | f + 1, .lparen :: r =>
    match pOr emptyIn f r with
    | some (ds, .rparen :: r') => some (.any ds, r')
    | _ => none
  | _ + 1, .kw "TRUE" :: r => some (.true_, r)
  | f + 1, ts =>
    match pOperand ts with
    | some (a, .op o :: r) =>
      match pOperand r with
      | some (b, r') => some (.cmp o a b, r')
      | none => none
    | some (a, .kw "LIKE" :: r) =>
      match pOperand r with
      | some (b, r') => some (.cmp .like a b, r')
      | none => none
    | some (a, .kw "IS" :: .kw "NULL" :: r) => some (.isNull a, r)
    | some (a, .kw "IS" :: .kw "NOT" :: .kw "NULL" :: r) => some (.notNull a, r)
    | some (a, .kw "IN" :: .lparen :: .kw "SELECT" :: r) =>
      match pColumn r with
      | some (s, .kw "FROM" :: .ident t :: r) =>
        match pJoins f r with
        | some (js, r) =>
          match pOr emptyIn f r with
          | some (ds, .rparen :: r') => some (.inSelect a s t js (.any ds), r')
          | _ => none
        | none => none
      | _ => none
    | some (a, .kw "IN" :: .lparen :: .rparen :: r) =>
      if emptyIn then some (.inList a [], r) else none
    | some (a, .kw "IN" :: .lparen :: r) =>
      match pList f r with
      | some (vs, r') => some (.inList a vs, r')
      | none => none
    | _ => none
end

/-- A search condition that is the whole of the tokens; the recursion bound is never
reached on a text with fewer tokens than it. -/
def parseCond (emptyIn : Bool) (ts : List Tok) : Option Cond :=
  match pOr emptyIn (3 * ts.length + 3) ts with
  | some (ds, []) => some (.any ds)
  | _ => none

/-! ### Three-valued logic: `none` is SQL's unknown -/

def kAnd : Option Bool → Option Bool → Option Bool
  | some false, _ => some false
  | _, some false => some false
  | some true, some true => some true
  | _, _ => none

def kOr : Option Bool → Option Bool → Option Bool
  | some true, _ => some true
  | _, some true => some true
  | some false, some false => some false
  | _, _ => none

def kNot : Option Bool → Option Bool
  | some b => some (!b)
  | none => none

/-! ### Data -/

/-- A value in the database: integers of every width are one type. -/
inductive DbVal where
  | null
  | int (i : Int)
  | other (v : SqlVal)
deriving DecidableEq, Repr

/-- The database's view of a bound value. -/
def toDb : SqlVal → DbVal
  | .null => .null
  | .int i => .int i.toInt
  | .bigInt i => .int i.toInt
  | v => .other v

/-- A row: which columns it has, and their values. -/
structure Row where
  has : String → Bool
  val : String → DbVal

/-- A database: which tables exist, and their rows. -/
structure Db where
  has : String → Bool
  rows : String → List Row

/-- How the database compares two non-null values (collation, type affinity and the
`LIKE` pattern language are up to it). -/
abbrev Compare := CmpOp → DbVal → DbVal → Bool

/-- A comparison with a null is unknown. -/
def cmp3 (rel : Compare) (op : CmpOp) : DbVal → DbVal → Option Bool
  | .null, _ => none
  | _, .null => none
  | a, b => some (rel op a b)

/-- `a IN (v, ...)`. -/
def in3 (rel : Compare) (a : DbVal) (vs : List DbVal) : Option Bool :=
  vs.foldr (fun v acc => kOr (cmp3 rel .eq a v) acc) (some false)

/-! ### Evaluation -/

/-- The tables of one `FROM` clause with their current rows. -/
abbrev Scope := List (String × Row)

/-- The value of a column in one scope: `none` if it is not there, `some none` if two
tables have it. -/
def inScope (table : Option String) (name : String) (s : Scope) : Option (Option DbVal) :=
  match s.filter (fun tr => (table = none || table = some tr.1) && tr.2.has name) with
  | [] => none
  | [tr] => some (some (tr.2.val name))
  | _ => some none

/-- Innermost scope first; `none` is an error (no such column, or ambiguous). -/
def lookupCol (table : Option String) (name : String) : List Scope → Option DbVal
  | [] => none
  | s :: rest =>
    match inScope table name s with
    | none => lookupCol table name rest
    | some r => r

def evalOperand (ps : List DbVal) (env : List Scope) : Operand → Option DbVal
  | .col t c => lookupCol t c env
  | .int i => some (.int i)
  | .param k => ps[k]?
  | .null => some .null

/-- All values, or an error. -/
def evalOperands (ps : List DbVal) (env : List Scope) : List Operand → Option (List DbVal)
  | [] => some []
  | o :: os =>
    match evalOperand ps env o, evalOperands ps env os with
    | some v, some vs => some (v :: vs)
    | _, _ => none

/-- The elements on which `p` is true, or an error. -/
def selectTrue {α} (p : α → Option (Option Bool)) : List α → Option (List α)
  | [] => some []
  | a :: as =>
    match p a, selectTrue p as with
    | some b, some rest => some (if b = some true then a :: rest else rest)
    | _, _ => none

/-- Map with errors. -/
def mapOk {α β} (f : α → Option β) : List α → Option (List β)
  | [] => some []
  | a :: as =>
    match f a, mapOk f as with
    | some b, some bs => some (b :: bs)
    | _, _ => none

/-- The join condition in one combination of rows. -/
def joinCond (rel : Compare) (ps : List DbVal) (env : List Scope) (j : SJoin) (s : Scope) :
    Option (Option Bool) :=
  match evalOperand ps (s :: env) j.left, evalOperand ps (s :: env) j.right with
  | some a, some b => some (cmp3 rel .eq a b)
  | _, _ => none

/-- The combinations of rows left after the joins. -/
def joinRows (rel : Compare) (db : Db) (ps : List DbVal) (env : List Scope) :
    List SJoin → List Scope → Option (List Scope)
  | [], ss => some ss
  | j :: js, ss =>
    if db.has j.table then
      match selectTrue (joinCond rel ps env j)
          (ss.flatMap fun s => (db.rows j.table).map fun r => s ++ [(j.table, r)]) with
      | some ss' => joinRows rel db ps env js ss'
      | none => none
    else none

mutual
/-- The value of a condition: `none` is an error, `some none` is unknown. -/
def evalCond (rel : Compare) (db : Db) (ps : List DbVal) (env : List Scope) :
    Cond → Option (Option Bool)
  | .true_ => some (some true)
  | .cmp op a b =>
    match evalOperand ps env a, evalOperand ps env b with
    | some x, some y => some (cmp3 rel op x y)
    | _, _ => none
  | .isNull a =>
    match evalOperand ps env a with
    | some x => some (some (decide (x = .null)))
    | none => none
  | .notNull a =>
    match evalOperand ps env a with
    | some x => some (some (!decide (x = .null)))
    | none => none
  | .inList a bs =>
    match evalOperand ps env a, evalOperands ps env bs with
    | some x, some ys => some (in3 rel x ys)
    | _, _ => none
  | .inSelect a sel t js w =>
    match evalOperand ps env a, db.has t,
        joinRows rel db ps env js ((db.rows t).map fun r => [(t, r)]) with
    | some x, true, some ss =>
      match selectTrue (fun s => evalCond rel db ps (s :: env) w) ss with
      | some ss' =>
        match mapOk (fun s => evalOperand ps (s :: env) sel) ss' with
        | some ys => some (in3 rel x ys)
        | none => none
      | none => none
    | _, _, _ => none
  | .not c =>
    match evalCond rel db ps env c with
    | some b => some (kNot b)
    | none => none
  | .all cs => evalAll rel db ps env cs
  | .any cs => evalAny rel db ps env cs
def evalAll (rel : Compare) (db : Db) (ps : List DbVal) (env : List Scope) :
    List Cond → Option (Option Bool)
  | [] => some (some true)
  | c :: cs =>
    match evalCond rel db ps env c, evalAll rel db ps env cs with
    | some a, some b => some (kAnd a b)
    | _, _ => none
def evalAny (rel : Compare) (db : Db) (ps : List DbVal) (env : List Scope) :
    List Cond → Option (Option Bool)
  | [] => some (some false)
  | c :: cs =>
    match evalCond rel db ps env c, evalAny rel db ps env cs with
    | some a, some b => some (kOr a b)
    | _, _ => none
end

/-- What a database makes of a `WHERE` text for one row of `table`: parse it, bind the
values, evaluate.  `none` is an error. -/
def whereValue (emptyIn : Bool) (rel : Compare) (reserved : String → Bool) (db : Db) (table : String) (row : Row)
    (text : List Char) (vals : List SqlVal) : Option (Option Bool) :=
  match parseCond emptyIn (lex reserved text) with
  | some c => evalCond rel db (vals.map toDb) [[(table, row)]] c
  | none => none

end Butane.Sql
