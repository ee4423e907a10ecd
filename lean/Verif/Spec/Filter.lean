/-
What query expressions mean, independently of SQL text.
-/
import Verif.Spec.Sql

namespace Butane.Spec
open Butane.Sql

/-! ### Meaning of a `BoolExpr` on a row (three-valued, `none` is unknown) -/

/-- The value of a column in a combination of joined rows whose main row is `main`. -/
def colOf (s : Scope) (main : Row) (c : QColumn) : DbVal :=
  match c.table with
  | none => main.val c.name
  | some t =>
    match s.find? (fun tr => tr.1 == t) with
    | some tr => tr.2.val c.name
    | none => .null

/-- The combinations of rows that satisfy the joins. -/
def joined (rel : Compare) (db : Db) (main : Row) : List Join → List Scope → List Scope
  | [], ss => ss
  | j :: js, ss =>
    joined rel db main js
      ((ss.flatMap fun s => (db.rows j.joinTable).map fun r => s ++ [(j.joinTable, r)]).filter
        fun s => cmp3 rel .eq (colOf s main j.col1) (colOf s main j.col2) = some true)

mutual
/-- The value of an operand. -/
def exprValue (rel : Compare) (db : Db) (row : Row) : Expr → DbVal
  | .column c => row.val c
  | .val v => toDb v
  | .placeholder => .null
  | .condition c =>
    match boolValue rel db row c with
    | some b => .other (.bool b)
    | none => .null
/-- The value of a condition.  Comparison with the literal null tests for null;
`subquery` and `subqueryJoin` follow their documentation (query/mod.rs:51-53,61-63). -/
def boolValue (rel : Compare) (db : Db) (row : Row) : BoolExpr → Option Bool
  | .true_ => some true
  | .cmp .eq col (.val .null) => some (decide (row.val col = .null))
  | .cmp .ne col (.val .null) => some (!decide (row.val col = .null))
  | .cmp op col e => cmp3 rel op (row.val col) (exprValue rel db row e)
  | .allOf cs => allValue rel db row cs
  | .and a b => kAnd (boolValue rel db row a) (boolValue rel db row b)
  | .or a b => kOr (boolValue rel db row a) (boolValue rel db row b)
  | .not a => kNot (boolValue rel db row a)
  | .subquery col t c e =>
    in3 rel (row.val col)
      (((db.rows t).filter fun r => boolValue rel db r e = some true).map fun r => r.val c)
  | .inVals col vs => in3 rel (row.val col) (vs.map toDb)
  | .subqueryJoin col t c joins e =>
    in3 rel (row.val col)
      (((db.rows t).filter fun r => boolValue rel db r e = some true).flatMap fun r =>
        (joined rel db r joins [[(t, r)]]).map fun s => colOf s r c)
def allValue (rel : Compare) (db : Db) (row : Row) : List BoolExpr → Option Bool
  | [] => some true
  | c :: cs => kAnd (boolValue rel db row c) (allValue rel db row cs)
end

/-! ### Meaning of a `filter!` expression on a row: plain true or false -/

/-- Both present and equal for the database. -/
def Equal (rel : Compare) (a b : DbVal) : Prop := a ≠ .null ∧ b ≠ .null ∧ rel .eq a b = true

/-- `field op value`: `== None` and `!= None` test for null, any other comparison needs
two non-null values in the relation. -/
def CmpHolds (rel : Compare) (op : CmpOp) (x : DbVal) (v : SqlVal) : Prop :=
  match op, v with
  | .eq, .null => x = .null
  | .ne, .null => x ≠ .null
  | op, v => x ≠ .null ∧ toDb v ≠ .null ∧ rel op x (toDb v) = true

mutual
def AtomHolds (rel : Compare) (db : Db) (row : Row) : FAtom → Prop
  | .cmp op f v => CmpHolds rel op (row.val f) v
  | .isIn f vs => ∃ v ∈ vs, Equal rel (row.val f) (toDb v)
  | .matchesPk f t pk =>
    ∃ r ∈ db.rows t.table, CmpHolds rel .eq (r.val t.pkcol) pk ∧
      Equal rel (row.val f) (r.val t.pkcol)
  | .matches f t e =>
    ∃ r ∈ db.rows t.table, FilterHolds rel db r e ∧ Equal rel (row.val f) (r.val t.pkcol)
  | .containsPk m o t pk =>
    ∃ r ∈ db.rows t.table, CmpHolds rel .eq (r.val t.pkcol) pk ∧
      ∃ l ∈ db.rows m, Equal rel (l.val "has") (r.val t.pkcol) ∧
        Equal rel (row.val o.pkcol) (l.val "owner")
  | .contains m o t e =>
    ∃ r ∈ db.rows t.table, FilterHolds rel db r e ∧
      ∃ l ∈ db.rows m, Equal rel (l.val "has") (r.val t.pkcol) ∧
        Equal rel (row.val o.pkcol) (l.val "owner")
def AndHolds (rel : Compare) (db : Db) (row : Row) : FAnd → Prop
  | .one a => AtomHolds rel db row a
  | .and l r => AndHolds rel db row l ∧ AtomHolds rel db row r
/-- The rows a `filter!` expression describes. -/
def FilterHolds (rel : Compare) (db : Db) (row : Row) : FOr → Prop
  | .one a => AndHolds rel db row a
  | .or l r => FilterHolds rel db row l ∨ AndHolds rel db row r
end

/-! ### Side conditions -/

/-- A word of letters, digits and underscores that does not begin with a digit. -/
def IsName (s : String) : Prop :=
  ∃ c cs, s.toList = c :: cs ∧ isWordStart c = true ∧ cs.all isWordChar = true

/-- A name that the database reads as an identifier without quotes. -/
def PlainName (res : String → Bool) (s : String) : Prop :=
  IsName s ∧ upper s.toList ∉ grammarWords ∧ res s = false

/-- A column as `sql_column` expects it: the parts are names, and an unqualified column
can do without quotes. -/
def ColName (res : String → Bool) (c : QColumn) : Prop :=
  match c.table with
  | some t => IsName t ∧ IsName c.name
  | none => PlainName res c.name

mutual
/-- The tables and columns an expression mentions are names, and those of plain
comparisons can do without quotes. -/
def NamesOK (res : String → Bool) : BoolExpr → Prop
  | .true_ => True
  | .cmp _ col e => PlainName res col ∧ NamesExprOK res e
  | .allOf cs => NamesAllOK res cs
  | .and a b => NamesOK res a ∧ NamesOK res b
  | .or a b => NamesOK res a ∧ NamesOK res b
  | .not a => NamesOK res a
  | .subquery col t c e => IsName col ∧ IsName t ∧ IsName c ∧ NamesOK res e
  | .inVals col _ => IsName col
  | .subqueryJoin col t c joins e =>
    IsName col ∧ IsName t ∧ ColName res c ∧
    (∀ j ∈ joins, IsName j.joinTable ∧ ColName res j.col1 ∧ ColName res j.col2) ∧ NamesOK res e
def NamesAllOK (res : String → Bool) : List BoolExpr → Prop
  | [] => True
  | c :: cs => NamesOK res c ∧ NamesAllOK res cs
def NamesExprOK (res : String → Bool) : Expr → Prop
  | .column c => IsName c
  | .condition c => NamesOK res c
  | _ => True
end

mutual
/-- No subquery has more than one join. -/
def OneJoin : BoolExpr → Prop
  | .true_ => True
  | .cmp _ _ e => OneJoinExpr e
  | .allOf cs => OneJoinAll cs
  | .and a b => OneJoin a ∧ OneJoin b
  | .or a b => OneJoin a ∧ OneJoin b
  | .not a => OneJoin a
  | .subquery _ _ _ e => OneJoin e
  | .inVals _ _ => True
  | .subqueryJoin _ _ _ joins e => joins.length ≤ 1 ∧ OneJoin e
def OneJoinAll : List BoolExpr → Prop
  | [] => True
  | c :: cs => OneJoin c ∧ OneJoinAll cs
def OneJoinExpr : Expr → Prop
  | .condition c => OneJoin c
  | _ => True
end

mutual
/-- The expression does not contain `Expr::Placeholder`. -/
def NoPlaceholder : BoolExpr → Prop
  | .true_ => True
  | .cmp _ _ e => NoPlaceholderExpr e
  | .allOf cs => NoPlaceholderAll cs
  | .and a b => NoPlaceholder a ∧ NoPlaceholder b
  | .or a b => NoPlaceholder a ∧ NoPlaceholder b
  | .not a => NoPlaceholder a
  | .subquery _ _ _ e => NoPlaceholder e
  | .inVals _ _ => True
  | .subqueryJoin _ _ _ _ e => NoPlaceholder e
def NoPlaceholderAll : List BoolExpr → Prop
  | [] => True
  | c :: cs => NoPlaceholder c ∧ NoPlaceholderAll cs
def NoPlaceholderExpr : Expr → Prop
  | .condition c => NoPlaceholder c
  | .placeholder => False
  | _ => True
end

/-- Where a condition stands: alone or under `OR`, under `AND`, under `NOT`. -/
inductive Pos where
  | or | and | not
deriving DecidableEq

/-- An operand is a column or a value. -/
def SimpleOperand : Expr → Prop
  | .column _ => True
  | .val _ => True
  | _ => False

mutual
/-- The expression reads the same with and without parentheses around its parts: no `OR`
under `AND` or `NOT`, no `AND` under `NOT`; every conjunction is non-empty, there is at
most one join, and comparisons compare a column with a column or a value.  `emptyIn` says
whether the database accepts `IN ()`: SQLite does, PostgreSQL does not. -/
def NeedsNoParens (emptyIn : Bool) : Pos → BoolExpr → Prop
  | _, .true_ => True
  | _, .cmp _ _ e => SimpleOperand e
  | p, .allOf cs => p ≠ .not ∧ cs ≠ [] ∧ NoParensAll emptyIn cs
  | p, .and a b => p ≠ .not ∧ NeedsNoParens emptyIn .and a ∧ NeedsNoParens emptyIn .and b
  | p, .or a b => p = .or ∧ NeedsNoParens emptyIn .or a ∧ NeedsNoParens emptyIn .or b
  | _, .not a => NeedsNoParens emptyIn .not a
  | _, .subquery _ _ _ e => NeedsNoParens emptyIn .or e
  | _, .inVals _ vs => emptyIn = true ∨ vs ≠ []
  | _, .subqueryJoin _ _ _ joins e => joins.length ≤ 1 ∧ NeedsNoParens emptyIn .or e
def NoParensAll (emptyIn : Bool) : List BoolExpr → Prop
  | [] => True
  | c :: cs => NeedsNoParens emptyIn .and c ∧ NoParensAll emptyIn cs
end

/-- A column of the main row that no joined row also has. -/
def Visible (main : Row) (others : List Row) (c : String) : Prop :=
  main.has c = true ∧ ∀ o ∈ others, o.has c = false

/-- A column that names one column of the combination of rows `(t, main) :: s`. -/
def ColVisible (t : String) (main : Row) (s : Scope) (c : QColumn) : Prop :=
  match c.table with
  | none => Visible main (s.map (·.2)) c.name
  | some q => ∃ r, (((t, main) :: s).filter fun tr => tr.1 == q) = [(q, r)] ∧ r.has c.name = true

/-- All combinations of rows of the joined tables. -/
def combos (db : Db) : List Join → List Scope
  | [] => [[]]
  | j :: js => (db.rows j.joinTable).flatMap fun r => (combos db js).map fun s => (j.joinTable, r) :: s

mutual
/-- Every table the expression mentions exists, and every column it mentions belongs to
the table it is meant for and to no other table of the same `FROM` clause. -/
def Scoped (db : Db) (row : Row) (others : List Row) : BoolExpr → Prop
  | .true_ => True
  | .cmp _ col e =>
    Visible row others col ∧ match e with | .column c => Visible row others c | _ => True
  | .allOf cs => ScopedAll db row others cs
  | .and a b => Scoped db row others a ∧ Scoped db row others b
  | .or a b => Scoped db row others a ∧ Scoped db row others b
  | .not a => Scoped db row others a
  | .subquery col t c e =>
    Visible row others col ∧ db.has t = true ∧
    ∀ r ∈ db.rows t, r.has c = true ∧ Scoped db r [] e
  | .inVals col _ => Visible row others col
  | .subqueryJoin col t c joins e =>
    Visible row others col ∧ db.has t = true ∧ (∀ j ∈ joins, db.has j.joinTable = true) ∧
    ∀ r ∈ db.rows t, ∀ s ∈ combos db joins,
      ColVisible t r s c ∧ (∀ j ∈ joins, ColVisible t r s j.col1 ∧ ColVisible t r s j.col2) ∧
      Scoped db r (s.map (·.2)) e
def ScopedAll (db : Db) (row : Row) (others : List Row) : List BoolExpr → Prop
  | [] => True
  | c :: cs => Scoped db row others c ∧ ScopedAll db row others cs
end

/-- The keyword list covers every word the database does not read as an identifier. -/
def CoversReserved (kw reserved : String → Bool) : Prop :=
  ∀ w : String, (upper w.toList ∈ grammarWords ∨ reserved w = true) → kw w = true

/-! ### Bound values -/

/-- Whether a comparison is rendered as a null test. -/
def isNullTest : CmpOp → Expr → Bool
  | .eq, .val .null => true
  | .ne, .val .null => true
  | _, _ => false

/-- The values of an expression that are bound rather than written into the text, in
reading order: everything except integers, and except the null of a null test. -/
def valsVal : SqlVal → List SqlVal
  | .int _ => []
  | .bigInt _ => []
  | v => [v]

def valsVals : List SqlVal → List SqlVal
  | [] => []
  | v :: vs => valsVal v ++ valsVals vs

mutual
def valsBool : BoolExpr → List SqlVal
  | .true_ => []
  | .cmp op _ e => if isNullTest op e then [] else valsExpr e
  | .allOf cs => valsAll cs
  | .and a b => valsBool a ++ valsBool b
  | .or a b => valsBool a ++ valsBool b
  | .not a => valsBool a
  | .subquery _ _ _ e => valsBool e
  | .inVals _ vs => valsVals vs
  | .subqueryJoin _ _ _ _ e => valsBool e
def valsAll : List BoolExpr → List SqlVal
  | [] => []
  | c :: cs => valsBool c ++ valsAll cs
def valsExpr : Expr → List SqlVal
  | .val v => valsVal v
  | .condition c => valsBool c
  | _ => []
end

/-- Integers, which are written into the text, and null. -/
def isInline : SqlVal → Bool
  | .int _ => true
  | .bigInt _ => true
  | .null => true
  | _ => false

/-- Forget the contents of a value that is not an integer or null. -/
def blank (v : SqlVal) : SqlVal := if isInline v then v else .bool false

mutual
/-- The expression with the contents of its non-integer values forgotten. -/
def skeleton : BoolExpr → BoolExpr
  | .true_ => .true_
  | .cmp op col e => .cmp op col (skeletonExpr e)
  | .allOf cs => .allOf (skeletonAll cs)
  | .and a b => .and (skeleton a) (skeleton b)
  | .or a b => .or (skeleton a) (skeleton b)
  | .not a => .not (skeleton a)
  | .subquery col t c e => .subquery col t c (skeleton e)
  | .inVals col vs => .inVals col (vs.map blank)
  | .subqueryJoin col t c js e => .subqueryJoin col t c js (skeleton e)
def skeletonAll : List BoolExpr → List BoolExpr
  | [] => []
  | c :: cs => skeleton c :: skeletonAll cs
def skeletonExpr : Expr → Expr
  | .val v => .val (blank v)
  | .condition c => .condition (skeleton c)
  | .column c => .column c
  | .placeholder => .placeholder
end

/-- The placeholders of a statement in reading order: the indices of the bound values
they stand for. -/
def paramsOf (ts : List Tok) : List Nat :=
  ts.filterMap fun | .param k => some k | _ => none

/-! ### Side conditions for `filter!` -/

mutual
/-- Field, table and key names are names; a field compared with a value, and the key of a
model matched by key, can do without quotes. -/
def AtomNames (res : String → Bool) : FAtom → Prop
  | .cmp _ f _ => PlainName res f
  | .isIn f _ => IsName f
  | .matchesPk f t _ => IsName f ∧ IsName t.table ∧ PlainName res t.pkcol
  | .matches f t e => IsName f ∧ IsName t.table ∧ IsName t.pkcol ∧ FilterNames res e
  | .containsPk m o t _ => IsName m ∧ IsName o.pkcol ∧ IsName t.table ∧ PlainName res t.pkcol
  | .contains m o t e =>
    IsName m ∧ IsName o.pkcol ∧ IsName t.table ∧ IsName t.pkcol ∧ FilterNames res e
def AndNames (res : String → Bool) : FAnd → Prop
  | .one a => AtomNames res a
  | .and l r => AndNames res l ∧ AtomNames res r
def FilterNames (res : String → Bool) : FOr → Prop
  | .one a => AndNames res a
  | .or l r => FilterNames res l ∧ AndNames res r
end

/-- The link table of a `Many` field and the target's table exist and differ, link rows
have the columns `owner` and `has`, and target rows have the key column. -/
def LinkOK (db : Db) (m : String) (t : ObjType) : Prop :=
  db.has t.table = true ∧ db.has m = true ∧ m ≠ t.table ∧
  (∀ r ∈ db.rows t.table, r.has t.pkcol = true) ∧
  (∀ l ∈ db.rows m, l.has "owner" = true ∧ l.has "has" = true)

mutual
/-- The fields a filter mentions exist in the tables they are meant for.  `others` are
the rows joined with `row` in the same `FROM` clause; they must not have a column of the
same name. -/
def AtomScoped (db : Db) (row : Row) (others : List Row) : FAtom → Prop
  | .cmp _ f _ => Visible row others f
  | .isIn f _ => Visible row others f
  | .matchesPk f t _ =>
    Visible row others f ∧ db.has t.table = true ∧ ∀ r ∈ db.rows t.table, r.has t.pkcol = true
  | .matches f t e =>
    Visible row others f ∧ db.has t.table = true ∧
    ∀ r ∈ db.rows t.table, r.has t.pkcol = true ∧ FilterScoped db r [] e
  | .containsPk m o t _ =>
    Visible row others o.pkcol ∧ LinkOK db m t ∧ ∀ l ∈ db.rows m, l.has t.pkcol = false
  | .contains m o t e =>
    Visible row others o.pkcol ∧ LinkOK db m t ∧
    ∀ r ∈ db.rows t.table, ∀ l ∈ db.rows m, FilterScoped db r [l] e
def AndScoped (db : Db) (row : Row) (others : List Row) : FAnd → Prop
  | .one a => AtomScoped db row others a
  | .and l r => AndScoped db row others l ∧ AtomScoped db row others r
def FilterScoped (db : Db) (row : Row) (others : List Row) : FOr → Prop
  | .one a => AndScoped db row others a
  | .or l r => FilterScoped db row others l ∧ AndScoped db row others r
end

mutual
/-- No `is_in` has an empty list. -/
def AtomLists : FAtom → Prop
  | .isIn _ vs => vs ≠ []
  | .matches _ _ e => FilterLists e
  | .contains _ _ _ e => FilterLists e
  | _ => True
def AndLists : FAnd → Prop
  | .one a => AtomLists a
  | .and l r => AndLists l ∧ AtomLists r
def FilterLists : FOr → Prop
  | .one a => AndLists a
  | .or l r => FilterLists l ∧ AndLists r
end

end Butane.Spec
