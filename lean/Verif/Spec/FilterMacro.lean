/-
What the text inside `filter!` says, read as the documentation of the macro explains it
(butane_codegen/src/lib.rs:134-161), and when a database has the tables of the models.
-/
import Verif.Model.FilterMacro
import Verif.Spec.Filter

namespace Butane.Spec
open Butane.Sql Butane.Macro

/-- The value written at this place: a literal, `None`, or a value in braces. -/
def writtenValue : RExpr → Option SqlVal
  | .lit v => some v
  | .path n => if n = "None" then some .null else none
  | .block (.val v) => some v
  | .group e => writtenValue e
  | _ => none

/-- The field named at this place. -/
def nameOf? : RExpr → Option String
  | .path n => some n
  | .group e => nameOf? e
  | _ => none

/-- The comparison an operator stands for. -/
def opMeans : ROp → Option CmpOp
  | .eq => some .eq
  | .ne => some .ne
  | .lt => some .lt
  | .gt => some .gt
  | .le => some .le
  | .ge => some .ge
  | .and => none
  | .or => none
  | .other => none

/-- The expression, as written, is true of `row`, an object of model `T`. -/
def TrueOf (E : MEnv) (rel : Compare) (db : Db) : String → Row → RExpr → Prop
  | T, row, .binary .and l r => TrueOf E rel db T row l ∧ TrueOf E rel db T row r
  | T, row, .binary .or l r => TrueOf E rel db T row l ∨ TrueOf E rel db T row r
  | _, row, .binary op l r =>
    ∃ c f v, opMeans op = some c ∧ nameOf? l = some f ∧ writtenValue r = some v ∧
      CmpHolds rel c (row.val f) v
  | T, row, .call recv m arg _ =>
    ∃ f, nameOf? recv = some f ∧
      ((m = "like" ∧ ∃ v, writtenValue arg = some v ∧ CmpHolds rel .like (row.val f) v) ∨
       (m = "is_in" ∧ ∃ vs, arg = .rust (.list vs) ∧ ∃ v ∈ vs, Equal rel (row.val f) (toDb v)) ∨
       (m = "matches" ∧ ∃ t, E.field T f = some (.fkey t) ∧
        ∃ r ∈ db.rows (E.obj t).table, Equal rel (row.val f) (r.val (E.obj t).pkcol) ∧
          ((∃ v, arg = .lit v ∧ CmpHolds rel .eq (r.val (E.obj t).pkcol) v) ∨
           TrueOf E rel db t r arg)) ∨
       (m = "contains" ∧ ∃ link t, E.field T f = some (.many link t) ∧
        ∃ r ∈ db.rows (E.obj t).table,
          (∃ l ∈ db.rows link, Equal rel (l.val "has") (r.val (E.obj t).pkcol) ∧
            Equal rel (row.val (E.obj T).pkcol) (l.val "owner")) ∧
          ((∃ v, arg = .lit v ∧ CmpHolds rel .eq (r.val (E.obj t).pkcol) v) ∨
           TrueOf E rel db t r arg)))
  | T, row, .group e => TrueOf E rel db T row e
  | _, row, .block (.cond b) => boolValue rel db row b = some true
  | _, _, _ => False

/-- A tree Rust's parser can build: `||` binds less tightly than `&&`, which binds less
tightly than comparisons, which do not associate; `n` is the level of the place
(0 alone or left of `||`, 1 right of `||` or left of `&&`, 2 right of `&&`, 3 beside a
comparison or before a method).  Parentheses, invisible groups and argument lists enclose
any expression. -/
def Parsed : Nat → RExpr → Prop
  | n, .binary .or l r => n = 0 ∧ Parsed 0 l ∧ Parsed 1 r
  | n, .binary .and l r => n ≤ 1 ∧ Parsed 1 l ∧ Parsed 2 r
  | n, .binary _ l r => n ≤ 2 ∧ Parsed 3 l ∧ Parsed 3 r
  | _, .call recv _ arg _ => Parsed 3 recv ∧ Parsed 0 arg
  | _, .call0 recv _ => Parsed 3 recv
  | _, .group e => Parsed 0 e
  | _, .paren e => Parsed 0 e
  | _, _ => True

/-- No conditions spliced in: neither `{ condition }` nor an invisible group. -/
def NoSplices : RExpr → Prop
  | .binary _ l r => NoSplices l ∧ NoSplices r
  | .call recv _ arg _ => NoSplices recv ∧ NoSplices arg
  | .call0 recv _ => NoSplices recv
  | .block (.cond _) => False
  | .group _ => False
  | .paren e => NoSplices e
  | _ => True

/-- No `is_in` has an empty list. -/
def NoEmptyLists : RExpr → Prop
  | .binary _ l r => NoEmptyLists l ∧ NoEmptyLists r
  | .call _ m arg _ => (m = "is_in" → arg ≠ .rust (.list [])) ∧ NoEmptyLists arg
  | .group e => NoEmptyLists e
  | _ => True

/-- Only the operators and methods of the documentation; no parentheses, no negation, no
other Rust code outside `is_in`. -/
def OnlyDocumented : RExpr → Prop
  | .binary op l r => op ≠ .other ∧ OnlyDocumented l ∧ OnlyDocumented r
  | .call _ m arg _ =>
    m = "is_in" ∨ (m = "like" ∨ m = "matches" ∨ m = "contains") ∧ OnlyDocumented arg
  | .call0 _ _ => False
  | .group e => OnlyDocumented e
  | .paren _ => False
  | .rust _ => False
  | _ => True

mutual
/-- The fields of a filter are fields of the model, of the right kind, and its values pass
the type checker. -/
def AtomIn (E : MEnv) : String → FAtom → Prop
  | T, .cmp op f v => isCol (E.field T f) = true ∧ (op = .like ∨ E.cmpOk T f op v = true)
  | T, .isIn f _ => isCol (E.field T f) = true
  | T, .matchesPk f o pk =>
    ∃ t, E.field T f = some (.fkey t) ∧ o = E.obj t ∧ E.keyOk t pk = true
  | T, .matches f o e => ∃ t, E.field T f = some (.fkey t) ∧ o = E.obj t ∧ FilterIn E t e
  | T, .containsPk m o o2 pk =>
    ∃ f t, E.field T f = some (.many m t) ∧ o = E.obj T ∧ o2 = E.obj t ∧ E.keyOk t pk = true
  | T, .contains m o o2 e =>
    ∃ f t, E.field T f = some (.many m t) ∧ o = E.obj T ∧ o2 = E.obj t ∧ FilterIn E t e
def AndIn (E : MEnv) : String → FAnd → Prop
  | T, .one a => AtomIn E T a
  | T, .and l r => AndIn E T l ∧ AtomIn E T r
def FilterIn (E : MEnv) : String → FOr → Prop
  | T, .one a => AndIn E T a
  | T, .or l r => FilterIn E T l ∧ AndIn E T r
end

/-- The names of tables, keys and columns are names; those of columns and keys can do
without quotes. -/
structure EnvNames (res : String → Bool) (E : MEnv) : Prop where
  table : ∀ T, IsName (E.obj T).table ∧ PlainName res (E.obj T).pkcol
  col : ∀ T f, isCol (E.field T f) = true → PlainName res f
  link : ∀ T f m t, E.field T f = some (.many m t) → IsName m

/-- A link table is not the table of the model it links to. -/
def LinksApart (E : MEnv) : Prop :=
  ∀ T f m t, E.field T f = some (.many m t) → m ≠ (E.obj t).table

/-- A row, joined with `others`, with the columns of model `T`. -/
def RowOf (E : MEnv) (T : String) (row : Row) (others : List Row) : Prop :=
  Visible row others (E.obj T).pkcol ∧
  ∀ f, isCol (E.field T f) = true → Visible row others f

/-- The database has the tables of the models referred to, with their columns; the rows of
a link table have `owner` and `has`, and no column of the model they link to. -/
structure DbFor (E : MEnv) (db : Db) : Prop where
  target : ∀ T f t, E.field T f = some (.fkey t) →
    db.has (E.obj t).table = true ∧ ∀ r ∈ db.rows (E.obj t).table, RowOf E t r []
  link : ∀ T f m t, E.field T f = some (.many m t) →
    LinkOK db m (E.obj t) ∧
    ∀ r ∈ db.rows (E.obj t).table, ∀ l ∈ db.rows m, RowOf E t r [l]
  linkKey : ∀ T f m t, E.field T f = some (.many m t) →
    ∀ l ∈ db.rows m, l.has (E.obj t).pkcol = false

end Butane.Spec
