/-
What the text inside `filter!` says of an object stored in PostgreSQL, for the fields of the object
itself (`matches` and `contains` are not described here).
-/
import Verif.Spec.FilterMacro
import Verif.Spec.PgQuery
import Verif.Model.PgErase

namespace Butane.Spec
open Butane Butane.Macro Butane.PgData

/-- The expression, as written, is true of the object. -/
def PgTrueOf (k : PgConn) (m : TModel) (o : ObjVals m.fields) : RExpr → Prop
  | .binary .and l r => PgTrueOf k m o l ∧ PgTrueOf k m o r
  | .binary .or l r => PgTrueOf k m o l ∨ PgTrueOf k m o r
  | .binary op l r =>
    ∃ c f v x, opMeans op = some c ∧ nameOf? l = some f ∧ writtenValue r = some v ∧
      FieldSql m o f x ∧ PgCompares k c x v
  | .call recv meth arg _ =>
    ∃ f, nameOf? recv = some f ∧
      ((meth = "like" ∧ ∃ v x, writtenValue arg = some v ∧ FieldSql m o f x ∧
        PgCompares k .like x v) ∨
       (meth = "is_in" ∧ ∃ vs x, arg = .rust (.list vs) ∧ FieldSql m o f x ∧
        ∃ v ∈ vs, PgRelated k .eq x v))
  | .group e => PgTrueOf k m o e
  | _ => False

/-- The expression does not follow references or `Many` fields. -/
def OwnFields : RExpr → Prop
  | .binary _ l r => OwnFields l ∧ OwnFields r
  | .call _ meth _ _ => meth ≠ "matches" ∧ meth ≠ "contains"
  | _ => True

/-- The model the macro knows as `T` is `m`: fields have the declared names, which need no quotes, and
values pass the type checker only if they are of the type of the field, and can be represented. -/
structure PgEnvFor (E : MEnv) (k : PgConn) (T : String) (m : TModel) : Prop where
  col : ∀ f, isCol (E.field T f) = true → PlainName k.reserved f ∧ ∃ t, HasField m f t
  fits : ∀ f op v, E.cmpOk T f op v = true → ∀ ty, HasField m f ty → PgValFits ty v

/-- `like` is used on texts; the values of `like` and `is_in` are of the type of the field; no list is
empty. -/
def PgCallsOk (m : TModel) : RExpr → Prop
  | .binary _ l r => PgCallsOk m l ∧ PgCallsOk m r
  | .call recv meth arg _ =>
    (meth = "like" → ∀ f v, nameOf? recv = some f → writtenValue arg = some v →
      ∀ ty, HasField m f ty → ty.sqltype = .text ∧ PgValFits ty v) ∧
    (meth = "is_in" → ∀ f vs, nameOf? recv = some f → arg = .rust (.list vs) →
      vs ≠ [] ∧ ∀ ty, HasField m f ty → ∀ v ∈ vs, PgValFits ty v)
  | _ => True

/-- A list of the objects with `P`, each once, in an order the order terms allow; then a page of that
list, read back. -/
def PgLists (k : PgConn) (m : TModel) (P : SqlVal → ObjVals m.fields → Prop) (sort : List Order)
    (limit offset : Option Nat) (res : List (ObjVals m.fields)) : Prop :=
  ∃ all : List (SqlVal × ObjVals m.fields),
    (all.map (·.1)).Nodup ∧
    (∀ id o, (id, o) ∈ all ↔ P id o) ∧
    all.Pairwise (fun p q => PgPrecedes k m sort p.2 q.2) ∧
    AllMatch (fun p o' => EqualFields m.fields p.2 o') (page limit offset all) res

/-- The query has the condition `b` as its filter, and orders by fields of the model; the limit and the
offset are not negative, and at most 126 values are bound (C11, C12). -/
structure PgAsks (m : TModel) (q : Query) (b : BoolExpr) : Prop where
  table : q.table = m.table
  filter : q.filter = some b
  count : (valsBool b).length ≤ 126
  sort : ∀ c ∈ q.sort, ∃ ty, HasField m c.column ty
  limit : NonNeg q.limit
  offset : NonNeg q.offset

open Classical in
/-- The objects of which the expression is not true. -/
noncomputable def PgWithout (k : PgConn) (m : TModel) (pk : TField) (st : Objects m) (e : RExpr) : Objects m :=
  fun id => if ∃ o, PgHas pk st id o ∧ PgTrueOf k m o e then none else st id

/-- Histories of saves and deletions of objects and of `filter!` queries that are deleted. -/
inductive PgProgram (k : PgConn) (m : TModel) (pk : TField) (u0 : PDb) (st0 : Objects m) :
    PDb → Objects m → Prop
  | start : PgProgram k m pk u0 st0 u0 st0
  | objects {u st u' st'} : PgProgram k m pk u0 st0 u st → PgRun k m pk u st u' st' →
      PgProgram k m pk u0 st0 u' st'
  | deleteFilter {u st u'} {E : MEnv} {T : String} {e : RExpr} {b : BoolExpr} {q : Query} {n : Nat} :
      PgProgram k m pk u0 st0 u st → PgEnvFor E k T m → filterMacro E T e = some b → Parsed 0 e →
      NoSplices e → OwnFields e → PgCallsOk m e → PgAsks m q b → k.deleteQuery u q = .ok (u', n) →
      PgProgram k m pk u0 st0 u' (PgWithout k m pk st e)

end Butane.Spec
