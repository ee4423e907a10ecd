/-
The `filter!` macro on the syntax tree of its argument.
Models butane_codegen/src/filter.rs together with the type checking of the code it
produces.
-/
import Verif.Model.Query

namespace Butane
namespace Macro

/-- What a Rust expression of the surrounding function evaluates to: a value (after
`to_sql`), a vector of values, or a condition. -/
inductive RVal where
  | val (v : SqlVal)
  | list (vs : List SqlVal)
  | cond (b : BoolExpr)

/-- `syn::BinOp`: the operators `handle_bin_op` distinguishes, filter.rs:44-53. -/
inductive ROp where
  | eq | ne | lt | gt | le | ge | and | or | other
deriving DecidableEq

/-- `syn::Expr` as far as `handle_expr` distinguishes it, filter.rs:11-30.  `call0` is a
method call without arguments, `call` one with `more` arguments after the first; `group`
is the invisible group around an expression a `macro_rules!` macro passes on; `paren` an
expression in parentheses; `rust` any other expression (unary operators, macro calls,
function calls, ...), given by its value.  A path is its identifier.  The argument of
`is_in` is Rust code the macro does not look at (filter.rs:76-79), so it is `rust` here
whatever its syntax.  A `{ .. }` block holds one expression. -/
inductive RExpr where
  | binary (op : ROp) (l r : RExpr)
  | call (recv : RExpr) (method : String) (arg : RExpr) (more : Nat)
  | call0 (recv : RExpr) (method : String)
  | path (name : String)
  | lit (v : SqlVal)
  | block (v : RVal)
  | group (e : RExpr)
  | paren (e : RExpr)
  | rust (v : RVal)

/-- The kinds of method the generated `XFields` type has for a field
(butane_core/src/codegen/dbobj.rs:232-287): `FieldExpr<T>`, `FieldExpr<ForeignKey<T>>`, or
`ManyFieldExpr<O, T>` with its link table. -/
inductive FKind where
  | plain
  | fkey (target : String)
  | many (link : String) (target : String)
deriving DecidableEq

/-- The model types in scope: their tables and keys, their fields, and which comparisons
and key values pass Rust's type checker (the bounds of query/fieldexpr.rs:11-23,88,133). -/
structure MEnv where
  obj : String → ObjType
  field : String → String → Option FKind
  cmpOk : String → String → CmpOp → SqlVal → Bool
  keyOk : String → SqlVal → Bool

/-- The Rust value generated for a subexpression, by type. -/
inductive GVal where
  | cond (b : BoolExpr)
  | field (name : String)
  | many
  | val (v : SqlVal)
  | list (vs : List SqlVal)

/-- `fieldexpr` (filter.rs:127-134) makes an identifier from the tokens of a receiver,
which panics (a compile error) unless they are one identifier.  Invisible groups print
nothing. -/
def identOf : RExpr → Option String
  | .path n => some n
  | .group e => identOf e
  | _ => none

/-- `Expr::Lit`, tested in filter.rs:83,96. -/
def litOf : RExpr → Option SqlVal
  | .lit v => some v
  | _ => none

/-- The value of Rust code spliced in unread, filter.rs:78. -/
def rustList : RExpr → Option (List SqlVal)
  | .rust (.list vs) => some vs
  | _ => none

/-- `Expr::Binary` as the argument of `like`, filter.rs:110. -/
def isBinary : RExpr → Bool
  | .binary .. => true
  | _ => false

/-- The comparison method an operator becomes, filter.rs:45-50. -/
def ROp.cmp? : ROp → Option CmpOp
  | .eq => some .eq
  | .ne => some .ne
  | .lt => some .lt
  | .gt => some .gt
  | .le => some .le
  | .ge => some .ge
  | _ => none

/-- `handle_bin_op`, filter.rs:41-55, and the types of `BoolExpr::And`, `BoolExpr::Or` and
the methods of `FieldExpr` (query/fieldexpr.rs:57-62); `none` is a compile error. -/
def binOp (E : MEnv) (T : String) (op : ROp) (l r : Option GVal) : Option GVal :=
  match op, l, r with
  | .and, some (.cond a), some (.cond b) => some (.cond (.and a b))
  | .or, some (.cond a), some (.cond b) => some (.cond (.or a b))
  | op, some (.field f), some (.val v) =>
    match op.cmp? with
    | some c => if E.cmpOk T f c v then some (.cond (fieldCmp c f v)) else none
    | none => none
  | _, _, _ => none

/-- `handle_matches` with `fieldexpr` applied, filter.rs:81-92: `q` is the argument
handled for the fields of the target. -/
def matchesOp (E : MEnv) (f t : String) (lit : Option SqlVal) (q : Option GVal) : Option GVal :=
  match lit with
  | some v => if E.keyOk t v then some (.cond (subfilterpk f (E.obj t) v)) else none
  | none =>
    match q with
    | some (.cond b) => some (.cond (subfilter f (E.obj t) b))
    | _ => none

/-- `handle_contains` with `fieldexpr` applied, filter.rs:94-105. -/
def containsOp (E : MEnv) (T link t : String) (lit : Option SqlVal) (q : Option GVal) :
    Option GVal :=
  match lit with
  | some v =>
    if E.keyOk t v then some (.cond (manyContainspk link (E.obj T) (E.obj t) v)) else none
  | none =>
    match q with
    | some (.cond b) => some (.cond (manyContains link (E.obj T) (E.obj t) b))
    | _ => none

/-- Fields with a `FieldExpr`, which has `like`, `is_in` and the comparisons. -/
def isCol : Option FKind → Bool
  | some .plain => true
  | some (.fkey _) => true
  | _ => false

/-- `handle_like` with `fieldexpr` applied, filter.rs:107-118; a function call as argument
is an unsupported expression anyway. -/
def likeOp (f : String) (binary : Bool) (q : Option GVal) : Option GVal :=
  if binary then none
  else match q with
    | some (.val v) => some (.cond (fieldCmp .like f v))
    | _ => none

/-- `handle_expr` (filter.rs:11-30) and `handle_call` (filter.rs:57-74) for the model type
`T`, with the types of the generated code; `none` is a compile error. -/
def handle (E : MEnv) : String → RExpr → Option GVal
  | T, .binary op l r => binOp E T op (handle E T l) (handle E T r)
  | T, .call recv m arg more =>
    if (m = "contains" ∨ m = "matches") ∧ more ≠ 0 then none
    else match identOf recv with
      | none => none
      | some f =>
        if m = "matches" then
          match E.field T f with
          | some (.fkey t) => matchesOp E f t (litOf arg) (handle E t arg)
          | _ => none
        else if m = "contains" then
          match E.field T f with
          | some (.many link t) => containsOp E T link t (litOf arg) (handle E t arg)
          | _ => none
        else if m = "like" then
          if isCol (E.field T f) then likeOp f (isBinary arg) (handle E T arg) else none
        else if m = "is_in" then
          if isCol (E.field T f) then
            match rustList arg with
            | some vs => some (.cond (fieldIsIn f vs))
            | none => none
          else none
        else none
  | _, .call0 _ _ => none
  | T, .path n =>
    if n = "None" then some (.val .null)
    else match E.field T n with
      | some (.many _ _) => some .many
      | some _ => some (.field n)
      | none => none
  | _, .lit v => some (.val v)
  | _, .block (.val v) => some (.val v)
  | _, .block (.list vs) => some (.list vs)
  | _, .block (.cond b) => some (.cond b)
  | T, .group e => handle E T e
  | _, .paren _ => none
  | _, .rust _ => none

/-- `filter!(T, e)`: `for_expr`, filter.rs:7-9, used where a `BoolExpr` is expected. -/
def filterMacro (E : MEnv) (T : String) (e : RExpr) : Option BoolExpr :=
  match handle E T e with
  | some (.cond b) => some b
  | _ => none

end Macro
end Butane
