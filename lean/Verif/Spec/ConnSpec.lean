/-
How the parameters of a connection string are read, and the documented choice of a backend.
-/
import Verif.Model.ConnSpec

namespace Butane.Spec
open Butane

/-! ### Parameters of a URI (RFC 3986: the query is what follows the first `?` before the
fragment) -/

/-- Cut at the first occurrence of a character. -/
def cut (c : Char) : List Char → List Char × Option (List Char)
  | [] => ([], none)
  | x :: s => if x = c then ([], some s) else let r := cut c s; (x :: r.1, r.2)

/-- The pieces between the occurrences of a character. -/
def pieces (c : Char) : List Char → List (List Char)
  | [] => [[]]
  | x :: s =>
    if x = c then [] :: pieces c s
    else match pieces c s with
      | [] => [[x]]
      | p :: ps => (x :: p) :: ps

/-- `name=value`; a piece without an equals sign is a name with an empty value. -/
def pair (decode : List Char → List Char) (p : List Char) : List Char × List Char :=
  (decode (cut '=' p).1, decode ((cut '=' p).2.getD []))

/-- The parameters of a URI in order.  `decode` undoes percent-encoding. -/
def uriParams (decode : List Char → List Char) (s : List Char) : List (List Char × List Char) :=
  match (cut '?' (cut '#' s).1).2 with
  | none => []
  | some q => ((pieces '&' q).filter (· ≠ [])).map (pair decode)

/-! ### Parameters of a PostgreSQL key/value string (libpq: `key = value` separated by white space,
values may be quoted, a backslash escapes) -/

/-- An unquoted value and the rest. -/
def simpleValue (ws : Char → Bool) : List Char → List Char × List Char
  | [] => ([], [])
  | '\\' :: c :: s => let r := simpleValue ws s; (c :: r.1, r.2)
  | c :: s =>
    if ws c then ([], c :: s)
    else if c = '\\' then ([], [])
    else let r := simpleValue ws s; (c :: r.1, r.2)

/-- A quoted value after its opening quote, and the rest. -/
def quotedValue : List Char → Option (List Char × List Char)
  | [] => none
  | '\\' :: c :: s =>
    match quotedValue s with
    | none => none
    | some r => some (c :: r.1, r.2)
  | c :: s =>
    if c = '\'' then some ([], s)
    else match quotedValue s with
      | none => none
      | some r => some (c :: r.1, r.2)

/-- A value and the rest; an unquoted value is not empty. -/
def kvValue (ws : Char → Bool) (s : List Char) : Option (List Char × List Char) :=
  match s with
  | '\'' :: s => quotedValue s
  | s => if (simpleValue ws s).1 = [] then none else some (simpleValue ws s)

/-- Read at most `fuel` pairs. -/
def kvPairs (ws : Char → Bool) : Nat → List Char → Option (List (List Char × List Char))
  | 0, _ => none
  | fuel + 1, s =>
    match s.dropWhile ws with
    | [] => some []
    | c :: s' =>
      let key := (c :: s').takeWhile fun x => !ws x && x != '='
      if key = [] then none
      else
        match ((c :: s').drop key.length).dropWhile ws with
        | '=' :: r =>
          match kvValue ws (r.dropWhile ws) with
          | none => none
          | some (v, rest) =>
            match kvPairs ws fuel rest with
            | none => none
            | some ps => some ((key, v) :: ps)
        | _ => none

/-- The parameters of a key/value string. -/
def kvParams (ws : Char → Bool) (s : List Char) : Option (List (List Char × List Char)) :=
  kvPairs ws (s.length + 1) s

/-- A string without characters that mean something in a connection string. -/
def PlainParam (ws : Char → Bool) (s : List Char) : Prop :=
  ∀ c ∈ s, ws c = false ∧ c ∉ ['&', '=', '#', '%', '+', '?', '\'', '\\', ':', '/']

/-- Percent-decoding changes only strings with `%` or `+`. -/
def DecodeLaw (decode : List Char → List Char) : Prop :=
  ∀ s, '%' ∉ s → '+' ∉ s → decode s = s

/-! ### The documented choice of a backend (doc comment at db/mod.rs:628-637) -/

/-- The string contains `host=`, `hostaddr=`, `dbname=`, `user=` or `port=`, where white space may
stand before the equals sign. -/
def HasKey (ws : Char → Bool) (s : List Char) : Prop :=
  ∃ a k w b, s = a ++ (k ++ (w ++ '=' :: b)) ∧
    k ∈ ["hostaddr".toList, "host".toList, "dbname".toList, "user".toList, "port".toList] ∧
    ∀ c ∈ w, ws c = true

/-- The documented result for a string: the backend and the string given to it. -/
inductive Documented (url : List Char → UrlParse) (ws : Char → Bool) (s : List Char) :
    List Char → List Char → Prop where
  /-- the scheme `sqlite` becomes `file` -/
  | sqlite (sch rest) : url s = .ok "sqlite".toList → s = sch ++ ':' :: rest →
      ':' ∉ sch → Documented url ws s "sqlite".toList ("file:".toList ++ rest)
  | file : url s = .ok "file".toList → Documented url ws s "sqlite".toList s
  | postgres : url s = .ok "postgres".toList ∨ url s = .ok "postgresql".toList →
      Documented url ws s "pg".toList s
  /-- the scheme `libsql` becomes `turso` -/
  | libsql (sch rest) : url s = .ok "libsql".toList → s = sch ++ ':' :: rest →
      ':' ∉ sch → Documented url ws s "turso".toList ("turso:".toList ++ rest)
  /-- another scheme names its backend -/
  | other (sch) : url s = .ok sch →
      sch ∉ ["sqlite".toList, "file".toList, "postgres".toList, "postgresql".toList, "libsql".toList] →
      Documented url ws s sch s
  /-- PostgreSQL addresses with several hosts are not URLs -/
  | hosts : url s = .invalidPort → "postgres".toList <+: s → Documented url ws s "pg".toList s
  /-- keys and values -/
  | keys : url s = .otherError → HasKey ws s → Documented url ws s "pg".toList s
  /-- a file name -/
  | path : url s = .otherError → ¬ HasKey ws s → Documented url ws s "sqlite".toList s
  | badPort : url s = .invalidPort → ¬ "postgres".toList <+: s → Documented url ws s "sqlite".toList s

end Butane.Spec
