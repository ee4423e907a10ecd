/-
Connection specifications.
Models butane_core/src/db/mod.rs:537-720.  Strings are lists of characters.
-/
namespace Butane

/-- What `url::Url::parse` answers: the scheme (in lower case), the error `InvalidPort`, or another
error.  The url crate is a parameter of the model. -/
inductive UrlParse where
  | ok (scheme : List Char)
  | invalidPort
  | otherError
deriving DecidableEq, Repr

/-- `ConnectionSpec`, db/mod.rs:544-550. -/
structure ConnSpec where
  backend : List Char
  conn : List Char
deriving DecidableEq, Repr

/-- `contains(pat)` for a string pattern. -/
def hasInfix (pat : List Char) : List Char → Bool
  | [] => pat.isEmpty
  | c :: s => pat.isPrefixOf (c :: s) || hasInfix pat s

/-- `replacen(pat, rep, 1)`. -/
def replaceFirst (pat rep : List Char) : List Char → List Char
  | [] => if pat.isEmpty then rep else []
  | c :: s => if pat.isPrefixOf (c :: s) then rep ++ (c :: s).drop pat.length
    else c :: replaceFirst pat rep s

/-- The alternatives of `PG_KEY_PAIR_RE`, db/mod.rs:538. -/
def kvKeys : List (List Char) :=
  ["hostaddr".toList, "host".toList, "dbname".toList, "user".toList, "port".toList]

/-- Whether the regular expression `PG_KEY_PAIR_RE` matches at the start of a string.  `ws` is the
class `\s`. -/
def kvHere (ws : Char → Bool) (s : List Char) : Bool :=
  kvKeys.any fun k => k.isPrefixOf s && ((s.drop k.length).dropWhile ws).head? == some '='

/-- Whether the regular expression matches anywhere. -/
def kvAnywhere (ws : Char → Bool) : List Char → Bool
  | [] => kvHere ws []
  | c :: s => kvHere ws (c :: s) || kvAnywhere ws s

/-- `is_pg_key_value_pairs`, db/mod.rs:593-602. -/
def isPgKeyValue (ws : Char → Bool) (s : List Char) : Bool :=
  if hasInfix "://".toList s then false else kvAnywhere ws s

/-- `connection_string_uri().is_some()`, db/mod.rs:589-591. -/
def isUri (url : List Char → UrlParse) (s : List Char) : Bool :=
  match url s with
  | .ok _ => true
  | _ => false

/-- `add_parameter`, db/mod.rs:605-625.  `none` is the error `UnknownConnectString`, which leaves
the specification as it was. -/
def addParameter (url : List Char → UrlParse) (ws : Char → Bool) (spec : ConnSpec)
    (name value : List Char) : Option ConnSpec :=
  if spec.backend = "pg".toList ∧ isPgKeyValue ws spec.conn then
    some { spec with conn := spec.conn ++ (' ' :: (name ++ '=' :: value)) }
  else if !isUri url spec.conn then none
  else if spec.conn.contains '?' then
    some { spec with conn := spec.conn ++ ('&' :: (name ++ '=' :: value)) }
  else some { spec with conn := spec.conn ++ ('?' :: (name ++ '=' :: value)) }

/-- `TryFrom<&str> for ConnectionSpec`, db/mod.rs:638-703.  It never fails. -/
def connSpecOf (url : List Char → UrlParse) (ws : Char → Bool) (value : List Char) : ConnSpec :=
  match url value with
  | .ok scheme =>
    if scheme = "sqlite".toList then
      ⟨"sqlite".toList, replaceFirst "sqlite:".toList "file:".toList value⟩
    else if scheme = "file".toList then ⟨"sqlite".toList, value⟩
    else if scheme = "postgres".toList ∨ scheme = "postgresql".toList then ⟨"pg".toList, value⟩
    else if scheme = "libsql".toList then
      ⟨"turso".toList, replaceFirst "libsql:".toList "turso:".toList value⟩
    else ⟨scheme, value⟩
  | .invalidPort =>
    if "postgres".toList.isPrefixOf value then ⟨"pg".toList, value⟩ else ⟨"sqlite".toList, value⟩
  | .otherError =>
    if isPgKeyValue ws value then ⟨"pg".toList, value⟩ else ⟨"sqlite".toList, value⟩

/-- Adding several parameters, as a user does: stop at the first error. -/
def addParameters (url : List Char → UrlParse) (ws : Char → Bool) (spec : ConnSpec) :
    List (List Char × List Char) → Option ConnSpec
  | [] => some spec
  | (n, v) :: ps =>
    match addParameter url ws spec n v with
    | none => none
    | some spec' => addParameters url ws spec' ps

end Butane
