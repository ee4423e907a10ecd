import Verif.Model.Adb
/-
Text form of type keys. Models butane_core/src/migrations/adb.rs:65-119.
-/
namespace Butane

/-- `impl Display for TypeKey`, adb.rs:65-72. -/
def TypeKey.display : TypeKey → String
  | .pk n => "PK(" ++ n ++ ")"
  | .customType n => "CustomType(" ++ n ++ ")"

/-- `impl Serialize for TypeKey`, adb.rs:75-85. -/
def TypeKey.serialize : TypeKey → String
  | .pk s => "PK:" ++ s
  | .customType s => "CT:" ++ s

/-- `String::split_off(at)` on the characters of a string: the part after the first `at`
bytes; `none` is the panic when `at` is beyond the end or not on a character boundary. -/
def splitOffBytes : Nat → List Char → Option (List Char)
  | 0, cs => some cs
  | _ + 1, [] => none
  | n + 1, c :: cs => if c.utf8Size ≤ n + 1 then splitOffBytes (n + 1 - c.utf8Size) cs else none
termination_by structural _ cs => cs

/-- `str::starts_with` on characters. -/
def startsWithStr (s p : String) : Bool := p.toList.isPrefixOf s.toList

/-- `str::ends_with` on characters. -/
def endsWithStr (s p : String) : Bool := p.toList.isSuffixOf s.toList

/-- Outcome of deserializing a type key: a key, an error, or a panic. -/
inductive KeyResult where
  | key (k : TypeKey)
  | err
  | panic
deriving DecidableEq, Repr

/-- `TypeKeyVisitor::visit_str`, adb.rs:102-114: the text is split first, whatever it is. -/
def TypeKey.deserialize (v : String) : KeyResult :=
  match splitOffBytes 3 v.toList with
  | none => .panic
  | some rest =>
    if startsWithStr v "PK:" then .key (.pk (String.ofList rest))
    else if startsWithStr v "CT:" then .key (.customType (String.ofList rest))
    else .err

end Butane
