/-
The source text that embeds migrations in a program. Models butane_cli/src/lib.rs, `embed`.
-/
namespace Butane

/-- The literal in the generated source: `r#\"{json}\"#`, butane_cli/src/lib.rs:374-384.
Texts are lists of characters. -/
def embedLiteral (json : List Char) : List Char := ['r', '#', '"'] ++ json ++ ['"', '#']

/-- The Rust compiler reading the rest of a raw string literal with one `#`: it ends at the
first `"#`.  The result is its value and the text after it.  (From the Rust reference; not
code of this repository.) -/
def readRaw : List Char → Option (List Char × List Char)
  | [] => none
  | c :: rest =>
    if c = '"' ∧ rest.head? = some '#' then some ([], rest.tail)
    else match readRaw rest with
      | none => none
      | some (v, after) => some (c :: v, after)

/-- Reading a literal that begins with `r#"`. -/
def readLiteral : List Char → Option (List Char × List Char)
  | 'r' :: '#' :: '"' :: rest => readRaw rest
  | _ => none

/-- One character of a string in JSON, as serde_json writes it (control characters other
than these are written `\u00..`; here they are dropped). -/
def jsonChar (c : Char) : List Char :=
  if c = '"' then ['\\', '"']
  else if c = '\\' then ['\\', '\\']
  else if c = '\n' then ['\\', 'n']
  else if c = '\r' then ['\\', 'r']
  else if c = '\t' then ['\\', 't']
  else if c.toNat < 32 then []
  else [c]

/-- A string in JSON, as serde_json writes it. -/
def jsonString (s : List Char) : List Char := ['"'] ++ s.flatMap jsonChar ++ ['"']

end Butane
