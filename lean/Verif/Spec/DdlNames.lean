/-
Side conditions of the statements about migration SQL: names and printers.
-/
import Verif.Spec.Filter
import Verif.Spec.Ddl
import Verif.Model.Ddl

namespace Butane.Spec
open Butane Butane.Ddl

/-- The words the generator quotes include all words the database does not read as identifiers:
those of the grammar and those `reserved` says. -/
def CoversDdl (kw reserved : String → Bool) : Prop :=
  ∀ w : String, (Sql.upper w.toList ∈ Ddl.grammarWords ∨ reserved w = true) → kw w = true

/-- The type names and other words butane writes without quotes where the database expects an
identifier are not reserved. -/
def typeWords : List String :=
  ["INTEGER", "REAL", "TEXT", "BLOB", "STRICT", "SERIAL", "BIGSERIAL", "BOOLEAN", "BIGINT",
   "DOUBLE", "PRECISION", "DATE", "TIMESTAMP", "BYTEA", "JSONB"]

def TypesFree (reserved : String → Bool) : Prop := ∀ w ∈ typeWords, reserved w = false

/-- A decimal numeral: digits, possibly with a point and more digits. -/
def IsNumeral (s : List Char) : Prop :=
  ∃ c r, s = c :: r ∧ Sql.isDigit c = true ∧ ∀ d ∈ r, Sql.isDigit d = true ∨ d = '.'

end Butane.Spec
