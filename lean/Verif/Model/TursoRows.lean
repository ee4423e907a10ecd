/-
The Turso backend: values and rows.
Models butane_core/src/db/turso.rs:398-415,755-940.
-/
import Verif.Model.Turso
import Verif.Model.Rows

namespace Butane.Turso

/-- `sqlval_to_turso`, db/turso.rs:755-780.  `TextCodecs` are here `serde_json` and `chrono` with
`TURSO_DATE_FORMAT` and `TURSO_DT_FORMAT`, db/turso.rs:24-29. -/
def toTurso (c : TextCodecs) : SqlVal → Conv Val
  | .bool b => .ok (.integer (if b then 1 else 0))
  | .int i => .ok (.integer i.toInt64)
  | .bigInt i => .ok (.integer i)
  | .real r => .ok (.real r)
  | .text s => .ok (.text s)
  | .blob b => .ok (.blob b)
  | .json j => .ok (.text (c.printJson j))
  | .date d => .ok (.text (c.printDate d))
  | .timestamp t => .ok (.text (c.printTimestamp t))
  | .null => .ok .null
  | .custom _ _ => .panic

/-- `turso_value_to_sqlval_typed`, db/turso.rs:782-902. -/
def fromTurso (c : TextCodecs) (v : Val) (ty : SqlType) : Conv SqlVal :=
  match v, ty with
  | .null, _ => .ok .null
  | .integer i, .bool => .ok (.bool (decide (i ≠ 0)))
  | _, .bool => .err .backendType
  | .integer i, .int => .ok (.int i.toInt32)
  | _, .int => .err .backendType
  | .integer i, .bigInt => .ok (.bigInt i)
  | _, .bigInt => .err .backendType
  | .real r, .real => .ok (.real r)
  | _, .real => .err .backendType
  | .text t, .text => .ok (.text t)
  | _, .text => .err .backendType
  | .text t, .json => (parsed (c.parseJson t)).bind fun j => .ok (.json j)
  | _, .json => .err .backendType
  | .text t, .date => (parsed (c.parseDate t)).bind fun d => .ok (.date d)
  | _, .date => .err .backendType
  | .text t, .timestamp => (parsed (c.parseTimestamp t)).bind fun d => .ok (.timestamp d)
  | _, .timestamp => .err .backendType
  | .blob b, .blob => .ok (.blob b)
  | _, .blob => .err .backendType
  | _, .custom _ => .err .custom

/-- One cell of a row of the result, db/turso.rs:406-410; reading a cell that does not exist is
an error of the database. -/
def cell (c : TextCodecs) (row : List Val) (i : Nat) (ty : SqlType) : Except RowErr SqlVal :=
  match row[i]? with
  | none => .error .fetch
  | some v =>
    match fromTurso c v ty with
    | .ok v => .ok v
    | .err e => .error (.convert e)
    | .panic => .error .panicked

/-- The values of a row, db/turso.rs:404-411: one for each column of the query. -/
def decodeRow (c : TextCodecs) (columns : List SqlType) (row : List Val) :
    Except RowErr (List SqlVal) :=
  collectRows (columns.zipIdx.map fun x => cell c row x.2 x.1)

/-- The rows of a result, db/turso.rs:397-415: all of them are decoded before the first is
returned.  An element is a row or the error that fetching it gives. -/
def decodeRows (c : TextCodecs) (columns : List SqlType) :
    List (Except RowErr (List Val)) → Except RowErr (List (List SqlVal))
  | [] => .ok []
  | .error e :: _ => .error e
  | .ok row :: rest =>
    match decodeRow c columns row with
    | .error e => .error e
    | .ok vs =>
      match decodeRows c columns rest with
      | .error e => .error e
      | .ok more => .ok (vs :: more)

/-- `TursoRow`, db/turso.rs:916-940. -/
def rowGet (values : List SqlVal) (idx : Nat) (ty : SqlType) : Except RowErr SqlVal :=
  match values[idx]? with
  | none => .error .fetch
  | some v => if v.isCompatible ty true then .ok v else .error .cannotConvert

end Butane.Turso
