/-
What many-to-many fields are supposed to do: a set of links per owner.
-/
import Verif.Model.Many
import Verif.Spec.Objects

namespace Butane.Spec
open Butane.Sql

/-- The links in a link table: owner and item. -/
def links (db : Db) (table : String) : List (DbVal × DbVal) :=
  (db.rows table).map fun r => (r.val "owner", r.val "has")

/-- The items linked to an owner. -/
def itemsOf (ls : List (DbVal × DbVal)) (k : DbVal) : List DbVal := (ls.filter fun l => l.1 = k).map (·.2)

/-- The links of all the other owners. -/
def othersThan (ls : List (DbVal × DbVal)) (k : DbVal) : List (DbVal × DbVal) := ls.filter fun l => l.1 ≠ k

/-- The connection and the name of a link table fit together: the table's new rows have
the two columns, and the table has no key column (`create_many_table`). -/
structure LinkSession (s : Session) (table : String) : Prop where
  covers : CoversReserved s.kw s.reserved
  name : IsName table
  owner : s.reserved "owner" = false
  columns : ∀ rows, ∀ c ∈ ["owner", "has"], (s.env.template table rows).has c = true
  nokey : ∀ rows, (s.env.template table rows).val (s.env.key table) = .null
  key : s.env.key table ∉ ["owner", "has"]

/-- A link table: it exists, has the two columns, and holds keys of owners and items. -/
structure LinkTable (s : Session) (table : String) (OKey IKey : DbVal → Prop) (db : Db) : Prop where
  exists_ : db.has table = true
  columns : ∀ r ∈ db.rows table, ∀ c ∈ ["owner", "has"], r.has c = true
  keys : ∀ r ∈ db.rows table, OKey (r.val "owner") ∧ IKey (r.val "has")
  nokey : ∀ r ∈ db.rows table, r.val (s.env.key table) = .null

/-- Nothing but one table has changed. -/
def OnlyTable (table : String) (db db' : Db) : Prop :=
  db'.has = db.has ∧ ∀ t, t ≠ table → db'.rows t = db.rows t

/-! ### Histories of one field -/

inductive MOp where
  | add (o : Obj)
  | remove (o : Obj)
  | save
  | delete
  | set (os : List Obj)

/-- Saved links, pending additions and pending removals of one owner. -/
structure LinkState where
  saved : List DbVal
  added : List DbVal
  removed : List DbVal

/-- What an operation is supposed to do; `key` is the key of an item. -/
def LinkState.step (key : Obj → DbVal) (l : LinkState) : MOp → LinkState
  | .add o => { l with added := l.added ++ [key o] }
  | .remove o => { l with removed := l.removed ++ [key o] }
  | .save => ⟨(l.saved ++ l.added).filter (· ∉ l.removed), [], []⟩
  | .delete => ⟨[], [], []⟩
  | .set os => ⟨os.map key, [], []⟩

/-- The program's step, with no statement failing. -/
def manyStep (im : ModelDef) (s : Session) (x : Db × Many) : MOp → Except OpErr (Db × Many)
  | .add o => (x.2.add im o).map fun m => (x.1, m)
  | .remove o => (x.2.remove im o).map fun m => (x.1, m)
  | .save => match x.2.save s (fun _ => false) x.1 with
    | (db, m, none) => .ok (db, m)
    | (_, _, some e) => .error e
  | .delete => match x.2.delete s false x.1 with
    | (db, m, none) => .ok (db, m)
    | (_, _, some e) => .error e
  | .set os => match x.2.set im s (fun _ => false) x.1 os with
    | (db, m, none) => .ok (db, m)
    | (_, _, some e) => .error e

/-- A history of the program. -/
def manyRun (im : ModelDef) (s : Session) : Db × Many → List MOp → Except OpErr (Db × Many)
  | x, [] => .ok x
  | x, op :: ops =>
    match manyStep im s x op with
    | .ok y => manyRun im s y ops
    | .error e => .error e

/-- The objects of an operation have keys. -/
def MOpOK (im : ModelDef) (IKey : DbVal → Prop) (key : Obj → DbVal) : MOp → Prop
  | .add o => ∃ v, im.pkVal o = .ok v ∧ key o = toDb v ∧ IKey (toDb v)
  | .remove o => ∃ v, im.pkVal o = .ok v ∧ key o = toDb v ∧ IKey (toDb v)
  | .set os => ∀ o ∈ os, ∃ v, im.pkVal o = .ok v ∧ key o = toDb v ∧ IKey (toDb v)
  | _ => True

/-- The items an operation asks to remove. -/
def removedBy (key : Obj → DbVal) : MOp → List DbVal
  | .remove o => [key o]
  | _ => []

/-! ### Histories with loads and failures -/

/-- An operation with what the outside world does to it. -/
inductive MCall where
  | add (o : Obj)
  | remove (o : Obj)
  | save (fails : Nat → Bool)
  | delete (fail : Bool)
  | set (fails : Nat → Bool) (os : List Obj)
  | load
  | loadOrdered (d : Dir)
  /-- somebody else changes the database -/
  | elsewhere

/-- How a call ends: an error, values, or just success. -/
inductive MReply where
  | error (e : OpErr)
  | values (vs : List Obj)
  | done

def replyOf : Option OpErr → MReply
  | some e => .error e
  | none => .done

/-- One call.  A panic ends the history, so panicking calls have no step. -/
inductive CallStep (im : ModelDef) (s : Session) : Db → Many → MCall → MReply → Db → Many → Prop
  | add {db m o m'} : m.add im o = .ok m' → CallStep im s db m (.add o) .done db m'
  | add_err {db m o e} : m.add im o = .error e → CallStep im s db m (.add o) (.error e) db m
  | remove {db m o m'} : m.remove im o = .ok m' → CallStep im s db m (.remove o) .done db m'
  | save {db m f db' m' e} : m.save s f db = (db', m', e) →
      CallStep im s db m (.save f) (replyOf e) db' m'
  | delete {db m f db' m' e} : m.delete s f db = (db', m', e) →
      CallStep im s db m (.delete f) (replyOf e) db' m'
  | set {db m f os db' m' e} : m.set im s f db os = (db', m', e) →
      CallStep im s db m (.set f os) (replyOf e) db' m'
  | load {db m vs m'} : m.LoadOut im s db (.ok vs) m' → CallStep im s db m .load (.values vs) db m'
  | load_err {db m e m'} : m.LoadOut im s db (.error e) m' → CallStep im s db m .load (.error e) db m'
  | loadOrdered {db m d vs m'} : m.LoadOrderedOut im s db d (.ok vs) m' →
      CallStep im s db m (.loadOrdered d) (.values vs) db m'
  | loadOrdered_err {db m d e m'} : m.LoadOrderedOut im s db d (.error e) m' →
      CallStep im s db m (.loadOrdered d) (.error e) db m'
  | elsewhere {db m db'} : CallStep im s db m .elsewhere .done db' m

/-- A history, oldest call first. -/
inductive CallRuns (im : ModelDef) (s : Session) :
    Db → Many → List (MCall × MReply) → Db → Many → Prop
  | nil {db m} : CallRuns im s db m [] db m
  | cons {db m c r db' m' h db'' m''} : CallStep im s db m c r db' m' →
      CallRuns im s db' m' h db'' m'' → CallRuns im s db m ((c, r) :: h) db'' m''

/-- The call has changed what is linked: a successful `add` or `remove`. -/
def changes : MCall × MReply → Bool
  | (.add _, .done) => true
  | (.remove _, .done) => true
  | _ => false

/-- After the call the values are known to be these: a load that returned them, a `set`
to them, or a `delete` (also as the first part of a failed `set`). -/
def Knows (vs : List Obj) : MCall × MReply → Prop
  | (.load, .values ws) => ws = vs
  | (.loadOrdered _, .values ws) => ws = vs
  | (.set _ os, .done) => os = vs
  | (.set _ _, .error _) => vs = []
  | (.delete _, .done) => vs = []
  | _ => False

/-! ### Loading -/

/-- The key of an object that has one. -/
def objKey (m : ModelDef) (o : Obj) : Option DbVal :=
  match m.pkVal o with
  | .ok v => some (toDb v)
  | .error _ => none

/-- The list shows exactly the stored objects whose key satisfies `P`, each once. -/
def Shows (m : ModelDef) (st : Store) (os : List Obj) (P : DbVal → Prop) : Prop :=
  (os.map (objKey m)).Nodup ∧
  (∀ o ∈ os, ∃ k o', objKey m o = some k ∧ st k = some o' ∧ SameObj m o o') ∧
  ∀ k, some k ∈ os.map (objKey m) ↔ (∃ o, st k = some o) ∧ P k

end Butane.Spec
