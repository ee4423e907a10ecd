/-
Recording tables and types on disk while several compilers run.
Models butane_core/src/migrations/fsmigrations.rs: `write_contents` (111-125),
`add_modified_table` (180-185), `add_type` (243-266), `db` (276-311) for the directory `current`,
and `MigrationLock` (497-528), one access to the file system at a time.
-/
namespace Butane.Record

/-- How a value is written in a file and read again (serde_json): a parameter of the model.  An
empty file is not a text of JSON. -/
structure Codec (α : Type) where
  print : α → List Char
  parse : List Char → Option α
  parse_print : ∀ a, parse (print a) = some a
  parse_nil : parse [] = none

/-- `SqlTypeMap`, fsmigrations.rs:15, as a list of pairs. -/
abbrev Types (K V : Type) := List (K × V)

/-- `BTreeMap::insert`. -/
def Types.put {K V : Type} [DecidableEq K] (m : Types K V) (k : K) (v : V) : Types K V :=
  (k, v) :: m.filter fun p => p.1 ≠ k

/-- `BTreeMap::get`. -/
def Types.get {K V : Type} [DecidableEq K] : Types K V → K → Option V
  | [], _ => none
  | (k', v) :: m, k => if k' = k then some v else Types.get m k

/-- The files of the directory: whether the directory exists, the lock file's locks
(fs2: any number of shared ones, or one exclusive one, by process), `types.json` and the files
`*.table`. -/
structure Disk where
  dir : Bool
  excl : Option Nat
  shared : List Nat
  types : Option (List Char)
  tables : List (String × List Char)

/-- The text of a table's file. -/
def Disk.table (d : Disk) (n : String) : Option (List Char) :=
  (d.tables.find? fun p => p.1 == n).map (·.2)

/-- Replacing the text of a table's file. -/
def Disk.setTable (d : Disk) (n : String) (t : List Char) : Disk :=
  { d with tables := (n, t) :: d.tables.filter fun p => p.1 ≠ n }

/-- Writing from the start of a file: what was there beyond the end of the new text stays. -/
def overwrite (old new : List Char) : List Char := new ++ old.drop new.length

/-- What a process does: record a type, record a table, or read the schema. -/
inductive Op (K V T : Type) where
  | addType (k : K) (v : V)
  | addTable (n : String) (t : T)
  | readDb

/-- Where a process is.  `l` tells whether it holds the exclusive lock. -/
inductive Pc (K V T : Type) where
  /-- between two operations -/
  | idle
  /-- `add_type`: about to read `types.json` -/
  | typeRead (l : Bool) (k : K) (v : V)
  /-- about to call `ensure_dir` -/
  | typeDir (l : Bool) (m : Types K V)
  /-- about to open the file for writing, which empties it -/
  | typeOpen (l : Bool) (m : Types K V)
  /-- about to write it -/
  | typeWrite (l : Bool) (m : Types K V)
  /-- about to drop the lock -/
  | typeDone (l : Bool)
  /-- `add_modified_table`: about to open the file for writing -/
  | tableOpen (n : String) (t : T)
  | tableWrite (n : String) (t : T)
  /-- `db`: about to lock -/
  | readLock
  /-- about to list the directory -/
  | readList
  /-- about to read the files that are left of the list; `none` is `types.json` -/
  | reading (todo : List (Option String)) (types : Types K V) (tables : List T)
  /-- the last operation returned an error, or the process was killed -/
  | stopped (failed : Bool)

/-- A process: its operations that are left, where it is, and what it has read. -/
structure Proc (K V T : Type) where
  ops : List (Op K V T)
  pc : Pc K V T
  out : List (Types K V × List T)

/-- Everything. -/
structure State (K V T : Type) where
  disk : Disk
  proc : Nat → Proc K V T

variable {K V T : Type} [DecidableEq K]

/-- The process `i` goes on as `p`. -/
def State.next (s : State K V T) (i : Nat) (d : Disk) (p : Proc K V T) : State K V T :=
  ⟨d, fun j => if j = i then p else s.proc j⟩

/-- Closing the lock file: fsmigrations.rs:524-528, or the end of the process. -/
def Disk.release (d : Disk) (i : Nat) : Disk :=
  { d with excl := if d.excl = some i then none else d.excl, shared := d.shared.filter (· ≠ i) }

/-- One step of a process; it stays where it is if it has to wait for a lock or is at the end. -/
def step (ct : Codec (Types K V)) (cb : Codec T) (s : State K V T) (i : Nat) : State K V T :=
  let p := s.proc i
  let d := s.disk
  match p.pc with
  | .idle =>
    match p.ops with
    | [] => s
    | .addType k v :: ops =>
      -- fsmigrations.rs:244: without the directory there is no lock file, and the error is ignored
      if !d.dir then s.next i d ⟨ops, .typeRead false k v, p.out⟩
      else if d.excl.isNone && d.shared.isEmpty then
        s.next i { d with excl := some i } ⟨ops, .typeRead true k v, p.out⟩
      else s
    | .addTable n t :: ops => s.next i { d with dir := true } ⟨ops, .tableOpen n t, p.out⟩
    | .readDb :: ops => s.next i { d with dir := true } ⟨ops, .readLock, p.out⟩
  | .typeRead l k v =>
    -- fsmigrations.rs:247-253
    match d.types with
    | none => s.next i d ⟨p.ops, .typeDir l (Types.put [] k v), p.out⟩
    | some text =>
      match ct.parse text with
      | none => s.next i (d.release i) ⟨p.ops, .stopped true, p.out⟩
      | some m => s.next i d ⟨p.ops, .typeDir l (m.put k v), p.out⟩
  | .typeDir l m => s.next i { d with dir := true } ⟨p.ops, .typeOpen l m, p.out⟩
  | .typeOpen l m => s.next i { d with types := some [] } ⟨p.ops, .typeWrite l m, p.out⟩
  | .typeWrite l m =>
    s.next i { d with types := some (overwrite (d.types.getD []) (ct.print m)) } ⟨p.ops, .typeDone l, p.out⟩
  | .typeDone _ => s.next i (d.release i) ⟨p.ops, .idle, p.out⟩
  | .tableOpen n t => s.next i (d.setTable n []) ⟨p.ops, .tableWrite n t, p.out⟩
  | .tableWrite n t =>
    s.next i (d.setTable n (overwrite ((d.table n).getD []) (cb.print t))) ⟨p.ops, .idle, p.out⟩
  | .readLock =>
    -- fsmigrations.rs:278
    if d.excl.isNone then s.next i { d with shared := i :: d.shared } ⟨p.ops, .readList, p.out⟩ else s
  | .readList =>
    s.next i d
      ⟨p.ops, .reading ((if d.types.isSome then [none] else []) ++ d.tables.map (some ·.1)) [] [], p.out⟩
  | .reading [] m ts => s.next i (d.release i) ⟨p.ops, .idle, p.out ++ [(m, ts)]⟩
  | .reading (none :: todo) _ ts =>
    match d.types.bind ct.parse with
    | none => s.next i (d.release i) ⟨p.ops, .stopped true, p.out⟩
    | some m => s.next i d ⟨p.ops, .reading todo m ts, p.out⟩
  | .reading (some n :: todo) m ts =>
    match (d.table n).bind cb.parse with
    | none => s.next i (d.release i) ⟨p.ops, .stopped true, p.out⟩
    | some t => s.next i d ⟨p.ops, .reading todo m (ts ++ [t]), p.out⟩
  | .stopped _ => s

/-- The process is killed: its locks are gone. -/
def kill (s : State K V T) (i : Nat) : State K V T :=
  s.next i (s.disk.release i) ⟨[], .stopped false, (s.proc i).out⟩

/-- A step of a schedule. -/
inductive Event where
  | step (i : Nat)
  | kill (i : Nat)
deriving DecidableEq, Repr

def act (ct : Codec (Types K V)) (cb : Codec T) (s : State K V T) : Event → State K V T
  | .step i => step ct cb s i
  | .kill i => kill s i

/-- A schedule. -/
def run (ct : Codec (Types K V)) (cb : Codec T) (s : State K V T) : List Event → State K V T
  | [] => s
  | e :: es => run ct cb (act ct cb s e) es

/-- The processes start, on a directory that no process uses. -/
def start (dir : Bool) (types : Option (List Char)) (tables : List (String × List Char))
    (progs : Nat → List (Op K V T)) : State K V T :=
  ⟨⟨dir, none, [], types, tables⟩, fun i => ⟨progs i, .idle, []⟩⟩

end Butane.Record
