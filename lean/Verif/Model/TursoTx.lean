/-
Transactions of the Turso backend, and a connection of it over its whole life.
Models butane_core/src/db/turso.rs:586-604 (`TursoConnection::transaction`), 606-754
(`TursoTransaction`: methods, `commit`, `rollback`, `Drop`).  The session of the database is the
one of Model/Tx.lean.  The engine is taken to be like SQLite: a `COMMIT` that fails (busy, I/O)
leaves the transaction open, `BEGIN` inside a transaction is an error.
-/
import Verif.Model.Tx
namespace Butane

/-- Where an object is dropped (turso.rs:736, `Handle::try_current()`): outside of any tokio
runtime, in a runtime with one thread (where `block_in_place` panics), or in one with several. -/
inductive Runtime where
  | outside | currentThread | multiThread
deriving DecidableEq, Repr

/-- What `drop` does to its caller. -/
inductive DropOut where
  | returned | panicked
deriving DecidableEq, Repr

namespace TursoTx
variable {D : Type}

/-- `execute("COMMIT")` (turso.rs:711-716).  Simplified: an answer cannot be lost, since the
database is embedded; `answerLost` is taken as a failure. -/
def commitSql (s : DbSession D) (r : CommitOut) : DbSession D × TxRes :=
  match s.open_ with
  | none => (s, .dbError)
  | some d =>
    match r with
    | .ok => ({ s with disk := d, open_ := none }, .ok)
    | _ => (s, .dbError)

/-- `execute("ROLLBACK")` (turso.rs:718-722). -/
def rollbackSql (s : DbSession D) : DbSession D × TxRes :=
  match s.open_ with
  | none => (s, .dbError)
  | some _ => ({ s with open_ := none }, .ok)

/-- `Drop for TursoTransaction` (turso.rs:729-754). `committed` is true only when `conn` has been
taken, so it is not kept. -/
def dropTx (rt : Runtime) (t : TxState D) : TxState D × DropOut :=
  if t.live then
    match rt with
    | .outside => (⟨t.session, false⟩, .returned)
    | .currentThread => (⟨t.session, false⟩, .panicked)
    | .multiThread => (⟨(rollbackSql t.session).1, false⟩, .returned)
  else (t, .returned)

/-- One operation on a `TursoTransaction`: every method goes through `get` (turso.rs:625-627,
640-706), `commit` and `rollback` take the connection out first (711-722). -/
def step (rt : Runtime) (t : TxState D) : TxOp D → TxState D × TxRes
  | .exec f =>
    if t.live then
      let r := SqliteTx.statement t.session f
      (⟨r.1, true⟩, r.2)
    else (t, .consumed)
  | .commit c =>
    if t.live then
      let r := commitSql t.session c
      (⟨r.1, false⟩, r.2)
    else (t, .consumed)
  | .rollback =>
    if t.live then
      let r := rollbackSql t.session
      (⟨r.1, false⟩, r.2)
    else (t, .consumed)
  | .drop => ((dropTx rt t).1, .nothing)

/-- Something done with a connection: a statement of its own, or a transaction, whose object is
dropped at the end in `rt`. -/
inductive ConnUse (D : Type) where
  | stmt (f : D → StmtOut D)
  | tx (rt : Runtime) (ops : List (TxOp D))

/-- One use of a connection.  `transaction` (turso.rs:586-591) sends `BEGIN TRANSACTION`, which
fails if a transaction is open. -/
def useConn (s : DbSession D) : ConnUse D → DbSession D × List TxRes
  | .stmt f => let r := SqliteTx.statement s f; (r.1, [r.2])
  | .tx rt ops =>
    match s.open_ with
    | some _ => (s, [.dbError])
    | none =>
      let r := runTx (step rt) ⟨{ s with open_ := some s.disk }, true⟩ (ops ++ [.drop])
      (r.1.session, r.2)

/-- A connection over its life: the session at the end, and what every use returned. -/
def runConn (s : DbSession D) : List (ConnUse D) → DbSession D × List (List TxRes)
  | [] => (s, [])
  | u :: us =>
    let r := useConn s u
    let rest := runConn r.1 us
    (rest.1, r.2 :: rest.2)

/-- Closing a connection: an open transaction is lost; what is left is what is committed. -/
def closeConn (s : DbSession D) : D := s.disk

end TursoTx
end Butane
