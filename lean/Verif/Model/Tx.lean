/-
Transactions.
Models butane_core/src/db/sqlite.rs:211-215,399-499 (`SqliteTransaction`), db/pg.rs:358-410
(`PgTransaction`) and db/mod.rs:346-390 (`Transaction`), on top of a model of what rusqlite and
tokio-postgres do with a session of the database.
-/
namespace Butane

/-- A session of a database whose contents are a `D`: what is committed, which other connections
see; the contents inside the open transaction; whether the open transaction is aborted
(PostgreSQL). -/
structure DbSession (D : Type) where
  disk : D
  open_ : Option D
  aborted : Bool
deriving DecidableEq, Repr

/-- What executing statements does to the contents: success; an error after which the contents are
`d` (an `execute` of several statements may fail in the middle); an error for which SQLite rolls
back the transaction by itself (disk full, out of memory, interrupted, `ON CONFLICT ROLLBACK`). -/
inductive StmtOut (D : Type) where
  | ok (d : D)
  | failed (d : D)
  | rolledBack

/-- What `COMMIT` does: success, an error without effect (busy, a deferred constraint), or the
connection breaks after the server has committed. -/
inductive CommitOut where
  | ok | failed | answerLost
deriving DecidableEq, Repr

/-- An operation on a transaction object. -/
inductive TxOp (D : Type) where
  | exec (f : D → StmtOut D)
  | commit (r : CommitOut)
  | rollback
  | drop

/-- What an operation returns: `ok`, an error of the database, the error "transaction has already
been consumed", or nothing (`drop`). -/
inductive TxRes where
  | ok | dbError | consumed | nothing
deriving DecidableEq, Repr

/-- A transaction object: `trans: Option<_>` is `live`; and the session it belongs to. -/
structure TxState (D : Type) where
  session : DbSession D
  live : Bool

/-- `transaction()` on a connection without open transaction (sqlite.rs:211-215; pg.rs): `BEGIN`. -/
def beginTx {D : Type} (d : D) : TxState D := ⟨⟨d, some d, false⟩, true⟩

namespace SqliteTx
variable {D : Type}

/-- A statement on an SQLite connection.  Without open transaction every statement commits by
itself. -/
def statement (s : DbSession D) (f : D → StmtOut D) : DbSession D × TxRes :=
  match s.open_ with
  | some d =>
    match f d with
    | .ok d' => ({ s with open_ := some d' }, .ok)
    | .failed d' => ({ s with open_ := some d' }, .dbError)
    | .rolledBack => ({ s with open_ := none }, .dbError)
  | none =>
    match f s.disk with
    | .ok d' => ({ s with disk := d' }, .ok)
    | .failed d' => ({ s with disk := d' }, .dbError)
    | .rolledBack => (s, .dbError)

/-- `rusqlite::Transaction::commit`: `COMMIT`; if it fails, dropping the transaction rolls back.
`COMMIT` without open transaction is an error. -/
def commitTrans (s : DbSession D) (r : CommitOut) : DbSession D × TxRes :=
  match s.open_ with
  | none => (s, .dbError)
  | some d =>
    match r with
    | .ok => ({ s with disk := d, open_ := none }, .ok)
    | _ => ({ s with open_ := none }, .dbError)

/-- `rusqlite::Transaction::rollback`.  `ROLLBACK` of an open transaction succeeds. -/
def rollbackTrans (s : DbSession D) : DbSession D × TxRes :=
  match s.open_ with
  | none => (s, .dbError)
  | some _ => ({ s with open_ := none }, .ok)

/-- One operation on a `SqliteTransaction`: the connection methods (sqlite.rs:408-482) go through
`get`, `commit` and `rollback` (484-495) take the rusqlite transaction out; dropping it rolls
back. -/
def step (t : TxState D) : TxOp D → TxState D × TxRes
  | .exec f =>
    if t.live then
      let r := statement t.session f
      (⟨r.1, true⟩, r.2)
    else (t, .consumed)
  | .commit c =>
    if t.live then
      let r := commitTrans t.session c
      (⟨r.1, false⟩, r.2)
    else (t, .consumed)
  | .rollback =>
    if t.live then
      let r := rollbackTrans t.session
      (⟨r.1, false⟩, r.2)
    else (t, .consumed)
  | .drop =>
    if t.live then (⟨(rollbackTrans t.session).1, false⟩, .nothing) else (t, .nothing)

end SqliteTx

namespace PgTx
variable {D : Type}

/-- A statement on a PostgreSQL connection.  After an error the transaction is aborted: nothing
more is executed. -/
def statement (s : DbSession D) (f : D → StmtOut D) : DbSession D × TxRes :=
  match s.open_ with
  | some d =>
    if s.aborted then (s, .dbError)
    else
      match f d with
      | .ok d' => ({ s with open_ := some d' }, .ok)
      | _ => ({ s with aborted := true }, .dbError)
  | none =>
    match f s.disk with
    | .ok d' => ({ s with disk := d' }, .ok)
    | _ => (s, .dbError)

/-- `tokio_postgres::Transaction::commit`: `COMMIT`.  The server answers `COMMIT` of an aborted
transaction by rolling back, and reports success. -/
def commitTrans (s : DbSession D) (r : CommitOut) : DbSession D × TxRes :=
  match s.open_ with
  | none => (s, .ok)
  | some d =>
    if s.aborted then (⟨s.disk, none, false⟩, .ok)
    else
      match r with
      | .ok => (⟨d, none, false⟩, .ok)
      | .failed => (⟨s.disk, none, false⟩, .dbError)
      | .answerLost => (⟨d, none, false⟩, .dbError)

/-- `tokio_postgres::Transaction::rollback`, and what dropping it sends. -/
def rollbackTrans (s : DbSession D) : DbSession D × TxRes := (⟨s.disk, none, false⟩, .ok)

/-- One operation on a `PgTransaction`: pg.rs:358-410. -/
def step (t : TxState D) : TxOp D → TxState D × TxRes
  | .exec f =>
    if t.live then
      let r := statement t.session f
      (⟨r.1, true⟩, r.2)
    else (t, .consumed)
  | .commit c =>
    if t.live then
      let r := commitTrans t.session c
      (⟨r.1, false⟩, r.2)
    else (t, .consumed)
  | .rollback =>
    if t.live then
      let r := rollbackTrans t.session
      (⟨r.1, false⟩, r.2)
    else (t, .consumed)
  | .drop =>
    if t.live then (⟨(rollbackTrans t.session).1, false⟩, .nothing) else (t, .nothing)

end PgTx

/-- A sequence of operations: the final state and what they returned. -/
def runTx {D : Type} (step : TxState D → TxOp D → TxState D × TxRes) (t : TxState D) :
    List (TxOp D) → TxState D × List TxRes
  | [] => (t, [])
  | op :: ops =>
    let r := step t op
    let rest := runTx step r.1 ops
    (rest.1, r.2 :: rest.2)

/-- Several transactions on one connection, one after the other, as the borrow checker enforces;
each object is dropped in the end. -/
def runTxs {D : Type} (step : TxState D → TxOp D → TxState D × TxRes) (d : D) :
    List (List (TxOp D)) → D
  | [] => d
  | ops :: rest => runTxs step (runTx step (beginTx d) (ops ++ [.drop])).1.session.disk rest

end Butane
