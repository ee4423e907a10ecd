/-
`ConnectionAsync::with_sync` and poisoned connections.
Models butane_core/src/db/mod.rs:256-285, db/dummy.rs and db/sync_adapter.rs:23-66.
-/
namespace Butane

/-- An async connection: a real one, with its state, or the dummy of db/dummy.rs. -/
inductive AConn (C : Type) where
  | real (c : C)
  | dummy
deriving DecidableEq, Repr

/-- Errors: of the database (or the callback), of starting the adapter, of the task, and
`PoisonedConnection`. -/
inductive WsErr (E : Type) where
  | inner (e : E) | adapter | join | poisoned
deriving DecidableEq, Repr

/-- What a callback does on a connection: the state in which it leaves the connection, and its
result; or it panics, and the connection is dropped while unwinding. -/
inductive Callback (C E T : Type) where
  | returns (c : C) (r : Except (WsErr E) T)
  | panics

/-- What happens around the callback: creating the `SyncAdapter` fails (sync_adapter.rs:24-49), the
task is cancelled before it runs, the caller drops the future while the task is running, or nothing
of this. -/
inductive WsFate where
  | fine | adapterFails | cancelled | futureDropped
deriving DecidableEq, Repr

/-- An operation on a connection, db/dummy.rs:60-139: the dummy answers every one with
`PoisonedConnection`. -/
def AConn.operate {C E R : Type} (conn : AConn C) (op : C → C × Except (WsErr E) R) :
    AConn C × Except (WsErr E) R :=
  match conn with
  | .real c => (.real (op c).1, (op c).2)
  | .dummy => (.dummy, .error .poisoned)

/-- `is_closed`. -/
def AConn.isClosed {C : Type} (closed : C → Bool) : AConn C → Bool
  | .real c => closed c
  | .dummy => true

/-- The blocking task, db/mod.rs:269-274: `none` if it panics or is cancelled (`JoinError`).  `f` is
the callback on a real connection, `fd` its result on a dummy. -/
def wsTask {C E T : Type} (fate : WsFate) (f : C → Callback C E T) (fd : Option (Except (WsErr E) T))
    (conn : AConn C) : Option (Except (WsErr E) (Except (WsErr E) T × AConn C)) :=
  match fate with
  | .cancelled => none
  | .adapterFails => some (.error .adapter)
  | _ =>
    match conn with
    | .real c =>
      match f c with
      | .returns c' r => some (.ok (r, .real c'))
      | .panics => none
    | .dummy =>
      match fd with
      | some r => some (.ok (r, .dummy))
      | none => none

/-- `with_sync`, db/mod.rs:261-285: the connection afterwards, and what the call returns; nothing if
its future is dropped. -/
def withSync {C E T : Type} (fate : WsFate) (f : C → Callback C E T)
    (fd : Option (Except (WsErr E) T)) (self : AConn C) : AConn C × Option (Except (WsErr E) T) :=
  -- `swap(&mut conn2, self)`: `self` is the dummy while the task has the connection
  let conn2 := self
  let self' : AConn C := .dummy
  if fate = .futureDropped then (self', none)
  else
    match wsTask fate f fd conn2 with
    | none => (self', some (.error .join))
    | some (.ok (r, conn)) => (conn, some r)
    | some (.error e) => (self', some (.error e))

/-- A use of a connection by its owner. -/
inductive WsUse (C E T : Type) where
  | operate (op : C → C × Except (WsErr E) T)
  | withSync (fate : WsFate) (f : C → Callback C E T) (fd : Option (Except (WsErr E) T))

/-- One use. -/
def wsStep {C E T : Type} (conn : AConn C) : WsUse C E T → AConn C × Option (Except (WsErr E) T)
  | .operate op => ((conn.operate op).1, some (conn.operate op).2)
  | .withSync fate f fd => Butane.withSync fate f fd conn

/-- A history of uses: the connection and the results. -/
def wsRun {C E T : Type} (conn : AConn C) : List (WsUse C E T) →
    AConn C × List (Option (Except (WsErr E) T))
  | [] => (conn, [])
  | u :: us => ((wsRun (wsStep conn u).1 us).1, (wsStep conn u).2 :: (wsRun (wsStep conn u).1 us).2)

end Butane
