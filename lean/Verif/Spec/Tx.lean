/-
What a transaction is supposed to do.
-/
import Verif.Model.Tx

namespace Butane.Spec
open Butane
variable {D : Type}

/-- The contents after statements, in order. -/
def effects (d : D) : List (D → StmtOut D) → D
  | [] => d
  | f :: fs =>
    match f d with
    | .ok d' => effects d' fs
    | .failed d' => effects d' fs
    | .rolledBack => effects d fs

/-- Nothing happens to the transaction in these operations but statements `fs`. -/
def OnlyStatements (ops : List (TxOp D)) (fs : List (D → StmtOut D)) : Prop :=
  ops = fs.map .exec

/-- The operations begin with statements `fs`, after which the transaction is finished by `fin`. -/
def FinishedBy (ops : List (TxOp D)) (fs : List (D → StmtOut D)) (fin : TxOp D)
    (later : List (TxOp D)) : Prop :=
  ops = fs.map .exec ++ fin :: later ∧ ∀ f, fin ≠ .exec f

/-- No statement makes SQLite roll back by itself. -/
def NoAutoRollback (ops : List (TxOp D)) : Prop :=
  ∀ f, .exec f ∈ ops → ∀ d, ∀ _ : f d = .rolledBack, False

/-- All statements succeed. -/
def AllSucceed (d : D) : List (D → StmtOut D) → Prop
  | [] => True
  | f :: fs => ∃ d', f d = .ok d' ∧ AllSucceed d' fs

/-- What every use after the end returns. -/
def afterEnd : TxOp D → TxRes
  | .drop => .nothing
  | _ => .consumed

/-- What a transaction should do to the committed contents. -/
def committed (d : D) : List (TxOp D) → D
  | ops => go d d ops
where
  /-- `go d₀ d ops`: the transaction began with `d₀` and has come to `d`. -/
  go (d₀ d : D) : List (TxOp D) → D
    | [] => d₀
    | .exec f :: ops => go d₀ (effects d [f]) ops
    | .commit .ok :: _ => d
    | .commit _ :: _ => d₀
    | .rollback :: _ => d₀
    | .drop :: _ => d₀

/-- The same for several transactions in a row. -/
def committedAll (d : D) : List (List (TxOp D)) → D
  | [] => d
  | ops :: rest => committedAll (committed d ops) rest

end Butane.Spec
