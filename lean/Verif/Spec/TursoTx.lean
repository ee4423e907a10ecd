/-
What a connection is supposed to leave behind.
-/
import Verif.Spec.Tx
import Verif.Model.TursoTx

namespace Butane.Spec
open Butane Butane.TursoTx
variable {D : Type}

/-- The contents a life of a connection should leave: every statement of its own, and the
committed transactions. -/
def lasting (d : D) : List (ConnUse D) → D
  | [] => d
  | .stmt f :: us => lasting (effects d [f]) us
  | .tx _ ops :: us => lasting (committed d ops) us

/-- No commit fails. -/
def CommitsWork (ops : List (TxOp D)) : Prop := ∀ r, .commit r ∈ ops → r = .ok

/-- The transaction is committed or rolled back before the object is dropped. -/
def Finished (ops : List (TxOp D)) : Prop :=
  ∃ fs fin later, FinishedBy ops fs fin later ∧ (fin = .rollback ∨ ∃ r, fin = .commit r)

/-- A use in which no commit fails, the engine does not roll back by itself, and the object of a
transaction is dropped on a runtime with several threads unless the transaction is finished. -/
def Orderly : ConnUse D → Prop
  | .stmt f => ∀ d, ∀ _ : f d = .rolledBack, False
  | .tx rt ops => NoAutoRollback ops ∧ CommitsWork ops ∧
      (rt = .multiThread ∨ (Finished ops))

/-- The engine does not roll back by itself. -/
def Quiet : ConnUse D → Prop
  | .stmt f => ∀ d, ∀ _ : f d = .rolledBack, False
  | .tx _ _ => True

end Butane.Spec
