/-
Histories of calls on a query result.
-/
import Verif.Model.Rows

namespace Butane.Spec
open Butane

/-- A call of a user. -/
inductive RowCall where
  | next | current
deriving DecidableEq, Repr

/-- What the calls return, in order. -/
def rowResults {T : Type} : VecRows T → List RowCall → List (RowCall × Option T)
  | _, [] => []
  | r, .next :: cs => (.next, r.next.1) :: rowResults r.next.2 cs
  | r, .current :: cs => (.current, r.current) :: rowResults r cs

/-- What `next` should return: each row once, in order, then nothing. -/
def expectedNext {T : Type} (rows : List T) (k : Nat) : Option T := rows[k]?

/-- The number of calls of `next`. -/
def nexts (cs : List RowCall) : Nat := (cs.filter (· = .next)).length

end Butane.Spec
