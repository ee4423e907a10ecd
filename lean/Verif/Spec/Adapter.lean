/-
What the callers of the async adapter should see: a serial execution.
-/
import Verif.Model.Adapter

namespace Butane.Spec
open Butane Butane.Adapter
variable {σ R : Type}

/-- The calls, in the order in which they were made. -/
def submissions : List (Event σ R) → List (Op σ R)
  | [] => []
  | .submit op :: es => op :: submissions es
  | _ :: es => submissions es

/-- Executing calls one after the other on one thread, until one panics: the connection, the
results, and whether one has panicked. -/
def serial (c : σ) : List (Op σ R) → σ × List R × Bool
  | [] => (c, [], false)
  | op :: ops =>
    match op.run c with
    | (c', some r) => ((serial c' ops).1, r :: (serial c' ops).2.1, (serial c' ops).2.2)
    | (c', none) => (c', [], true)

/-- What a caller may have when the results so far are `rs`: its own result, once its call has been
executed; an error if a call before has panicked, or its own; nothing yet otherwise. -/
def OwnResult (rs : List R) (panicked : Bool) (i : Nat) (slot : Slot R) : Prop :=
  slot = .gaveUp ∨
  match rs[i]? with
  | some r => slot = .ready r ∨ slot = .got r
  | none => if panicked then slot = .dropped ∨ slot = .gotError else slot = .waiting

/-- No caller gives up while its call has not been executed. -/
def Patient (s : State σ R) : List (Event σ R) → Prop
  | [] => True
  | e :: es => (∀ i, e = .giveUp i → s.slots[i]? ≠ some .waiting) ∧ Patient (step s e) es

end Butane.Spec
