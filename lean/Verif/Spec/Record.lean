/-
What several compilers should leave on disk: the same as one after the other.
-/
import Verif.Model.Record

namespace Butane.Spec
open Butane Butane.Record

/-- The types that are known after recording some in order. -/
def recordedTypes {K V : Type} [DecidableEq K] (known : K → Option V) : List (K × V) → K → Option V
  | [] => known
  | (k, v) :: l => recordedTypes (fun k' => if k' = k then some v else known k') l

/-- A list is made of the lists of the processes, each in its own order. -/
inductive Shuffle {α : Type} : (Nat → List α) → List α → Prop where
  | nil : Shuffle (fun _ => []) []
  | snoc {f : Nat → List α} {l : List α} (i : Nat) (a : α) : Shuffle f l →
      Shuffle (fun j => if j = i then f i ++ [a] else f j) (l ++ [a])

/-- The types that some operations record. -/
def typesOf {K V T : Type} : List (Op K V T) → List (K × V)
  | [] => []
  | .addType k v :: ops => (k, v) :: typesOf ops
  | _ :: ops => typesOf ops

/-- The operations before the schema is read for the `n`th time (from 0). -/
def beforeRead {K V T : Type} : Nat → List (Op K V T) → List (Op K V T)
  | _, [] => []
  | 0, .readDb :: _ => []
  | n + 1, .readDb :: ops => .readDb :: beforeRead n ops
  | n, op :: ops => op :: beforeRead n ops

/-- The process has done all it was to do. -/
def AtEnd {K V T : Type} (p : Proc K V T) : Prop := p.pc = .idle ∧ p.ops = []

/-- An operation failed. -/
def Failed {K V T : Type} (p : Proc K V T) : Prop := p.pc = .stopped true

/-- The process was killed. -/
def Killed {K V T : Type} (p : Proc K V T) : Prop := p.pc = .stopped false

/-- The process has emptied `types.json` and not written it yet. -/
def WritingTypes {K V T : Type} (p : Proc K V T) : Prop := ∃ l m, p.pc = .typeWrite l m

/-- The process has emptied the file of a table and not written it yet. -/
def WritingTable {K V T : Type} (n : String) (p : Proc K V T) : Prop := ∃ t, p.pc = .tableWrite n t

/-- In a schedule no process is killed in a state that satisfies `bad`. -/
def KillsAvoid {K V T : Type} [DecidableEq K] (bad : Proc K V T → Prop) (ct : Codec (Types K V))
    (cb : Codec T) (s : State K V T) : List Event → Prop
  | [] => True
  | e :: es => (∀ i, e = .kill i → ¬bad (s.proc i)) ∧ KillsAvoid bad ct cb (act ct cb s e) es

/-- The types that `types.json` holds; an absent file holds none. -/
def HoldsTypes {K V : Type} [DecidableEq K] (ct : Codec (Types K V)) (file : Option (List Char))
    (known : K → Option V) : Prop :=
  match file with
  | none => known = fun _ => none
  | some text => ∃ m, ct.parse text = some m ∧ m.get = known

end Butane.Spec
