/-
What foreign keys and lazily loaded values are supposed to do.
-/
import Verif.Model.FKey

namespace Butane.Spec

/-- All interleavings of threads that share a state: `step s p s' q` is a step of a
thread from `p` to `q` that changes the shared state from `s` to `s'`. -/
inductive Interleaved {ι σ P : Type} [DecidableEq ι] (step : σ → P → σ → P → Prop) (s₀ : σ)
    (p₀ : ι → P) : σ → (ι → P) → Prop
  | start : Interleaved step s₀ p₀ s₀ p₀
  | step {s p s' q} (i : ι) : Interleaved step s₀ p₀ s p → step s (p i) s' q →
      Interleaved step s₀ p₀ s' (fun j => if j = i then q else p j)

/-- The foreign key refers to the object with key `k`. -/
structure KeyIs {T K : Type} (ops : KeyOps T K) (k : K) (f : FKey T) : Prop where
  val : ∀ t, f.val = some t → ops.pkOf t = k
  valpk : ∀ v, f.valpk = some v → ops.fromSql v = .ok k
  some_ : f.val ≠ none ∨ f.valpk ≠ none

/-- Keys that can be stored are read back (C40). -/
def KeyRoundTrip {T K : Type} (ops : KeyOps T K) : Prop :=
  ∀ k v, ops.toSql k = some v → ops.fromSql v = .ok k

/-- `DataObject::get` returns objects with the key asked for (C19). -/
def SoundFetch {T K : Type} (ops : KeyOps T K) (answers : K → Except OpErr T → Prop) : Prop :=
  ∀ k t, answers k (.ok t) → ops.pkOf t = k

/-! ### Histories of one thread -/

inductive FOp (T K : Type) where
  | pk
  | get
  | toSql
  | load (fetch : K → Except OpErr T)

inductive FReply (T K : Type) where
  | pk (r : Ret K)
  | get (r : Ret T)
  | toSql (r : Ret SqlVal)
  | load (r : Ret T)

def fStep {T K : Type} (ops : KeyOps T K) (f : FKey T) : FOp T K → FReply T K × FKey T
  | .pk => (.pk (f.pk ops), f)
  | .get => (.get f.get, f)
  | .toSql => (.toSql (f.toSql ops).1, (f.toSql ops).2)
  | .load fetch => (.load (f.load ops fetch).1, (f.load ops fetch).2)

/-- The replies, oldest first, and the final state. -/
def fRun {T K : Type} (ops : KeyOps T K) : FKey T → List (FOp T K) → List (FReply T K) × FKey T
  | f, [] => ([], f)
  | f, o :: os => ((fStep ops f o).1 :: (fRun ops (fStep ops f o).2 os).1,
      (fRun ops (fStep ops f o).2 os).2)

/-- A reply of a foreign key that refers to `k`: `pk` is `k`, `to_sql` converts back to
`k`, objects have key `k`, and nothing panics. -/
def GoodReply {T K : Type} (ops : KeyOps T K) (k : K) : FReply T K → Prop
  | .pk r => r = .ok k
  | .get r => (∃ t, r = .ok t ∧ ops.pkOf t = k) ∨ r = .err .valueNotLoaded
  | .toSql r => ∃ v, r = .ok v ∧ ops.fromSql v = .ok k
  | .load r => (∃ t, r = .ok t ∧ ops.pkOf t = k) ∨ ∃ e, r = .err e

/-- The reply is the object, if it is a reply of `get` or `load`. -/
def IsObject {T K : Type} (t : T) : FReply T K → Prop
  | .get r => r = .ok t
  | .load r => r = .ok t
  | _ => True

end Butane.Spec
