/-
Proofs about several compilers that record types and tables.
-/
import Verif.Spec.Record

namespace Butane.RecordProof
open Butane Butane.Record Butane.Spec

variable {K V T : Type} [DecidableEq K]

theorem put_get (m : Types K V) (k : K) (v : V) :
    (m.put k v).get = fun k' => if k' = k then some v else m.get k' := by
  funext k'
  unfold Types.put
  simp only [Types.get]
  by_cases h : k' = k
  · subst h; simp
  · rw [if_neg (Ne.symm h), if_neg h]
    induction m with
    | nil => rfl
    | cons p m ih =>
      obtain ⟨a, b⟩ := p
      by_cases hp : a = k
      · subst hp
        simp only [List.filter, ne_eq, not_true_eq_false, decide_false, Types.get]
        rw [if_neg (Ne.symm h)]; exact ih
      · simp only [List.filter, ne_eq, hp, not_false_eq_true, decide_true, Types.get]
        rw [ih]

theorem recordedTypes_snoc (f : K → Option V) (l : List (K × V)) (k : K) (v : V) :
    recordedTypes f (l ++ [(k, v)]) = fun k' => if k' = k then some v else recordedTypes f l k' := by
  induction l generalizing f with
  | nil => rfl
  | cons p l ih => exact ih _

theorem typesOf_append (a b : List (Op K V T)) : typesOf (a ++ b) = typesOf a ++ typesOf b := by
  induction a with
  | nil => rfl
  | cons o a ih => cases o <;> simp [typesOf, ih]

/-- How many times the schema is read. -/
def reads : List (Op K V T) → Nat
  | [] => 0
  | .readDb :: ops => reads ops + 1
  | _ :: ops => reads ops

theorem reads_append (a b : List (Op K V T)) : reads (a ++ b) = reads a + reads b := by
  induction a with
  | nil => simp [reads]
  | cons o a ih => cases o <;> simp [reads, ih] <;> omega

theorem beforeRead_append (a b : List (Op K V T)) :
    beforeRead (reads a) (a ++ .readDb :: b) = a := by
  induction a with
  | nil => rfl
  | cons o a ih => cases o <;> simp [reads, beforeRead, ih]

theorem overwrite_nil (t : List Char) : overwrite [] t = t := by simp [overwrite]

theorem overwrite_self (t : List Char) : overwrite t t = t := by simp [overwrite]

/-! ### The invariant for the types -/

/-- The file is whole and holds what was recorded. -/
def Whole (ct : Codec (Types K V)) (known : K → Option V) (d : Disk) (l : List (K × V)) : Prop :=
  HoldsTypes ct d.types (recordedTypes known l)

/-- What is true of a process, given the types it has recorded (`fi`). -/
def PInv (known : K → Option V) (P : List (Op K V T)) (d : Disk) (l : List (K × V)) (i : Nat)
    (p : Proc K V T) (fi : List (K × V)) : Prop :=
  (∃ pre rest, P = pre ++ rest ∧ fi = typesOf pre ∧ p.out.length = reads pre ∧
    match p.pc with
    | .idle => rest = p.ops ∧ d.excl ≠ some i ∧ i ∉ d.shared
    | .typeRead b k v => rest = .addType k v :: p.ops ∧ b = true ∧ d.excl = some i ∧ i ∉ d.shared
    | .typeDir b m => ∃ k v, rest = .addType k v :: p.ops ∧ b = true ∧ d.excl = some i ∧ i ∉ d.shared ∧
        m.get = recordedTypes known (l ++ [(k, v)])
    | .typeOpen b m => ∃ k v, rest = .addType k v :: p.ops ∧ b = true ∧ d.excl = some i ∧ i ∉ d.shared ∧
        m.get = recordedTypes known (l ++ [(k, v)])
    | .typeWrite b m => ∃ k v, rest = .addType k v :: p.ops ∧ b = true ∧ d.excl = some i ∧ i ∉ d.shared ∧
        m.get = recordedTypes known (l ++ [(k, v)]) ∧ d.types = some []
    | .typeDone b => rest = p.ops ∧ b = true ∧ d.excl = some i ∧ i ∉ d.shared
    | .tableOpen n t => rest = .addTable n t :: p.ops ∧ d.excl ≠ some i ∧ i ∉ d.shared
    | .tableWrite n t => rest = .addTable n t :: p.ops ∧ d.excl ≠ some i ∧ i ∉ d.shared
    | .readLock => rest = .readDb :: p.ops ∧ d.excl ≠ some i ∧ i ∉ d.shared
    | .readList => rest = .readDb :: p.ops ∧ d.excl ≠ some i ∧ i ∈ d.shared
    | .reading todo m _ => rest = .readDb :: p.ops ∧ d.excl ≠ some i ∧ i ∈ d.shared ∧
        (none ∈ todo → d.types.isSome = true) ∧ (none ∈ todo ∨ m.get = recordedTypes known l)
    | .stopped b => d.excl ≠ some i ∧ i ∉ d.shared ∧ (b = true → .readDb ∈ P))

/-- What was read. -/
def OutInv (known : K → Option V) (P : Nat → List (Op K V T)) (i : Nat) (out : List (Types K V × List T)) : Prop :=
  ∀ (j : Nat) r, out[j]? = some r → ∃ f l, Shuffle f l ∧ (∀ k, f k <+: typesOf (P k)) ∧
    f i = typesOf (beforeRead j (P i)) ∧ r.1.get = recordedTypes known l

/-- The process has not done anything, and does not begin with a type. -/
def NotYet (p : Proc K V T) : Prop :=
  (p.pc = .idle ∧ ∀ k v ops, p.ops ≠ .addType k v :: ops) ∨ p.pc = .stopped false

structure Inv (ct : Codec (Types K V)) (known : K → Option V) (P : Nat → List (Op K V T))
    (s : State K V T) (f : Nat → List (K × V)) (l : List (K × V)) : Prop where
  dir : s.disk.dir = true ∨ ∀ i, NotYet (s.proc i)
  shuffle : Shuffle f l
  procs : ∀ i, PInv known (P i) s.disk l i (s.proc i) (f i)
  outs : ∀ i, OutInv known P i (s.proc i).out
  whole : (∃ i, WritingTypes (s.proc i)) ∨ Whole ct known s.disk l
  locks : s.disk.excl = none ∨ s.disk.shared = []

theorem PInv.prefix {known : K → Option V} {P : List (Op K V T)} {d : Disk} {l : List (K × V)} {i : Nat}
    {p : Proc K V T} {fi : List (K × V)} (h : PInv known P d l i p fi) : fi <+: typesOf P := by
  obtain ⟨pre, rest, hP, hf, _⟩ := h
  rw [hP, typesOf_append, hf]
  exact ⟨_, rfl⟩

/-- Another process's step does not matter, if it does not take or lose this one's locks, and
touches the types only if this one has no lock. -/
theorem PInv.frame {known : K → Option V} {P : List (Op K V T)} {d d' : Disk} {l l' : List (K × V)} {i : Nat}
    {p : Proc K V T} {fi : List (K × V)} (h : PInv known P d l i p fi)
    (hx : d'.excl = some i ↔ d.excl = some i) (hs : i ∈ d'.shared ↔ i ∈ d.shared)
    (hl : d'.types = d.types ∧ l' = l ∨ d.excl ≠ some i ∧ i ∉ d.shared) : PInv known P d' l' i p fi := by
  obtain ⟨pre, rest, hP, hf, ho, h⟩ := h
  refine ⟨pre, rest, hP, hf, ho, ?_⟩
  rcases hl with ⟨h1, h2⟩ | ⟨h1, h2⟩
  · subst h2
    revert h
    rcases p with ⟨ops, pc, out⟩
    cases pc <;> simp only [h1, hs, hx, ne_eq] <;> exact id
  · revert h
    rcases p with ⟨ops, pc, out⟩
    cases pc <;> simp only [hs, hx, ne_eq] <;> intro h
    all_goals first
      | exact h
      | (exfalso; exact h1 h.2.2.1)
      | (exfalso; obtain ⟨_, _, h⟩ := h; exact h1 h.2.2.1)
      | (exfalso; exact h2 h.2.2.1)

theorem next_self (s : State K V T) (i : Nat) (d : Disk) (p : Proc K V T) : (s.next i d p).proc i = p := by
  simp [State.next]

theorem next_other (s : State K V T) {i j : Nat} (d : Disk) (p : Proc K V T) (h : j ≠ i) :
    (s.next i d p).proc j = s.proc j := by
  simp [State.next, h]

/-- The locks of the others are as before. -/
def SameLocks (i : Nat) (d d' : Disk) : Prop :=
  ∀ j, j ≠ i → (d'.excl = some j ↔ d.excl = some j) ∧ (j ∈ d'.shared ↔ j ∈ d.shared)

theorem SameLocks.refl (i : Nat) (d : Disk) : SameLocks i d d := fun _ _ => ⟨Iff.rfl, Iff.rfl⟩

theorem SameLocks.release (i : Nat) (d : Disk) : SameLocks i d (d.release i) := by
  intro j hj
  refine ⟨?_, by simp [Disk.release, hj]⟩
  simp only [Disk.release]
  by_cases h : d.excl = some i
  · rw [if_pos h, h]; simp [Ne.symm hj]
  · rw [if_neg h]

theorem release_self (i : Nat) (d : Disk) : (d.release i).excl ≠ some i ∧ i ∉ (d.release i).shared := by
  refine ⟨?_, by simp [Disk.release]⟩
  simp only [Disk.release]
  by_cases h : d.excl = some i
  · rw [if_pos h]; simp
  · rw [if_neg h]; exact h

theorem release_locks (i : Nat) {d : Disk} (h : d.excl = none ∨ d.shared = []) :
    (d.release i).excl = none ∨ (d.release i).shared = [] := by
  rcases h with h | h
  · left; simp [Disk.release, h]
  · right; simp [Disk.release, h]

/-- One process has made a step. -/
theorem Inv.next {ct : Codec (Types K V)} {known : K → Option V} {P : Nat → List (Op K V T)}
    {s : State K V T} {f : Nat → List (K × V)} {l : List (K × V)} (h : Inv ct known P s f l)
    {i : Nat} {d' : Disk} {p' : Proc K V T} {f' : Nat → List (K × V)} {l' : List (K × V)}
    (hdir : d'.dir = true ∨ ∀ j, NotYet ((s.next i d' p').proc j)) (hsh : Shuffle f' l') (hf : ∀ j, j ≠ i → f' j = f j)
    (hp : PInv known (P i) d' l' i p' (f' i)) (hlk : SameLocks i s.disk d')
    (htypes : d'.types = s.disk.types ∧ l' = l ∨ s.disk.excl = some i)
    (hout : OutInv known P i p'.out)
    (hw : WritingTypes p' ∨ (WritingTypes (s.proc i) → Whole ct known d' l') ∧
      (¬WritingTypes (s.proc i) → Whole ct known s.disk l → Whole ct known d' l'))
    (hlocks : d'.excl = none ∨ d'.shared = []) :
    Inv ct known P (s.next i d' p') f' l' := by
  refine ⟨hdir, hsh, ?_, ?_, ?_, hlocks⟩
  · intro j
    by_cases hj : j = i
    · subst hj; rw [next_self]; exact hp
    · rw [next_other s d' p' hj, hf j hj]
      refine (h.procs j).frame (hlk j hj).1 (hlk j hj).2 ?_
      rcases htypes with h1 | h1
      · exact .inl h1
      · right
        refine ⟨?_, ?_⟩
        · rw [h1]; intro hc; exact hj (Option.some.inj hc).symm
        · rcases h.locks with h2 | h2
          · rw [h2] at h1; cases h1
          · rw [h2]; simp
  · intro j
    by_cases hj : j = i
    · subst hj; rw [next_self]; exact hout
    · rw [next_other s d' p' hj]; exact h.outs j
  · rcases hw with hw | ⟨hw1, hw2⟩
    · left; exact ⟨i, by rw [next_self]; exact hw⟩
    · by_cases hi : WritingTypes (s.proc i)
      · right; exact hw1 hi
      · rcases h.whole with ⟨j, hj⟩ | hwh
        · left
          refine ⟨j, ?_⟩
          have : j ≠ i := by intro hc; subst hc; exact hi hj
          rw [next_other s d' p' this]; exact hj
        · right; exact hw2 hi hwh

/-- A process at `typeWrite` is the only one that touches the types. -/
theorem Inv.whole_of_reader {ct : Codec (Types K V)} {known : K → Option V} {P : Nat → List (Op K V T)}
    {s : State K V T} {f : Nat → List (K × V)} {l : List (K × V)} (h : Inv ct known P s f l)
    {i : Nat} (hi : i ∈ s.disk.shared ∨ s.disk.excl = some i) (hn : ¬WritingTypes (s.proc i)) :
    Whole ct known s.disk l := by
  rcases h.whole with ⟨j, b, m, hj⟩ | hw
  · exfalso
    obtain ⟨pre, rest, _, _, _, hp⟩ := h.procs j
    rw [hj] at hp
    obtain ⟨k, v, _, _, hx, _⟩ := hp
    rcases hi with hi | hi
    · rcases h.locks with h2 | h2
      · rw [h2] at hx; cases hx
      · rw [h2] at hi; simp at hi
    · rw [hx] at hi
      have : j = i := Option.some.inj hi
      subst this
      exact hn ⟨b, m, hj⟩
  · exact hw

end Butane.RecordProof
