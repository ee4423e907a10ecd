/-
C75: several compilers that record types and tables leave what one after the other would leave.
-/
import Verif.Proofs.RecordTables

namespace Butane.Props
open Butane Butane.Record Butane.Spec Butane.RecordProof

variable {K V T : Type} [DecidableEq K]

/-- C75. Any number of processes record types and tables and read the schema, in any order of their
accesses to the files, and any of them may be killed.  Except in the moment in which a process has emptied
`types.json`, the file holds the types that were there before and those that the processes have
recorded, as if they had been recorded one after the other: in an order in which each process's types
are in the order of its source.  A process that has finished has recorded all its types.

Partial: the directory exists, or no process begins with a type (`types_lost_violated`); and no process
is killed in the moment in which it has emptied the file (`killed_violated`). -/
theorem types_serial_partial (ct : Codec (Types K V)) (cb : Codec T) (known : K → Option V) (dir : Bool)
    (types : Option (List Char)) (tables : List (String × List Char)) (progs : Nat → List (Op K V T))
    (es : List Event) (h : HoldsTypes ct types known)
    (hdir : dir = true ∨ ∀ i k v ops, progs i ≠ .addType k v :: ops)
    (hkill : KillsAvoid WritingTypes ct cb (start dir types tables progs) es)
    (hquiet : ∀ i, ¬WritingTypes ((run ct cb (start dir types tables progs) es).proc i)) :
    ∃ (done : Nat → List (K × V)) (order : List (K × V)), Shuffle done order ∧
      (∀ i, done i <+: typesOf (progs i)) ∧
      (∀ i, AtEnd ((run ct cb (start dir types tables progs) es).proc i) → done i = typesOf (progs i)) ∧
      HoldsTypes ct (run ct cb (start dir types tables progs) es).disk.types (recordedTypes known order) := by
  obtain ⟨f, l, hinv⟩ := run_inv (cb := cb) es (start_inv tables progs h hdir) hkill
  refine ⟨f, l, hinv.shuffle, fun i => (hinv.procs i).prefix, ?_, ?_⟩
  · intro i hi
    obtain ⟨pre, rest, hP, hf, _, hpc⟩ := hinv.procs i
    rw [hi.1] at hpc
    rw [hP, hpc.1, hi.2, List.append_nil, hf]
  · rcases hinv.whole with ⟨i, hi⟩ | hw
    · exact absurd hi (hquiet i)
    · exact hw

/-- C75. What a process reads is such a state too, in which all types are that it has recorded itself
before. -/
theorem types_read_partial (ct : Codec (Types K V)) (cb : Codec T) (known : K → Option V) (dir : Bool)
    (types : Option (List Char)) (tables : List (String × List Char)) (progs : Nat → List (Op K V T))
    (es : List Event) (h : HoldsTypes ct types known)
    (hdir : dir = true ∨ ∀ i k v ops, progs i ≠ .addType k v :: ops)
    (hkill : KillsAvoid WritingTypes ct cb (start dir types tables progs) es)
    (i n : Nat) (r : Types K V × List T)
    (hr : ((run ct cb (start dir types tables progs) es).proc i).out[n]? = some r) :
    ∃ (done : Nat → List (K × V)) (order : List (K × V)), Shuffle done order ∧
      (∀ j, done j <+: typesOf (progs j)) ∧ done i = typesOf (beforeRead n (progs i)) ∧
      r.1.get = recordedTypes known order := by
  obtain ⟨f, l, hinv⟩ := run_inv (cb := cb) es (start_inv tables progs h hdir) hkill
  exact hinv.outs i n r hr

/-- C75. A process that only records does not fail, whatever the others do. -/
theorem recording_succeeds_partial (ct : Codec (Types K V)) (cb : Codec T) (known : K → Option V) (dir : Bool)
    (types : Option (List Char)) (tables : List (String × List Char)) (progs : Nat → List (Op K V T))
    (es : List Event) (h : HoldsTypes ct types known)
    (hdir : dir = true ∨ ∀ i k v ops, progs i ≠ .addType k v :: ops)
    (hkill : KillsAvoid WritingTypes ct cb (start dir types tables progs) es)
    (i : Nat) (hi : .readDb ∉ progs i) : ¬Failed ((run ct cb (start dir types tables progs) es).proc i) := by
  obtain ⟨f, l, hinv⟩ := run_inv (cb := cb) es (start_inv tables progs h hdir) hkill
  intro hc
  obtain ⟨_, _, _, _, _, hpc⟩ := hinv.procs i
  rw [hc] at hpc
  exact hi (hpc.2.2 rfl)

/-- C75. Reading does not fail while others record types, and finds the tables.

Partial: nobody records tables (`torn_table_violated`). -/
theorem reading_succeeds_partial (ct : Codec (Types K V)) (cb : Codec T) (known : K → Option V) (dir : Bool)
    (types : Option (List Char)) (tables : List (String × List Char)) (progs : Nat → List (Op K V T))
    (es : List Event) (h : HoldsTypes ct types known)
    (hdir : dir = true ∨ ∀ i k v ops, progs i ≠ .addType k v :: ops)
    (hkill : KillsAvoid WritingTypes ct cb (start dir types tables progs) es)
    (hnames : (tables.map (·.1)).Nodup) (hwhole : ∀ q ∈ tables, (cb.parse q.2).isSome = true)
    (hnone : ∀ i n t, .addTable n t ∉ progs i) (i : Nat) :
    ¬Failed ((run ct cb (start dir types tables progs) es).proc i) ∧
      ∀ r ∈ ((run ct cb (start dir types tables progs) es).proc i).out,
        r.2.map some = tables.map fun q => cb.parse q.2 := by
  have hr := run_rinv (cb := cb) hnames hwhole es (start_inv tables progs h hdir) hkill
    ⟨rfl, fun j => ⟨hnone j, (by simp [start]), trivial⟩⟩
  obtain ⟨h1, h2, h3⟩ := hr.2 i
  refine ⟨?_, fun r hr => (h2 r hr).symm⟩
  intro hc
  rw [hc] at h3
  cases h3

/-- C75. Nobody waits for ever: as long as a process has something to do, one can go on. -/
theorem recording_no_deadlock (ct : Codec (Types K V)) (cb : Codec T) (known : K → Option V) (dir : Bool)
    (types : Option (List Char)) (tables : List (String × List Char)) (progs : Nat → List (Op K V T))
    (es : List Event) (h : HoldsTypes ct types known)
    (hdir : dir = true ∨ ∀ i k v ops, progs i ≠ .addType k v :: ops)
    (hkill : KillsAvoid WritingTypes ct cb (start dir types tables progs) es) (i : Nat)
    (h1 : ¬AtEnd ((run ct cb (start dir types tables progs) es).proc i))
    (h2 : ¬Failed ((run ct cb (start dir types tables progs) es).proc i))
    (h3 : ¬Killed ((run ct cb (start dir types tables progs) es).proc i)) :
    ∃ j, (run ct cb (start dir types tables progs) (es ++ [.step j])).proc j ≠
      (run ct cb (start dir types tables progs) es).proc j := by
  obtain ⟨f, l, hinv⟩ := run_inv (cb := cb) es (start_inv tables progs h hdir) hkill
  obtain ⟨j, hj⟩ := some_moves (cb := cb) hinv h1 (by
    intro b hb
    cases b
    · exact h3 hb
    · exact h2 hb)
  have happ : ∀ (s : State K V T) (a b : List Event), run ct cb s (a ++ b) = run ct cb (run ct cb s a) b := by
    intro s a b
    induction a generalizing s with
    | nil => rfl
    | cons e a ih => exact ih _
  exact ⟨j, by rw [happ]; exact hj⟩

/-- C75. A table that all processes record alike is recorded by the first that finishes, and stays; a
table that none records is not touched.

Partial: no process is killed in the moment in which it has emptied the file (`killed_violated`), and
all record the same (`mixed_table_violated`). -/
theorem tables_agree_partial (ct : Codec (Types K V)) (cb : Codec T) (dir : Bool)
    (types : Option (List Char)) (tables : List (String × List Char)) (progs : Nat → List (Op K V T))
    (es : List Event) (n : String) (t : T) (hsame : ∀ i t', .addTable n t' ∈ progs i → t' = t)
    (hkill : KillsAvoid (WritingTable n) ct cb (start dir types tables progs) es)
    (hquiet : ∀ i, ¬WritingTable n ((run ct cb (start dir types tables progs) es).proc i)) :
    ((∃ i, .addTable n t ∈ progs i ∧ AtEnd ((run ct cb (start dir types tables progs) es).proc i)) →
      (run ct cb (start dir types tables progs) es).disk.table n = some (cb.print t)) ∧
    ((run ct cb (start dir types tables progs) es).disk.table n = some (cb.print t) ∨
      (run ct cb (start dir types tables progs) es).disk.table n = (start dir types tables progs).disk.table n) ∧
    ((∀ i, .addTable n t ∉ progs i) →
      (run ct cb (start dir types tables progs) es).disk.table n = (start dir types tables progs).disk.table n) := by
  have hinv := run_tinv (ct := ct) (cb := cb) es (start_tinv hsame) hkill
  refine ⟨?_, ?_, ?_⟩
  · rintro ⟨i, hi, hfin⟩
    rcases hinv.file with ⟨_, h2, _⟩ | ⟨_, j, hj⟩ | h1
    · rcases h2 i hi with h3 | h3 | ⟨b, h3⟩
      · rw [hfin.2] at h3; simp at h3
      · rw [hfin.1] at h3; cases h3
      · rw [hfin.1] at h3; cases h3
    · exact absurd hj (hquiet j)
    · exact h1.1
  · rcases hinv.file with ⟨h1, _⟩ | ⟨_, j, hj⟩ | ⟨h1, _⟩
    · exact .inr h1
    · exact absurd hj (hquiet j)
    · exact .inl h1
  · intro hnone
    rcases hinv.file with ⟨h1, _⟩ | ⟨_, j, hj⟩ | ⟨_, j, hj⟩
    · exact h1
    · exact absurd hj (hquiet j)
    · exact absurd hj (hnone j)

/-- C75. Processes that agree on the types (several compilers on the same source) leave exactly these
types, whatever the order of their steps. -/
theorem same_source_partial (ct : Codec (Types K V)) (cb : Codec T) (known : K → Option V) (dir : Bool)
    (types : Option (List Char)) (tables : List (String × List Char)) (progs : Nat → List (Op K V T))
    (es : List Event) (h : HoldsTypes ct types known)
    (hdir : dir = true ∨ ∀ i k v ops, progs i ≠ .addType k v :: ops)
    (hkill : KillsAvoid WritingTypes ct cb (start dir types tables progs) es)
    (hfin : ∀ i, AtEnd ((run ct cb (start dir types tables progs) es).proc i))
    (source : K → Option V) (hsource : ∀ i, ∀ p ∈ typesOf (progs i), source p.1 = some p.2) :
    ∃ now, HoldsTypes ct (run ct cb (start dir types tables progs) es).disk.types now ∧
      ∀ k, ((∃ i v, (k, v) ∈ typesOf (progs i)) → now k = source k) ∧
        ((∀ i v, (k, v) ∉ typesOf (progs i)) → now k = known k) := by
  obtain ⟨done, order, hsh, _, hdone, hh⟩ := types_serial_partial ct cb known dir types tables progs es h hdir hkill
    (fun i ⟨b, m, hc⟩ => by rw [(hfin i).1] at hc; cases hc)
  have hmem : ∀ p, p ∈ order ↔ ∃ i, p ∈ typesOf (progs i) := by
    intro p
    rw [shuffle_mem hsh]
    exact ⟨fun ⟨i, hi⟩ => ⟨i, hdone i (hfin i) ▸ hi⟩, fun ⟨i, hi⟩ => ⟨i, (hdone i (hfin i)).symm ▸ hi⟩⟩
  refine ⟨_, hh, fun k => ?_⟩
  have hg := recordedTypes_agree (known := known) (g := source) (l := order) (fun p hp => by
    obtain ⟨i, hi⟩ := (hmem p).1 hp
    exact hsource i p hi) k
  refine ⟨fun ⟨i, v, hi⟩ => hg.1 ⟨v, (hmem _).2 ⟨i, hi⟩⟩, fun hn => hg.2 fun v hv => ?_⟩
  obtain ⟨i, hi⟩ := (hmem _).1 hv
  exact hn i v hi

/-! ### Where the code does not do it -/

/-- The programs of two processes. -/
def twoProgs (a b : List (Op K V T)) : Nat → List (Op K V T)
  | 0 => a
  | 1 => b
  | _ => []

/-- C75 is false on the first build: the directory does not exist yet, so there is no lock, and the
error is ignored.  Two compilers that record a type each can end, both without an error, with only one
of the types recorded. -/
theorem types_lost_violated (ct : Codec (Types K V)) (cb : Codec T) (k₁ k₂ : K) (v₁ v₂ : V) (hne : k₁ ≠ k₂) :
    ∃ es, (∀ i, .kill i ∉ es) ∧
      let s := run ct cb (start false none [] (twoProgs [.addType k₁ v₁] [.addType k₂ v₂])) es
      (∀ i, AtEnd (s.proc i)) ∧ ∃ m, s.disk.types.bind ct.parse = some m ∧ m.get k₁ = none ∧ m.get k₂ = some v₂ := by
  refine ⟨[.step 0, .step 1, .step 0, .step 1, .step 0, .step 0, .step 0, .step 0,
    .step 1, .step 1, .step 1, .step 1], by simp, ?_, ?_⟩
  · intro i
    match i with
    | 0 => simp [run, act, step, start, twoProgs, State.next, AtEnd]
    | 1 => simp [run, act, step, start, twoProgs, State.next, AtEnd]
    | n + 2 => simp [run, act, step, start, twoProgs, State.next, AtEnd]
  · refine ⟨Types.put [] k₂ v₂, ?_, ?_, ?_⟩
    · simp [run, act, step, start, twoProgs, State.next, overwrite_nil, ct.parse_print, Disk.release]
    · rw [put_get]; simp [hne, Types.get]
    · rw [put_get]; simp

/-- C75 is false of tables: they are written without the lock.  Reading the schema while a table is
written can find an empty file and fail. -/
theorem torn_table_violated (ct : Codec (Types K V)) (cb : Codec T) (n : String) (t : T) :
    ∃ es, (∀ i, .kill i ∉ es) ∧
      Failed ((run ct cb (start true none [(n, cb.print t)] (twoProgs [.addTable n t] [.readDb])) es).proc 1) := by
  refine ⟨[.step 0, .step 0, .step 1, .step 1, .step 1, .step 1], by simp, ?_⟩
  simp [run, act, step, start, twoProgs, State.next, Failed, Disk.setTable, Disk.table, cb.parse_nil]

/-- C75 is false if a compiler is killed after it has emptied `types.json`: the next compiler that
records a type fails, and reading the schema fails. -/
theorem killed_violated (ct : Codec (Types K V)) (cb : Codec T) (known : K → Option V) (types : Option (List Char))
    (h : HoldsTypes ct types known) (k : K) (v : V) (k' : K) (v' : V) :
    ∃ es, (∀ other, ¬HoldsTypes ct
        (run ct cb (start true types [] (twoProgs [.addType k v] [.addType k' v'])) es).disk.types other) ∧
      Failed ((run ct cb (start true types [] (twoProgs [.addType k v] [.addType k' v'])) es).proc 1) := by
  refine ⟨[.step 0, .step 0, .step 0, .step 0, .kill 0, .step 1, .step 1], ?_⟩
  unfold HoldsTypes at h
  cases types with
  | none =>
    refine ⟨?_, ?_⟩
    · simp [run, act, step, start, twoProgs, State.next, kill, HoldsTypes, ct.parse_nil, Disk.release]
    · simp [run, act, step, start, twoProgs, State.next, kill, Failed, ct.parse_nil, Disk.release]
  | some text =>
    obtain ⟨m, hm, _⟩ := h
    refine ⟨?_, ?_⟩
    · simp [run, act, step, start, twoProgs, State.next, kill, HoldsTypes, ct.parse_nil, Disk.release, hm]
    · simp [run, act, step, start, twoProgs, State.next, kill, Failed, ct.parse_nil, Disk.release, hm]

/-! ### Examples -/

/-- Types between truth values, one character each. -/
def exPairChar : Bool × Bool → Char
  | (false, false) => 'a'
  | (false, true) => 'b'
  | (true, false) => 'c'
  | (true, true) => 'd'

def exPairOf : Char → Bool × Bool
  | 'a' => (false, false)
  | 'b' => (false, true)
  | 'c' => (true, false)
  | _ => (true, true)

def exTypesCodec : Codec (Types Bool Bool) where
  print m := '[' :: m.map exPairChar
  parse t := if t.head? = some '[' then some (t.tail.map exPairOf) else none
  parse_print m := by
    simp only [List.head?_cons, if_true, List.tail_cons, List.map_map, Option.some.injEq]
    have : exPairOf ∘ exPairChar = id := by
      funext p
      obtain ⟨a, b⟩ := p
      cases a <;> cases b <;> rfl
    rw [this, List.map_id]
  parse_nil := rfl

/-- Tables with a number of columns: `{` … `}`. -/
def exTableCodec : Codec Nat where
  print n := '{' :: (List.replicate n 'x' ++ ['}'])
  parse t := if t = '{' :: (List.replicate (t.length - 2) 'x' ++ ['}']) then some (t.length - 2) else none
  parse_print n := by simp
  parse_nil := by simp

/-- Two compilers, one of which also reads; their steps alternate; both wait for the lock at times. -/
def exTwo : Nat → List (Op Bool Bool Nat) :=
  twoProgs [.addTable "Post" 2, .addType false true, .readDb] [.addType true false, .addTable "Post" 2]

def exAlternate : List Event :=
  [0, 1, 0, 1, 0, 1, 0, 1, 0, 1, 0, 1, 0, 1, 0, 1, 0, 1, 0, 1, 0, 1, 0, 1, 0, 0, 0, 0, 0, 0, 0].map .step

def exEnd : State Bool Bool Nat := run exTypesCodec exTableCodec (start true none [] exTwo) exAlternate

theorem exTwo_other (i : Nat) : ∀ (l : List Nat) (s : State Bool Bool Nat), (∀ x ∈ l, x ≠ i) →
    (run exTypesCodec exTableCodec s (l.map .step)).proc i = s.proc i
  | [], _, _ => rfl
  | x :: l, s, h => by
    have h1 := exTwo_other i l (step exTypesCodec exTableCodec s x) (fun y hy => h y (List.mem_cons_of_mem _ hy))
    rw [List.map_cons]
    refine h1.trans ?_
    have hx : i ≠ x := (h x List.mem_cons_self).symm
    unfold step
    simp only
    repeat' split
    all_goals first | rfl | exact next_other (K := Bool) (V := Bool) (T := Nat) _ _ _ hx

theorem exEnd_finished : ∀ i, AtEnd (exEnd.proc i)
  | 0 => ⟨rfl, rfl⟩
  | 1 => ⟨rfl, rfl⟩
  | n + 2 => by
    have h : exEnd.proc (n + 2) = (start (K := Bool) (V := Bool) true none [] exTwo).proc (n + 2) :=
      exTwo_other (n + 2) _ _ (fun x hx => by simp at hx; omega)
    rw [h]; exact ⟨rfl, rfl⟩

theorem exNoKill (bad : Proc Bool Bool Nat → Prop) : ∀ (l : List Nat) (s : State Bool Bool Nat),
    KillsAvoid bad exTypesCodec exTableCodec s (l.map .step)
  | [], _ => trivial
  | _ :: l, _ => ⟨fun _ h => (by cases h), exNoKill bad l _⟩

theorem exNoTypes : HoldsTypes exTypesCodec none fun _ => none := rfl

example : exEnd.disk.types = some ['[', 'b', 'c'] ∧ exEnd.disk.tables = [("Post", ['{', 'x', 'x', '}'])] ∧
    (exEnd.proc 0).out = [([(false, true), (true, false)], [2])] := by decide

example : ∃ done order, Shuffle done order ∧ (∀ i, done i <+: typesOf (exTwo i)) ∧
    (∀ i, AtEnd (exEnd.proc i) → done i = typesOf (exTwo i)) ∧
    HoldsTypes exTypesCodec exEnd.disk.types (recordedTypes (fun _ => none) order) :=
  types_serial_partial exTypesCodec exTableCodec _ true none [] exTwo exAlternate exNoTypes (.inl rfl) (exNoKill _ _ _)
    (fun i ⟨_, _, hc⟩ => by rw [show (run exTypesCodec exTableCodec (start true none [] exTwo) exAlternate).proc i = exEnd.proc i from rfl, (exEnd_finished i).1] at hc; cases hc)

example : ∃ done order, Shuffle done order ∧ (∀ j, done j <+: typesOf (exTwo j)) ∧
    done 0 = [(false, true)] ∧ Types.get [(false, true), (true, false)] = recordedTypes (fun _ => none) order :=
  types_read_partial exTypesCodec exTableCodec _ true none [] exTwo exAlternate exNoTypes (.inl rfl) (exNoKill _ _ _)
    0 0 ([(false, true), (true, false)], [2]) rfl

example : ¬Failed (exEnd.proc 1) :=
  recording_succeeds_partial exTypesCodec exTableCodec _ true none [] exTwo exAlternate exNoTypes (.inl rfl) (exNoKill _ _ _)
    1 (by simp [exTwo, twoProgs])

/-- A process waits for the lock, and can go on later. -/
example : ∃ j, (run exTypesCodec exTableCodec (start true none [] exTwo) ([.step 1, .step 1] ++ [.step j])).proc j ≠
    (run exTypesCodec exTableCodec (start true none [] exTwo) [.step 1, .step 1]).proc j :=
  recording_no_deadlock exTypesCodec exTableCodec _ true none [] exTwo ([1, 1].map .step) exNoTypes (.inl rfl)
    (exNoKill _ _ _) 1 (fun h => by cases h.1) (fun h => by cases h) (fun h => by cases h)

example : exEnd.disk.table "Post" = some ['{', 'x', 'x', '}'] :=
  (tables_agree_partial exTypesCodec exTableCodec true none [] exTwo exAlternate "Post" 2
    (fun i t' h => by
      match i with
      | 0 => simpa [exTwo, twoProgs] using h
      | 1 => simpa [exTwo, twoProgs] using h
      | n + 2 => simp [exTwo, twoProgs] at h) (exNoKill _ _ _)
    (fun i ⟨_, hc⟩ => by rw [show (run exTypesCodec exTableCodec (start true none [] exTwo) exAlternate).proc i = exEnd.proc i from rfl, (exEnd_finished i).1] at hc; cases hc)).1
    ⟨0, by simp [exTwo, twoProgs], exEnd_finished 0⟩

example : ∃ now, HoldsTypes exTypesCodec exEnd.disk.types now ∧
    ∀ k, ((∃ i v, (k, v) ∈ typesOf (exTwo i)) → now k = some !k) ∧ ((∀ i v, (k, v) ∉ typesOf (exTwo i)) → now k = none) :=
  same_source_partial exTypesCodec exTableCodec _ true none [] exTwo exAlternate exNoTypes (.inl rfl) (exNoKill _ _ _)
    exEnd_finished (fun k => some !k) (fun i p hp => by
      match i with
      | 0 => simp [exTwo, twoProgs, typesOf] at hp; simp [hp]
      | 1 => simp [exTwo, twoProgs, typesOf] at hp; simp [hp]
      | n + 2 => simp [exTwo, twoProgs, typesOf] at hp)

/-- One process records a type while the other reads the schema twice; a third is killed. -/
def exReaders : Nat → List (Op Bool Bool Nat)
  | 0 => [.addType true true]
  | 1 => [.readDb, .readDb]
  | 2 => [.addType false false]
  | _ => []

def exSchedule : List Event :=
  .step 2 :: .step 2 :: .step 2 :: .kill 2 :: [1, 0, 1, 1, 0, 1, 1, 1, 0, 0, 1, 0, 1].map .step

def exFiles : List (String × List Char) := [("Post", ['{', '}']), ("Tag", ['{', 'x', '}'])]

example : ¬Failed ((run exTypesCodec exTableCodec (start true none exFiles exReaders) exSchedule).proc 1) ∧
    ∀ r ∈ ((run exTypesCodec exTableCodec (start true none exFiles exReaders) exSchedule).proc 1).out,
      r.2.map some = [some 0, some 1] :=
  reading_succeeds_partial exTypesCodec exTableCodec _ true none exFiles exReaders exSchedule exNoTypes (.inl rfl)
    (⟨fun _ h => (by cases h), fun _ h => (by cases h), fun _ h => (by cases h),
      fun i h => (by cases h; rintro ⟨_, _, hc⟩; cases hc), exNoKill _ _ _⟩)
    (by decide) (by decide) (fun i n t h => by
      match i with
      | 0 => simp [exReaders] at h
      | 1 => simp [exReaders] at h
      | 2 => simp [exReaders] at h
      | n + 3 => simp [exReaders] at h) 1

/-- C75 is false of tables that two compilers record differently (different features, say): the shorter
text is written over the longer one, and the file cannot be read. -/
theorem mixed_table_violated : ∃ es, (∀ i, .kill i ∉ es) ∧
    let s := run exTypesCodec exTableCodec (start true none []
      (twoProgs [.addTable "Post" 5] [.addTable "Post" 2])) es
    (∀ i, AtEnd (s.proc i)) ∧ (s.disk.table "Post").bind exTableCodec.parse = none := by
  refine ⟨[.step 0, .step 1, .step 0, .step 1, .step 0, .step 1], by simp, ?_, by decide⟩
  intro i
  match i with
  | 0 => simp [run, act, step, start, twoProgs, State.next, AtEnd]
  | 1 => simp [run, act, step, start, twoProgs, State.next, AtEnd]
  | n + 2 => simp [run, act, step, start, twoProgs, State.next, AtEnd]

end Butane.Props
