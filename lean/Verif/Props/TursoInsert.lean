import Verif.Model.TursoInsert
/-
Property C71: the key an insert returns on Turso.
-/
namespace Butane.Props
open Butane Butane.Turso
variable {α : Type}

/-- A request that does not insert anything. -/
def InsertsNothing : Req α → Prop
  | .insert _ _ _ => False
  | _ => True

theorem requests_append (c : TextCodecs) (fresh : List Int64 → Int64) (s : Eng α × Calls)
    (a b : List (Req α)) : requests c fresh s (a ++ b) = requests c fresh (requests c fresh s a) b :=
  List.foldl_append

theorem requests_quiet (c : TextCodecs) (fresh : List Int64 → Int64) (s : Eng α × Calls)
    (l : List (Req α)) (h : ∀ r ∈ l, InsertsNothing r) :
    (requests c fresh s l).1.last = s.1.last ∧ (requests c fresh s l).2.own = s.2.own := by
  induction l generalizing s with
  | nil => exact ⟨rfl, rfl⟩
  | cons r l ih =>
    have hr := h r List.mem_cons_self
    have := ih (request c fresh s r) fun q hq => h q (List.mem_cons_of_mem _ hq)
    cases r with
    | insert call table vals => exact hr.elim
    | read call ty => exact this
    | other f => exact this

/-- What is returned is, in every order of the requests of all calls, the key of the row inserted
last, whichever call inserted it. -/
theorem turso_returns_last (c : TextCodecs) (fresh : List Int64 → Int64) (s : Eng α × Calls)
    (pre mid : List (Req α)) (call call' : Nat) (table : String) (vals : α) (ty : SqlType)
    (hmid : ∀ r ∈ mid, InsertsNothing r) :
    ∃ k, (requests c fresh s (pre ++ .insert call' table vals :: mid ++ [.read call ty])).2.own.head? =
        some (call', k) ∧
      (table, k, vals) ∈ (requests c fresh s (pre ++ [.insert call' table vals])).1.rows ∧
      (requests c fresh s (pre ++ .insert call' table vals :: mid ++ [.read call ty])).2.returned.head? =
        some (call, fromTurso c (.integer k) ty) := by
  rw [show pre ++ .insert call' table vals :: mid ++ [.read call ty] =
    (pre ++ [.insert call' table vals]) ++ (mid ++ [.read call ty]) by simp]
  rw [requests_append c fresh s (pre ++ _), requests_append c fresh s pre]
  generalize requests c fresh s pre = s₀
  have hs : ∃ s₁ k, requests c fresh s₀ [.insert call' table vals] = s₁ ∧ s₁.1.last = k ∧
      s₁.2.own.head? = some (call', k) ∧ (table, k, vals) ∈ s₁.1.rows :=
    ⟨_, _, rfl, rfl, rfl, by simp [requests, request]⟩
  obtain ⟨s₁, k, hs, h1, h2, h3⟩ := hs
  rw [hs]
  obtain ⟨h4, h5⟩ := requests_quiet c fresh s₁ mid hmid
  refine ⟨k, ?_, h3, ?_⟩
  · rw [requests_append]
    show (requests c fresh s₁ mid).2.own.head? = _
    rw [h5, h2]
  · rw [requests_append]
    show some (call, fromTurso c (.integer (requests c fresh s₁ mid).1.last) ty) = _
    rw [h4, h1]

/-- C71: an insert returns the key of its own row, as the value of the type of the key, in every
order of requests in which no other call inserts between its two requests: in particular when
calls on a connection are made one after the other.
Missing: other calls inserting in between, keys of more than 32 bits for a key field of type
`i32`; false, see below. -/
theorem turso_insert_key_partial (c : TextCodecs) (fresh : List Int64 → Int64) (s : Eng α × Calls)
    (pre mid : List (Req α)) (call : Nat) (table : String) (vals : α)
    (hmid : ∀ r ∈ mid, InsertsNothing r) :
    let before := requests c fresh s (pre ++ [.insert call table vals])
    ∃ k, before.2.own.head? = some (call, k) ∧ (table, k, vals) ∈ before.1.rows ∧
      (requests c fresh s (pre ++ .insert call table vals :: mid ++
        [.read call .bigInt])).2.returned.head? = some (call, .ok (.bigInt k)) ∧
      (k.toInt32.toInt64 = k → ∃ i : Int32, i.toInt64 = k ∧
        (requests c fresh s (pre ++ .insert call table vals :: mid ++
          [.read call .int])).2.returned.head? = some (call, .ok (.int i))) := by
  obtain ⟨k, h1, h2, h3⟩ := turso_returns_last c fresh s pre mid call call table vals .bigInt hmid
  obtain ⟨k', h1', _, h3'⟩ := turso_returns_last c fresh s pre mid call call table vals .int hmid
  obtain ⟨k'', h4, h5, h6⟩ := turso_returns_last c fresh s pre [] call call table vals .bigInt
    (by simp)
  have e : ∀ ty, (requests c fresh s (pre ++ .insert call table vals :: mid ++
      [.read call ty])).2.own = (requests c fresh s (pre ++ [.insert call table vals])).2.own := by
    intro ty
    rw [show pre ++ .insert call table vals :: mid ++ [.read call ty] =
      (pre ++ [.insert call table vals]) ++ (mid ++ [.read call ty]) by simp, requests_append]
    refine (requests_quiet c fresh _ _ ?_).2
    intro r hr
    rcases List.mem_append.1 hr with hr | hr
    · exact hmid r hr
    · simp only [List.mem_cons, List.not_mem_nil, or_false] at hr
      subst hr
      trivial
  rw [e] at h1 h1'
  have hk : k' = k := by
    rw [h1] at h1'
    simpa using h1'.symm
  subst hk
  refine ⟨k', h1, h2, ?_, fun hfit => ⟨k'.toInt32, hfit, ?_⟩⟩
  · rw [h3]; rfl
  · rw [h3']; rfl

/-- **C71 fails when another call inserts in between**, into whatever table: the call returns the
key of the other row. -/
theorem turso_insert_key_violated (c : TextCodecs) (fresh : List Int64 → Int64) (s : Eng α × Calls)
    (pre : List (Req α)) (call call' : Nat) (table table' : String) (vals vals' : α) :
    let l := pre ++ [.insert call table vals, .insert call' table' vals', .read call .bigInt]
    ∃ k k', (requests c fresh s l).2.own.take 2 = [(call', k'), (call, k)] ∧
      (requests c fresh s l).2.returned.head? = some (call, .ok (.bigInt k')) := by
  intro l
  show ∃ k k', (requests c fresh s l).2.own.take 2 = _ ∧ _
  rw [show requests c fresh s l = _ from requests_append c fresh s pre _]
  exact ⟨_, _, rfl, rfl⟩

/-- Such keys differ, if the engine does not give out a key again and the tables are the same; then two
objects have the same key, and saving one of them again overwrites the row of the other. -/
theorem turso_insert_two_objects_violated (c : TextCodecs) (fresh : List Int64 → Int64)
    (s : Eng α × Calls) (pre : List (Req α)) (call call' : Nat)
    (table : String) (vals vals' : α)
    (hfresh : fresh (((requests c fresh s (pre ++ [.insert call table vals])).1.used.filter
        fun x => x.1 == table).map (·.2)) ∉
      (((requests c fresh s (pre ++ [.insert call table vals])).1.used.filter
        fun x => x.1 == table).map (·.2))) :
    let l := pre ++ [.insert call table vals, .insert call' table vals', .read call .bigInt,
      .read call' .bigInt]
    ∃ k k', (requests c fresh s l).2.own.take 2 = [(call', k'), (call, k)] ∧ k ≠ k' ∧
      (requests c fresh s l).2.returned.take 2 =
        [(call', .ok (.bigInt k')), (call, .ok (.bigInt k'))] := by
  intro l
  show ∃ k k', (requests c fresh s l).2.own.take 2 = _ ∧ _
  rw [show requests c fresh s l = _ from requests_append c fresh s pre _]
  rw [requests_append] at hfresh
  generalize requests c fresh s pre = s₀ at hfresh
  refine ⟨_, _, rfl, ?_, rfl⟩
  intro h
  refine hfresh ?_
  show fresh (((request c fresh s₀ (.insert call table vals)).1.used.filter
    fun x => x.1 == table).map (·.2)) ∈ ((request c fresh s₀ (.insert call table vals)).1.used.filter
    fun x => x.1 == table).map (·.2)
  rw [← h]
  simp [request]

/-- **C71 fails for `AutoPk<i32>` and keys that do not fit**: the call succeeds with another
number. -/
theorem turso_insert_key_int_violated (c : TextCodecs) (k : Int64) (i : Int32)
    (hk : k.toInt32.toInt64 ≠ k) :
    fromTurso c (.integer k) .int = .ok (.int i) → i.toInt64 ≠ k := by
  intro h e
  simp only [fromTurso, Conv.ok.injEq, SqlVal.int.injEq] at h
  exact hk (h ▸ e)

example : (4294967296 : Int64).toInt32.toInt64 ≠ 4294967296 := by decide

/-- The next key: one more than those given out. -/
def exFreshKey (l : List Int64) : Int64 := l.foldl (fun a b => if a < b then b else a) 0 + 1

example (c : TextCodecs) : let used := ((requests c exFreshKey (⟨[], [], 0⟩, ⟨[], []⟩)
      [.insert 0 "Post" "a"]).1.used.filter fun x => x.1 == "Post").map (·.2)
    used = [1] ∧ exFreshKey used ∉ used := by
  simp [requests, request, exFreshKey]

/-- Two calls one after the other, with a deletion in the middle of the second. -/
example (c : TextCodecs) : (requests c exFreshKey (⟨[], [], 0⟩, ⟨[], []⟩)
      [.insert 0 "Post" "a", .read 0 .bigInt, .insert 1 "Post" "b", .other fun _ => [],
       .read 1 .int]).2 =
    ⟨[(1, 2), (0, 1)], [(1, .ok (.int 2)), (0, .ok (.bigInt 1))]⟩ := by
  simp [requests, request, exFreshKey, fromTurso]

end Butane.Props
