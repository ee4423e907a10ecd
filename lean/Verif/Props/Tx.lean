import Verif.Spec.Tx
/-
Property C45: transactions.
-/
namespace Butane.Props
open Butane Butane.Spec
variable {D : Type}

theorem runTx_append (step : TxState D → TxOp D → TxState D × TxRes) (t : TxState D)
    (a b : List (TxOp D)) :
    runTx step t (a ++ b) = ((runTx step (runTx step t a).1 b).1,
      (runTx step t a).2 ++ (runTx step (runTx step t a).1 b).2) := by
  induction a generalizing t with
  | nil => rfl
  | cons op a ih => simp only [List.cons_append, runTx, ih]

/-! ### SQLite -/

/-- C45: once the object is consumed every use fails and changes nothing. -/
theorem sqlite_consumed (s : DbSession D) (ops : List (TxOp D)) :
    runTx SqliteTx.step ⟨s, false⟩ ops = (⟨s, false⟩, ops.map afterEnd) := by
  induction ops with
  | nil => rfl
  | cons op ops ih =>
    cases op <;> simp [runTx, SqliteTx.step, ih, afterEnd]

theorem sqlite_statements (s : DbSession D) (d : D) (fs : List (D → StmtOut D))
    (hs : s.open_ = some d) (hn : NoAutoRollback (fs.map TxOp.exec)) :
    (runTx SqliteTx.step ⟨s, true⟩ (fs.map .exec)).1 =
      ⟨{ s with open_ := some (effects d fs) }, true⟩ := by
  induction fs generalizing s d with
  | nil => simp [runTx, effects, ← hs]
  | cons f fs ih =>
    have hn' : NoAutoRollback (fs.map TxOp.exec) := fun g hg => hn g (List.mem_cons_of_mem _ hg)
    simp only [List.map_cons, runTx, SqliteTx.step, if_true, SqliteTx.statement, hs, effects]
    cases hf : f d with
    | ok d' => simpa using ih { s with open_ := some d' } d' rfl hn'
    | failed d' => simpa using ih { s with open_ := some d' } d' rfl hn'
    | rolledBack => exact (hn f List.mem_cons_self d hf).elim

/-- C45 on SQLite: in every history of uses of a transaction in which SQLite does not roll back by
itself, nothing is visible before the end, a commit that reports success makes all statements
visible, and nothing becomes visible if the commit reports an error, or by a rollback, or when the
object is dropped; afterwards every use fails and changes nothing. -/
theorem sqlite_transaction_partial (d : D) (ops : List (TxOp D)) (hn : NoAutoRollback ops) :
    (∀ fs, OnlyStatements ops fs →
      (runTx SqliteTx.step (beginTx d) ops).1.session.disk = d) ∧
    (∀ fs fin later, FinishedBy ops fs fin later →
      ∃ res, (runTx SqliteTx.step (beginTx d) ops).2.drop fs.length = res :: later.map afterEnd ∧
        (runTx SqliteTx.step (beginTx d) ops).1.session.open_ = none ∧
        (fin = .commit .ok → res = .ok ∧
          (runTx SqliteTx.step (beginTx d) ops).1.session.disk = effects d fs) ∧
        (fin ≠ .commit .ok → (runTx SqliteTx.step (beginTx d) ops).1.session.disk = d ∧
          (∀ r, fin = .commit r → res = .dbError))) := by
  have hlen : ∀ (t : TxState D) (l : List (TxOp D)), (runTx SqliteTx.step t l).2.length = l.length := by
    intro t l
    induction l generalizing t with
    | nil => rfl
    | cons op l ih => simp [runTx, ih]
  refine ⟨?_, ?_⟩
  · rintro fs rfl
    rw [show beginTx d = ⟨⟨d, some d, false⟩, true⟩ from rfl,
      sqlite_statements _ d fs rfl hn]
  · rintro fs fin later ⟨rfl, hfin⟩
    have hn' : NoAutoRollback (fs.map TxOp.exec) := fun g hg => hn g (List.mem_append_left _ hg)
    have h1 := sqlite_statements (⟨d, some d, false⟩ : DbSession D) d fs rfl hn'
    rw [show beginTx d = ⟨⟨d, some d, false⟩, true⟩ from rfl, runTx_append, h1]
    have hl := hlen ⟨⟨d, some d, false⟩, true⟩ (fs.map .exec)
    rw [List.length_map] at hl
    rw [List.drop_left' hl]
    cases fin with
    | exec f => exact absurd rfl (hfin f)
    | commit r =>
      cases r <;>
        simp [runTx, SqliteTx.step, SqliteTx.commitTrans, sqlite_consumed]
    | rollback => simp [runTx, SqliteTx.step, SqliteTx.rollbackTrans, sqlite_consumed]
    | drop => simp [runTx, SqliteTx.step, SqliteTx.rollbackTrans, sqlite_consumed]

theorem sqlite_go (d₀ d : D) (ops : List (TxOp D)) (hn : NoAutoRollback ops) :
    (runTx SqliteTx.step ⟨⟨d₀, some d, false⟩, true⟩ (ops ++ [.drop])).1.session =
      ⟨committed.go d₀ d ops, none, false⟩ := by
  induction ops generalizing d with
  | nil => simp [runTx, SqliteTx.step, SqliteTx.rollbackTrans, committed.go]
  | cons op ops ih =>
    have hn' : NoAutoRollback ops := fun g hg => hn g (List.mem_cons_of_mem _ hg)
    cases op with
    | exec f =>
      simp only [List.cons_append, runTx, SqliteTx.step, if_true, SqliteTx.statement, committed.go, effects]
      cases hf : f d with
      | ok d' => exact ih d' hn'
      | failed d' => exact ih d' hn'
      | rolledBack => exact (hn f List.mem_cons_self d hf).elim
    | commit r =>
      cases r <;> simp [runTx, SqliteTx.step, SqliteTx.commitTrans, sqlite_consumed, committed.go]
    | rollback => simp [runTx, SqliteTx.step, SqliteTx.rollbackTrans, sqlite_consumed, committed.go]
    | drop => simp [runTx, SqliteTx.step, SqliteTx.rollbackTrans, sqlite_consumed, committed.go]

/-- C45 on SQLite for any number of transactions on one connection: the committed contents are
those of the committed transactions, in order, and of nothing else. -/
theorem sqlite_transactions_partial (d : D) (txs : List (List (TxOp D)))
    (hn : ∀ ops ∈ txs, NoAutoRollback ops) :
    runTxs SqliteTx.step d txs = committedAll d txs := by
  induction txs generalizing d with
  | nil => rfl
  | cons ops txs ih =>
    simp only [runTxs, committedAll]
    rw [show beginTx d = ⟨⟨d, some d, false⟩, true⟩ from rfl,
      sqlite_go d d ops (hn ops List.mem_cons_self)]
    exact ih _ fun o ho => hn o (List.mem_cons_of_mem _ ho)

/-- **C45 fails when SQLite rolls back a transaction by itself**, as it does when the disk is full,
for example: the following statements of the transaction are committed one by one, although the
transaction is rolled back. -/
theorem sqlite_auto_rollback_violated : ∃ (ops : List (TxOp (List Nat))),
    FinishedBy ops [fun _ => .rolledBack, fun d => .ok (2 :: d)] .rollback [] ∧
      (runTx SqliteTx.step (beginTx []) ops).1.session.disk = [2] :=
  ⟨_, ⟨rfl, fun _ h => by cases h⟩, rfl⟩

/-- A history: two inserts, a failing statement, a commit, and uses after it. -/
example : (runTx SqliteTx.step (beginTx [0]) [.exec fun d => .ok (1 :: d), .exec fun d => .failed d,
      .exec fun d => .ok (2 :: d), .commit .ok, .exec fun d => .ok (3 :: d), .rollback]) =
    (⟨⟨[2, 1, 0], none, false⟩, false⟩, [.ok, .dbError, .ok, .ok, .consumed, .consumed]) := rfl

example : NoAutoRollback [.exec fun (d : List Nat) => .ok (1 :: d), .exec fun d => .failed d, .commit .ok] := by
  intro f hf d h
  simp only [List.mem_cons, TxOp.exec.injEq, reduceCtorEq, List.not_mem_nil, or_false] at hf
  rcases hf with rfl | rfl <;> cases h

/-! ### PostgreSQL -/

theorem pg_consumed (s : DbSession D) (ops : List (TxOp D)) :
    runTx PgTx.step ⟨s, false⟩ ops = (⟨s, false⟩, ops.map afterEnd) := by
  induction ops with
  | nil => rfl
  | cons op ops ih =>
    cases op <;> simp [runTx, PgTx.step, ih, afterEnd]

theorem pg_statements_aborted (s : DbSession D) (d : D) (fs : List (D → StmtOut D))
    (hs : s.open_ = some d) (ha : s.aborted = true) :
    (runTx PgTx.step ⟨s, true⟩ (fs.map .exec)).1 = ⟨s, true⟩ := by
  induction fs with
  | nil => rfl
  | cons f fs ih =>
    simp only [List.map_cons, runTx, PgTx.step, if_true, PgTx.statement, hs, ha]
    exact ih

open Classical in
theorem pg_statements (s : DbSession D) (d : D) (fs : List (D → StmtOut D))
    (hs : s.open_ = some d) (ha : s.aborted = false) :
    ∃ d', (runTx PgTx.step ⟨s, true⟩ (fs.map .exec)).1 =
      ⟨⟨s.disk, some d', decide (¬ AllSucceed d fs)⟩, true⟩ ∧ (AllSucceed d fs → d' = effects d fs) := by
  induction fs generalizing s d with
  | nil =>
    obtain ⟨disk, o, a⟩ := s
    cases hs
    cases ha
    exact ⟨d, by simp [runTx, AllSucceed], fun _ => rfl⟩
  | cons f fs ih =>
    have key : ∀ s' : DbSession D, s'.open_ = some d → s'.aborted = true → ¬ AllSucceed d (f :: fs) →
        ∃ d', (runTx PgTx.step ⟨s', true⟩ (fs.map .exec)).1 =
          ⟨⟨s'.disk, some d', decide (¬ AllSucceed d (f :: fs))⟩, true⟩ ∧
          (AllSucceed d (f :: fs) → d' = effects d (f :: fs)) := by
      intro s' h1 h2 h3
      refine ⟨d, ?_, fun h => absurd h h3⟩
      rw [pg_statements_aborted s' d fs h1 h2]
      obtain ⟨disk, o, a⟩ := s'
      cases h1
      cases h2
      simp [h3]
    obtain ⟨disk, o, a⟩ := s
    cases hs
    cases ha
    simp only [List.map_cons, runTx, PgTx.step, if_true, PgTx.statement]
    simp only [Bool.false_eq_true, if_false]
    cases hf : f d with
    | ok d' =>
      obtain ⟨d'', h1, h2⟩ := ih ⟨disk, some d', false⟩ d' rfl rfl
      have h3 : AllSucceed d (f :: fs) ↔ AllSucceed d' fs := by
        simp [AllSucceed, hf]
      refine ⟨d'', ?_, fun h => ?_⟩
      · simp only [h3]
        exact h1
      · simp only [effects, hf]
        exact h2 (h3.1 h)
    | failed d' => exact key ⟨disk, some d, true⟩ rfl rfl (by simp [AllSucceed, hf])
    | rolledBack => exact key ⟨disk, some d, true⟩ rfl rfl (by simp [AllSucceed, hf])

/-- C45 on PostgreSQL: in every history nothing is visible before the end; a commit after
statements that all succeeded makes all of them visible if it reports success, and nothing if it
fails; rollback and dropping make nothing visible; afterwards every use fails and changes nothing.
Missing: a commit after a failed statement (false, see below), and a commit whose answer is lost,
after which the statements may be visible. -/
theorem pg_transaction_partial (d : D) (ops : List (TxOp D)) :
    (∀ fs, OnlyStatements ops fs →
      (runTx PgTx.step (beginTx d) ops).1.session.disk = d) ∧
    (∀ fs fin later, FinishedBy ops fs fin later →
      ∃ res, (runTx PgTx.step (beginTx d) ops).2.drop fs.length = res :: later.map afterEnd ∧
        (runTx PgTx.step (beginTx d) ops).1.session.open_ = none ∧
        (fin = .commit .ok → AllSucceed d fs → res = .ok ∧
          (runTx PgTx.step (beginTx d) ops).1.session.disk = effects d fs) ∧
        (fin = .commit .failed → AllSucceed d fs → res = .dbError) ∧
        (fin = .commit .answerLost → AllSucceed d fs → res = .dbError) ∧
        (fin ≠ .commit .ok → fin ≠ .commit .answerLost →
          (runTx PgTx.step (beginTx d) ops).1.session.disk = d)) := by
  have hlen : ∀ (t : TxState D) (l : List (TxOp D)), (runTx PgTx.step t l).2.length = l.length := by
    intro t l
    induction l generalizing t with
    | nil => rfl
    | cons op l ih => simp [runTx, ih]
  refine ⟨?_, ?_⟩
  · rintro fs rfl
    obtain ⟨d', h, _⟩ := pg_statements (⟨d, some d, false⟩ : DbSession D) d fs rfl rfl
    rw [show beginTx d = ⟨⟨d, some d, false⟩, true⟩ from rfl, h]
  · rintro fs fin later ⟨rfl, hfin⟩
    obtain ⟨d', h1, h2⟩ := pg_statements (⟨d, some d, false⟩ : DbSession D) d fs rfl rfl
    rw [show beginTx d = ⟨⟨d, some d, false⟩, true⟩ from rfl, runTx_append, h1]
    have hl := hlen ⟨⟨d, some d, false⟩, true⟩ (fs.map .exec)
    rw [List.length_map] at hl
    rw [List.drop_left' hl]
    by_cases hall : AllSucceed d fs
    · have h3 := h2 hall
      subst h3
      cases fin with
      | exec f => exact absurd rfl (hfin f)
      | commit r =>
        cases r <;>
          simp [runTx, PgTx.step, PgTx.commitTrans, pg_consumed, hall]
      | rollback => simp [runTx, PgTx.step, PgTx.rollbackTrans, pg_consumed]
      | drop => simp [runTx, PgTx.step, PgTx.rollbackTrans, pg_consumed]
    · cases fin with
      | exec f => exact absurd rfl (hfin f)
      | commit r =>
        cases r <;>
          simp [runTx, PgTx.step, PgTx.commitTrans, pg_consumed, hall]
      | rollback => simp [runTx, PgTx.step, PgTx.rollbackTrans, pg_consumed]
      | drop => simp [runTx, PgTx.step, PgTx.rollbackTrans, pg_consumed]

/-- C45 on PostgreSQL, in every history, with failed statements and lost answers: all of the
statements are visible or none of them. -/
theorem pg_all_or_nothing (d : D) (ops : List (TxOp D)) (fs : List (D → StmtOut D)) (fin : TxOp D)
    (later : List (TxOp D)) (h : FinishedBy ops fs fin later) :
    (runTx PgTx.step (beginTx d) ops).1.session.disk = d ∨
      (AllSucceed d fs ∧ (runTx PgTx.step (beginTx d) ops).1.session.disk = effects d fs) := by
  obtain ⟨rfl, hfin⟩ := h
  obtain ⟨d', h1, h2⟩ := pg_statements (⟨d, some d, false⟩ : DbSession D) d fs rfl rfl
  rw [show beginTx d = ⟨⟨d, some d, false⟩, true⟩ from rfl, runTx_append, h1]
  by_cases hall : AllSucceed d fs
  · have h3 := h2 hall
    subst h3
    cases fin with
    | exec f => exact absurd rfl (hfin f)
    | commit r =>
      cases r <;> simp [runTx, PgTx.step, PgTx.commitTrans, pg_consumed, hall]
    | rollback => simp [runTx, PgTx.step, PgTx.rollbackTrans, pg_consumed]
    | drop => simp [runTx, PgTx.step, PgTx.rollbackTrans, pg_consumed]
  · left
    cases fin with
    | exec f => exact absurd rfl (hfin f)
    | commit r =>
      cases r <;> simp [runTx, PgTx.step, PgTx.commitTrans, pg_consumed, hall]
    | rollback => simp [runTx, PgTx.step, PgTx.rollbackTrans, pg_consumed]
    | drop => simp [runTx, PgTx.step, PgTx.rollbackTrans, pg_consumed]

/-- **C45 fails on PostgreSQL when a statement of the transaction has failed**: whatever the other
statements are, the commit reports success and nothing becomes visible. -/
theorem pg_commit_after_error_violated (d : D) (fs : List (D → StmtOut D)) (r : CommitOut)
    (h : ¬ AllSucceed d fs) :
    (runTx PgTx.step (beginTx d) (fs.map .exec ++ [.commit r])).1.session.disk = d ∧
      (runTx PgTx.step (beginTx d) (fs.map .exec ++ [.commit r])).2.getLast? = some .ok := by
  obtain ⟨d', h1, _⟩ := pg_statements (⟨d, some d, false⟩ : DbSession D) d fs rfl rfl
  rw [show beginTx d = ⟨⟨d, some d, false⟩, true⟩ from rfl, runTx_append, h1]
  simp [runTx, PgTx.step, PgTx.commitTrans, h]

example : ¬ AllSucceed ([] : List Nat) [fun d => .ok (1 :: d), fun d => .failed d] := by
  simp [AllSucceed]

example : AllSucceed ([] : List Nat) [fun d => .ok (1 :: d), fun d => .ok (2 :: d)] := by
  simp [AllSucceed]

example : (runTx PgTx.step (beginTx [0]) [.exec fun d => .ok (1 :: d), .exec fun d => .failed d,
      .commit .ok, .exec fun d => .ok (3 :: d)]) =
    (⟨⟨[0], none, false⟩, false⟩, [.ok, .dbError, .ok, .consumed]) := rfl

end Butane.Props
