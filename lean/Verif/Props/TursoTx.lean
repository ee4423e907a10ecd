import Verif.Spec.TursoTx
import Verif.Props.Tx
/-
Property C70: transactions on Turso.
-/
namespace Butane.Props
open Butane Butane.Spec Butane.TursoTx
variable {D : Type}

theorem turso_consumed (rt : Runtime) (s : DbSession D) (ops : List (TxOp D)) :
    runTx (TursoTx.step rt) ⟨s, false⟩ ops = (⟨s, false⟩, ops.map afterEnd) := by
  induction ops with
  | nil => rfl
  | cons op ops ih =>
    cases op <;> simp [runTx, TursoTx.step, dropTx, ih, afterEnd]

theorem turso_statements (rt : Runtime) (s : DbSession D) (d : D) (fs : List (D → StmtOut D))
    (hs : s.open_ = some d) (hn : NoAutoRollback (fs.map TxOp.exec)) :
    (runTx (TursoTx.step rt) ⟨s, true⟩ (fs.map .exec)).1 =
      ⟨{ s with open_ := some (effects d fs) }, true⟩ := by
  induction fs generalizing s d with
  | nil => simp [runTx, effects, ← hs]
  | cons f fs ih =>
    have hn' : NoAutoRollback (fs.map TxOp.exec) := fun g hg => hn g (List.mem_cons_of_mem _ hg)
    simp only [List.map_cons, runTx, TursoTx.step, if_true, SqliteTx.statement, hs, effects]
    cases hf : f d with
    | ok d' => simpa using ih { s with open_ := some d' } d' rfl hn'
    | failed d' => simpa using ih { s with open_ := some d' } d' rfl hn'
    | rolledBack => exact (hn f List.mem_cons_self d hf).elim

theorem runTx_length (step : TxState D → TxOp D → TxState D × TxRes) (t : TxState D)
    (l : List (TxOp D)) : (runTx step t l).2.length = l.length := by
  induction l generalizing t with
  | nil => rfl
  | cons op l ih => simp [runTx, ih]

/-- C70: in every history of a transaction on Turso nothing is visible before the end; a commit
that reports success makes all statements visible; nothing becomes visible if the commit reports
an error, or by a rollback, or when the object is dropped; afterwards every use fails and changes
nothing.  After a commit that succeeded, a rollback, and a drop on a runtime with several threads
the connection has no open transaction.
Missing: that it has none after a failed commit or after a drop elsewhere, which is false, see
below; and an engine that rolls back by itself, for which C45 is false too. -/
theorem turso_transaction_partial (d : D) (rt : Runtime) (ops : List (TxOp D))
    (hn : NoAutoRollback ops) :
    (∀ fs, OnlyStatements ops fs →
      (runTx (TursoTx.step rt) (beginTx d) ops).1.session.disk = d) ∧
    (∀ fs fin later, FinishedBy ops fs fin later →
      ∃ res, (runTx (TursoTx.step rt) (beginTx d) ops).2.drop fs.length =
          res :: later.map afterEnd ∧
        (fin = .commit .ok → res = .ok ∧
          (runTx (TursoTx.step rt) (beginTx d) ops).1.session.disk = effects d fs) ∧
        (fin ≠ .commit .ok → (runTx (TursoTx.step rt) (beginTx d) ops).1.session.disk = d ∧
          (∀ r, fin = .commit r → res = .dbError)) ∧
        (fin = .commit .ok ∨ fin = .rollback ∨ (fin = .drop ∧ rt = .multiThread) →
          (runTx (TursoTx.step rt) (beginTx d) ops).1.session.open_ = none)) := by
  refine ⟨?_, ?_⟩
  · rintro fs rfl
    rw [show beginTx d = ⟨⟨d, some d, false⟩, true⟩ from rfl,
      turso_statements rt _ d fs rfl hn]
  · rintro fs fin later ⟨rfl, hfin⟩
    have hn' : NoAutoRollback (fs.map TxOp.exec) := fun g hg => hn g (List.mem_append_left _ hg)
    have h1 := turso_statements rt (⟨d, some d, false⟩ : DbSession D) d fs rfl hn'
    rw [show beginTx d = ⟨⟨d, some d, false⟩, true⟩ from rfl, runTx_append, h1]
    have hl := runTx_length (TursoTx.step rt) ⟨⟨d, some d, false⟩, true⟩ (fs.map .exec)
    rw [List.length_map] at hl
    rw [List.drop_left' hl]
    cases fin with
    | exec f => exact absurd rfl (hfin f)
    | commit r =>
      cases r <;> simp [runTx, TursoTx.step, commitSql, turso_consumed]
    | rollback => simp [runTx, TursoTx.step, rollbackSql, turso_consumed]
    | drop => cases rt <;> simp [runTx, TursoTx.step, dropTx, rollbackSql, turso_consumed]

theorem turso_go (rt : Runtime) (d₀ d : D) (ops : List (TxOp D)) (hn : NoAutoRollback ops)
    (hc : CommitsWork ops) (hrt : rt = .multiThread ∨ Finished ops) :
    (runTx (TursoTx.step rt) ⟨⟨d₀, some d, false⟩, true⟩ (ops ++ [.drop])).1.session =
      ⟨committed.go d₀ d ops, none, false⟩ := by
  induction ops generalizing d with
  | nil =>
    rcases hrt with rfl | ⟨fs, fin, later, ⟨h, _⟩, _⟩
    · simp [runTx, TursoTx.step, dropTx, rollbackSql, committed.go]
    · simp at h
  | cons op ops ih =>
    have hn' : NoAutoRollback ops := fun g hg => hn g (List.mem_cons_of_mem _ hg)
    have hc' : CommitsWork ops := fun r hr => hc r (List.mem_cons_of_mem _ hr)
    cases op with
    | exec f =>
      have hrt' : rt = .multiThread ∨ Finished ops := by
        rcases hrt with h | ⟨fs, fin, later, ⟨h, hf⟩, hk⟩
        · exact .inl h
        · cases fs with
          | nil =>
            simp only [List.map_nil, List.nil_append, List.cons.injEq] at h
            exact absurd h.1.symm (hf f)
          | cons g fs =>
            simp only [List.map_cons, List.cons_append, List.cons.injEq] at h
            exact .inr ⟨fs, fin, later, ⟨h.2, hf⟩, hk⟩
      simp only [List.cons_append, runTx, TursoTx.step, if_true, SqliteTx.statement, committed.go,
        effects]
      cases hf : f d with
      | ok d' => exact ih d' hn' hc' hrt'
      | failed d' => exact ih d' hn' hc' hrt'
      | rolledBack => exact (hn f List.mem_cons_self d hf).elim
    | commit r =>
      cases hc r List.mem_cons_self
      simp [runTx, TursoTx.step, commitSql, turso_consumed, committed.go]
    | rollback => simp [runTx, TursoTx.step, rollbackSql, turso_consumed, committed.go]
    | drop =>
      rcases hrt with rfl | ⟨fs, fin, later, ⟨h, hf⟩, hk⟩
      · simp [runTx, TursoTx.step, dropTx, rollbackSql, turso_consumed, committed.go]
      · cases fs with
        | nil =>
          simp only [List.map_nil, List.nil_append, List.cons.injEq] at h
          rcases hk with hk | ⟨r, hk⟩ <;> rw [hk] at h <;> cases h.1
        | cons g fs => simp at h

/-- C70 for the life of a connection: if no commit fails and every transaction object that is
dropped unfinished is dropped on a runtime with several threads, then what a closed connection
leaves behind is exactly what its own statements did and what the committed transactions did, in
order; and no `transaction()` fails: what is returned for it is one answer for every use of the
object and the drop. -/
theorem turso_connection_partial (d : D) (us : List (ConnUse D)) (h : ∀ u ∈ us, Orderly u) :
    closeConn (runConn ⟨d, none, false⟩ us).1 = lasting d us ∧
      (runConn ⟨d, none, false⟩ us).1.open_ = none ∧
      ∀ (i : Nat) rt ops, us[i]? = some (.tx rt ops) →
        ∃ rs, (runConn ⟨d, none, false⟩ us).2[i]? = some rs ∧ rs.length = ops.length + 1 ∧
          rs.getLast? = some .nothing := by
  induction us generalizing d with
  | nil => exact ⟨rfl, rfl, fun i rt ops hi => by simp at hi⟩
  | cons u us ih =>
    have hu := h u List.mem_cons_self
    have ih' := fun d => ih d fun v hv => h v (List.mem_cons_of_mem _ hv)
    cases u with
    | stmt f =>
      have key : (useConn ⟨d, none, false⟩ (.stmt f)).1 = ⟨effects d [f], none, false⟩ := by
        simp only [useConn, SqliteTx.statement, effects]
        cases hf : f d with
        | ok d' => rfl
        | failed d' => rfl
        | rolledBack => exact (hu d hf).elim
      simp only [runConn, key, lasting]
      refine ⟨(ih' _).1, (ih' _).2.1, fun i rt ops hi => ?_⟩
      cases i with
      | zero => simp at hi
      | succ i => exact (ih' _).2.2 i rt ops (by simpa using hi)
    | tx rt ops =>
      obtain ⟨h1, h2, h3⟩ := hu
      have key : (useConn ⟨d, none, false⟩ (.tx rt ops)).1 = ⟨committed d ops, none, false⟩ := by
        simp only [useConn]
        exact turso_go rt d d ops h1 h2 h3
      simp only [runConn, key, lasting]
      refine ⟨(ih' _).1, (ih' _).2.1, fun i rt' ops' hi => ?_⟩
      cases i with
      | zero =>
        simp only [List.getElem?_cons_zero, Option.some.injEq, ConnUse.tx.injEq] at hi
        obtain ⟨rfl, rfl⟩ := hi
        refine ⟨_, rfl, ?_, ?_⟩
        · simp [useConn, runTx_length]
        · simp [useConn, runTx_append, runTx, TursoTx.step]
      | succ i => exact (ih' _).2.2 i rt' ops' (by simpa using hi)

theorem turso_stuck (disk d : D) (us : List (ConnUse D)) (h : ∀ u ∈ us, Quiet u) :
    (runConn ⟨disk, some d, false⟩ us).1.disk = disk ∧
      (∀ (i : Nat) rt ops, us[i]? = some (.tx rt ops) →
        (runConn ⟨disk, some d, false⟩ us).2[i]? = some [.dbError]) ∧
      ∀ (i : Nat) f, us[i]? = some (.stmt f) → (∀ d, ∃ d', f d = .ok d') →
        (runConn ⟨disk, some d, false⟩ us).2[i]? = some [.ok] := by
  induction us generalizing d with
  | nil => exact ⟨rfl, fun i rt ops hi => by simp at hi, fun i f hi => by simp at hi⟩
  | cons u us ih =>
    have hu := h u List.mem_cons_self
    have ih' := fun d => ih d fun v hv => h v (List.mem_cons_of_mem _ hv)
    have key : ∃ d', (useConn ⟨disk, some d, false⟩ u).1 = ⟨disk, some d', false⟩ := by
      cases u with
      | stmt f =>
        simp only [useConn, SqliteTx.statement]
        cases hf : f d with
        | ok d' => exact ⟨d', rfl⟩
        | failed d' => exact ⟨d', rfl⟩
        | rolledBack => exact (hu d hf).elim
      | tx rt ops => exact ⟨d, rfl⟩
    obtain ⟨d', key⟩ := key
    simp only [runConn, key]
    refine ⟨(ih' d').1, fun i rt ops hi => ?_, fun i f hi hf => ?_⟩
    · cases i with
      | zero =>
        simp only [List.getElem?_cons_zero, Option.some.injEq] at hi
        subst hi
        rfl
      | succ i => exact (ih' d').2.1 i rt ops (by simpa using hi)
    · cases i with
      | zero =>
        simp only [List.getElem?_cons_zero, Option.some.injEq] at hi
        subst hi
        obtain ⟨e, he⟩ := hf d
        simp [useConn, SqliteTx.statement, he]
      | succ i => exact (ih' d').2.2 i f (by simpa using hi) hf

theorem turso_left_open (d : D) (rt : Runtime) (fs : List (D → StmtOut D)) (r : CommitOut)
    (hn : NoAutoRollback (fs.map TxOp.exec)) (fin : List (TxOp D))
    (hfin : (fin = [.commit r] ∧ r ≠ .ok) ∨ (fin = [] ∧ rt ≠ .multiThread)) :
    (useConn ⟨d, none, false⟩ (.tx rt (fs.map .exec ++ fin))).1 =
      ⟨d, some (effects d fs), false⟩ := by
  have h1 := turso_statements rt (⟨d, some d, false⟩ : DbSession D) d fs rfl hn
  simp only [useConn]
  rcases hfin with ⟨rfl, hr⟩ | ⟨rfl, hrt⟩
  · rw [List.append_assoc, runTx_append, h1]
    cases r <;> simp [runTx, TursoTx.step, commitSql, dropTx] at hr ⊢
  · rw [List.append_nil, runTx_append, h1]
    cases rt <;> simp [runTx, TursoTx.step, dropTx] at hrt ⊢

/-- **C70 fails after a commit that fails**: whatever the transaction did and whatever is done with
the connection afterwards, no transaction can be begun any more, and statements report success but
none of them is there when the connection is closed. -/
theorem turso_failed_commit_violated (d : D) (rt : Runtime) (fs : List (D → StmtOut D))
    (hn : NoAutoRollback (fs.map TxOp.exec)) (us : List (ConnUse D)) (hq : ∀ u ∈ us, Quiet u) :
    let run := runConn ⟨d, none, false⟩ (.tx rt (fs.map .exec ++ [.commit .failed]) :: us)
    closeConn run.1 = d ∧
      (∀ (i : Nat) rt' ops, us[i]? = some (.tx rt' ops) → run.2[i + 1]? = some [.dbError]) ∧
      ∀ (i : Nat) f, us[i]? = some (.stmt f) → (∀ d, ∃ d', f d = .ok d') →
        run.2[i + 1]? = some [.ok] := by
  simp only [runConn, turso_left_open d rt fs .failed hn [.commit .failed] (.inl ⟨rfl, by simp⟩)]
  obtain ⟨h1, h2, h3⟩ := turso_stuck d (effects d fs) us hq
  exact ⟨h1, fun i rt' ops hi => by simpa using h2 i rt' ops hi,
    fun i f hi hf => by simpa using h3 i f hi hf⟩

/-- **C70 fails when an unfinished transaction object is dropped outside of a runtime**, as with
the blocking API, or on a runtime with one thread: the transaction stays open with the same
consequences. -/
theorem turso_drop_violated (d : D) (rt : Runtime) (hrt : rt ≠ .multiThread)
    (fs : List (D → StmtOut D)) (hn : NoAutoRollback (fs.map TxOp.exec)) (us : List (ConnUse D))
    (hq : ∀ u ∈ us, Quiet u) :
    let run := runConn ⟨d, none, false⟩ (.tx rt (fs.map .exec) :: us)
    closeConn run.1 = d ∧
      (∀ (i : Nat) rt' ops, us[i]? = some (.tx rt' ops) → run.2[i + 1]? = some [.dbError]) ∧
      ∀ (i : Nat) f, us[i]? = some (.stmt f) → (∀ d, ∃ d', f d = .ok d') →
        run.2[i + 1]? = some [.ok] := by
  have h := turso_left_open d rt fs .failed hn [] (.inr ⟨rfl, hrt⟩)
  rw [List.append_nil] at h
  simp only [runConn, h]
  obtain ⟨h1, h2, h3⟩ := turso_stuck d (effects d fs) us hq
  exact ⟨h1, fun i rt' ops hi => by simpa using h2 i rt' ops hi,
    fun i f hi hf => by simpa using h3 i f hi hf⟩

/-- Dropping on a runtime with one thread panics as well. -/
theorem turso_drop_panics_violated (s : DbSession D) :
    (dropTx .currentThread ⟨s, true⟩).2 = .panicked ∧
      (dropTx .multiThread ⟨s, true⟩).2 = .returned := ⟨rfl, rfl⟩

/-- A life of a connection: a statement, a committed transaction with a failing statement, one
rolled back, one dropped, and a statement. -/
def exLife : List (ConnUse (List Nat)) :=
  [.stmt fun d => .ok (1 :: d),
   .tx .outside [.exec fun d => .ok (2 :: d), .exec fun d => .failed d, .commit .ok],
   .tx .currentThread [.exec fun d => .ok (3 :: d), .rollback],
   .tx .multiThread [.exec fun d => .ok (4 :: d)],
   .stmt fun d => .ok (5 :: d)]

example : ∀ u ∈ exLife, Orderly u := by
  intro u hu
  simp only [exLife, List.mem_cons, List.not_mem_nil, or_false] at hu
  rcases hu with rfl | rfl | rfl | rfl | rfl
  · intro d h; cases h
  · refine ⟨?_, ?_, .inr ⟨[_, _], .commit .ok, [], ⟨rfl, fun _ h => by cases h⟩, .inr ⟨_, rfl⟩⟩⟩
    · intro f hf d h
      simp only [List.mem_cons, TxOp.exec.injEq, reduceCtorEq, List.not_mem_nil, or_false] at hf
      rcases hf with rfl | rfl <;> cases h
    · intro r hr
      simpa using hr
  · refine ⟨?_, ?_, .inr ⟨[_], .rollback, [], ⟨rfl, fun _ h => by cases h⟩, .inl rfl⟩⟩
    · intro f hf d h
      simp only [List.mem_cons, TxOp.exec.injEq, reduceCtorEq, List.not_mem_nil, or_false] at hf
      subst hf
      cases h
    · intro r hr
      simp at hr
  · refine ⟨?_, ?_, .inl rfl⟩
    · intro f hf d h
      simp only [List.mem_cons, TxOp.exec.injEq, List.not_mem_nil, or_false] at hf
      subst hf
      cases h
    · intro r hr
      simp at hr
  · intro d h; cases h

example : closeConn (runConn ⟨[0], none, false⟩ exLife).1 = [5, 2, 1, 0] ∧
    lasting [0] exLife = [5, 2, 1, 0] := ⟨rfl, rfl⟩

/-- The same with a commit that fails: everything after it is lost. -/
example : closeConn (runConn ⟨[0], none, false⟩ [.stmt fun d => .ok (1 :: d),
      .tx .multiThread [.exec fun d => .ok (2 :: d), .commit .failed],
      .stmt fun d => .ok (5 :: d)]).1 = [1, 0] ∧
    lasting [0] [.stmt fun d => .ok (1 :: d),
      .tx .multiThread [.exec fun d => .ok (2 :: d), .commit .failed],
      .stmt fun d => .ok (5 :: d)] = [5, 1, 0] := ⟨rfl, rfl⟩

end Butane.Props
