import Verif.Model.WithSync
/-
Property C47: `with_sync`.
-/
namespace Butane.Props
open Butane
variable {C E T : Type}

/-- The callback returns, and the caller waits for it. -/
def CallbackReturned (fate : WsFate) (f : C → Callback C E T) (c c' : C) (r : Except (WsErr E) T) : Prop :=
  fate = .fine ∧ f c = .returns c' r

/-- The connection answers every operation with `PoisonedConnection`, and says that it is closed. -/
def Poisoned (E : Type) (conn : AConn C) : Prop :=
  (∀ (R : Type) (op : C → C × Except (WsErr E) R), conn.operate op = (conn, .error .poisoned)) ∧
    ∀ closed, conn.isClosed closed = true

/-- C47: whatever the callback does and whatever fails, either the callback has returned, and then
the connection is the same, as the callback has left it, and the result is that of the callback,
be it an error; or the call fails (or its future was dropped) and every operation fails with
`PoisonedConnection`. -/
theorem with_sync_partial (fate : WsFate) (f : C → Callback C E T)
    (fd : Option (Except (WsErr E) T)) (c : C) :
    (∃ c' r, CallbackReturned fate f c c' r ∧ withSync fate f fd (.real c) = (.real c', some r)) ∨
    ((¬ ∃ c' r, CallbackReturned fate f c c' r) ∧ Poisoned E (withSync fate f fd (.real c)).1 ∧
      ∀ r, (withSync fate f fd (.real c)).2 = some r → ∃ e, r = .error e) := by
  have hd : Poisoned E (AConn.dummy : AConn C) := ⟨fun _ _ => rfl, fun _ => rfl⟩
  cases fate with
  | fine =>
    cases hf : f c with
    | returns c' r => exact .inl ⟨c', r, ⟨rfl, hf⟩, by simp [withSync, wsTask, hf]⟩
    | panics =>
      right
      refine ⟨?_, ?_, ?_⟩
      · rintro ⟨c', r, _, h⟩
        rw [hf] at h
        cases h
      · simpa [withSync, wsTask, hf] using hd
      · intro r h
        simp only [withSync, wsTask, hf] at h
        cases h
        exact ⟨_, rfl⟩
  | adapterFails =>
    right
    refine ⟨fun ⟨_, _, h, _⟩ => (by cases h), hd, fun r h => ?_⟩
    cases h
    exact ⟨_, rfl⟩
  | cancelled =>
    right
    refine ⟨fun ⟨_, _, h, _⟩ => (by cases h), hd, fun r h => ?_⟩
    cases h
    exact ⟨_, rfl⟩
  | futureDropped =>
    right
    refine ⟨fun ⟨_, _, h, _⟩ => (by cases h), hd, fun r h => ?_⟩
    cases h

/-- C47: a poisoned connection stays poisoned in every history: each operation fails with
`PoisonedConnection`. -/
theorem poisoned_forever (us : List (WsUse C E T)) :
    Poisoned E (wsRun (.dummy : AConn C) us).1 ∧
    ∀ (i : Nat) (op : C → C × Except (WsErr E) T), us[i]? = some (.operate op) →
      (wsRun (.dummy : AConn C) us).2[i]? = some (some (.error .poisoned)) := by
  have hstep : ∀ u : WsUse C E T, (wsStep (.dummy : AConn C) u).1 = .dummy := by
    intro u
    cases u with
    | operate op => rfl
    | withSync fate f fd =>
      simp only [wsStep, withSync]
      cases fate <;> cases fd <;> simp [wsTask]
  have hrun : ∀ us : List (WsUse C E T), (wsRun (.dummy : AConn C) us).1 = .dummy := by
    intro us
    induction us with
    | nil => rfl
    | cons u us ih => simp only [wsRun, hstep, ih]
  refine ⟨by rw [hrun]; exact ⟨fun _ _ => rfl, fun _ => rfl⟩, ?_⟩
  induction us with
  | nil => intro i op h; simp at h
  | cons u us ih =>
    intro i op h
    cases i with
    | zero =>
      simp only [List.getElem?_cons_zero, Option.some.injEq] at h
      subst h
      rfl
    | succ i =>
      simp only [List.getElem?_cons_succ] at h
      simp only [wsRun, hstep, List.getElem?_cons_succ]
      exact ih i op h

/-- C47 for histories: as long as every callback returns and is waited for, the connection is the
real one. -/
theorem usable_while_callbacks_return (us : List (WsUse C E T)) (c : C)
    (h : ∀ fate f fd, .withSync fate f fd ∈ us → fate = .fine ∧ ∀ x, f x ≠ .panics) :
    ∃ c', (wsRun (.real c) us).1 = .real c' := by
  induction us generalizing c with
  | nil => exact ⟨c, rfl⟩
  | cons u us ih =>
    have h' : ∀ fate f fd, .withSync fate f fd ∈ us → fate = .fine ∧ ∀ x, f x ≠ .panics :=
      fun fate f fd hm => h fate f fd (List.mem_cons_of_mem _ hm)
    cases u with
    | operate op => exact ih _ h'
    | withSync fate f fd =>
      obtain ⟨rfl, hp⟩ := h fate f fd List.mem_cons_self
      cases hf : f c with
      | panics => exact absurd hf (hp c)
      | returns c' r =>
        simp only [wsRun, wsStep, withSync, wsTask, hf, reduceCtorEq, if_false]
        exact ih _ h'

/-- **C47 fails when the caller drops the future of `with_sync`**: the callback goes on and returns
without error, but the connection is poisoned. -/
theorem with_sync_dropped_violated (f : C → Callback C E T) (fd : Option (Except (WsErr E) T))
    (c c' : C) (r : T) (_ : f c = .returns c' (.ok r)) :
    Poisoned E (withSync .futureDropped f fd (.real c)).1 :=
  ⟨fun _ _ => rfl, fun _ => rfl⟩

/-- A callback that fails with an error of the database leaves the connection usable. -/
example : withSync .fine (fun c : Nat => (.returns (c + 1) (.error (.inner "constraint")) :
    Callback Nat String Nat)) none (.real 0) = (.real 1, some (.error (.inner "constraint"))) := rfl

/-- A callback that panics. -/
example : withSync .fine (fun _ : Nat => (.panics : Callback Nat String Nat)) none (.real 0) =
    (.dummy, some (.error .join)) := rfl

/-- The hypotheses of `usable_while_callbacks_return` are met by a history with both kinds of use. -/
example : ∀ fate f fd, (WsUse.withSync fate f fd : WsUse Nat String Nat) ∈
    ([.operate fun c => (c, .ok c), .withSync .fine (fun c => .returns c (.ok c)) none] : List _) →
    fate = .fine ∧ ∀ x, f x ≠ .panics := by
  intro fate f fd h
  simp only [List.mem_cons, reduceCtorEq, WsUse.withSync.injEq, List.not_mem_nil, or_false,
    false_or] at h
  obtain ⟨rfl, rfl, _⟩ := h
  exact ⟨rfl, fun x h => by cases h⟩

end Butane.Props
