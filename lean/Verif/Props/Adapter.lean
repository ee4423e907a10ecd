import Verif.Spec.Adapter
/-
Property C46: the async adapter.
-/
namespace Butane.Props
open Butane Butane.Spec Butane.Adapter
variable {σ R : Type}

theorem serial_append_ok {c : σ} {ops : List (Op σ R)} (h : (serial c ops).2.2 = false) (op : Op σ R) :
    serial c (ops ++ [op]) =
      match op.run (serial c ops).1 with
      | (c', some r) => (c', (serial c ops).2.1 ++ [r], false)
      | (c', none) => (c', (serial c ops).2.1, true) := by
  induction ops generalizing c with
  | nil =>
    simp only [List.nil_append, serial]
    cases hr : op.run c with
    | mk c' r => cases r <;> rfl
  | cons o ops ih =>
    simp only [List.cons_append, serial] at h ⊢
    cases ho : o.run c with
    | mk c' r =>
      cases r with
      | none => rw [ho] at h; cases h
      | some r =>
        rw [ho] at h
        simp only at h ⊢
        rw [ih h]
        cases hr : op.run (serial c' ops).1 with
        | mk c2 r2 => cases r2 <;> simp

theorem serial_length {c : σ} {ops : List (Op σ R)} (h : (serial c ops).2.2 = false) :
    (serial c ops).2.1.length = ops.length := by
  induction ops generalizing c with
  | nil => rfl
  | cons o ops ih =>
    simp only [serial] at h ⊢
    cases ho : o.run c with
    | mk c' r =>
      cases r with
      | none => rw [ho] at h; cases h
      | some r =>
        rw [ho] at h
        simp only at h ⊢
        simp [ih h]

theorem serial_le {c : σ} (ops : List (Op σ R)) : (serial c ops).2.1.length ≤ ops.length := by
  induction ops generalizing c with
  | nil => exact Nat.le_refl _
  | cons o ops ih =>
    simp only [serial]
    cases ho : o.run c with
    | mk c' r =>
      cases r with
      | none => simp
      | some r => simpa using ih

/-- The invariant of all schedules: the calls made are those executed and those in the channel. -/
structure Inv (c₀ : σ) (subs : List (Op σ R)) (s : State σ R) (done pend : List (Op σ R)) : Prop where
  all : subs = done ++ pend
  conn : s.conn = (serial c₀ done).1
  alive : s.alive = !(serial c₀ done).2.2
  queue : s.alive = true → s.queue = pend.zipIdx done.length
  slots : s.slots.length = subs.length
  own : ∀ i slot, s.slots[i]? = some slot → OwnResult (serial c₀ done).2.1 (serial c₀ done).2.2 i slot
  patient : s.alive = true → ∀ i, done.length ≤ i → s.slots[i]? ≠ some .gaveUp

theorem getElem?_modify_some {α : Type} {f : α → α} {l : List α} {i j : Nat} {x : α}
    (h : (l.modify i f)[j]? = some x) : ∃ y, l[j]? = some y ∧ x = if i = j then f y else y := by
  rw [List.getElem?_modify] at h
  cases hj : l[j]? with
  | none => rw [hj] at h; cases h
  | some y =>
    rw [hj] at h
    simp only [Option.map_eq_map, Option.map_some, Option.some.injEq] at h
    exact ⟨y, rfl, h.symm⟩

theorem inv_step {c₀ : σ} {subs done pend : List (Op σ R)} {s : State σ R} (h : Inv c₀ subs s done pend)
    (e : Event σ R) (hp : ∀ i, e = .giveUp i → s.slots[i]? ≠ some .waiting) :
    ∃ done' pend', Inv c₀ (subs ++ submissions [e]) (step s e) done' pend' := by
  cases e with
  | submit op =>
    refine ⟨done, pend ++ [op], ?_⟩
    simp only [step, submit, submissions]
    by_cases ha : s.alive = true
    · rw [if_pos ha]
      have hp0 : (serial c₀ done).2.2 = false := by
        have := h.alive; rw [ha] at this; simpa using this.symm
      have hlen := serial_length hp0
      refine ⟨by rw [h.all, List.append_assoc], h.conn, h.alive, fun _ => ?_, ?_, ?_, ?_⟩
      · simp only [h.queue ha, List.zipIdx_append]
        have := h.slots
        rw [h.all] at this
        simp [this]
      · simp [h.slots]
      · intro i slot hs
        simp only at hs
        by_cases hi : i < s.slots.length
        · rw [List.getElem?_append_left hi] at hs
          exact h.own i slot hs
        · rw [List.getElem?_append_right (by omega)] at hs
          have hi2 : i = s.slots.length := by
            refine Decidable.byContradiction fun hne => ?_
            rw [List.getElem?_eq_none (by simp; omega)] at hs
            cases hs
          subst hi2
          simp only [Nat.sub_self, List.getElem?_cons_zero, Option.some.injEq] at hs
          subst hs
          right
          have : (serial c₀ done).2.1[s.slots.length]? = none := by
            apply List.getElem?_eq_none
            rw [hlen, h.slots, h.all]
            simp
          rw [this, hp0]
          simp
      · intro _ i hi hs
        simp only at hs
        by_cases hi' : i < s.slots.length
        · rw [List.getElem?_append_left hi'] at hs
          exact h.patient ha i hi hs
        · rw [List.getElem?_append_right (by omega)] at hs
          cases hk : i - s.slots.length with
          | zero => rw [hk] at hs; cases hs
          | succ k => rw [hk] at hs; simp at hs
    · rw [if_neg ha]
      have ha' : s.alive = false := by simpa using ha
      have hp0 : (serial c₀ done).2.2 = true := by
        have := h.alive; rw [ha'] at this; simpa using this.symm
      refine ⟨by rw [h.all, List.append_assoc], h.conn, h.alive, fun h' => absurd h' ha, ?_, ?_,
        fun h' => absurd h' ha⟩
      · simp [h.slots]
      · intro i slot hs
        simp only at hs
        by_cases hi : i < s.slots.length
        · rw [List.getElem?_append_left hi] at hs
          exact h.own i slot hs
        · rw [List.getElem?_append_right (by omega)] at hs
          have hi2 : i = s.slots.length := by
            refine Decidable.byContradiction fun hne => ?_
            rw [List.getElem?_eq_none (by simp; omega)] at hs
            cases hs
          subst hi2
          simp only [Nat.sub_self, List.getElem?_cons_zero, Option.some.injEq] at hs
          subst hs
          right
          have : (serial c₀ done).2.1[s.slots.length]? = none := by
            apply List.getElem?_eq_none
            have := serial_le (c := c₀) done
            rw [h.slots, h.all]
            simp
            omega
          rw [this, hp0]
          simp
  | work junk =>
    simp only [submissions, List.append_nil, step, work]
    by_cases ha : s.alive = true
    · rw [if_pos ha]
      have hp0 : (serial c₀ done).2.2 = false := by
        have := h.alive; rw [ha] at this; simpa using this.symm
      have hlen := serial_length hp0
      cases hq : pend with
      | nil =>
        rw [h.queue ha, hq]
        subst hq
        exact ⟨done, [], h⟩
      | cons op rest =>
        subst hq
        have hqueue := h.queue ha
        rw [List.zipIdx_cons] at hqueue
        rw [hqueue]
        simp only
        have hnot : s.slots[done.length]? ≠ some .gaveUp := h.patient ha _ (Nat.le_refl _)
        have hgone : gone s done.length = false := by
          unfold gone
          split
          · next hg => exact absurd hg hnot
          · rfl
        rw [hgone]
        simp only [Bool.false_eq_true, if_false]
        have hser := serial_append_ok hp0 op
        have hin : done.length < s.slots.length := by rw [h.slots, h.all]; simp
        cases hrun : op.run s.conn with
        | mk c' r =>
          rw [h.conn] at hrun
          rw [hrun] at hser
          cases r with
          | some r =>
            simp only at hser ⊢
            refine ⟨done ++ [op], rest, ?_⟩
            refine ⟨by rw [h.all]; simp, by rw [hser], by rw [hser]; simpa using ha,
              fun _ => by simp, by simp [h.slots], ?_, ?_⟩
            · intro i slot hs
              obtain ⟨y, hy, hx⟩ := getElem?_modify_some hs
              have hown := h.own i y hy
              rw [hser]
              simp only
              by_cases hi : done.length = i
              · subst hi
                rw [if_pos rfl] at hx
                rcases hown with hg | hown
                · exact absurd (hg ▸ hy) hnot
                · have hn : (serial c₀ done).2.1[done.length]? = none :=
                    List.getElem?_eq_none (by omega)
                  rw [hn, hp0] at hown
                  simp only [Bool.false_eq_true, if_false] at hown
                  subst hown
                  right
                  rw [List.getElem?_append_right (by omega), hlen]
                  simp [hx, Slot.send]
              · rw [if_neg hi] at hx
                subst hx
                rcases hown with hg | hown
                · exact .inl hg
                · right
                  by_cases hlt : i < done.length
                  · rw [List.getElem?_append_left (by omega)]
                    rw [hp0] at hown
                    exact hown
                  · have h1 : (serial c₀ done).2.1[i]? = none := List.getElem?_eq_none (by omega)
                    have h2 : ((serial c₀ done).2.1 ++ [r])[i]? = none :=
                      List.getElem?_eq_none (by simp; omega)
                    rw [h1, hp0] at hown
                    rw [h2]
                    exact hown
            · intro _ i hi hs
              obtain ⟨y, hy, hx⟩ := getElem?_modify_some hs
              simp only [List.length_append, List.length_cons, List.length_nil] at hi
              rw [if_neg (by omega)] at hx
              subst hx
              exact h.patient ha i (by omega) hy
          | none =>
            simp only at hser ⊢
            refine ⟨done ++ [op], rest, ?_⟩
            refine ⟨by rw [h.all]; simp, by rw [hser], by rw [hser]; rfl,
              fun h' => (by cases h'), by simp [h.slots], ?_, fun h' => (by cases h')⟩
            intro i slot hs
            simp only [List.getElem?_map, Option.map_eq_some_iff] at hs
            obtain ⟨y, hy, rfl⟩ := hs
            have hown := h.own i y hy
            rw [hser]
            simp only
            rcases hown with hg | hown
            · subst hg
              exact .inl rfl
            · right
              rw [hp0] at hown
              cases hi : (serial c₀ done).2.1[i]? with
              | some r =>
                rw [hi] at hown
                rcases hown with rfl | rfl
                · exact .inl rfl
                · exact .inr rfl
              | none =>
                rw [hi] at hown
                simp only [Bool.false_eq_true, if_false] at hown
                subst hown
                exact .inl rfl
    · rw [if_neg ha]
      exact ⟨done, pend, h⟩
  | receive i =>
    refine ⟨done, pend, ?_⟩
    simp only [submissions, List.append_nil, step, receive]
    refine ⟨h.all, h.conn, h.alive, h.queue, by simp [h.slots], ?_, ?_⟩
    · intro j slot hs
      obtain ⟨y, hy, hx⟩ := getElem?_modify_some hs
      have hown := h.own j y hy
      by_cases hi : i = j
      · rw [if_pos hi] at hx
        rcases hown with hg | hown
        · subst hg; exact .inl hx
        · right
          split at hown
          · rcases hown with rfl | rfl
            · exact .inr hx
            · exact .inr hx
          · split at hown
            · next hpp =>
              rw [if_pos hpp]
              rcases hown with rfl | rfl
              · exact .inr hx
              · exact .inr hx
            · next hpp =>
              rw [if_neg hpp]
              subst hown
              exact hx
      · rw [if_neg hi] at hx
        subst hx
        exact hown
    · intro ha j hj hs
      obtain ⟨y, hy, hx⟩ := getElem?_modify_some hs
      by_cases hi : i = j
      · rw [if_pos hi] at hx
        cases y with
        | gaveUp => exact h.patient ha j hj hy
        | _ => simp at hx
      · rw [if_neg hi] at hx
        subst hx
        exact h.patient ha j hj hy
  | giveUp i =>
    refine ⟨done, pend, ?_⟩
    have hw := hp i rfl
    simp only [submissions, List.append_nil, step, giveUp]
    refine ⟨h.all, h.conn, h.alive, h.queue, by simp [h.slots], ?_, ?_⟩
    · intro j slot hs
      obtain ⟨y, hy, hx⟩ := getElem?_modify_some hs
      have hown := h.own j y hy
      by_cases hi : i = j
      · rw [if_pos hi] at hx
        cases y with
        | waiting => exact .inl hx
        | ready _ => exact .inl hx
        | dropped => exact .inl hx
        | got r => simp only at hx; subst hx; exact hown
        | gotError => simp only at hx; subst hx; exact hown
        | gaveUp => exact .inl hx
      · rw [if_neg hi] at hx
        subst hx
        exact hown
    · intro ha j hj hs
      obtain ⟨y, hy, hx⟩ := getElem?_modify_some hs
      by_cases hi : i = j
      · subst hi
        rcases h.own i y hy with hg | hown
        · subst hg; exact h.patient ha i hj hy
        · have hp0 : (serial c₀ done).2.2 = false := by
            have := h.alive
            simp only at ha
            rw [ha] at this; simpa using this.symm
          rw [List.getElem?_eq_none (by rw [serial_length hp0]; exact hj), hp0] at hown
          simp only [Bool.false_eq_true, if_false] at hown
          subst hown
          exact hw hy
      · rw [if_neg hi] at hx
        subst hx
        exact h.patient ha j hj hy

theorem submissions_append (a b : List (Event σ R)) :
    submissions (a ++ b) = submissions a ++ submissions b := by
  induction a with
  | nil => rfl
  | cons e a ih => cases e <;> simp [submissions, ih]

theorem inv_run {c₀ : σ} (es : List (Event σ R)) : ∀ (subs done pend : List (Op σ R)) (s : State σ R),
    Inv c₀ subs s done pend → Patient s es →
    ∃ done' pend', Inv c₀ (subs ++ submissions es) (run s es) done' pend' := by
  induction es with
  | nil => intro subs done pend s h _; exact ⟨done, pend, by simpa [submissions, run] using h⟩
  | cons e es ih =>
    intro subs done pend s h hp
    obtain ⟨done', pend', h'⟩ := inv_step h e hp.1
    obtain ⟨d2, p2, h2⟩ := ih _ _ _ _ h' hp.2
    refine ⟨d2, p2, ?_⟩
    rw [List.append_assoc, ← submissions_append] at h2
    exact h2

theorem inv_init (c₀ : σ) : Inv c₀ ([] : List (Op σ R)) (init c₀) [] [] :=
  ⟨rfl, rfl, rfl, fun _ => rfl, rfl, fun i slot h => by simp [init] at h,
    fun _ i _ h => by simp [init] at h⟩

/-- C46: in every schedule of callers and worker, the calls executed are the first ones made, in
the order in which they were made, each once; the connection is as after executing them one after
the other; every caller that has a result has that of its own call; and a caller is left waiting
only while its call is in the channel.  Missing: callers that give up before their call is
executed (false, see below). -/
theorem adapter_serial_partial (c₀ : σ) (es : List (Event σ R)) (hp : Patient (init c₀) es) :
    ∃ done pend, submissions es = done ++ pend ∧
      (run (init c₀) es).conn = (serial c₀ done).1 ∧
      ((run (init c₀) es).alive = true → (run (init c₀) es).queue.map (·.1) = pend) ∧
      ((run (init c₀) es).alive = false → (serial c₀ done).2.2 = true) ∧
      (run (init c₀) es).slots.length = (submissions es).length ∧
      ∀ i slot, (run (init c₀) es).slots[i]? = some slot →
        OwnResult (serial c₀ done).2.1 (serial c₀ done).2.2 i slot := by
  obtain ⟨done, pend, h⟩ := inv_run es [] [] [] (init c₀) (inv_init c₀) hp
  simp only [List.nil_append] at h
  refine ⟨done, pend, h.all, h.conn, fun ha => ?_, fun ha => ?_, h.slots, h.own⟩
  · rw [h.queue ha]
    simp
  · have := h.alive
    rw [ha] at this
    simpa using this.symm

/-- C46: when the worker has died, no caller is left waiting. -/
theorem adapter_dead_partial (c₀ : σ) (es : List (Event σ R)) (hp : Patient (init c₀) es)
    (hd : (run (init c₀) es).alive = false) (i : Nat) :
    (run (init c₀) es).slots[i]? ≠ some .waiting := by
  obtain ⟨done, pend, _, _, _, h4, _, h6⟩ := adapter_serial_partial c₀ es hp
  intro h
  rcases h6 i _ h with h' | h'
  · cases h'
  · rw [h4 hd] at h'
    split at h'
    · rcases h' with h' | h' <;> cases h'
    · simp at h'

theorem run_append (s : State σ R) (a b : List (Event σ R)) : run s (a ++ b) = run (run s a) b := by
  induction a generalizing s with
  | nil => rfl
  | cons e a ih => exact ih _

theorem patient_append {s : State σ R} {a b : List (Event σ R)} :
    Patient s (a ++ b) ↔ Patient s a ∧ Patient (run s a) b := by
  induction a generalizing s with
  | nil => simp [Patient, run]
  | cons e a ih => simp only [List.cons_append, Patient, run, ih, and_assoc]

/-- C46: the worker can always finish: after as many turns as there are calls in the channel no
caller is waiting. -/
theorem adapter_progress_partial (c₀ : σ) (junk : σ) (es : List (Event σ R))
    (hp : Patient (init c₀) es) (i : Nat) :
    (run (init c₀) (es ++ List.replicate (run (init c₀) es).queue.length (.work junk))).slots[i]? ≠
      some .waiting := by
  have hq : ∀ (n : Nat) (s : State σ R), s.queue.length = n →
      (run s (List.replicate n (.work junk))).alive = false ∨
      (run s (List.replicate n (.work junk))).queue = [] := by
    intro n
    induction n with
    | zero => intro s hs; exact .inr (List.length_eq_zero_iff.1 hs)
    | succ n ih =>
      intro s hs
      have hdead : ∀ (m : Nat) (s : State σ R), s.alive = false →
          (run s (List.replicate m (.work junk))).alive = false := by
        intro m
        induction m with
        | zero => exact fun s h => h
        | succ m ih =>
          intro s h
          exact ih _ (by simp [step, work, h])
      simp only [List.replicate_succ, run, step, work]
      by_cases ha : s.alive = true
      · rw [if_pos ha]
        cases hqq : s.queue with
        | nil => rw [hqq] at hs; cases hs
        | cons x rest =>
          obtain ⟨op, j⟩ := x
          rw [hqq] at hs
          simp only
          split
          · exact ih _ (by simpa using hs)
          · split
            · exact ih _ (by simpa using hs)
            · exact .inl (hdead _ _ rfl)
      · rw [if_neg ha]
        exact .inl (hdead _ _ (by simpa using ha))
  have hpr : ∀ (n : Nat) (s : State σ R), Patient s (List.replicate n (.work junk)) := by
    intro n
    induction n with
    | zero => exact fun _ => trivial
    | succ n ih => exact fun s => ⟨fun i h => (by cases h), ih _⟩
  have hp' : Patient (init c₀) (es ++ List.replicate (run (init c₀) es).queue.length (.work junk)) :=
    patient_append.2 ⟨hp, hpr _ _⟩
  have hfin := hq _ (run (init c₀) es) rfl
  rw [← run_append] at hfin
  by_cases ha : (run (init c₀) (es ++ List.replicate (run (init c₀) es).queue.length
      (.work junk))).alive = true
  · have hq0 := hfin.resolve_left (by rw [ha]; simp)
    obtain ⟨done, pend, h⟩ := inv_run _ [] [] [] (init c₀) (inv_init c₀) hp'
    simp only [List.nil_append] at h
    have h1 := h.queue ha
    rw [hq0] at h1
    have h2 : pend = [] := by
      have := congrArg List.length h1
      simpa using this.symm
    intro hi
    have hlt : i < done.length := by
      have h3 := (List.getElem?_eq_some_iff.1 hi).1
      rw [h.slots, h.all, h2] at h3
      simpa using h3
    have hp0 : (serial c₀ done).2.2 = false := by
      have := h.alive; rw [ha] at this; simpa using this.symm
    rcases h.own i _ hi with h' | h'
    · cases h'
    · have hs : ∃ r, (serial c₀ done).2.1[i]? = some r := by
        rw [← serial_length hp0] at hlt
        exact ⟨_, List.getElem?_eq_getElem hlt⟩
      obtain ⟨r, hr⟩ := hs
      rw [hr] at h'
      rcases h' with h' | h' <;> cases h'
  · exact adapter_dead_partial c₀ _ hp' (by simpa using ha) i

/-! ### Examples and violations -/

/-- A call that adds a number and returns the sum. -/
def exAdd (n : Nat) : Op Nat Nat := ⟨fun c => (c + n, some (c + n))⟩

/-- A call that panics. -/
def exBoom : Op Nat Nat := ⟨fun c => (c, none)⟩

/-- Two callers; the second gives up after its call is executed, the first receives. -/
example : Patient (init 0) [.submit (exAdd 1), .submit (exAdd 2), .work 0, .work 0, .giveUp 1, .receive 0] := by
  simp only [Patient, reduceCtorEq, false_implies, implies_true, true_and, and_true,
    Event.giveUp.injEq]
  rintro i rfl
  decide

example : (run (init 0) [.submit (exAdd 1), .submit (exAdd 2), .work 0, .work 0, .giveUp 1,
    .receive 0]).slots = [.got 1, .gaveUp] := by decide

example : (run (init 0) [.submit (exAdd 1), .submit exBoom, .submit (exAdd 2), .work 0, .work 0,
    .submit (exAdd 3)]).slots = [.ready 1, .dropped, .dropped, .gotError] := by decide

/-- **C46 fails when a caller gives up before its call is executed**: the worker executes it with
arguments that are gone, and whatever state the connection is in afterwards, another caller gets a
result that no serial execution of the calls gives. -/
theorem adapter_give_up_violated : ∃ es : List (Event Nat Nat),
    submissions es = [exAdd 1, exAdd 2] ∧ (run (init 0) es).slots[1]? = some (.got 44) ∧
    ∀ done pend, [exAdd 1, exAdd 2] = done ++ pend →
      ¬ OwnResult (serial 0 done).2.1 (serial 0 done).2.2 1 (Slot.got 44) := by
  refine ⟨[.submit (exAdd 1), .giveUp 0, .submit (exAdd 2), .work 42, .work 42, .receive 1], rfl,
    by decide, ?_⟩
  intro done pend h
  match done with
  | [] => simp [OwnResult, serial]
  | [a] =>
    simp only [List.cons_append, List.cons.injEq] at h
    rw [← h.1]
    simp [OwnResult, serial, exAdd]
  | [a, b] =>
    simp only [List.cons_append, List.cons.injEq] at h
    rw [← h.1, ← h.2.1]
    simp [OwnResult, serial, exAdd]
  | a :: b :: c :: d => simp at h

/-- Beginning a transaction on a connection (`transaction()`, adapter.rs:375-385): fails if one is
open. -/
def exBegin : Op (DbSession (List Nat)) Bool :=
  ⟨fun s => match s.open_ with
    | none => ({ s with open_ := some s.disk }, some true)
    | some _ => (s, some false)⟩

/-- A statement on the connection. -/
def exInsert (n : Nat) : Op (DbSession (List Nat)) Bool :=
  ⟨fun s => ((SqliteTx.statement s fun d => .ok (n :: d)).1, some true)⟩

/-- **A caller that gives up beginning a transaction leaves it open**, even after the worker has
executed the call: nobody has the transaction object, so nothing ends it.  Statements of other
callers then succeed but are never committed, and no transaction can be begun. -/
theorem adapter_lost_transaction_violated (junk : DbSession (List Nat)) :
    ∃ es, Patient (init ⟨[], none, false⟩) es ∧
      submissions es = [exBegin, exInsert 7, exBegin] ∧
      (run (init ⟨[], none, false⟩) es).slots = [.gaveUp, .got true, .got false] ∧
      (run (init ⟨[], none, false⟩) es).conn.disk = [] := by
  refine ⟨[.submit exBegin, .work junk, .giveUp 0, .submit (exInsert 7), .work junk, .receive 1,
    .submit exBegin, .work junk, .receive 2], ?_, rfl, rfl, rfl⟩
  simp only [Patient, reduceCtorEq, false_implies, implies_true, true_and, and_true,
    Event.giveUp.injEq]
  rintro i rfl h
  cases h

end Butane.Props
