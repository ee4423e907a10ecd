/-
Tables that several compilers record, readers, and waiting for locks.
-/
import Verif.Proofs.RecordStep

namespace Butane.RecordProof
open Butane Butane.Record Butane.Spec

variable {K V T : Type} [DecidableEq K]

theorem table_setTable (d : Disk) (n m : String) (t : List Char) :
    (d.setTable n t).table m = if m = n then some t else d.table m := by
  unfold Disk.setTable Disk.table
  simp only [List.find?]
  by_cases h : m = n
  · subst h; simp
  · have : (n == m) = false := by simpa using Ne.symm h
    rw [this, if_neg h]
    simp only
    congr 1
    rw [List.find?_filter]
    congr 1
    funext a
    by_cases ha : a.1 = m
    · simp [ha, h]
    · simp [ha]

/-- The process is going to write the table `n`: the texts. -/
def Writes (n : String) (t : T) (p : Proc K V T) : Prop :=
  .addTable n t ∈ p.ops ∨ p.pc = .tableOpen n t ∨ p.pc = .tableWrite n t

/-- Every process that is going to write the table writes the same. -/
structure TInv (cb : Codec T) (P : Nat → List (Op K V T)) (n : String) (t : T) (old : Option (List Char))
    (s : State K V T) : Prop where
  same : ∀ i t', Writes n t' (s.proc i) → t' = t ∧ .addTable n t' ∈ P i
  file : (s.disk.table n = old ∧
      (∀ i, .addTable n t ∈ P i → .addTable n t ∈ (s.proc i).ops ∨ (s.proc i).pc = .tableOpen n t ∨
        ∃ b, (s.proc i).pc = .stopped b) ∧ ∀ i, ¬WritingTable n (s.proc i)) ∨
    (s.disk.table n = some [] ∧ ∃ i, WritingTable n (s.proc i)) ∨
    s.disk.table n = some (cb.print t) ∧ ∃ i, .addTable n t ∈ P i

theorem release_table (d : Disk) (i : Nat) (n : String) : (d.release i).table n = d.table n := rfl

/-- A step that does not touch the table. -/
theorem TInv.plain {cb : Codec T} {P : Nat → List (Op K V T)} {n : String} {t : T} {old : Option (List Char)}
    {s : State K V T} (h : TInv cb P n t old s) {i : Nat} {d' : Disk} {p' : Proc K V T}
    (hd : d'.table n = s.disk.table n) (hw : ∀ t', Writes n t' p' → Writes n t' (s.proc i))
    (hk : .addTable n t ∈ (s.proc i).ops ∨ (s.proc i).pc = .tableOpen n t ∨ (∃ b, (s.proc i).pc = .stopped b) →
      .addTable n t ∈ p'.ops ∨ p'.pc = .tableOpen n t ∨ ∃ b, p'.pc = .stopped b)
    (ht : WritingTable n (s.proc i) ↔ WritingTable n p') : TInv cb P n t old (s.next i d' p') := by
  refine ⟨?_, ?_⟩
  · intro j t' hj
    by_cases hji : j = i
    · subst hji; rw [next_self] at hj; exact h.same j t' (hw t' hj)
    · rw [next_other _ _ _ hji] at hj; exact h.same j t' hj
  · show (d'.table n = _ ∧ _ ∧ _) ∨ (d'.table n = _ ∧ _) ∨ (d'.table n = _ ∧ _)
    rw [hd]
    rcases h.file with ⟨h1, h2, h3⟩ | ⟨h1, j, h2⟩ | h1
    · left
      refine ⟨h1, ?_, ?_⟩
      · intro j hj
        by_cases hji : j = i
        · subst hji; rw [next_self]; exact hk (h2 j hj)
        · rw [next_other _ _ _ hji]; exact h2 j hj
      · intro j
        by_cases hji : j = i
        · subst hji; rw [next_self]; exact fun hc => h3 j (ht.2 hc)
        · rw [next_other _ _ _ hji]; exact h3 j
    · right; left
      refine ⟨h1, j, ?_⟩
      by_cases hji : j = i
      · subst hji; rw [next_self]; exact ht.1 h2
      · rw [next_other _ _ _ hji]; exact h2
    · right; right; exact h1

theorem step_tinv {ct : Codec (Types K V)} {cb : Codec T} {P : Nat → List (Op K V T)} {n : String} {t : T}
    {old : Option (List Char)} {s : State K V T} (h : TInv cb P n t old s) (i : Nat) :
    TInv cb P n t old (step ct cb s i) := by
  have hpl := @TInv.plain K V T _ cb P n t old s h i
  have hsame := h.same i
  unfold step
  rcases hp : s.proc i with ⟨ops, pc, out⟩
  rw [hp] at hpl hsame
  have easy : ∀ (d' : Disk) (p' : Proc K V T), d'.table n = s.disk.table n → p'.ops = ops →
      (∀ t', pc ≠ .tableOpen n t' ∧ pc ≠ .tableWrite n t') → (∀ b, pc ≠ .stopped b) →
      (∀ t', p'.pc ≠ .tableOpen n t' ∧ p'.pc ≠ .tableWrite n t') → TInv cb P n t old (s.next i d' p') := by
    intro d' p' h1 h2 h3 h4 h5
    refine hpl h1 ?_ ?_ ?_
    · intro t' hw
      rcases hw with hw | hw | hw
      · left; rw [← h2]; exact hw
      · exact absurd hw (h5 t').1
      · exact absurd hw (h5 t').2
    · intro hk
      rcases hk with hk | hk | ⟨b, hk⟩
      · left; rw [h2]; exact hk
      · exact absurd hk (h3 t).1
      · exact absurd hk (h4 b)
    · exact ⟨fun ⟨t', hc⟩ => absurd hc (h3 t').2, fun ⟨t', hc⟩ => absurd hc (h5 t').2⟩
  cases pc with
  | idle =>
    cases ops with
    | nil => exact h
    | cons op ops =>
      have drop : ∀ (d' : Disk) (pc' : Pc K V T), d'.table n = s.disk.table n → (∀ t', op ≠ .addTable n t') →
          (∀ t', pc' ≠ .tableOpen n t' ∧ pc' ≠ .tableWrite n t') → TInv cb P n t old (s.next i d' ⟨ops, pc', out⟩) := by
        intro d' pc' h1 h2 h3
        refine hpl h1 ?_ ?_ ?_
        · intro t' hw
          rcases hw with hw | hw | hw
          · left; exact List.mem_cons_of_mem _ hw
          · exact absurd hw (h3 t').1
          · exact absurd hw (h3 t').2
        · intro hk
          rcases hk with hk | hk | ⟨b, hk⟩
          · left
            rcases List.mem_cons.1 hk with hk | hk
            · exact absurd hk.symm (h2 t)
            · exact hk
          · cases hk
          · cases hk
        · exact ⟨(fun ⟨t', hc⟩ => by cases hc), fun ⟨t', hc⟩ => absurd hc (h3 t').2⟩
      cases op with
      | addType k v =>
        simp only
        split
        · exact drop _ _ rfl (by intro t'; simp) (by intro t'; simp)
        · split
          · exact drop _ _ rfl (by intro t'; simp) (by intro t'; simp)
          · exact h
      | addTable n' t0 =>
        simp only
        by_cases hn : n' = n
        · subst hn
          refine hpl rfl ?_ ?_ ?_
          · intro t' hw
            rcases hw with hw | hw | hw
            · left; exact List.mem_cons_of_mem _ hw
            · left
              simp only [Pc.tableOpen.injEq] at hw
              rw [hw.2]; exact List.mem_cons_self
            · cases hw
          · intro hk
            rcases hk with hk | hk | ⟨b, hk⟩
            · rcases List.mem_cons.1 hk with hk | hk
              · right; left
                simp only [Op.addTable.injEq] at hk
                simp [hk.2]
              · exact .inl hk
            · cases hk
            · cases hk
          · exact ⟨(fun ⟨t', hc⟩ => by cases hc), fun ⟨t', hc⟩ => by cases hc⟩
        · exact drop _ _ rfl (by intro t'; simp [hn]) (by intro t'; simp [hn])
      | readDb => exact drop _ _ rfl (by intro t'; simp) (by intro t'; simp)
  | typeRead b k v =>
    simp only
    split
    · exact easy _ _ rfl rfl (by intro t'; simp) (by simp) (by intro t'; simp)
    · split
      · exact easy _ _ rfl rfl (by intro t'; simp) (by simp) (by intro t'; simp)
      · exact easy _ _ rfl rfl (by intro t'; simp) (by simp) (by intro t'; simp)
  | typeDir b m => exact easy _ _ rfl rfl (by intro t'; simp) (by simp) (by intro t'; simp)
  | typeOpen b m => exact easy _ _ rfl rfl (by intro t'; simp) (by simp) (by intro t'; simp)
  | typeWrite b m => exact easy _ _ rfl rfl (by intro t'; simp) (by simp) (by intro t'; simp)
  | typeDone b => exact easy _ _ rfl rfl (by intro t'; simp) (by simp) (by intro t'; simp)
  | tableOpen n' t0 =>
    simp only
    by_cases hn : n' = n
    · subst hn
      have ht0 := hsame t0 (.inr (.inl rfl))
      refine ⟨?_, .inr (.inl ⟨by rw [show (s.next i (s.disk.setTable n' []) _).disk = s.disk.setTable n' [] from rfl, table_setTable, if_pos rfl],
        i, t0, by rw [next_self]⟩)⟩
      intro j t' hj
      by_cases hji : j = i
      · subst hji; rw [next_self] at hj
        rcases hj with hj | hj | hj
        · exact hsame t' (.inl hj)
        · cases hj
        · simp only [Pc.tableWrite.injEq] at hj; rw [← hj.2]; exact ht0
      · rw [next_other _ _ _ hji] at hj; exact h.same j t' hj
    · refine easy _ _ (by rw [table_setTable, if_neg (Ne.symm hn)]) rfl (by intro t'; simp [hn]) (by simp) (by intro t'; simp [hn])
  | tableWrite n' t0 =>
    simp only
    by_cases hn : n' = n
    · subst hn
      obtain ⟨ht0, hmem⟩ := hsame t0 (.inr (.inr rfl))
      subst ht0
      have hsm : ∀ (d' : Disk) j t', Writes n' t' ((s.next i d' ⟨ops, .idle, out⟩).proc j) → t' = t0 ∧ .addTable n' t' ∈ P j := by
        intro d' j t' hj
        by_cases hji : j = i
        · subst hji; rw [next_self] at hj
          rcases hj with hj | hj | hj
          · exact hsame t' (.inl hj)
          · cases hj
          · cases hj
        · rw [next_other _ _ _ hji] at hj; exact h.same j t' hj
      refine ⟨hsm _, .inr (.inr ⟨?_, i, hmem⟩)⟩
      rw [show ∀ d' p', (s.next i d' p').disk = d' from fun _ _ => rfl, table_setTable, if_pos rfl]
      have hold : s.disk.table n' = some [] ∨ s.disk.table n' = some (cb.print t0) := by
        rcases h.file with ⟨_, _, h3⟩ | ⟨h1, _⟩ | ⟨h1, _⟩
        · exact absurd ⟨t0, by rw [hp]⟩ (h3 i)
        · exact .inl h1
        · exact .inr h1
      rcases hold with ho | ho
      · rw [ho]; simp [overwrite_nil]
      · rw [ho]; simp [overwrite_self]
    · refine easy _ _ (by rw [table_setTable, if_neg (Ne.symm hn)]) rfl (by intro t'; simp [hn]) (by simp) (by intro t'; simp)
  | readLock =>
    simp only
    split
    · exact easy _ _ rfl rfl (by intro t'; simp) (by simp) (by intro t'; simp)
    · exact h
  | readList => exact easy _ _ rfl rfl (by intro t'; simp) (by simp) (by intro t'; simp)
  | reading todo m ts =>
    cases todo with
    | nil => exact easy _ _ rfl rfl (by intro t'; simp) (by simp) (by intro t'; simp)
    | cons x todo =>
      cases x with
      | none =>
        simp only
        split
        · exact easy _ _ rfl rfl (by intro t'; simp) (by simp) (by intro t'; simp)
        · exact easy _ _ rfl rfl (by intro t'; simp) (by simp) (by intro t'; simp)
      | some m' =>
        simp only
        split
        · exact easy _ _ rfl rfl (by intro t'; simp) (by simp) (by intro t'; simp)
        · exact easy _ _ rfl rfl (by intro t'; simp) (by simp) (by intro t'; simp)
  | stopped b => exact h

theorem kill_tinv {cb : Codec T} {P : Nat → List (Op K V T)} {n : String} {t : T}
    {old : Option (List Char)} {s : State K V T} (h : TInv cb P n t old s) (i : Nat)
    (hn : ¬WritingTable n (s.proc i)) : TInv cb P n t old (kill s i) := by
  refine h.plain rfl ?_ ?_ ?_
  · intro t' hw
    rcases hw with hw | hw | hw
    · simp at hw
    · cases hw
    · cases hw
  · intro _; exact .inr (.inr ⟨false, rfl⟩)
  · exact ⟨fun hc => absurd hc hn, fun ⟨t', hc⟩ => by cases hc⟩

theorem run_tinv {ct : Codec (Types K V)} {cb : Codec T} {P : Nat → List (Op K V T)} {n : String} {t : T}
    {old : Option (List Char)} (es : List Event) {s : State K V T} (h : TInv cb P n t old s)
    (hk : KillsAvoid (WritingTable n) ct cb s es) : TInv cb P n t old (run ct cb s es) := by
  induction es generalizing s with
  | nil => exact h
  | cons e es ih =>
    cases e with
    | step i => exact ih (step_tinv h i) hk.2
    | kill i => exact ih (kill_tinv h i (hk.1 i rfl)) hk.2

omit [DecidableEq K] in
theorem start_tinv {cb : Codec T} {dir : Bool} {types : Option (List Char)}
    {tables : List (String × List Char)} {P : Nat → List (Op K V T)} {n : String} {t : T}
    (h : ∀ i t', .addTable n t' ∈ P i → t' = t) :
    TInv cb P n t ((start dir types tables P).disk.table n) (start dir types tables P) := by
  refine ⟨?_, .inl ⟨rfl, ?_, ?_⟩⟩
  · intro i t' hw
    rcases hw with hw | hw | hw
    · exact ⟨h i t' hw, hw⟩
    · cases hw
    · cases hw
  · intro i hi; exact .inl hi
  · rintro i ⟨t', hc⟩; cases hc

/-! ### Reading while only types are recorded -/

/-- What is true of a process if nobody records tables. -/
def RProc (cb : Codec T) (tables : List (String × List Char)) (p : Proc K V T) : Prop :=
  (∀ n t, .addTable n t ∉ p.ops) ∧ (∀ r ∈ p.out, tables.map (fun q => cb.parse q.2) = r.2.map some) ∧
  match p.pc with
  | .tableOpen _ _ => False
  | .tableWrite _ _ => False
  | .stopped b => b = false
  | .reading todo _ ts => ∃ a b, tables = a ++ b ∧ todo.filterMap id = b.map (·.1) ∧
      a.map (fun q => cb.parse q.2) = ts.map some
  | _ => True

theorem find_nodup {tables : List (String × List Char)} (hn : (tables.map (·.1)).Nodup) {q : String × List Char}
    (h : q ∈ tables) : tables.find? (fun p => p.1 == q.1) = some q := by
  induction tables with
  | nil => simp at h
  | cons a l ih =>
    simp only [List.map_cons, List.nodup_cons] at hn
    rcases List.mem_cons.1 h with h1 | h1
    · subst h1; simp
    · have : a.1 ≠ q.1 := by intro hc; apply hn.1; rw [hc]; exact List.mem_map_of_mem h1
      rw [List.find?_cons_of_neg (by simpa using this)]
      exact ih hn.2 h1

theorem step_rinv {ct : Codec (Types K V)} {cb : Codec T} {known : K → Option V} {P : Nat → List (Op K V T)}
    {tables : List (String × List Char)} (hnd : (tables.map (·.1)).Nodup)
    (hparse : ∀ q ∈ tables, (cb.parse q.2).isSome = true)
    {s : State K V T} {f : Nat → List (K × V)} {l : List (K × V)} (h : Inv ct known P s f l)
    (hr : s.disk.tables = tables ∧ ∀ i, RProc cb tables (s.proc i)) (i : Nat) :
    (step ct cb s i).disk.tables = tables ∧ ∀ j, RProc cb tables ((step ct cb s i).proc j) := by
  obtain ⟨htab, hr⟩ := hr
  obtain ⟨pre, rest, hP, hf, ho, hpc⟩ := h.procs i
  have hwr := @Inv.whole_of_reader K V T _ ct known P s f l h i
  have hri := hr i
  have next : ∀ (d' : Disk) (p' : Proc K V T), d'.tables = tables → RProc cb tables p' →
      (s.next i d' p').disk.tables = tables ∧ ∀ j, RProc cb tables ((s.next i d' p').proc j) := by
    intro d' p' h1 h2
    refine ⟨h1, ?_⟩
    intro j
    by_cases hj : j = i
    · subst hj; rw [next_self]; exact h2
    · rw [next_other _ _ _ hj]; exact hr j
  unfold step
  rcases hp : s.proc i with ⟨ops, pc, out⟩
  rw [hp] at hri hpc hwr
  obtain ⟨h1, h2, h3⟩ := hri
  have same : (s.disk.tables = tables ∧ ∀ j, RProc cb tables (s.proc j)) := ⟨htab, hr⟩
  cases pc with
  | idle =>
    cases ops with
    | nil => exact same
    | cons op ops =>
      have h1' : ∀ n t, .addTable n t ∉ ops := fun n t hc => h1 n t (List.mem_cons_of_mem _ hc)
      cases op with
      | addType k v =>
        simp only
        split
        · exact next _ _ htab ⟨h1', h2, trivial⟩
        · split
          · exact next _ _ htab ⟨h1', h2, trivial⟩
          · exact same
      | addTable n t => exact absurd List.mem_cons_self (h1 n t)
      | readDb => exact next _ _ htab ⟨h1', h2, trivial⟩
  | typeRead b k v =>
    simp only
    split
    · exact next _ _ htab ⟨h1, h2, trivial⟩
    · rename_i t hty
      obtain ⟨_, hb, hx, _⟩ := hpc
      obtain ⟨m, hm, _⟩ := (whole_put (hwr (.inr hx) (not_writing (by intro b m; simp))) k v).2 t hty
      simp only [hm]
      exact next _ _ htab ⟨h1, h2, trivial⟩
  | typeDir b m => exact next _ _ htab ⟨h1, h2, trivial⟩
  | typeOpen b m => exact next _ _ htab ⟨h1, h2, trivial⟩
  | typeWrite b m => exact next _ _ htab ⟨h1, h2, trivial⟩
  | typeDone b => exact next _ _ htab ⟨h1, h2, trivial⟩
  | tableOpen n t => exact absurd h3 id
  | tableWrite n t => exact absurd h3 id
  | readLock =>
    simp only
    split
    · exact next _ _ htab ⟨h1, h2, trivial⟩
    · exact same
  | readList =>
    refine next _ _ htab ⟨h1, h2, [], tables, rfl, ?_, rfl⟩
    rw [htab, List.filterMap_append]
    have : ∀ l : List (String × List Char), List.filterMap id (l.map fun p => some p.1) = l.map (·.1) := by
      intro l
      induction l with
      | nil => rfl
      | cons a l ih => simp
    rw [this]
    split <;> simp
  | reading todo m ts =>
    obtain ⟨a, b, hab, htodo, hts⟩ := h3
    cases todo with
    | nil =>
      refine next _ _ htab ⟨h1, ?_, trivial⟩
      have hb : b = [] := by
        cases b with
        | nil => rfl
        | cons q b => simp at htodo
      subst hb
      intro r hr'
      rcases List.mem_append.1 hr' with hr' | hr'
      · exact h2 r hr'
      · simp only [List.mem_singleton] at hr'
        subst hr'
        rw [hab, List.append_nil]; exact hts
    | cons x todo =>
      cases x with
      | none =>
        obtain ⟨_, hx, hs, hsome, _⟩ := hpc
        have hw := hwr (.inl hs) (not_writing (by intro b m; simp))
        unfold Whole HoldsTypes at hw
        cases hty : s.disk.types with
        | none => rw [hty] at hsome; exact absurd (hsome (by simp)) (by simp)
        | some t =>
          rw [hty] at hw
          obtain ⟨m', hm', _⟩ := hw
          simp only [hty, Option.bind_some, hm']
          exact next _ _ htab ⟨h1, h2, a, b, hab, by simpa using htodo, hts⟩
      | some n =>
        cases b with
        | nil => simp at htodo
        | cons q b =>
          simp only [List.filterMap_cons_some (show id (some n) = some n from rfl), List.map_cons, List.cons.injEq] at htodo
          have hq : q ∈ tables := by rw [hab]; simp
          have hlook : s.disk.table n = some q.2 := by
            unfold Disk.table
            rw [htab, htodo.1, find_nodup hnd hq]; rfl
          obtain ⟨t', ht'⟩ := Option.isSome_iff_exists.1 (hparse q hq)
          simp only [hlook, Option.bind_some, ht']
          exact next _ _ htab ⟨h1, h2, a ++ [q], b, by rw [hab]; simp, htodo.2, by simp [hts, ht']⟩
  | stopped b => exact same

theorem run_rinv {ct : Codec (Types K V)} {cb : Codec T} {known : K → Option V} {P : Nat → List (Op K V T)}
    {tables : List (String × List Char)} (hnd : (tables.map (·.1)).Nodup)
    (hparse : ∀ q ∈ tables, (cb.parse q.2).isSome = true) (es : List Event)
    {s : State K V T} {f : Nat → List (K × V)} {l : List (K × V)} (h : Inv ct known P s f l)
    (hk : KillsAvoid WritingTypes ct cb s es)
    (hr : s.disk.tables = tables ∧ ∀ i, RProc cb tables (s.proc i)) :
    (run ct cb s es).disk.tables = tables ∧ ∀ j, RProc cb tables ((run ct cb s es).proc j) := by
  induction es generalizing s f l with
  | nil => exact hr
  | cons e es ih =>
    cases e with
    | step i =>
      obtain ⟨f', l', h'⟩ := step_inv (cb := cb) h i
      exact ih h' hk.2 (step_rinv hnd hparse h hr i)
    | kill i =>
      refine ih (kill_inv h i (hk.1 i rfl)) hk.2 ⟨hr.1, ?_⟩
      intro j
      show RProc cb tables ((kill s i).proc j)
      unfold kill
      by_cases hj : j = i
      · subst hj; rw [next_self]
        exact ⟨fun n t hc => by simp at hc, (hr.2 j).2.1, rfl⟩
      · rw [next_other _ _ _ hj]; exact hr.2 j

/-! ### Waiting -/

theorem moves_of_next {s : State K V T} {i : Nat} {d' : Disk} {p' : Proc K V T} (h : p'.pc ≠ (s.proc i).pc) :
    (s.next i d' p').proc i ≠ s.proc i := by
  rw [next_self]; intro hc; rw [hc] at h; exact h rfl

/-- A process that is not between two operations, not stopped and not waiting for a shared lock makes a
step. -/
theorem moves {ct : Codec (Types K V)} {cb : Codec T} {s : State K V T} {i : Nat} (h1 : (s.proc i).pc ≠ .idle)
    (h2 : ∀ b, (s.proc i).pc ≠ .stopped b) (h3 : (s.proc i).pc = .readLock → s.disk.excl = none) :
    (step ct cb s i).proc i ≠ s.proc i := by
  unfold step
  rcases hp : s.proc i with ⟨ops, pc, out⟩
  rw [hp] at h1 h2 h3
  rw [← hp]
  have hpc : (s.proc i).pc = pc := by rw [hp]
  cases pc with
  | idle => exact absurd rfl h1
  | typeRead b k v =>
    simp only [hp]
    rw [← hp]
    split
    · exact moves_of_next (by rw [hpc]; simp)
    · split
      · exact moves_of_next (by rw [hpc]; simp)
      · exact moves_of_next (by rw [hpc]; simp)
  | typeDir b m => simp only [hp]; rw [← hp]; exact moves_of_next (by rw [hpc]; simp)
  | typeOpen b m => simp only [hp]; rw [← hp]; exact moves_of_next (by rw [hpc]; simp)
  | typeWrite b m => simp only [hp]; rw [← hp]; exact moves_of_next (by rw [hpc]; simp)
  | typeDone b => simp only [hp]; rw [← hp]; exact moves_of_next (by rw [hpc]; simp)
  | tableOpen n t => simp only [hp]; rw [← hp]; exact moves_of_next (by rw [hpc]; simp)
  | tableWrite n t => simp only [hp]; rw [← hp]; exact moves_of_next (by rw [hpc]; simp)
  | readLock =>
    simp only [hp, h3 rfl, Option.isNone_none, if_true]
    rw [← hp]; exact moves_of_next (by rw [hpc]; simp)
  | readList => simp only [hp]; rw [← hp]; exact moves_of_next (by rw [hpc]; simp)
  | reading todo m ts =>
    cases todo with
    | nil => simp only [hp]; rw [← hp]; exact moves_of_next (by rw [hpc]; simp)
    | cons x todo =>
      cases x with
      | none =>
        simp only [hp]
        rw [← hp]
        split
        · exact moves_of_next (by rw [hpc]; simp)
        · exact moves_of_next (by rw [hpc]; intro hc; simp at hc)
      | some n =>
        simp only [hp]
        rw [← hp]
        split
        · exact moves_of_next (by rw [hpc]; simp)
        · exact moves_of_next (by rw [hpc]; intro hc; simp at hc)
  | stopped b => exact absurd rfl (h2 b)

/-- If one process is not at its end, some process makes a step. -/
theorem some_moves {ct : Codec (Types K V)} {cb : Codec T} {known : K → Option V} {P : Nat → List (Op K V T)}
    {s : State K V T} {f : Nat → List (K × V)} {l : List (K × V)} (h : Inv ct known P s f l) {i : Nat}
    (h1 : ¬AtEnd (s.proc i)) (h2 : ∀ b, (s.proc i).pc ≠ .stopped b) :
    ∃ j, (step ct cb s j).proc j ≠ s.proc j := by
  -- who has a lock makes a step
  have holder : ∀ j, s.disk.excl = some j ∨ j ∈ s.disk.shared → ∃ j, (step ct cb s j).proc j ≠ s.proc j := by
    intro j hj
    obtain ⟨pre, rest, hP, hf, ho, hpc⟩ := h.procs j
    refine ⟨j, moves ?_ ?_ ?_⟩
    · intro hc
      rw [hc] at hpc
      rcases hj with hj | hj
      · exact hpc.2.1 hj
      · exact hpc.2.2 hj
    · intro b hc
      rw [hc] at hpc
      rcases hj with hj | hj
      · exact hpc.1 hj
      · exact hpc.2.1 hj
    · intro hc
      rw [hc] at hpc
      rcases hj with hj | hj
      · exact absurd hj hpc.2.1
      · exact absurd hj hpc.2.2
  by_cases hx : s.disk.excl = none
  · by_cases hs : s.disk.shared = []
    · by_cases hi : (s.proc i).pc = .idle
      · refine ⟨i, ?_⟩
        unfold step
        rcases hp : s.proc i with ⟨ops, pc, out⟩
        rw [hp] at hi h1
        simp only at hi
        subst hi
        cases ops with
        | nil => exact absurd ⟨rfl, rfl⟩ h1
        | cons op ops =>
          rw [← hp]
          have hpc : (s.proc i).pc = .idle := by rw [hp]
          cases op with
          | addType k v =>
            simp only [hp, hx, hs, Option.isNone_none, List.isEmpty_nil, Bool.and_self, if_true]
            rw [← hp]
            split
            · exact moves_of_next (by rw [hpc]; simp)
            · exact moves_of_next (by rw [hpc]; simp)
          | addTable n t => simp only [hp]; rw [← hp]; exact moves_of_next (by rw [hpc]; simp)
          | readDb => simp only [hp]; rw [← hp]; exact moves_of_next (by rw [hpc]; simp)
      · exact ⟨i, moves hi h2 fun _ => hx⟩
    · obtain ⟨j, hj⟩ := List.exists_mem_of_ne_nil _ hs
      exact holder j (.inr hj)
  · obtain ⟨j, hj⟩ := Option.ne_none_iff_exists'.1 hx
    exact holder j (.inl hj)

/-! ### Processes that agree -/

theorem shuffle_mem {α : Type} {f : Nat → List α} {l : List α} (h : Shuffle f l) (a : α) :
    a ∈ l ↔ ∃ i, a ∈ f i := by
  induction h with
  | nil => simp
  | snoc i b _ ih =>
    rw [List.mem_append, ih]
    constructor
    · rintro (⟨j, hj⟩ | hb)
      · by_cases hji : j = i
        · subst hji; exact ⟨j, by simp [hj]⟩
        · exact ⟨j, by simp [hji, hj]⟩
      · exact ⟨i, by simp at hb; simp [hb]⟩
    · rintro ⟨j, hj⟩
      by_cases hji : j = i
      · subst hji
        simp only [if_true, List.mem_append] at hj
        rcases hj with hj | hj
        · exact .inl ⟨j, hj⟩
        · exact .inr hj
      · simp only [if_neg hji] at hj; exact .inl ⟨j, hj⟩

theorem recordedTypes_agree {known g : K → Option V} {l : List (K × V)} (h : ∀ p ∈ l, g p.1 = some p.2) (k : K) :
    ((∃ v, (k, v) ∈ l) → recordedTypes known l k = g k) ∧
    ((∀ v, (k, v) ∉ l) → recordedTypes known l k = known k) := by
  induction l generalizing known with
  | nil => simp [recordedTypes]
  | cons p l ih =>
    obtain ⟨a, b⟩ := p
    have ih := ih (known := fun k' => if k' = a then some b else known k') (fun q hq => h q (List.mem_cons_of_mem _ hq))
    have hab := h (a, b) List.mem_cons_self
    simp only [recordedTypes]
    constructor
    · rintro ⟨v, hv⟩
      by_cases hl : ∃ v, (k, v) ∈ l
      · exact ih.1 hl
      · rcases List.mem_cons.1 hv with hv | hv
        · have hk : k = a := congrArg Prod.fst hv
          rw [ih.2 (fun v hv => hl ⟨v, hv⟩), if_pos hk, hk]
          exact hab.symm
        · exact absurd ⟨v, hv⟩ hl
    · intro hn
      rw [ih.2 (fun v hv => hn v (List.mem_cons_of_mem _ hv)), if_neg]
      intro hk; subst hk; exact hn b List.mem_cons_self

end Butane.RecordProof
