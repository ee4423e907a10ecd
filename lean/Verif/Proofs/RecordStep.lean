/-
Every step of a schedule keeps the invariant of Proofs/Record.lean.
-/
import Verif.Proofs.Record

namespace Butane.RecordProof
open Butane Butane.Record Butane.Spec

variable {K V T : Type} [DecidableEq K]

theorem whole_put {ct : Codec (Types K V)} {known : K → Option V} {d : Disk} {l : List (K × V)}
    (h : Whole ct known d l) (k : K) (v : V) :
    (d.types = none → (Types.put [] k v).get = recordedTypes known (l ++ [(k, v)])) ∧
    (∀ t, d.types = some t → ∃ m, ct.parse t = some m ∧ (m.put k v).get = recordedTypes known (l ++ [(k, v)])) := by
  unfold Whole HoldsTypes at h
  refine ⟨?_, ?_⟩
  · intro hd
    rw [hd] at h
    rw [put_get, recordedTypes_snoc, h]
    rfl
  · intro t hd
    rw [hd] at h
    obtain ⟨m, h1, h2⟩ := h
    exact ⟨m, h1, by rw [put_get, recordedTypes_snoc, h2]⟩

theorem not_writing {p : Proc K V T} (h : ∀ b m, p.pc ≠ .typeWrite b m) : ¬WritingTypes p := by
  rintro ⟨b, m, hc⟩; exact h b m hc

theorem step_inv {ct : Codec (Types K V)} {cb : Codec T} {known : K → Option V} {P : Nat → List (Op K V T)}
    {s : State K V T} {f : Nat → List (K × V)} {l : List (K × V)} (h : Inv ct known P s f l) (i : Nat) :
    ∃ f' l', Inv ct known P (step ct cb s i) f' l' := by
  obtain ⟨pre, rest, hP, hf, ho, hpc⟩ := h.procs i
  have hout := h.outs i
  have hwr := @Inv.whole_of_reader K V T _ ct known P s f l h i
  have hnw : (∀ b m, (s.proc i).pc ≠ .typeWrite b m) → ¬WritingTypes (s.proc i) := not_writing
  have hnext := @Inv.next K V T _ ct known P s f l h i
  unfold step
  rcases hp : s.proc i with ⟨ops, pc, out⟩
  rw [hp] at ho hpc hout hwr hnw hnext
  -- steps that do not touch the types
  have plain : ∀ (d' : Disk) (p' : Proc K V T), d'.dir = true → (d'.types = s.disk.types) →
      PInv known (P i) d' l i p' (f i) → SameLocks i s.disk d' → OutInv known P i p'.out →
      (∀ b m, pc ≠ .typeWrite b m) → (d'.excl = none ∨ d'.shared = []) →
      ∃ f' l', Inv ct known P (s.next i d' p') f' l' := by
    intro d' p' h1 h2 h3 h4 h5 h6 h7
    refine ⟨f, l, hnext (.inl h1) h.shuffle (fun _ _ => rfl) h3 h4 (.inl ⟨h2, rfl⟩) h5 ?_ h7⟩
    right
    refine ⟨fun hc => absurd hc (hnw h6), fun _ hw => ?_⟩
    unfold Whole at hw ⊢
    rw [h2]; exact hw
  have hdir : pc ≠ .idle → pc ≠ .stopped false → s.disk.dir = true := by
    intro h1 h2
    rcases h.dir with hd | hd
    · exact hd
    · exfalso
      rcases hd i with ⟨h3, _⟩ | h3
      · rw [hp] at h3; exact h1 h3
      · rw [hp] at h3; exact h2 h3
  cases pc with
  | idle =>
    obtain ⟨hr, hx, hs⟩ := hpc
    cases ops with
    | nil => exact ⟨f, l, h⟩
    | cons op ops =>
      cases op with
      | addType k v =>
        have hd : s.disk.dir = true := by
          rcases h.dir with hd | hd
          · exact hd
          · exfalso
            rcases hd i with ⟨_, h3⟩ | h3
            · rw [hp] at h3; exact h3 k v ops rfl
            · rw [hp] at h3; cases h3
        simp only [hd, Bool.not_true, Bool.false_eq_true, if_false]
        by_cases hfree : (s.disk.excl.isNone && s.disk.shared.isEmpty) = true
        · rw [if_pos hfree]
          simp only [Bool.and_eq_true, Option.isNone_iff_eq_none, List.isEmpty_iff] at hfree
          refine plain _ _ rfl rfl ⟨pre, rest, hP, hf, ho, hr, rfl, rfl, hs⟩ ?_ hout (by intro b m; simp) (.inr hfree.2)
          intro j hj
          refine ⟨?_, Iff.rfl⟩
          simp [hfree.1, Ne.symm hj]
        · rw [if_neg hfree]; exact ⟨f, l, h⟩
      | addTable n t =>
        exact plain _ _ rfl rfl ⟨pre, rest, hP, hf, ho, hr, hx, hs⟩ (fun _ _ => ⟨Iff.rfl, Iff.rfl⟩) hout (by intro b m; simp)
          h.locks
      | readDb =>
        exact plain _ _ rfl rfl ⟨pre, rest, hP, hf, ho, hr, hx, hs⟩ (fun _ _ => ⟨Iff.rfl, Iff.rfl⟩) hout (by intro b m; simp)
          h.locks
  | typeRead b k v =>
    obtain ⟨hr, hb, hx, hs⟩ := hpc
    have hw := whole_put (hwr (.inr hx) (hnw (by intro b m; simp))) k v
    simp only
    split
    · rename_i hty
      exact plain _ _ (hdir (by simp) (by simp)) rfl ⟨pre, rest, hP, hf, ho, k, v, hr, hb, hx, hs, hw.1 hty⟩ (SameLocks.refl _ _) hout
        (by intro b m; simp) h.locks
    · rename_i t hty
      obtain ⟨m, hm1, hm2⟩ := hw.2 t hty
      simp only [hm1]
      exact plain _ _ (hdir (by simp) (by simp)) rfl ⟨pre, rest, hP, hf, ho, k, v, hr, hb, hx, hs, hm2⟩ (SameLocks.refl _ _) hout
        (by intro b m; simp) h.locks
  | typeDir b m =>
    obtain ⟨k, v, hr, hb, hx, hs, hm⟩ := hpc
    exact plain _ _ rfl rfl ⟨pre, rest, hP, hf, ho, k, v, hr, hb, hx, hs, hm⟩ (fun _ _ => ⟨Iff.rfl, Iff.rfl⟩) hout
      (by intro b m; simp) h.locks
  | typeOpen b m =>
    obtain ⟨k, v, hr, hb, hx, hs, hm⟩ := hpc
    exact ⟨f, l, hnext (.inl (hdir (by simp) (by simp))) h.shuffle (fun _ _ => rfl) ⟨pre, rest, hP, hf, ho, k, v, hr, hb, hx, hs, hm, rfl⟩
      (fun _ _ => ⟨Iff.rfl, Iff.rfl⟩) (.inr hx) hout (.inl ⟨b, m, rfl⟩) h.locks⟩
  | typeWrite b m =>
    obtain ⟨k, v, hr, hb, hx, hs, hm, hty⟩ := hpc
    refine ⟨fun j => if j = i then f i ++ [(k, v)] else f j, l ++ [(k, v)],
      hnext (.inl (hdir (by simp) (by simp))) (.snoc i (k, v) h.shuffle) (fun j hj => by simp [hj]) ?_ (fun _ _ => ⟨Iff.rfl, Iff.rfl⟩) (.inr hx) hout ?_
        h.locks⟩
    · refine ⟨pre ++ [.addType k v], ops, by rw [hP, hr]; simp, ?_, ?_, rfl, hb, hx, hs⟩
      · simp [typesOf_append, typesOf, hf]
      · rw [reads_append]; exact ho
    · right
      have hwh : Whole ct known { s.disk with types := some (overwrite (s.disk.types.getD []) (ct.print m)) } (l ++ [(k, v)]) := by
        unfold Whole HoldsTypes
        simp only [hty, Option.getD_some, overwrite_nil]
        exact ⟨m, ct.parse_print m, hm⟩
      exact ⟨fun _ => hwh, fun _ _ => hwh⟩
  | typeDone b =>
    obtain ⟨hr, hb, hx, hs⟩ := hpc
    exact plain _ _ (hdir (by simp) (by simp)) rfl ⟨pre, rest, hP, hf, ho, hr, (release_self i _).1, (release_self i _).2⟩ (SameLocks.release _ _)
      hout (by intro b m; simp) (release_locks i h.locks)
  | tableOpen n t =>
    obtain ⟨hr, hx, hs⟩ := hpc
    exact plain _ _ (hdir (by simp) (by simp)) rfl ⟨pre, rest, hP, hf, ho, hr, hx, hs⟩ (fun _ _ => ⟨Iff.rfl, Iff.rfl⟩) hout
      (by intro b m; simp) h.locks
  | tableWrite n t =>
    obtain ⟨hr, hx, hs⟩ := hpc
    refine plain _ _ (hdir (by simp) (by simp)) rfl ⟨pre ++ [.addTable n t], ops, by rw [hP, hr]; simp, ?_, ?_, rfl, hx, hs⟩ (fun _ _ => ⟨Iff.rfl, Iff.rfl⟩) hout
      (by intro b m; simp) h.locks
    · simp [typesOf_append, typesOf, hf]
    · rw [reads_append]; exact ho
  | readLock =>
    obtain ⟨hr, hx, hs⟩ := hpc
    simp only
    by_cases hfree : s.disk.excl.isNone = true
    · rw [if_pos hfree]
      rw [Option.isNone_iff_eq_none] at hfree
      refine plain _ _ (hdir (by simp) (by simp)) rfl ⟨pre, rest, hP, hf, ho, hr, hx, List.mem_cons_self⟩ ?_ hout (by intro b m; simp) (.inl hfree)
      intro j hj
      refine ⟨Iff.rfl, ?_⟩
      simp [hj]
    · rw [if_neg hfree]; exact ⟨f, l, h⟩
  | readList =>
    obtain ⟨hr, hx, hs⟩ := hpc
    refine plain _ _ (hdir (by simp) (by simp)) rfl ⟨pre, rest, hP, hf, ho, hr, hx, hs, ?_⟩ (SameLocks.refl _ _) hout (by intro b m; simp) h.locks
    have hw := hwr (.inl hs) (hnw (by intro b m; simp))
    unfold Whole HoldsTypes at hw
    cases hty : s.disk.types with
    | none =>
      rw [hty] at hw
      exact ⟨by simp, .inr (by rw [hw]; rfl)⟩
    | some t => exact ⟨fun _ => rfl, .inl (by simp)⟩
  | reading todo m ts =>
    obtain ⟨hr, hx, hs, hsome, hm⟩ := hpc
    have hw := hwr (.inl hs) (hnw (by intro b m; simp))
    have fail : ∃ f' l', Inv ct known P (s.next i (s.disk.release i) ⟨ops, .stopped true, out⟩) f' l' := by
      refine plain _ _ (hdir (by simp) (by simp)) rfl ⟨pre, rest, hP, hf, ho, (release_self i _).1, (release_self i _).2, ?_⟩ (SameLocks.release _ _)
        hout (by intro b m; simp) (release_locks i h.locks)
      intro _; rw [hP, hr]; simp
    cases todo with
    | nil =>
      refine plain _ _ (hdir (by simp) (by simp)) rfl ⟨pre ++ [.readDb], ops, by rw [hP, hr]; simp, ?_, ?_, rfl, (release_self i _).1, (release_self i _).2⟩
        (SameLocks.release _ _) ?_ (by intro b m; simp) (release_locks i h.locks)
      · simp [typesOf_append, typesOf, hf]
      · rw [reads_append, List.length_append]; simp only [List.length_singleton, reads]; simp at ho; omega
      · intro j r hj
        rw [List.getElem?_append] at hj
        split at hj
        · exact hout j r hj
        · rename_i hlt
          have hlt' : ¬ j < out.length := hlt
          have hjl : j = out.length := by
            rcases Nat.lt_or_ge (j - out.length) 1 with h1 | h1
            · omega
            · rw [List.getElem?_eq_none (by simpa using h1)] at hj; cases hj
          subst hjl
          simp at hj
          subst hj
          refine ⟨f, l, h.shuffle, fun k => (h.procs k).prefix, ?_, ?_⟩
          · simp only at ho
            rw [ho, hP, hr, beforeRead_append, hf]
          · rcases hm with hm | hm
            · simp at hm
            · exact hm
    | cons x todo =>
      cases x with
      | none =>
        simp only
        split
        · exact fail
        · rename_i m' hm'
          refine plain _ _ (hdir (by simp) (by simp)) rfl ⟨pre, rest, hP, hf, ho, hr, hx, hs, fun hc => hsome (List.mem_cons_of_mem _ hc), .inr ?_⟩ (SameLocks.refl _ _) hout (by intro b m; simp) h.locks
          unfold Whole HoldsTypes at hw
          cases hty : s.disk.types with
          | none => rw [hty] at hm'; cases hm'
          | some t =>
            rw [hty] at hw hm'
            obtain ⟨m2, h1, h2⟩ := hw
            simp only [Option.bind_some] at hm'
            rw [h1] at hm'
            cases hm'
            exact h2
      | some n =>
        simp only
        split
        · exact fail
        · rename_i t' ht'
          refine plain _ _ (hdir (by simp) (by simp)) rfl ⟨pre, rest, hP, hf, ho, hr, hx, hs, fun hc => hsome (List.mem_cons_of_mem _ hc), ?_⟩ (SameLocks.refl _ _) hout (by intro b m; simp) h.locks
          rcases hm with hm | hm
          · left; simpa using hm
          · exact .inr hm
  | stopped b => exact ⟨f, l, h⟩

theorem kill_inv {ct : Codec (Types K V)} {known : K → Option V} {P : Nat → List (Op K V T)}
    {s : State K V T} {f : Nat → List (K × V)} {l : List (K × V)} (h : Inv ct known P s f l) (i : Nat)
    (hn : ¬WritingTypes (s.proc i)) : Inv ct known P (kill s i) f l := by
  obtain ⟨pre, rest, hP, hf, ho, hpc⟩ := h.procs i
  have hd : (s.disk.release i).dir = true ∨ ∀ j, NotYet ((kill s i).proc j) := by
    rcases h.dir with hd | hd
    · exact .inl hd
    · right
      intro j
      unfold kill
      by_cases hj : j = i
      · subst hj; rw [next_self]; exact .inr rfl
      · rw [next_other _ _ _ hj]; exact hd j
  refine h.next hd h.shuffle (fun _ _ => rfl) ⟨pre, rest, hP, hf, ho, (release_self i _).1, (release_self i _).2, ?_⟩
    (SameLocks.release _ _) (.inl ⟨rfl, rfl⟩) (h.outs i) (.inr ⟨fun hc => absurd hc hn, fun _ hw => hw⟩) (release_locks i h.locks)
  intro hc; cases hc

theorem run_inv {ct : Codec (Types K V)} {cb : Codec T} {known : K → Option V} {P : Nat → List (Op K V T)}
    (es : List Event) {s : State K V T} {f : Nat → List (K × V)} {l : List (K × V)} (h : Inv ct known P s f l)
    (hk : KillsAvoid WritingTypes ct cb s es) : ∃ f' l', Inv ct known P (run ct cb s es) f' l' := by
  induction es generalizing s f l with
  | nil => exact ⟨f, l, h⟩
  | cons e es ih =>
    cases e with
    | step i =>
      obtain ⟨f', l', h'⟩ := step_inv (cb := cb) h i
      exact ih h' hk.2
    | kill i => exact ih (kill_inv h i (hk.1 i rfl)) hk.2

theorem start_inv {ct : Codec (Types K V)} {known : K → Option V} {dir : Bool} {types : Option (List Char)}
    (tables : List (String × List Char)) (P : Nat → List (Op K V T)) (h : HoldsTypes ct types known)
    (hd : dir = true ∨ ∀ i k v ops, P i ≠ .addType k v :: ops) :
    Inv ct known P (start dir types tables P) (fun _ => []) [] := by
  have hdir : dir = true ∨ ∀ i, NotYet ((start dir types tables P).proc i) := by
    rcases hd with hd | hd
    · exact .inl hd
    · exact .inr fun i => .inl ⟨rfl, hd i⟩
  refine ⟨hdir, .nil, ?_, ?_, .inr h, .inl rfl⟩
  · intro i
    exact ⟨[], P i, rfl, rfl, rfl, rfl, by simp [start], by simp [start]⟩
  · intro i j r hj
    simp [start] at hj

end Butane.RecordProof
