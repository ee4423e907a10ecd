/-
SQLite keeps its guarantees about rows while schema statements are executed.
-/
import Verif.Proofs.DdlExec
import Verif.Spec.SqliteMigrate

namespace Butane.DdlP
open Butane Butane.Ddl Butane.Spec
variable {env : SqliteEnv}

theorem whole_insert {d : SDb} (h : WholeRows d) (n : String) {t : STable} (ht : WholeTable t) : WholeRows (d.insert n t) := by
  induction d with
  | nil =>
    intro e he
    rw [List.mem_singleton.1 he]
    exact ht
  | cons p rest ih =>
    obtain ⟨k, v⟩ := p
    have hr : WholeRows rest := fun e he => h e (List.mem_cons_of_mem _ he)
    have hv := h _ (List.mem_cons_self ..)
    intro e he
    simp only [SMap.insert] at he
    split at he
    · rcases List.mem_cons.1 he with rfl | he
      · exact ht
      · exact h e he
    · rcases List.mem_cons.1 he with rfl | he
      · exact ht
      · exact hr e he
    · rcases List.mem_cons.1 he with rfl | he
      · exact hv
      · exact ih hr e he

theorem whole_erase {d : SDb} (h : WholeRows d) (n : String) : WholeRows (d.erase n) := by
  induction d with
  | nil => exact h
  | cons p rest ih =>
    obtain ⟨k, v⟩ := p
    have hr : WholeRows rest := fun e he => h e (List.mem_cons_of_mem _ he)
    intro e he
    simp only [SMap.erase] at he
    split at he
    · exact hr e he
    · rcases List.mem_cons.1 he with rfl | he
      · exact h _ (List.mem_cons_self ..)
      · exact ih hr e he

theorem unique_of_match {cols cols' : List ColDef} {rows rows' : List (List SqliteVal)}
    (h : uniqueOk cols rows = true)
    (hc : ∀ c ∈ cols', (c.unique || c.pk) = true → c ∈ cols ∧
      AllMatch (fun r r' => field cols' r' c.name = field cols r c.name) rows rows') :
    uniqueOk cols' rows' = true := by
  simp only [uniqueOk, List.all_eq_true, Bool.or_eq_true, Bool.not_eq_true', decide_eq_true_eq] at h ⊢
  intro c hcm
  cases hk : (c.unique || c.pk) with
  | false => exact .inl rfl
  | true =>
    obtain ⟨h1, h2⟩ := hc c hcm hk
    rcases h c h1 with h3 | h3
    · rw [hk] at h3; cases h3
    refine .inr ?_
    have : ∀ {l l' : List (List SqliteVal)}, AllMatch (fun r r' => field cols' r' c.name = field cols r c.name) l l' →
        (l'.filterMap fun r => match field cols' r c.name with | some .null => none | v => v) =
          l.filterMap fun r => match field cols r c.name with | some .null => none | v => v := by
      intro l l' hm
      induction hm with
      | nil => rfl
      | cons e _ ih => simp only [List.filterMap_cons, e, ih]
    exact cast (congrArg List.Nodup (this h2).symm) h3

theorem storeRow_length {cols : List ColDef} {vs ws : List SqliteVal} (h : storeRow env cols vs = some ws) :
    cols.length = ws.length := by
  induction cols generalizing vs ws with
  | nil =>
    cases vs with
    | nil => cases h; rfl
    | cons v vs => cases h
  | cons c cs ih =>
    cases vs with
    | nil => cases h
    | cons v vs =>
      simp only [storeRow] at h
      split at h
      · next w ws' _ hw =>
        split at h
        · cases h
        · cases h
          simp only [List.length_cons, ih hw]
      · cases h

theorem exec_whole {d d' : SDb} {s : DStmt} (hd : WholeRows d) (h : exec env d s = some d') : WholeRows d' := by
  have hl : ∀ {n t}, d.lookup n = some t → WholeTable t := fun h => hd _ (SMap.mem_of_lookup h)
  cases s with
  | createTable ifNot n cols fks strict =>
    simp only [exec] at h
    split at h
    · split at h
      · cases h; exact hd
      · cases h
    · split at h
      · next hc =>
        cases h
        simp only [Bool.and_eq_true, decide_eq_true_eq] at hc
        refine whole_insert hd _ ⟨hc.1.1.1.2, (fun r hr => by cases hr), ?_⟩
        simp [uniqueOk]
      · cases h
  | dropTable n =>
    simp only [exec] at h
    split at h
    · split at h
      · cases h
      · cases h; exact whole_erase hd _
    · cases h
  | addColumn n c =>
    simp only [exec] at h
    split at h
    · rename_i t ty ht hty
      have hw := hl ht
      split at h
      · cases h
      next hc =>
      simp only [Bool.not_eq_true, Bool.or_eq_false_iff] at hc
      have hnew := contains_false hc.1.1
      split at h
      · cases h
      split at h
      · next rows hrows =>
        cases h
        have hm : AllMatch (fun r r' => ∃ w, r' = r ++ [w]) t.rows rows := by
          refine (allSome_match hrows).imp ?_
          intro r _ r' _ hr
          split at hr
          · split at hr
            · cases hr
            · cases hr; exact ⟨_, rfl⟩
          · cases hr
        refine whole_insert hd _ ⟨?_, ?_, unique_of_match hw.unique ?_⟩
        · simp only [List.map_append, List.map_cons, List.map_nil]
          refine List.nodup_append.2 ⟨hw.distinct, by simp, ?_⟩
          intro a ha b hb
          rcases List.mem_singleton.1 hb with rfl
          exact fun e => hnew (e ▸ ha)
        · intro r' hr'
          obtain ⟨r, hr, w, rfl⟩ := hm.mem_right hr'
          simp [hw.rows r hr]
        · intro x hx hk
          rcases List.mem_append.1 hx with hx | hx
          · refine ⟨hx, hm.imp ?_⟩
            rintro r hr _ _ ⟨w, rfl⟩
            rw [field_snoc (hw.rows r hr) _ _ hnew, if_neg]
            intro e
            exact hnew (List.mem_map.2 ⟨x, hx, e⟩)
          · rw [List.mem_singleton.1 hx, hc.2, hc.1.2] at hk
            cases hk
      · cases h
    · cases h
  | dropColumn n c =>
    simp only [exec] at h
    split at h
    · rename_i t ht
      have hw := hl ht
      split at h
      · split at h
        · cases h
        split at h
        · next rows hrows =>
          cases h
          have hdist : ((t.cols.filter fun d => decide (d.name ≠ c)).map (·.name)).Nodup :=
            List.Nodup.sublist (List.Sublist.map _ List.filter_sublist) hw.distinct
          have hm := allSome_match hrows
          refine whole_insert hd _ ⟨hdist, ?_, unique_of_match hw.unique ?_⟩
          · intro r' hr'
            obtain ⟨r, hr, hrr⟩ := hm.mem_right hr'
            exact allMatch_length (allSome_match hrr)
          · intro x hx hk
            refine ⟨(List.mem_filter.1 hx).1, hm.imp ?_⟩
            intro r _ r' _ hrr
            exact field_of_match (f := fun k => field t.cols r k.name) (allSome_match hrr) hx hdist
        · cases h
      · cases h
    · cases h
  | insertSelect dst cols src =>
    simp only [exec] at h
    split at h
    · rename_i dt st h1 h2
      split at h
      · next new hnew =>
        split at h
        · next hc =>
          cases h
          simp only [Bool.and_eq_true] at hc
          refine whole_insert hd _ ⟨(hl h1).distinct, ?_, hc.1.2⟩
          intro r hr
          rcases List.mem_append.1 hr with hr | hr
          · exact (hl h1).rows r hr
          · obtain ⟨r0, _, hrr⟩ := (allSome_match hnew).mem_right hr
            split at hrr
            · exact storeRow_length hrr
            · cases hrr
        · cases h
      · cases h
    · cases h
  | renameTable old new =>
    simp only [exec] at h
    split at h
    · rename_i t h1 h2
      cases h
      intro e he
      obtain ⟨x, hx, rfl⟩ := List.mem_map.1 he
      have := whole_insert (whole_erase hd old) new (hl h1) x hx
      exact ⟨this.distinct, this.rows, this.unique⟩
    · cases h
  | _ => simp [exec] at h

theorem execAll_whole {ss : List DStmt} {d d' : SDb} (hd : WholeRows d) (h : execAll env d ss = some d') : WholeRows d' := by
  induction ss generalizing d with
  | nil => cases h; exact hd
  | cons s ss ih =>
    simp only [execAll] at h
    cases hs : exec env d s with
    | none => rw [hs] at h; cases h
    | some d1 =>
      rw [hs] at h
      exact ih (exec_whole hd hs) h

end Butane.DdlP
