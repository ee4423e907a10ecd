/-
The script of a migration on PostgreSQL reads as the expected statements.
-/
import Verif.Proofs.PgText
import Verif.Proofs.Diff

namespace Butane.PgP
open Butane.Ddl Butane.PgCat Butane.DdlP Spec
open Butane.Sql (isWordChar isWordStart isDigit upper)

variable {res : String → Bool} {kw : String → Bool}

/-! ### The expected statements -/

/-- The type of a column, or `SERIAL`. -/
def pgWordsOf (c : AColumn) : List String :=
  match c.typeid with
  | some (.ty ty) =>
    if c.auto then
      match ty with
      | .int => ["serial"]
      | .bigInt => ["bigserial"]
      | _ => []
    else (pgTypeOf ty).getD []
  | _ => []

/-- The definition of a column. -/
def pgDef (c : AColumn) : ColDef := ⟨lower c.name, pgWordsOf c, conList c⟩

/-- The literal of a value. -/
def pgLit (p : LitPrinters) : SqlVal → Lit
  | .timestamp t => .str (p.timestampT t)
  | v => litOf p v

/-- The foreign key of a column. -/
def pgFk (t : String) (c : AColumn) : Option DStmt :=
  match c.reference with
  | some (.literal r k) => some (.addForeignKey (lower t) ⟨lower c.name, lower r, lower k⟩)
  | _ => none

/-- Dropping the foreign key of a column. -/
def pgDropFk (t : String) (c : AColumn) : Option DStmt :=
  if c.reference.isSome then
    some (.dropConstraint (lower t) (lower t ++ "_" ++ lower c.name ++ "_fkey") false)
  else none

def pgCreate (ifNot : Bool) (t : ATable) : DStmt :=
  .createTable ifNot (lower t.name) (t.columns.map pgDef) [] false

/-- The statements that change a column. -/
def pgChangeStmts (p : LitPrinters) (t : String) (old new : AColumn) : List DStmt :=
  (if old.typeid ≠ new.typeid then [.setType (lower t) (lower old.name) (pgWordsOf new)] else []) ++
  (if old.nullable ≠ new.nullable then
    [.setNotNull (lower t) (lower old.name) (!new.nullable)] else []) ++
  (if old.pk ≠ new.pk && new.pk then
    [.dropConstraint (lower t) (lower t ++ "_pkey") true,
     .addPrimaryKey (lower t) (lower new.name)] else []) ++
  (if old.unique ≠ new.unique then
    (if new.unique then [.addUnique (lower t) (lower new.name)]
     else [.dropConstraint (lower t) (lower t ++ "_" ++ lower old.name ++ "_key") false])
   else []) ++
  (if optBeq SqlVal.beq old.default new.default then []
   else [.setDefault (lower t) (lower old.name) (new.default.map (pgLit p))]) ++
  (if optBeq ARef.beq old.reference new.reference then []
   else (pgDropFk t old).toList ++ (pgFk t new).toList)

/-- The statements of an operation. -/
def pgStmts (p : LitPrinters) : Operation → List DStmt
  | .addTable t => [pgCreate false t]
  | .addTableIfNotExists t => [pgCreate true t]
  | .addTableConstraints t => t.columns.filterMap (pgFk t.name)
  | .removeTable n => [.dropTable (lower n)]
  | .removeTableConstraints t => t.columns.filterMap (pgDropFk t.name)
  | .addColumn t c =>
    match columnDefault c with
    | .ok v => .addColumn (lower t) { pgDef c with cons := conList c ++ [.default (pgLit p v)] } ::
        (pgFk t c).toList
    | _ => []
  | .removeColumn t n => [.dropColumn (lower t) (lower n)]
  | .changeColumn t old new => pgChangeStmts p t old new

/-! ### Scripts -/

/-- PostgreSQL reads the text as these statements, whatever follows. -/
def FScr (res : String → Bool) (t : Text) (ss : List DStmt) : Prop :=
  Closed t ∧ Scripted res false (foldCase none t) ss

theorem fscr_nil : FScr res [] [] := ⟨closed_nil, scripted_nil⟩

theorem FScr.append {t1 t2 : Text} {s1 s2 : List DStmt} (h1 : FScr res t1 s1)
    (h2 : FScr res t2 s2) : FScr res (t1 ++ t2) (s1 ++ s2) := by
  refine ⟨h1.1.append h2.1, ?_⟩
  rw [h1.1]
  exact h1.2.append h2.2

theorem fscr_newline : FScr res (lit "\n") [] := ⟨closed_of_unquoted rfl, scripted_newline⟩

theorem fscr_join {ts : List Text} {sss : List (List DStmt)} (h : AllMatch (FScr res) ts sss) :
    FScr res (joinText (lit "\n") ts) sss.flatten := by
  induction h with
  | nil => exact fscr_nil
  | cons h1 h2 ih =>
    cases h2 with
    | nil => simpa [joinText] using h1
    | cons h3 h4 =>
      simp only [joinText, List.flatten_cons, List.append_assoc] at ih ⊢
      have := h1.append (fscr_newline.append ih)
      simpa only [List.nil_append, List.append_assoc] using this

theorem FScr.parse {t : Text} {ss : List DStmt} (h : FScr res t ss) :
    Ddl.parse false res (foldCase none t) = some ss := h.2.parse

theorem fscr_stmt {t : Text} {K : List Tok} {s : DStmt} (hne : K ≠ []) (hsemi : Tok.semi ∉ K)
    (ho : FOpens res t (K ++ [.semi])) (hp : parseStmt false K = some s) : FScr res t [s] :=
  ⟨ho.1, scripted_stmt hne hsemi ho.2 hp⟩

/-! ### Fixed texts -/

theorem fo_semi : FOpens res (lit ";") [.semi] := fopens rfl fun _ => rfl
theorem fo_space : FOpens res (lit " ") [] := fopens rfl fun _ => rfl
theorem fo_alter : FOpens res (lit "ALTER TABLE ") [.kw "ALTER", .kw "TABLE"] :=
  fopens rfl fun _ => rfl

theorem flex_kw {s w : String} (hs : IsName s) (hu : upper s.toList = w)
    (hw : w ∈ Ddl.grammarWords) : FLex res s.toList [.kw w] := by
  have h := flex_word (res := res) hs
  have e : upper (lower s).toList = w := by rw [upper_lower hs, hu]
  simp only [wordTok, e, hw, ↓reduceIte] at h
  exact h

theorem flex_type (hk : PgWords kw res) {s w : String} (hs : IsName s) (hl : lower s = w)
    (hg : upper w.toList ∉ Ddl.grammarWords) {ty : List String}
    (hty : ty ∈ ["serial"] :: ["bigserial"] :: pgTypes) (hw : w ∈ ty) :
    FLex res s.toList [.ident w] := by
  have h := flex_word (res := res) hs
  rw [hl] at h
  rwa [wordTok_ident hg (hk.types ty hty w hw)] at h

theorem flex_conText (c : Con) : FLex res (conText c) (conToks c) := by
  cases c with
  | notNull =>
    have h1 : FOpens res (lit "NOT ") [.kw "NOT"] := fopens rfl fun _ => rfl
    exact h1.then (t2 := lit "NULL") (flex_kw (s := "NULL") name_NULL rfl (by decide))
  | primaryKey =>
    have h1 : FOpens res (lit "PRIMARY ") [.kw "PRIMARY"] := fopens rfl fun _ => rfl
    exact h1.then (t2 := lit "KEY") (flex_kw (s := "KEY") name_KEY rfl (by decide))
  | unique => exact flex_kw (s := "UNIQUE") name_UNIQUE rfl (by decide)
  | default l => exact fopens_nil.flex

theorem pgColConstraints_eq (c : AColumn) :
    PgDdl.colConstraints c = (conList c).map conText := by
  simp only [PgDdl.colConstraints, conList]
  cases hn : c.nullable <;> cases hp : c.pk <;> cases hu : c.unique <;> simp [conText]

/-! ### Types -/

theorem colType_ok (hk : PgWords kw res) {c : AColumn} (hc : PgColumn kw c) :
    ∃ s, PgDdl.colType c = .ok s ∧ FLex res s ((pgWordsOf c).map .ident) := by
  obtain ⟨ty, w, h1, h2⟩ := hc.type
  have one : ∀ {s w : String}, IsName s → lower s = w → upper w.toList ∉ Ddl.grammarWords →
      [w] ∈ ["serial"] :: ["bigserial"] :: pgTypes → FLex res s.toList [.ident w] :=
    fun hs hl hg hty => flex_type hk hs hl hg hty (List.mem_cons_self ..)
  cases ha : c.auto with
  | true =>
    rcases (hc.auto ha).1 with h | h
    · simp only [PgDdl.colType, pgWordsOf, h, ha, ↓reduceIte]
      exact ⟨_, rfl, one (s := "SERIAL") ⟨'S', "ERIAL".toList, by decide, by decide, by decide⟩
        (by decide) (by decide) (by decide)⟩
    · simp only [PgDdl.colType, pgWordsOf, h, ha, ↓reduceIte]
      exact ⟨_, rfl, one (s := "BIGSERIAL") ⟨'B', "IGSERIAL".toList, by decide, by decide, by decide⟩
        (by decide) (by decide) (by decide)⟩
  | false =>
    simp only [PgDdl.colType, pgWordsOf, h1, ha, h2, Bool.false_eq_true, ↓reduceIte, Option.getD_some]
    cases ty with
    | bool =>
      cases h2
      exact ⟨_, rfl, one (s := "BOOLEAN") ⟨'B', "OOLEAN".toList, by decide, by decide, by decide⟩
        (by decide) (by decide) (by decide)⟩
    | int =>
      cases h2
      exact ⟨_, rfl, one (s := "INTEGER") ⟨'I', "NTEGER".toList, by decide, by decide, by decide⟩
        (by decide) (by decide) (by decide)⟩
    | bigInt =>
      cases h2
      exact ⟨_, rfl, one (s := "BIGINT") ⟨'B', "IGINT".toList, by decide, by decide, by decide⟩
        (by decide) (by decide) (by decide)⟩
    | real =>
      cases h2
      refine ⟨_, rfl, ?_⟩
      have h1 := flex_type hk (s := "DOUBLE") (w := "double") (ty := ["double", "precision"])
        ⟨'D', "OUBLE".toList, by decide, by decide, by decide⟩ (by decide) (by decide) (by decide)
        (by decide)
      have h2 := flex_type hk (s := "PRECISION") (w := "precision") (ty := ["double", "precision"])
        ⟨'P', "RECISION".toList, by decide, by decide, by decide⟩ (by decide) (by decide) (by decide)
        (by decide)
      exact h1.append (t2 := lit " PRECISION") rfl (fo_space.then h2)
    | text =>
      cases h2
      exact ⟨_, rfl, one (s := "TEXT") ⟨'T', "EXT".toList, by decide, by decide, by decide⟩
        (by decide) (by decide) (by decide)⟩
    | date =>
      cases h2
      exact ⟨_, rfl, one (s := "DATE") ⟨'D', "ATE".toList, by decide, by decide, by decide⟩
        (by decide) (by decide) (by decide)⟩
    | timestamp =>
      cases h2
      exact ⟨_, rfl, one (s := "TIMESTAMP") ⟨'T', "IMESTAMP".toList, by decide, by decide, by decide⟩
        (by decide) (by decide) (by decide)⟩
    | blob =>
      cases h2
      exact ⟨_, rfl, one (s := "BYTEA") ⟨'B', "YTEA".toList, by decide, by decide, by decide⟩
        (by decide) (by decide) (by decide)⟩
    | json =>
      cases h2
      exact ⟨_, rfl, one (s := "JSONB") ⟨'J', "SONB".toList, by decide, by decide, by decide⟩
        (by decide) (by decide) (by decide)⟩
    | custom n => cases h2

/-! ### Tables -/

theorem pgDefine_ok (hk : PgWords kw res) {c : AColumn} (hc : PgColumn kw c) :
    ∃ t, PgDdl.defineColumn kw c = .ok t ∧ FLex res t (colToks (pgDef c)) := by
  obtain ⟨s, h1, h2⟩ := colType_ok hk hc
  simp only [PgDdl.defineColumn, h1, Gen.bind, pgColConstraints_eq]
  refine ⟨_, rfl, ?_⟩
  have hbase : FLex res (quoteName kw c.name ++ lit " " ++ s)
      ([.ident (lower c.name)] ++ (pgWordsOf c).map .ident) := by
    rw [List.append_assoc]
    exact (flex_quoteName hk hc.name).append rfl (fo_space.then h2)
  simp only [colToks, pgDef]
  generalize hcs : conList c = cs
  cases cs with
  | nil => simpa using hbase
  | cons x cs =>
    simp only [List.map_cons]
    have := flex_join (res := res) fo_space rfl (ts := (x :: cs).map conText)
      (kss := (x :: cs).map conToks) (allMatch_map fun a _ => flex_conText a)
    rw [joinToks_nil] at this
    have h3 := hbase.append (t2 := lit " " ++ joinText (lit " ") ((x :: cs).map conText)) rfl
      (fo_space.then this)
    simpa only [List.append_assoc, List.nil_append, List.cons_append, List.map_cons, List.map_nil]
      using h3

theorem pgDefs_ok (hk : PgWords kw res) {cols : List AColumn} (ht : ∀ c ∈ cols, PgColumn kw c) :
    ∃ ts, Gen.mapM (PgDdl.defineColumn kw) cols = .ok ts ∧
      AllMatch (FLex res) ts (cols.map fun c => colToks (pgDef c)) := by
  induction cols with
  | nil => exact ⟨[], rfl, .nil⟩
  | cons c cols ih =>
    obtain ⟨ts, h1, h2⟩ := ih fun x hx => ht x (List.mem_cons_of_mem _ hx)
    obtain ⟨t, g1, g2⟩ := pgDefine_ok hk (ht c (List.mem_cons_self ..))
    exact ⟨t :: ts, by simp only [Gen.mapM, g1, Gen.bind, h1], .cons g2 h2⟩

theorem pBody_pg {cs : List ColDef} (hne : cs ≠ [])
    (hc : ∀ c ∈ cs, ∀ x ∈ c.cons, ∀ l, x ≠ .default l) (r : List Tok) (F : Nat)
    (hF : cs.length ≤ F) :
    pBody false F (joinToks [.comma] (cs.map colToks) ++ .rparen :: r) = some (cs, [], r) := by
  induction cs generalizing F with
  | nil => exact absurd rfl hne
  | cons c cs ih =>
    obtain ⟨F, rfl⟩ : ∃ k, F = k + 1 := ⟨F - 1, by simp only [List.length_cons] at hF; omega⟩
    have hc0 := hc c (List.mem_cons_self ..)
    cases cs with
    | nil =>
      simp only [List.map_cons, List.map_nil, joinToks, pBody]
      rw [pColDef_ok hc0 (by exact .inr rfl)]
    | cons d cs =>
      have := ih (by simp) (fun x hx => hc x (List.mem_cons_of_mem _ hx)) F
        (by simp only [List.length_cons] at hF ⊢; omega)
      simp only [List.map_cons, joinToks, List.append_assoc, List.nil_append,
        List.cons_append, pBody] at this ⊢
      rw [pColDef_ok hc0 (by exact .inl rfl)]
      have hnf : ∃ s r', joinToks [.comma] (colToks d :: cs.map colToks) ++ .rparen :: r =
          .ident s :: r' := by
        cases cs <;> exact ⟨_, _, rfl⟩
      obtain ⟨s, r', hs⟩ := hnf
      rw [hs] at this ⊢
      simp only [this]

theorem pCreate_pg {cs : List ColDef} (hne : cs ≠ [])
    (hc : ∀ c ∈ cs, ∀ x ∈ c.cons, ∀ l, x ≠ .default l) (ifNot : Bool) (n : String) :
    pCreate false ifNot (.ident n :: .lparen :: (joinToks [.comma] (cs.map colToks) ++ [.rparen])) =
      some (.createTable ifNot n cs [] false) := by
  simp only [pCreate]
  rw [pBody_pg hne hc []]
  have := joinToks_len (cs.map colToks) (by
    intro k hk
    obtain ⟨c, -, rfl⟩ := List.mem_map.1 hk
    simp [colToks])
  simp only [List.length_append, List.length_map] at this ⊢
  omega

theorem pgCreate_ok (hk : PgWords kw res) {t : ATable} (ht : PgTable kw t)
    (hne : t.columns ≠ []) (ifNot : Bool) :
    ∃ s, PgDdl.createTable kw t ifNot = .ok s ∧ s ≠ [] ∧ FScr res s [pgCreate ifNot t] := by
  obtain ⟨ds, d1, d2⟩ := pgDefs_ok hk ht.columns
  simp only [PgDdl.createTable, d1, Gen.bind]
  refine ⟨_, rfl, (fun e => by cases e), ?_⟩
  have o1 : FOpens res (lit "CREATE TABLE ") [.kw "CREATE", .kw "TABLE"] := fopens rfl fun _ => rfl
  have o2 : FOpens res (if ifNot = true then lit "IF NOT EXISTS " else [])
      (if ifNot = true then [.kw "IF", .kw "NOT", .kw "EXISTS"] else []) := by
    cases ifNot
    · exact fopens_nil
    · exact fopens rfl fun _ => rfl
  have o3 : FOpens res (lit " (\n") [.lparen] := fopens rfl fun _ => rfl
  have o4 : FOpens res (lit ",\n") [.comma] := fopens rfl fun _ => rfl
  have o5 : FOpens res (lit "\n);") [.rparen, .semi] := fopens rfl fun _ => rfl
  have hdefs := flex_join (res := res) o4 rfl d2
  have := o1.trans (o2.trans ((flex_quoteName hk ht.name).opens rfl
    (o3.trans (hdefs.opens rfl o5))))
  refine fscr_stmt (K := .kw "CREATE" :: .kw "TABLE" ::
    ((if ifNot then [.kw "IF", .kw "NOT", .kw "EXISTS"] else []) ++
    .ident (lower t.name) :: .lparen :: (joinToks [.comma] ((t.columns.map pgDef).map colToks) ++
      [.rparen]))) (by simp) ?_ ?_ ?_
  · have h1 : Tok.semi ∉ joinToks [.comma] ((t.columns.map pgDef).map colToks) := by
      refine semi_join (by simp) ?_
      intro k hk
      obtain ⟨c, -, rfl⟩ := List.mem_map.1 hk
      exact semi_colToks c
    cases ifNot <;> simp only [List.mem_cons, List.mem_append, not_or, h1,
      List.not_mem_nil, reduceCtorEq, not_false_eq_true, and_self, Bool.false_eq_true, ↓reduceIte]
  · simp only [List.append_assoc]
    simpa only [List.append_assoc, List.cons_append, List.nil_append, List.map_map,
      Function.comp_def] using this
  · have := pCreate_pg (cs := t.columns.map pgDef) (by simpa using hne) (by
      intro c hc x hx l
      obtain ⟨a, -, rfl⟩ := List.mem_map.1 hc
      exact conList_no_default a x hx l) ifNot (lower t.name)
    cases ifNot
    · exact this
    · exact this

theorem pgDropTable_ok (hk : PgWords kw res) {n : String} (hn : PgName kw n) :
    FScr res (PgDdl.dropTable kw n) [.dropTable (lower n)] := by
  have h1 : FOpens res (lit "DROP TABLE ") [.kw "DROP", .kw "TABLE"] := fopens rfl fun _ => rfl
  refine fscr_stmt (K := [.kw "DROP", .kw "TABLE", .ident (lower n)]) (by simp) (by simp) ?_ rfl
  have := h1.trans ((flex_quoteName hk hn).opens rfl fo_semi)
  simp only [PgDdl.dropTable, List.append_assoc]
  exact this

theorem pgDropColumn_ok (hk : PgWords kw res) {t n : String} (ht : PgName kw t)
    (hn : PgName kw n) :
    FScr res (PgDdl.removeColumn kw t n) [.dropColumn (lower t) (lower n)] := by
  have h1 : FOpens res (lit " DROP COLUMN ") [.kw "DROP", .kw "COLUMN"] := fopens rfl fun _ => rfl
  refine fscr_stmt (K := [.kw "ALTER", .kw "TABLE", .ident (lower t), .kw "DROP", .kw "COLUMN",
    .ident (lower n)]) (by simp) (by simp) ?_ rfl
  have := fo_alter.trans ((flex_quoteName hk ht).opens rfl
    (h1.trans ((flex_quoteName hk hn).opens rfl fo_semi)))
  simp only [PgDdl.removeColumn, List.append_assoc]
  exact this

/-! ### Foreign keys -/

theorem pgFk_ok (hk : PgWords kw res) {t : String} {c : AColumn} {r : ARef} (ht : PgName kw t)
    (hc : PgColumn kw c) (hr : c.reference = some r) :
    ∃ s x, PgDdl.defineFkey kw t c r = .ok s ∧ s ≠ [] ∧ pgFk t c = some x ∧ FScr res s [x] := by
  obtain ⟨u, k, rfl, hu, hkk⟩ := hc.reference r hr
  refine ⟨_, _, rfl, (fun e => by cases e), by simp only [pgFk, hr]; rfl, ?_⟩
  have h1 : FOpens res (lit " ADD FOREIGN KEY (") [.kw "ADD", .kw "FOREIGN", .kw "KEY", .lparen] :=
    fopens rfl fun _ => rfl
  have h2 : FOpens res (lit ") REFERENCES ") [.rparen, .kw "REFERENCES"] := fopens rfl fun _ => rfl
  have h3 : FOpens res (lit "(") [.lparen] := fopens rfl fun _ => rfl
  have h4 : FOpens res (lit ");") [.rparen, .semi] := fopens rfl fun _ => rfl
  have := fo_alter.trans ((flex_quoteName hk ht).opens rfl (h1.trans
    ((flex_quoteName hk hc.name).opens rfl (h2.trans ((flex_quoteName hk hu).opens rfl
      (h3.trans ((flex_quoteName hk hkk).opens rfl h4)))))))
  refine fscr_stmt (K := [.kw "ALTER", .kw "TABLE", .ident (lower t), .kw "ADD", .kw "FOREIGN",
    .kw "KEY", .lparen, .ident (lower c.name), .rparen, .kw "REFERENCES", .ident (lower u), .lparen,
    .ident (lower k), .rparen]) (by simp) (by simp) ?_ rfl
  simp only [List.append_assoc]
  exact this

/-! ### Names of constraints -/

theorem lower_append (a b : String) : lower (a ++ b) = lower a ++ lower b := by
  apply String.toList_inj.1
  simp [lower]

theorem isName_append {a b : String} (ha : IsName a) (hb : ∀ c ∈ b.toList, isWordChar c = true) :
    IsName (a ++ b) := by
  obtain ⟨c, cs, he, hc, hcs⟩ := ha
  refine ⟨c, cs ++ b.toList, by simp [he], hc, ?_⟩
  rw [List.all_append, hcs, List.all_eq_true.2 hb]
  rfl

theorem grammar_no_underscore : ∀ w ∈ Ddl.grammarWords, '_' ∉ w.toList := by decide

theorem label_not_grammar {s : String} (h : '_' ∈ s.toList) :
    upper s.toList ∉ Ddl.grammarWords := by
  intro hg
  refine grammar_no_underscore _ hg ?_
  simp only [upper, String.toList_ofList]
  exact List.mem_map.2 ⟨'_', h, rfl⟩

theorem flex_label {s l : String} (hs : IsName s) (hl : lower s = l) (hu : '_' ∈ s.toList)
    (hr : res l = false) : FLex res s.toList [.ident l] := by
  have h := flex_word (res := res) hs
  rw [hl] at h
  have hg := label_not_grammar hu
  rw [← upper_lower hs, hl] at hg
  rwa [wordTok_ident hg hr] at h

theorem name_pkey {t : String} (h : IsName t) : IsName (t ++ "_pkey") :=
  isName_append h (by decide)

theorem name_label {t c s : String} (ht : IsName t) (hc : IsName c)
    (hs : ∀ x ∈ s.toList, isWordChar x = true) : IsName (t ++ "_" ++ c ++ s) :=
  isName_append (isName_append (isName_append ht (by decide)) (name_chars hc)) hs

/-! ### Changing a column -/

theorem pgDropPkey_ok (hk : PgWords kw res) {t : String} (ht : PgName kw t) :
    FScr res (PgDdl.alter kw t ++ lit " DROP CONSTRAINT IF EXISTS " ++ t.toList ++ lit "_pkey;")
      [.dropConstraint (lower t) (lower t ++ "_pkey") true] := by
  have h1 : FOpens res (lit " DROP CONSTRAINT IF EXISTS ")
      [.kw "DROP", .kw "CONSTRAINT", .kw "IF", .kw "EXISTS"] := fopens rfl fun _ => rfl
  have h2 := flex_label (res := res) (name_pkey ht.1) (lower_append t "_pkey") (by simp)
    (hk.labels _).1
  have := fo_alter.trans ((flex_quoteName hk ht).opens rfl (h1.trans (h2.opens rfl fo_semi)))
  refine fscr_stmt (K := [.kw "ALTER", .kw "TABLE", .ident (lower t), .kw "DROP", .kw "CONSTRAINT",
    .kw "IF", .kw "EXISTS", .ident (lower t ++ "_pkey")]) (by simp) (by simp) ?_ rfl
  have e : t.toList ++ lit "_pkey;" = (t ++ "_pkey").toList ++ lit ";" := by
    simp [lit]
  simp only [PgDdl.alter, List.append_assoc] at e ⊢
  rw [e]
  exact this

theorem pgDropLabel_ok (hk : PgWords kw res) {t c : String} (ht : PgName kw t)
    (hc : PgName kw c) (s : String) (hs : s = "_key" ∨ s = "_fkey") :
    FScr res (PgDdl.alter kw t ++ lit " DROP CONSTRAINT " ++ t.toList ++ lit "_" ++ c.toList ++
      (s.toList ++ lit ";"))
      [.dropConstraint (lower t) (lower t ++ "_" ++ lower c ++ s) false] := by
  have h1 : FOpens res (lit " DROP CONSTRAINT ") [.kw "DROP", .kw "CONSTRAINT"] :=
    fopens rfl fun _ => rfl
  have hlow : lower s = s := by rcases hs with rfl | rfl <;> decide
  have hch : ∀ x ∈ s.toList, isWordChar x = true := by rcases hs with rfl | rfl <;> decide
  have hl : lower (t ++ "_" ++ c ++ s) = lower t ++ "_" ++ lower c ++ s := by
    rw [lower_append, lower_append, lower_append, hlow]; rfl
  have hres : res (lower t ++ "_" ++ lower c ++ s) = false := by
    rcases hs with rfl | rfl
    · exact (hk.labels _).2.1
    · exact (hk.labels _).2.2
  have h2 := flex_label (res := res) (name_label ht.1 hc.1 hch) hl (by simp) hres
  have := fo_alter.trans ((flex_quoteName hk ht).opens rfl (h1.trans (h2.opens rfl fo_semi)))
  refine fscr_stmt (K := [.kw "ALTER", .kw "TABLE", .ident (lower t), .kw "DROP", .kw "CONSTRAINT",
    .ident (lower t ++ "_" ++ lower c ++ s)]) (by simp) (by simp) ?_ rfl
  have e : t.toList ++ (lit "_" ++ (c.toList ++ (s.toList ++ lit ";"))) =
      (t ++ "_" ++ c ++ s).toList ++ lit ";" := by
    simp [lit]
  simp only [PgDdl.alter, List.append_assoc]
  rw [e]
  exact this

theorem pgAddKey_ok (hk : PgWords kw res) {t c : String} (ht : PgName kw t) (hc : PgName kw c) :
    FScr res (PgDdl.alter kw t ++ lit " ADD PRIMARY KEY (" ++ quoteName kw c ++ lit ");")
      [.addPrimaryKey (lower t) (lower c)] := by
  have h1 : FOpens res (lit " ADD PRIMARY KEY (") [.kw "ADD", .kw "PRIMARY", .kw "KEY", .lparen] :=
    fopens rfl fun _ => rfl
  have h4 : FOpens res (lit ");") [.rparen, .semi] := fopens rfl fun _ => rfl
  have := fo_alter.trans ((flex_quoteName hk ht).opens rfl (h1.trans
    ((flex_quoteName hk hc).opens rfl h4)))
  refine fscr_stmt (K := [.kw "ALTER", .kw "TABLE", .ident (lower t), .kw "ADD", .kw "PRIMARY",
    .kw "KEY", .lparen, .ident (lower c), .rparen]) (by simp) (by simp) ?_ rfl
  simp only [PgDdl.alter, List.append_assoc]
  exact this

theorem pgAddUnique_ok (hk : PgWords kw res) {t c : String} (ht : PgName kw t)
    (hc : PgName kw c) :
    FScr res (PgDdl.alter kw t ++ lit " ADD UNIQUE (" ++ quoteName kw c ++ lit ");")
      [.addUnique (lower t) (lower c)] := by
  have h1 : FOpens res (lit " ADD UNIQUE (") [.kw "ADD", .kw "UNIQUE", .lparen] :=
    fopens rfl fun _ => rfl
  have h4 : FOpens res (lit ");") [.rparen, .semi] := fopens rfl fun _ => rfl
  have := fo_alter.trans ((flex_quoteName hk ht).opens rfl (h1.trans
    ((flex_quoteName hk hc).opens rfl h4)))
  refine fscr_stmt (K := [.kw "ALTER", .kw "TABLE", .ident (lower t), .kw "ADD", .kw "UNIQUE",
    .lparen, .ident (lower c), .rparen]) (by simp) (by simp) ?_ rfl
  simp only [PgDdl.alter, List.append_assoc]
  exact this

/-- `ALTER TABLE t ALTER COLUMN c` followed by these tokens. -/
theorem pgAlterColumn_ok (hk : PgWords kw res) {t c : String} (ht : PgName kw t)
    (hc : PgName kw c) {s : Text} {k : List Tok} (hb : startsBreak s = true)
    (ho : FOpens res s (k ++ [.semi])) (hs : Tok.semi ∉ k) {x : DStmt}
    (hp : pAlterPg (lower t) (.kw "ALTER" :: .kw "COLUMN" :: .ident (lower c) :: k) = some x) :
    FScr res (PgDdl.alter kw t ++ lit " ALTER COLUMN " ++ quoteName kw c ++ s) [x] := by
  have h1 : FOpens res (lit " ALTER COLUMN ") [.kw "ALTER", .kw "COLUMN"] := fopens rfl fun _ => rfl
  have := fo_alter.trans ((flex_quoteName hk ht).opens rfl (h1.trans
    ((flex_quoteName hk hc).opens hb ho)))
  refine fscr_stmt (K := .kw "ALTER" :: .kw "TABLE" :: .ident (lower t) :: .kw "ALTER" ::
    .kw "COLUMN" :: .ident (lower c) :: k) (by simp) (by simp [hs]) ?_ ?_
  · simp only [PgDdl.alter, List.append_assoc]
    simpa only [List.append_assoc, List.cons_append, List.nil_append] using this
  · exact hp

/-! ### Literals -/

/-- PostgreSQL reads the text as this literal. -/
def FLitText (res : String → Bool) (t : Text) (l : Lit) : Prop :=
  ∃ K, FLex res t K ∧ Tok.semi ∉ K ∧ K ≠ [] ∧
    pCons (.kw "DEFAULT" :: K) = some ([.default l], []) ∧
    ∀ t c, pAlterPg t (.kw "ALTER" :: .kw "COLUMN" :: .ident c :: .kw "SET" :: .kw "DEFAULT" :: K) =
      some (.setDefault t c (some l))

theorem numeral_fold {s : Text} (h : IsNumeral s) : Closed s ∧ foldCase none s = s := by
  obtain ⟨c, r, rfl, hc, hr⟩ := h
  have hd : ∀ d ∈ c :: r, d ≠ '"' ∧ d ≠ '\'' ∧ d.toLower = d := by
    intro d hd
    have : isDigit d = true ∨ d = '.' := by
      rcases List.mem_cons.1 hd with rfl | hd
      · exact .inl hc
      · exact hr d hd
    rcases this with h | rfl
    · have h128 : d.toNat < 128 := by
        simp only [isDigit, Bool.and_eq_true, decide_eq_true_eq] at h; omega
      exact ascii_cases (P := fun d => isDigit d = true → d ≠ '"' ∧ d ≠ '\'' ∧ d.toLower = d)
        (by decide) h128 h
    · decide
  have hq : ∀ d ∈ c :: r, d ≠ '"' ∧ d ≠ '\'' := fun d h => ⟨(hd d h).1, (hd d h).2.1⟩
  refine ⟨closed_plain hq, ?_⟩
  rw [fold_plain hq]
  have := List.map_congr_left (f := Char.toLower) (g := id) fun d h => (hd d h).2.2
  rw [this, List.map_id]

theorem flex_numeral {s : Text} (h : IsNumeral s) : FLex res s [.num s] := by
  obtain ⟨h1, h2⟩ := numeral_fold h
  exact ⟨h1, by rw [h2]; exact lex_numeral h⟩

theorem flit_num {s : Text} (h : IsNumeral s) : FLitText res s (.num false s) :=
  ⟨_, flex_numeral h, by simp, by simp, rfl, fun _ _ => rfl⟩

theorem flit_neg {s : Text} (h : IsNumeral s) : FLitText res ('-' :: s) (.num true s) := by
  have h1 : FOpens res ['-'] [.minus] := fopens rfl fun _ => rfl
  exact ⟨_, h1.then (flex_numeral h), by simp, by simp, rfl, fun _ _ => rfl⟩

theorem flit_int (i : Int) : FLitText res (intText i) (numLit i) := by
  cases i with
  | ofNat n => exact flit_num (natText_numeral n)
  | negSucc n => exact flit_neg (natText_numeral _)

theorem flit_squote {s : Text} (h : '\'' ∉ s) : FLitText res (squote s) (.str s) := by
  obtain ⟨h1, h2⟩ := closed_quoted (q := '\'') (.inr rfl) h
  refine ⟨[.str s], ⟨h1, ?_⟩, by simp, by simp, rfl, fun _ _ => rfl⟩
  show LexTo res (foldCase none (squote s)) [.str s]
  have : foldCase none (squote s) = squote s := h2
  rw [this]
  exact lex_squote h

theorem flit_hex {s : Text} (h : '\'' ∉ s) : FLitText res ('x' :: squote s) (.hex s) := by
  obtain ⟨h1, h2⟩ := closed_quoted (q := '\'') (.inr rfl) h
  refine ⟨[.hex s], ⟨closed_cons (by decide) (by decide) h1, ?_⟩, by simp, by simp, rfl, fun _ _ => rfl⟩
  have : foldCase none ('x' :: squote s) = 'x' :: squote s := by
    show ('x' : Char).toLower :: foldCase none (squote s) = _
    have h2' : foldCase none (squote s) = squote s := h2
    rw [h2']; rfl
  rw [this]
  exact (lex_hex h).lexTo

theorem pgLiteral_ok {p : LitPrinters} {v : SqlVal} (h : PgLiteral p v) :
    ∃ t, sqlLiteral p v = .ok t ∧ FLitText res t (pgLit p v) := by
  cases v with
  | null => exact ⟨_, rfl, _, flex_kw (s := "NULL") name_NULL rfl (by decide), by decide, by decide,
      rfl, fun _ _ => rfl⟩
  | bool b =>
    cases b
    · exact ⟨_, rfl, _, flex_kw (s := "false") name_false rfl (by decide), by decide, by decide,
        rfl, fun _ _ => rfl⟩
    · exact ⟨_, rfl, _, flex_kw (s := "true") name_true rfl (by decide), by decide, by decide,
        rfl, fun _ _ => rfl⟩
  | int i => exact ⟨_, rfl, flit_int _⟩
  | bigInt i => exact ⟨_, rfl, flit_int _⟩
  | real r =>
    obtain ⟨neg, s, h1, h2⟩ := h
    refine ⟨_, rfl, ?_⟩
    show FLitText res (p.real r) (litOf p (.real r))
    rw [litOf_real (env := ⟨fun _ _ => none, fun _ => ⟨0⟩⟩) h1 h2, h1]
    cases neg
    · exact flit_num h2
    · exact flit_neg h2
  | text s => exact ⟨_, rfl, flit_squote h⟩
  | blob b => exact ⟨_, rfl, flit_hex (hexUpper_no_quote b)⟩
  | timestamp j => exact ⟨_, rfl, flit_squote h⟩
  | json j => exact h.elim
  | date j => exact h.elim
  | custom j => exact h.elim

/-! ### Operations -/

theorem pgAddColumn_ok (hk : PgWords kw res) {p : LitPrinters} {t : String} {c : AColumn}
    {v : SqlVal} (ht : PgName kw t) (hc : PgColumn kw c) (hv : columnDefault c = .ok v)
    (hl : PgLiteral p v) :
    ∃ s, PgDdl.addColumn kw p t c = .ok s ∧ FScr res s (pgStmts p (.addColumn t c)) := by
  obtain ⟨ds, d1, d2⟩ := pgDefine_ok hk hc
  obtain ⟨ls, l1, K, k1, k2, k3, k4, -⟩ := pgLiteral_ok (res := res) hl
  have h1 : FOpens res (lit " ADD COLUMN ") [.kw "ADD", .kw "COLUMN"] := fopens rfl fun _ => rfl
  have h2 : FOpens res (lit " DEFAULT ") [.kw "DEFAULT"] := fopens rfl fun _ => rfl
  have hlex := fo_alter.trans ((flex_quoteName hk ht).opens rfl
    (h1.trans (d2.opens rfl (h2.trans (k1.opens rfl fo_semi)))))
  have hstmt : FScr res (lit "ALTER TABLE " ++ quoteName kw t ++ lit " ADD COLUMN " ++ ds ++
      lit " DEFAULT " ++ ls ++ lit ";")
      [.addColumn (lower t) { pgDef c with cons := conList c ++ [.default (pgLit p v)] }] := by
    refine fscr_stmt (K := .kw "ALTER" :: .kw "TABLE" :: .ident (lower t) :: .kw "ADD" ::
      .kw "COLUMN" :: (colToks (pgDef c) ++ .kw "DEFAULT" :: K)) (by simp) ?_ ?_ ?_
    · have := semi_colToks (pgDef c)
      simp [this, k2]
    · simp only [List.append_assoc]
      simpa only [List.append_assoc, List.cons_append, List.nil_append] using hlex
    · have := pColDef_default (c := pgDef c) (conList_no_default c) k4
      simp only [parseStmt, pAlter, this]
      rfl
  simp only [PgDdl.addColumn, hv, Gen.bind, d1, l1, pgStmts]
  cases hr : c.reference with
  | none =>
    have : pgFk t c = none := by simp only [pgFk, hr]
    rw [this]
    exact ⟨_, rfl, hstmt⟩
  | some r =>
    obtain ⟨s, x, f1, -, f2, f3⟩ := pgFk_ok hk ht hc hr
    simp only [f1, f2]
    exact ⟨_, rfl, fscr_join (.cons hstmt (.cons f3 .nil))⟩

theorem FScr.single {ts : List Text} {ss : List DStmt}
    (h : AllMatch (fun t s => FScr res t [s]) ts ss) :
    FScr res (joinText (lit "\n") ts) ss := by
  have : AllMatch (FScr res) ts (ss.map fun s => [s]) := by
    induction h with
    | nil => exact .nil
    | cons h1 _ ih => exact .cons h1 ih
  have h2 := fscr_join this
  have e : (ss.map fun s => [s]).flatten = ss := by
    clear this h2 h
    induction ss with
    | nil => rfl
    | cons s ss ih => simp [ih]
  rwa [e] at h2

theorem allMatch_append {α β : Type} {R : α → β → Prop} {a1 a2 : List α} {b1 b2 : List β}
    (h1 : AllMatch R a1 b1) (h2 : AllMatch R a2 b2) : AllMatch R (a1 ++ a2) (b1 ++ b2) := by
  induction h1 with
  | nil => exact h2
  | cons h _ ih => exact .cons h ih

/-- A changed default is a literal. -/
def DefaultReads (p : LitPrinters) (old new : AColumn) : Prop :=
  optBeq SqlVal.beq old.default new.default = false → ∀ v, new.default = some v → PgLiteral p v

theorem gen_bind_eq {α β : Type} {x : Gen α} {f : α → Gen β} {a : α} {r : Gen β} (h : x = .ok a)
    (h2 : f a = r) : x.bind f = r := by rw [h]; exact h2

theorem pgChange_ok (hk : PgWords kw res) {p : LitPrinters} {t : String} {old new : AColumn}
    (ht : PgName kw t) (ho : PgColumn kw old) (hn : PgColumn kw new) (hname : old.name = new.name)
    (hd : DefaultReads p old new) :
    ∃ ts, PgDdl.changeStmts kw p t old new = .ok ts ∧
      AllMatch (fun t s => FScr res t [s]) ts (pgChangeStmts p t old new) := by
  obtain ⟨ty1, w1, t1, -⟩ := ho.type
  obtain ⟨ty2, w2, t2, -⟩ := hn.type
  obtain ⟨tt, c1, c2⟩ := colType_ok hk hn
  let a := PgDdl.alter kw t
  let col := a ++ lit " ALTER COLUMN " ++ quoteName kw old.name
  -- the type
  have retype : ∃ ts, (match old.typeid, new.typeid with
      | some t, some u =>
        if t ≠ u then (PgDdl.colType new).bind fun ty => .ok [col ++ lit " SET DATA TYPE " ++ ty ++ lit ";"]
        else .ok []
      | _, _ => .err .unknownType) = Gen.ok ts ∧ AllMatch (fun t s => FScr res t [s]) ts
      (if old.typeid ≠ new.typeid then [.setType (lower t) (lower old.name) (pgWordsOf new)] else []) := by
    rw [t1, t2]
    by_cases he : ty1 = ty2
    · subst he
      exact ⟨[], by simp, by simp; exact .nil⟩
    · have e1 : (TypeIdentifier.ty ty1 ≠ .ty ty2) := by simpa using he
      have e2 : (some (TypeIdentifier.ty ty1) ≠ some (.ty ty2)) := by simpa using he
      simp only [if_pos e1, if_pos e2, c1, Gen.bind]
      refine ⟨_, rfl, .cons ?_ .nil⟩
      have h1 : FOpens res (lit " SET DATA TYPE ") [.kw "SET", .kw "DATA", .kw "TYPE"] :=
        fopens rfl fun _ => rfl
      have := pgAlterColumn_ok (res := res) hk ht ho.name
        (s := lit " SET DATA TYPE " ++ (tt ++ lit ";"))
        (k := .kw "SET" :: .kw "DATA" :: .kw "TYPE" :: (pgWordsOf new).map .ident)
        (x := .setType (lower t) (lower old.name) (pgWordsOf new)) rfl
        (h1.trans (c2.opens rfl fo_semi)) (by simp) (by
          have := pType_idents (pgWordsOf new) (r := []) trivial
          rw [List.append_nil] at this
          simp only [pAlterPg, this])
      simpa only [col, a, List.append_assoc] using this
  -- the default
  have dflt : ∃ ts, (if optBeq SqlVal.beq old.default new.default then .ok []
      else match new.default with
        | none => .ok [col ++ lit " DROP DEFAULT;"]
        | some v => (sqlLiteral p v).bind fun l => .ok [col ++ lit " SET DEFAULT " ++ l ++ lit ";"]) =
        Gen.ok ts ∧ AllMatch (fun t s => FScr res t [s]) ts
      (if optBeq SqlVal.beq old.default new.default then []
       else [.setDefault (lower t) (lower old.name) (new.default.map (pgLit p))]) := by
    cases hb : optBeq SqlVal.beq old.default new.default with
    | true => exact ⟨[], rfl, .nil⟩
    | false =>
      cases hv : new.default with
      | none =>
        refine ⟨_, rfl, .cons ?_ .nil⟩
        exact pgAlterColumn_ok (res := res) hk ht ho.name (s := lit " DROP DEFAULT;")
          (k := [.kw "DROP", .kw "DEFAULT"]) rfl (fopens rfl fun _ => rfl) (by simp) rfl
      | some v =>
        obtain ⟨ls, l1, K, k1, k2, k3, -, k5⟩ := pgLiteral_ok (res := res) (hd hb v hv)
        simp only [Bool.false_eq_true, ↓reduceIte, l1, Gen.bind]
        refine ⟨_, rfl, .cons ?_ .nil⟩
        have h1 : FOpens res (lit " SET DEFAULT ") [.kw "SET", .kw "DEFAULT"] :=
          fopens rfl fun _ => rfl
        have := pgAlterColumn_ok (res := res) hk ht ho.name (s := lit " SET DEFAULT " ++ (ls ++ lit ";"))
          (k := .kw "SET" :: .kw "DEFAULT" :: K) rfl
          (by simpa only [List.append_assoc, List.cons_append, List.nil_append] using
            h1.trans (k1.opens rfl fo_semi)) (by simp [k2]) (k5 _ _)
        simpa only [col, a, List.append_assoc, Option.map_some] using this
  -- the reference
  have dropFk : AllMatch (fun t s => FScr res t [s])
      (if old.reference.isSome then
        [a ++ lit " DROP CONSTRAINT " ++ t.toList ++ lit "_" ++ old.name.toList ++
          lit "_fkey;"] else []) (pgDropFk t old).toList := by
    unfold pgDropFk
    cases old.reference.isSome with
    | false => exact .nil
    | true => exact .cons (pgDropLabel_ok hk ht ho.name "_fkey" (.inr rfl)) .nil
  have reference : ∃ ts, (if optBeq ARef.beq old.reference new.reference then .ok []
      else match new.reference with
        | none => .ok (if old.reference.isSome then
            [a ++ lit " DROP CONSTRAINT " ++ t.toList ++ lit "_" ++ old.name.toList ++
              lit "_fkey;"] else [])
        | some r => (PgDdl.defineFkey kw t new r).bind fun f =>
          .ok ((if old.reference.isSome then
            [a ++ lit " DROP CONSTRAINT " ++ t.toList ++ lit "_" ++ old.name.toList ++
              lit "_fkey;"] else []) ++ [f])) = Gen.ok ts ∧
      AllMatch (fun t s => FScr res t [s]) ts
      (if optBeq ARef.beq old.reference new.reference then []
       else (pgDropFk t old).toList ++ (pgFk t new).toList) := by
    cases hb : optBeq ARef.beq old.reference new.reference with
    | true => exact ⟨[], rfl, .nil⟩
    | false =>
      simp only [Bool.false_eq_true, ↓reduceIte]
      cases hr : new.reference with
      | none =>
        have : pgFk t new = none := by simp only [pgFk, hr]
        rw [this]
        refine ⟨_, rfl, ?_⟩
        simpa using dropFk
      | some r =>
        obtain ⟨s, x, f1, -, f2, f3⟩ := pgFk_ok hk ht hn hr
        simp only [f1, f2, Gen.bind]
        exact ⟨_, rfl, allMatch_append dropFk (.cons f3 .nil)⟩
  have nullable : AllMatch (fun t s => FScr res t [s])
      (if old.nullable ≠ new.nullable then
        [col ++ lit " " ++ (if new.nullable then lit "DROP" else lit "SET") ++ lit " NOT NULL;"] else [])
      (if old.nullable ≠ new.nullable then
        [.setNotNull (lower t) (lower old.name) (!new.nullable)] else []) := by
    by_cases he : old.nullable = new.nullable
    · simp only [he, ne_eq, not_true_eq_false, ↓reduceIte]; exact .nil
    · simp only [ne_eq, he, not_false_eq_true, ↓reduceIte]
      refine .cons ?_ .nil
      cases new.nullable with
      | true =>
        have := pgAlterColumn_ok (res := res) hk ht ho.name (s := lit " DROP NOT NULL;")
          (k := [.kw "DROP", .kw "NOT", .kw "NULL"]) rfl (fopens rfl fun _ => rfl) (by simp) rfl
        have e : col ++ lit " " ++ lit "DROP" ++ lit " NOT NULL;" = col ++ lit " DROP NOT NULL;" := by
          simp only [List.append_assoc]; rfl
        exact e ▸ this
      | false =>
        have := pgAlterColumn_ok (res := res) hk ht ho.name (s := lit " SET NOT NULL;")
          (k := [.kw "SET", .kw "NOT", .kw "NULL"]) rfl (fopens rfl fun _ => rfl) (by simp) rfl
        have e : col ++ lit " " ++ lit "SET" ++ lit " NOT NULL;" = col ++ lit " SET NOT NULL;" := by
          simp only [List.append_assoc]; rfl
        exact e ▸ this
  have key : AllMatch (fun t s => FScr res t [s])
      (if old.pk ≠ new.pk && new.pk then
        [a ++ lit " DROP CONSTRAINT IF EXISTS " ++ t.toList ++ lit "_pkey;",
         a ++ lit " ADD PRIMARY KEY (" ++ quoteName kw new.name ++ lit ");"] else [])
      (if old.pk ≠ new.pk && new.pk then
        [.dropConstraint (lower t) (lower t ++ "_pkey") true,
         .addPrimaryKey (lower t) (lower new.name)] else []) := by
    split
    · exact .cons (pgDropPkey_ok hk ht) (.cons (pgAddKey_ok hk ht hn.name) .nil)
    · exact .nil
  have unique : AllMatch (fun t s => FScr res t [s])
      (if old.unique ≠ new.unique then
        (if new.unique then [a ++ lit " ADD UNIQUE (" ++ quoteName kw new.name ++ lit ");"]
         else [a ++ lit " DROP CONSTRAINT " ++ t.toList ++ lit "_" ++ old.name.toList ++
           lit "_key;"]) else [])
      (if old.unique ≠ new.unique then
        (if new.unique then [.addUnique (lower t) (lower new.name)]
         else [.dropConstraint (lower t) (lower t ++ "_" ++ lower old.name ++ "_key") false])
       else []) := by
    split
    · split
      · exact .cons (pgAddUnique_ok hk ht hn.name) .nil
      · exact .cons (pgDropLabel_ok hk ht ho.name "_key" (.inl rfl)) .nil
    · exact .nil
  obtain ⟨ts1, r1, r2⟩ := retype
  obtain ⟨ts2, s1, s2⟩ := dflt
  obtain ⟨ts3, u1, u2⟩ := reference
  refine ⟨_, ?_, allMatch_append (allMatch_append (allMatch_append (allMatch_append
    (allMatch_append r2 nullable) key) unique) s2) u2⟩
  have hrn : ¬ (old.name ≠ new.name) := fun h => h hname
  simp only [PgDdl.changeStmts, if_neg hrn, List.nil_append]
  exact gen_bind_eq r1 (gen_bind_eq s1 (gen_bind_eq u1 rfl))

/-! ### The whole script -/

/-- What an operation needs so that butane can describe it to PostgreSQL. -/
def PgOp (kw : String → Bool) (p : LitPrinters) : Operation → Prop
  | .addTable t => PgTable kw t ∧ t.columns ≠ []
  | .addTableIfNotExists t => PgTable kw t ∧ t.columns ≠ []
  | .addTableConstraints t => PgTable kw t
  | .removeTableConstraints t => PgTable kw t ∧
      ∀ c ∈ t.columns, ∀ r, c.default = some (.real r) → r.isNaN = false
  | .removeTable n => PgName kw n
  | .addColumn t c => PgName kw t ∧ PgColumn kw c ∧ ∀ v, NewValue c v → PgLiteral p v
  | .removeColumn t n => PgName kw t ∧ PgName kw n
  | .changeColumn t old new => PgName kw t ∧ PgColumn kw old ∧ PgColumn kw new ∧
      old.name = new.name ∧ DefaultReads p old new

theorem pg_stored {c : AColumn} (hc : PgColumn kw c) : ∃ st, StoredAs c st := by
  obtain ⟨ty, w, h1, h2⟩ := hc.type
  cases ty <;> first | cases h2; done | exact ⟨_, _, h1, rfl⟩

theorem pg_default {c : AColumn} (hc : PgColumn kw c) : ∃ v, columnDefault c = .ok v := by
  obtain ⟨ty, w, h1, h2⟩ := hc.type
  simp only [columnDefault, h1]
  cases c.default with
  | some v => exact ⟨v, rfl⟩
  | none =>
    cases c.nullable with
    | true => exact ⟨_, rfl⟩
    | false =>
      cases ty <;> first | cases h2; done | exact ⟨_, rfl⟩

theorem pgAddConstraints_ok (hk : PgWords kw res) {t : String} (ht : PgName kw t)
    {cols : List AColumn} (hc : ∀ c ∈ cols, PgColumn kw c) :
    ∃ ts, Gen.mapM (fun (p : AColumn × ARef) => PgDdl.defineFkey kw t p.1 p.2)
      (cols.filterMap fun c => c.reference.map fun r => (c, r)) = .ok ts ∧
      AllMatch (fun t s => FScr res t [s]) ts (cols.filterMap (pgFk t)) := by
  induction cols with
  | nil => exact ⟨[], rfl, .nil⟩
  | cons c cols ih =>
    obtain ⟨ts, h1, h2⟩ := ih fun x hx => hc x (List.mem_cons_of_mem _ hx)
    cases hr : c.reference with
    | none =>
      refine ⟨ts, ?_, ?_⟩
      · simp only [List.filterMap_cons, hr, Option.map_none]; exact h1
      · simp only [List.filterMap_cons, pgFk, hr]; exact h2
    | some r =>
      obtain ⟨x, f, g1, -, g2, g3⟩ := pgFk_ok hk ht (hc c (List.mem_cons_self ..)) hr
      refine ⟨x :: ts, ?_, ?_⟩
      · simp only [List.filterMap_cons, hr, Option.map_some, Gen.mapM, g1, Gen.bind, h1]
      · simp only [List.filterMap_cons, g2]; exact .cons g3 h2

theorem optBeq_self {c : AColumn} (h : ∀ r, c.default = some (.real r) → r.isNaN = false) :
    optBeq SqlVal.beq c.default c.default = true := by
  cases hd : c.default with
  | none => rfl
  | some v =>
    simp only [optBeq]
    exact sqlval_same_beq (.refl v) fun x hx => h x (by rw [hd, hx])

theorem pgRemoveConstraints_ok (hk : PgWords kw res) {p : LitPrinters} {t : ATable}
    (ht : PgName kw t.name)
    {cols : List AColumn} (hc : ∀ c ∈ cols, PgColumn kw c)
    (hn : ∀ c ∈ cols, ∀ r, c.default = some (.real r) → r.isNaN = false) :
    ∃ ts, Gen.mapM (fun (q : AColumn × ARef) =>
        PgDdl.changeColumn kw p t q.1 { q.1 with reference := none })
      (cols.filterMap fun c => c.reference.map fun r => (c, r)) = .ok ts ∧
      AllMatch (fun t s => FScr res t [s]) ts (cols.filterMap (pgDropFk t.name)) := by
  induction cols with
  | nil => exact ⟨[], rfl, .nil⟩
  | cons c cols ih =>
    obtain ⟨ts, h1, h2⟩ := ih (fun x hx => hc x (List.mem_cons_of_mem _ hx))
      (fun x hx => hn x (List.mem_cons_of_mem _ hx))
    cases hr : c.reference with
    | none =>
      refine ⟨ts, ?_, ?_⟩
      · simp only [List.filterMap_cons, hr, Option.map_none]; exact h1
      · simp only [List.filterMap_cons, pgDropFk, hr]; exact h2
    | some r =>
      have hcc := hc c (List.mem_cons_self ..)
      have hcn : PgColumn kw { c with reference := none } :=
        ⟨hcc.name, hcc.type, hcc.auto, hcc.pk, fun r h => by cases h⟩
      have hself := optBeq_self (hn c (List.mem_cons_self ..))
      obtain ⟨us, g1, g2⟩ := pgChange_ok (res := res) (p := p) hk ht hcc hcn rfl (by
        intro h
        rw [hself] at h
        cases h)
      have e : pgChangeStmts p t.name c { c with reference := none } = (pgDropFk t.name c).toList := by
        have hq : optBeq ARef.beq c.reference none = false := by rw [hr]; rfl
        have hf : pgFk t.name { c with reference := none } = none := rfl
        simp only [pgChangeStmts]
        rw [if_neg (fun h => h rfl), if_neg (fun h => h rfl), if_neg (by simp), if_neg (fun h => h rfl),
          if_pos hself, if_neg (by rw [hq]; decide), hf]
        simp
      rw [e] at g2
      have e2 : (pgDropFk t.name c).toList =
          [.dropConstraint (lower t.name) (lower t.name ++ "_" ++ lower c.name ++ "_fkey") false] := by
        simp [pgDropFk, hr]
      have e3 : pgDropFk t.name c =
          some (.dropConstraint (lower t.name) (lower t.name ++ "_" ++ lower c.name ++ "_fkey") false) := by
        simp [pgDropFk, hr]
      rw [e2] at g2
      cases g2 with
      | @cons u _ us _ u1 u2 =>
        cases u2
        refine ⟨u :: ts, ?_, ?_⟩
        · simp only [List.filterMap_cons, hr, Option.map_some, Gen.mapM]
          exact gen_bind_eq (gen_bind_eq g1 rfl) (gen_bind_eq h1 rfl)
        · simp only [List.filterMap_cons, e3]; exact .cons u1 h2

theorem pgOp_ok (hk : PgWords kw res) {p : LitPrinters} {cur : ADB} {op : Operation}
    (hop : PgOp kw p op)
    (hcur : ∀ t o n, op = .changeColumn t o n → ∃ tbl, cur.getTable t = some tbl ∧ tbl.name = t) :
    ∃ s, PgDdl.sqlForOp kw p cur op = .ok s ∧ FScr res s (pgStmts p op) := by
  cases op with
  | addTable t =>
    obtain ⟨s, h1, -, h2⟩ := pgCreate_ok (res := res) hk hop.1 hop.2 false
    exact ⟨s, h1, h2⟩
  | addTableIfNotExists t =>
    obtain ⟨s, h1, -, h2⟩ := pgCreate_ok (res := res) hk hop.1 hop.2 true
    exact ⟨s, h1, h2⟩
  | addTableConstraints t =>
    obtain ⟨ts, h1, h2⟩ := pgAddConstraints_ok (res := res) hk hop.name hop.columns
    refine ⟨_, gen_bind_eq h1 rfl, FScr.single h2⟩
  | removeTableConstraints t =>
    obtain ⟨ts, h1, h2⟩ := pgRemoveConstraints_ok (res := res) (p := p) hk hop.1.name hop.1.columns hop.2
    refine ⟨_, gen_bind_eq h1 rfl, FScr.single h2⟩
  | removeTable n => exact ⟨_, rfl, pgDropTable_ok hk hop⟩
  | addColumn t c =>
    obtain ⟨v, hv⟩ := pg_default hop.2.1
    exact pgAddColumn_ok hk hop.1 hop.2.1 hv
      (hop.2.2 v ((newValue_iff (pg_stored hop.2.1)).2 hv))
  | removeColumn t n => exact ⟨_, rfl, pgDropColumn_ok hk hop.1 hop.2⟩
  | changeColumn t o n =>
    obtain ⟨tbl, h1, h2⟩ := hcur t o n rfl
    obtain ⟨g1, g2, g3, g4, g5⟩ := hop
    subst h2
    obtain ⟨ts, c1, c2⟩ := pgChange_ok (res := res) hk g1 g2 g3 g4 g5
    refine ⟨_, ?_, FScr.single c2⟩
    simp only [PgDdl.sqlForOp, h1, PgDdl.changeColumn]
    exact gen_bind_eq c1 rfl

theorem fscr_empty {ss : List DStmt} (h : FScr res [] ss) : ss = [] := scripted_empty (.inl h.2)

theorem fscr_filter {ts : List Text} {sss : List (List DStmt)}
    (h : AllMatch (FScr res) ts sss) :
    ∃ sss', AllMatch (FScr res) (ts.filter fun t => !t.isEmpty) sss' ∧
      sss'.flatten = sss.flatten := by
  induction h with
  | nil => exact ⟨[], .nil, rfl⟩
  | @cons t ss ts sss h1 h2 ih =>
    obtain ⟨sss', g1, g2⟩ := ih
    cases t with
    | nil =>
      have := fscr_empty h1
      subst this
      exact ⟨sss', g1, by simpa using g2⟩
    | cons c t => exact ⟨ss :: sss', .cons h1 g1, by simp [g2]⟩

/-- The script is generated and reads as the expected statements. -/
theorem pgScript_ok (hk : PgWords kw res) {p : LitPrinters} {cur : ADB} {ops : List Operation}
    (hop : ∀ op ∈ ops, PgOp kw p op)
    (hcur : ∀ t o n, .changeColumn t o n ∈ ops → ∃ tbl, cur.getTable t = some tbl ∧ tbl.name = t) :
    ∃ s, PgDdl.migrationSql kw p cur ops = .ok s ∧
      Ddl.parse false res (foldCase none s) = some (ops.flatMap (pgStmts p)) := by
  have : ∃ ts, Gen.mapM (PgDdl.sqlForOp kw p cur) ops = .ok ts ∧
      AllMatch (FScr res) ts (ops.map (pgStmts p)) := by
    induction ops with
    | nil => exact ⟨[], rfl, .nil⟩
    | cons op ops ih =>
      obtain ⟨ts, h1, h2⟩ := ih (fun x hx => hop x (List.mem_cons_of_mem _ hx))
        (fun t o n h => hcur t o n (List.mem_cons_of_mem _ h))
      obtain ⟨s, g1, g2⟩ := pgOp_ok (res := res) (cur := cur) hk (hop op (List.mem_cons_self ..))
        (fun t o n h => hcur t o n (h ▸ List.mem_cons_self ..))
      exact ⟨s :: ts, by simp only [Gen.mapM, g1, Gen.bind, h1], .cons g2 h2⟩
  obtain ⟨ts, h1, h2⟩ := this
  obtain ⟨sss, f1, f2⟩ := fscr_filter h2
  refine ⟨_, gen_bind_eq h1 rfl, ?_⟩
  have := ((fscr_join f1).append fscr_newline).parse
  rwa [List.append_nil, f2, ← List.flatMap_def] at this

end Butane.PgP
