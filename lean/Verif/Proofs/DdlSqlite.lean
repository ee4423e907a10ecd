/-
The script of a migration on SQLite reads as the expected statements.
-/
import Verif.Proofs.DdlParse
import Verif.Proofs.Diff
import Verif.Spec.DdlMigrate

namespace Butane.DdlP
open Butane.Ddl Spec

variable {res : String → Bool} {kw : String → Bool} {sq : Bool}

/-! ### The expected statements -/

/-- The type word of a column. -/
def typeWord (c : AColumn) : String :=
  match c.typeid with
  | some (.ty ty) => match sqliteType ty with | some st => st.name | none => ""
  | _ => ""

theorem typeWord_eq {c : AColumn} {st : SqliteType} (h : StoredAs c st) : typeWord c = st.name := by
  obtain ⟨ty, h1, h2⟩ := h
  simp only [typeWord, h1, h2]

/-- The definition of a column. -/
def colDefOf (c : AColumn) : ColDef := ⟨c.name, [typeWord c], conList c⟩

/-- The foreign key of a column. -/
def refOf (c : AColumn) : Option RefCon :=
  match c.reference with
  | some (.literal t k) => some ⟨c.name, t, k⟩
  | _ => none

def refsOf (t : ATable) : List RefCon := t.columns.filterMap refOf

def createOf (ifNot : Bool) (t : ATable) : DStmt :=
  .createTable ifNot t.name (t.columns.map colDefOf) (refsOf t) true

/-- The literal of an integer. -/
def numLit : Int → Lit
  | .ofNat n => .num false (natText n)
  | .negSucc n => .num true (natText (n + 1))

/-- The literal of a value. -/
def litOf (p : LitPrinters) : SqlVal → Lit
  | .null => .null
  | .bool b => .bool b
  | .int i => numLit i.toInt
  | .bigInt i => numLit i.toInt
  | .real r => match p.real r with
    | '-' :: s => .num true s
    | s => .num false s
  | .text s => .str s.toList
  | .blob b => .hex (hexUpper b)
  | _ => .null

def changeOf (old : ATable) (changed : ATable) : List DStmt :=
  [createOf false { changed with name := SqliteDdl.tmpName old.name },
   .insertSelect (SqliteDdl.tmpName old.name) (changed.columns.map (·.name)) old.name,
   .dropTable old.name, .renameTable (SqliteDdl.tmpName old.name) old.name]

/-- The statements of an operation on the given schema. -/
def stmtsOf (p : LitPrinters) (cur : ADB) : Operation → List DStmt
  | .addTable t => [createOf false t]
  | .addTableConstraints _ => []
  | .addTableIfNotExists t => [createOf true t]
  | .removeTable n => [.dropTable n]
  | .removeTableConstraints _ => []
  | .addColumn t c =>
    match columnDefault c with
    | .ok v => [.addColumn t { colDefOf c with cons := conList c ++ [.default (litOf p v)] }]
    | _ => []
  | .removeColumn t n =>
    match cur.getTable t with
    | some tbl =>
      match tbl.column n with
      | some c => if c.reference.isSome then changeOf tbl (tbl.removeColumn n)
        else [.dropColumn t n]
      | none => []
    | none => []
  | .changeColumn t _ new =>
    match cur.getTable t with
    | some tbl => changeOf tbl (tbl.replaceColumn new)
    | none => []

/-! ### Scripts that cannot be read -/

def Fails (res : String → Bool) (sq : Bool) (t : Text) : Prop :=
  ∃ K, Opens res t K ∧ ∀ R, parseAll sq (splitSemi (K ++ R)) = none

/-- The text reads as these statements or not at all. -/
def Reads (res : String → Bool) (sq : Bool) (t : Text) (ss : List DStmt) : Prop :=
  Scripted res sq t ss ∨ Fails res sq t

theorem reads_stmt {t : Text} {K : List Tok} {s : DStmt} (hne : K ≠ []) (hsemi : Tok.semi ∉ K)
    (ho : Opens res t (K ++ [.semi])) (hp : parseStmt sq K = some s ∨ parseStmt sq K = none) :
    Reads res sq t [s] := by
  rcases hp with hp | hp
  · exact .inl (scripted_stmt hne hsemi ho hp)
  · refine .inr ⟨_, ho, fun R => ?_⟩
    rw [List.append_assoc, List.singleton_append, splitSemi_append hsemi]
    cases K with
    | nil => exact absurd rfl hne
    | cons k K => simp only [parseAll, hp]

theorem Reads.append {t1 t2 : Text} {s1 s2 : List DStmt} (h1 : Reads res sq t1 s1)
    (h2 : Reads res sq t2 s2) : Reads res sq (t1 ++ t2) (s1 ++ s2) := by
  rcases h1 with h1 | ⟨K1, o1, f1⟩
  · rcases h2 with h2 | ⟨K2, o2, f2⟩
    · exact .inl (h1.append h2)
    · obtain ⟨K1, o1, p1⟩ := h1
      refine .inr ⟨_, o1.trans o2, fun R => ?_⟩
      rw [List.append_assoc, p1, f2]; rfl
  · rcases h2 with ⟨K2, o2, p2⟩ | ⟨K2, o2, f2⟩
    · refine .inr ⟨_, o1.trans o2, fun R => ?_⟩
      rw [List.append_assoc, f1]
    · refine .inr ⟨_, o1.trans o2, fun R => ?_⟩
      rw [List.append_assoc, f1]

theorem reads_join {ts : List Text} {sss : List (List DStmt)}
    (h : AllMatch (Reads res sq) ts sss) :
    Reads res sq (joinText (lit "\n") ts) sss.flatten := by
  induction h with
  | nil => exact .inl scripted_nil
  | cons h1 h2 ih =>
    cases h2 with
    | nil => simpa [joinText] using h1
    | cons h3 h4 =>
      simp only [joinText, List.flatten_cons, List.append_assoc] at ih ⊢
      have := h1.append (Reads.append (s1 := []) (.inl scripted_newline) ih)
      simpa only [List.nil_append, List.append_assoc] using this

theorem Reads.parse {t : Text} {ss : List DStmt} (h : Reads res sq t ss) :
    Ddl.parse sq res t = some ss ∨ Ddl.parse sq res t = none := by
  rcases h with h | ⟨K, o, f⟩
  · exact .inl h.parse
  · refine .inr ?_
    unfold Ddl.parse lex
    have := o []
    rw [List.append_nil] at this
    rw [this, f]

/-! ### Columns -/

theorem name_KEY : IsName "KEY" := ⟨'K', ['E', 'Y'], rfl, rfl, rfl⟩
theorem name_NULL : IsName "NULL" := ⟨'N', ['U', 'L', 'L'], rfl, rfl, rfl⟩
theorem name_UNIQUE : IsName "UNIQUE" := ⟨'U', ['N', 'I', 'Q', 'U', 'E'], rfl, rfl, rfl⟩
theorem name_true : IsName "true" := ⟨'t', ['r', 'u', 'e'], rfl, rfl, rfl⟩
theorem name_false : IsName "false" := ⟨'f', ['a', 'l', 's', 'e'], rfl, rfl, rfl⟩

/-- The text of a constraint. -/
def conText : Con → Text
  | .notNull => lit "NOT NULL"
  | .primaryKey => lit "PRIMARY KEY"
  | .unique => lit "UNIQUE"
  | .default _ => []

theorem lex_conText (c : Con) : LexTo res (conText c) (conToks c) := by
  cases c with
  | notNull =>
    have h1 : Opens res (lit "NOT ") [.kw "NOT"] := fun _ => rfl
    exact h1.then (t2 := lit "NULL") (lex_word (s := "NULL") name_NULL)
  | primaryKey =>
    have h1 : Opens res (lit "PRIMARY ") [.kw "PRIMARY"] := fun _ => rfl
    exact h1.then (t2 := lit "KEY") (lex_word (s := "KEY") name_KEY)
  | unique => exact lex_word (s := "UNIQUE") name_UNIQUE
  | default l => exact lexTo_nil

theorem colConstraints_eq {c : AColumn} (h : c.auto = true → c.pk = true) :
    SqliteDdl.colConstraints c = (conList c).map conText := by
  simp only [SqliteDdl.colConstraints, conList]
  cases hn : c.nullable <;> cases hp : c.pk <;> cases hu : c.unique <;> cases ha : c.auto <;>
    simp_all [conText]

theorem opens_space : Opens res (lit " ") [] := fun _ => rfl
theorem opens_newline : Opens res (lit "\n") [] := fun _ => rfl

theorem joinToks_nil (kss : List (List Tok)) : joinToks [] kss = kss.flatten := by
  induction kss with
  | nil => rfl
  | cons k kss ih =>
    cases kss with
    | nil => simp [joinToks]
    | cons k' kss => simp only [joinToks, List.append_nil, ih, List.flatten_cons]

theorem lex_typeName (hf : TypesFree res) (st : SqliteType) :
    LexTo res st.name.toList [.ident st.name] := by
  have h : wordTok res st.name.toList = .ident st.name := by
    cases st
    · exact wordTok_ident (by decide) (hf "INTEGER" (by decide))
    · exact wordTok_ident (by decide) (hf "REAL" (by decide))
    · exact wordTok_ident (by decide) (hf "TEXT" (by decide))
    · exact wordTok_ident (by decide) (hf "BLOB" (by decide))
  rw [← h]
  refine lex_word ?_
  cases st
  · exact ⟨'I', "NTEGER".toList, by decide, by decide, by decide⟩
  · exact ⟨'R', "EAL".toList, by decide, by decide, by decide⟩
  · exact ⟨'T', "EXT".toList, by decide, by decide, by decide⟩
  · exact ⟨'B', "LOB".toList, by decide, by decide, by decide⟩

theorem defineColumn_ok (hk : CoversDdl kw res) (hf : TypesFree res) {c : AColumn}
    (hc : PlainColumn c) :
    ∃ t, SqliteDdl.defineColumn kw c = .ok t ∧ LexTo res t (colToks (colDefOf c)) := by
  obtain ⟨st, hst⟩ := hc.type
  have hty : SqliteDdl.colType c = .ok st.name.toList := by
    obtain ⟨ty, h1, h2⟩ := hst
    simp only [SqliteDdl.colType, h1, h2]
  have hcon := colConstraints_eq hc.auto
  have hbase : LexTo res (quoteName kw c.name ++ lit " " ++ st.name.toList)
      ([.ident c.name] ++ [.ident st.name]) := by
    rw [List.append_assoc]
    exact (lex_quoteName hk hc.name).append (by exact softA rfl)
      (opens_space.then (lex_typeName hf st))
  simp only [SqliteDdl.defineColumn, hty, Gen.bind, hcon]
  refine ⟨_, rfl, ?_⟩
  simp only [colToks, colDefOf, typeWord_eq hst]
  generalize hcs : conList c = cs
  cases cs with
  | nil => exact hbase
  | cons x cs =>
    simp only [List.map_cons]
    have := lexTo_join (res := res) opens_space (fun _ => .inl rfl) (ts := (x :: cs).map conText)
      (kss := (x :: cs).map conToks) (allMatch_map fun a _ => lex_conText a)
    rw [joinToks_nil] at this
    have h2 := hbase.append (by exact softA rfl) (opens_space.then this)
    simpa only [List.append_assoc, List.nil_append, List.cons_append, List.map_cons, List.map_nil] using h2

/-! ### Tables -/

theorem defineConstraint_ok (hk : CoversDdl kw res) {c : AColumn} (hc : PlainColumn c) {r : ARef}
    (hr : c.reference = some r) :
    ∃ t f, SqliteDdl.defineConstraint kw c r = .ok t ∧ refOf c = some f ∧
      LexTo res t (fkToks f) := by
  obtain ⟨t, k, rfl, ht, hkk, -⟩ := hc.reference r hr
  refine ⟨_, ⟨c.name, t, k⟩, rfl, by simp only [refOf, hr], ?_⟩
  have h1 : Opens res (lit "FOREIGN KEY (") [.kw "FOREIGN", .kw "KEY", .lparen] := fun _ => rfl
  have h2 : Opens res (lit ") REFERENCES ") [.rparen, .kw "REFERENCES"] := fun _ => rfl
  have h3 : Opens res (lit "(") [.lparen] := fun _ => rfl
  have h4 : Opens res (lit ")") [.rparen] := fun _ => rfl
  have := h1.then ((lex_quoteName hk hc.name).append (by exact softA rfl)
    (h2.then ((lex_quoteName hk ht).append (by exact softA rfl)
      (h3.then ((lex_quoteName hk hkk).append (by exact softB rfl) h4.lexTo)))))
  simp only [List.append_assoc]
  exact this

theorem tableConstraints_ok (hk : CoversDdl kw res) {t : ATable}
    (ht : ∀ c ∈ t.columns, PlainColumn c) :
    ∃ ts, SqliteDdl.tableConstraints kw t = .ok (joinText (lit "\n") ts) ∧
      AllMatch (LexTo res) ts ((refsOf t).map fkToks) ∧ ∀ x ∈ ts, x ≠ [] := by
  unfold SqliteDdl.tableConstraints refsOf
  generalize t.columns = cols at ht
  suffices h : ∃ ts, Gen.mapM (fun (p : AColumn × ARef) => SqliteDdl.defineConstraint kw p.1 p.2)
      (cols.filterMap fun c => c.reference.map fun r => (c, r)) = .ok ts ∧
      AllMatch (LexTo res) ts ((cols.filterMap refOf).map fkToks) ∧ ∀ x ∈ ts, x ≠ [] by
    obtain ⟨ts, h1, h2⟩ := h
    exact ⟨ts, by rw [h1]; rfl, h2⟩
  induction cols with
  | nil => exact ⟨[], rfl, .nil, by simp⟩
  | cons c cols ih =>
    obtain ⟨ts, h1, h2, h3⟩ := ih fun x hx => ht x (List.mem_cons_of_mem _ hx)
    cases hr : c.reference with
    | none =>
      refine ⟨ts, ?_, ?_, h3⟩
      · simp only [List.filterMap_cons, hr, Option.map_none]; exact h1
      · simp only [List.filterMap_cons, refOf, hr]; exact h2
    | some r =>
      obtain ⟨x, f, g1, g2, g3⟩ := defineConstraint_ok hk (ht c (List.mem_cons_self ..)) hr
      refine ⟨x :: ts, ?_, ?_, ?_⟩
      · simp only [List.filterMap_cons, hr, Option.map_some, Gen.mapM, g1, Gen.bind, h1]
      · simp only [List.filterMap_cons, g2, List.map_cons]; exact .cons g3 h2
      · intro y hy
        rcases List.mem_cons.1 hy with rfl | hy
        · intro e
          have := g3 [] trivial
          subst e
          simp [lexFrom, pending, fkToks] at this
        · exact h3 y hy

theorem joinText_empty {sep : Text} {ts : List Text} (h : ∀ x ∈ ts, x ≠ []) :
    (joinText sep ts).isEmpty = ts.isEmpty := by
  cases ts with
  | nil => rfl
  | cons t ts =>
    have := h t (List.mem_cons_self ..)
    cases t with
    | nil => exact absurd rfl this
    | cons c t => cases ts <;> rfl

theorem defs_ok (hk : CoversDdl kw res) (hf : TypesFree res) {cols : List AColumn}
    (ht : ∀ c ∈ cols, PlainColumn c) :
    ∃ ts, Gen.mapM (SqliteDdl.defineColumn kw) cols = .ok ts ∧
      AllMatch (LexTo res) ts (cols.map fun c => colToks (colDefOf c)) := by
  induction cols with
  | nil => exact ⟨[], rfl, .nil⟩
  | cons c cols ih =>
    obtain ⟨ts, h1, h2⟩ := ih fun x hx => ht x (List.mem_cons_of_mem _ hx)
    obtain ⟨t, g1, g2⟩ := defineColumn_ok hk hf (ht c (List.mem_cons_self ..))
    exact ⟨t :: ts, by simp only [Gen.mapM, g1, Gen.bind, h1], .cons g2 h2⟩

/-- The tokens of a table definition. -/
def createToks (ifNot : Bool) (t : ATable) : List Tok :=
  .kw "CREATE" :: .kw "TABLE" :: ((if ifNot then [.kw "IF", .kw "NOT", .kw "EXISTS"] else []) ++
    .ident t.name :: .lparen :: (joinToks [.comma] ((t.columns.map colDefOf).map colToks) ++
      (fksToks (refsOf t) ++ [.rparen, .ident "STRICT"])))

theorem createTable_lex (hk : CoversDdl kw res) (hf : TypesFree res) {t : ATable}
    (hn : IsName t.name) (ht : ∀ c ∈ t.columns, PlainColumn c) (ifNot : Bool) :
    ∃ s, SqliteDdl.createTable kw t ifNot = .ok s ∧
      Opens res s (createToks ifNot t ++ [.semi]) := by
  obtain ⟨ds, d1, d2⟩ := defs_ok hk hf ht
  obtain ⟨cs, c1, c2, c3⟩ := tableConstraints_ok hk ht
  simp only [SqliteDdl.createTable, d1, Gen.bind, c1, joinText_empty c3]
  refine ⟨_, rfl, ?_⟩
  have o1 : Opens res (lit "CREATE TABLE ") [.kw "CREATE", .kw "TABLE"] := fun _ => rfl
  have o2 : Opens res (if ifNot = true then lit "IF NOT EXISTS " else [])
      (if ifNot = true then [.kw "IF", .kw "NOT", .kw "EXISTS"] else []) := by
    cases ifNot
    · exact opens_nil
    · exact fun _ => rfl
  have o3 : Opens res (lit " (\n") [.lparen] := fun _ => rfl
  have o4 : Opens res (lit ",\n") [.comma] := fun _ => rfl
  have hstrict : wordTok res "STRICT".toList = .ident "STRICT" :=
    wordTok_ident (by decide) (hf "STRICT" (by decide))
  have o5 : Opens res (lit "\n) STRICT;") [.rparen, .ident "STRICT", .semi] := by
    intro r
    have e : lit "\n) STRICT;" ++ r = lit "\n) " ++ (lit "STRICT" ++ (lit ";" ++ r)) := rfl
    have a1 : Opens res (lit "\n) ") [.rparen] := fun _ => rfl
    have a2 : LexTo res (lit "STRICT") [.ident "STRICT"] := by
      rw [← hstrict]
      exact lex_word ⟨'S', "TRICT".toList, by decide, by decide, by decide⟩
    rw [e, a1, a2 _ (brkB rfl r)]
    rfl
  have hdefs := lexTo_join (res := res) o4 (fun _ => .inr (.inr (.inr (.inr (.inl rfl))))) d2
  have hcons : LexTo res (if cs.isEmpty = true then [] else lit ",\n" ++ joinText (lit "\n") cs)
      (fksToks (refsOf t)) := by
    cases hcs : cs with
    | nil =>
      subst hcs
      cases hr : refsOf t with
      | nil => exact lexTo_nil
      | cons f fs => rw [hr] at c2; cases c2
    | cons x xs =>
      rw [← hcs]
      have : cs.isEmpty = false := by rw [hcs]; rfl
      simp only [this, Bool.false_eq_true, ↓reduceIte]
      have hj := lexTo_join (res := res) opens_newline (fun _ => .inr (.inl rfl)) c2
      rw [joinToks_nil] at hj
      cases hr : refsOf t with
      | nil => rw [hr, hcs] at c2; cases c2
      | cons f fs =>
        rw [hr] at hj
        exact o4.then hj
  have hsoft : Soft (if cs.isEmpty = true then [] else lit ",\n" ++ joinText (lit "\n") cs) := by
    split
    · exact soft_nil
    · exact softA rfl
  have := o1.trans (o2.trans ((lex_quoteName hk hn).opens (by exact brkA rfl)
    (o3.trans ((hdefs.append hsoft hcons).opens (by exact brkB rfl) o5))))
  simpa only [createToks, List.append_assoc, List.cons_append, List.nil_append, List.map_map,
    Function.comp_def] using this

theorem semi_createToks (ifNot : Bool) (t : ATable) : Tok.semi ∉ createToks ifNot t := by
  have h1 : Tok.semi ∉ joinToks [.comma] ((t.columns.map colDefOf).map colToks) := by
    refine semi_join (by simp) ?_
    intro k hk
    obtain ⟨c, -, rfl⟩ := List.mem_map.1 hk
    exact semi_colToks c
  have h2 := semi_fks (refsOf t)
  cases ifNot <;> simp only [createToks, List.mem_cons, List.mem_append, not_or, h1, h2,
    List.not_mem_nil, reduceCtorEq, not_false_eq_true, and_self, Bool.false_eq_true, ↓reduceIte]

theorem parse_createToks {ifNot : Bool} {t : ATable} (hne : t.columns ≠ []) :
    parseStmt true (createToks ifNot t) = some (createOf ifNot t) := by
  have := pCreate_ok (cs := t.columns.map colDefOf) (by simpa using hne) (by
    intro c hc x hx l
    obtain ⟨a, -, rfl⟩ := List.mem_map.1 hc
    exact conList_no_default a x hx l) (refsOf t) ifNot t.name
  cases ifNot
  · exact this
  · exact this

theorem parse_createToks_empty {ifNot : Bool} {t : ATable} (h : t.columns = []) :
    parseStmt true (createToks ifNot t) = none := by
  have hr : refsOf t = [] := by simp [refsOf, h]
  unfold createToks
  rw [h, hr]
  cases ifNot <;> rfl

theorem createTable_reads (hk : CoversDdl kw res) (hf : TypesFree res) {t : ATable}
    (hn : IsName t.name) (ht : ∀ c ∈ t.columns, PlainColumn c) (ifNot : Bool) :
    ∃ s, SqliteDdl.createTable kw t ifNot = .ok s ∧ s ≠ [] ∧
      Reads res true s [createOf ifNot t] := by
  obtain ⟨s, h1, h2⟩ := createTable_lex hk hf hn ht ifNot
  refine ⟨s, h1, ?_, ?_⟩
  · intro e
    have := h2 []
    subst e
    simp [lexFrom, pending, createToks] at this
  refine reads_stmt (by simp [createToks]) (semi_createToks ifNot t) h2 ?_
  by_cases hne : t.columns = []
  · exact .inr (parse_createToks_empty hne)
  · exact .inl (parse_createToks hne)

/-! ### Literals -/

theorem hexDigit_no_quote (d : Nat) (h : d < 16) : hexDigit d ≠ '\'' := by
  have : d = 0 ∨ d = 1 ∨ d = 2 ∨ d = 3 ∨ d = 4 ∨ d = 5 ∨ d = 6 ∨ d = 7 ∨ d = 8 ∨ d = 9 ∨ d = 10 ∨
    d = 11 ∨ d = 12 ∨ d = 13 ∨ d = 14 ∨ d = 15 := by omega
  rcases this with h | h | h | h | h | h | h | h | h | h | h | h | h | h | h | h <;> subst h <;> decide

theorem hexUpper_no_quote (b : List UInt8) : '\'' ∉ hexUpper b := by
  induction b with
  | nil => simp [hexUpper]
  | cons x b ih =>
    have hx : x.toNat < 256 := x.toNat_lt
    simp only [hexUpper, List.mem_cons, not_or]
    exact ⟨(hexDigit_no_quote _ (by omega)).symm, (hexDigit_no_quote _ (by omega)).symm, ih⟩

/-- The text reads as this literal after `DEFAULT`. -/
def LitText (res : String → Bool) (t : Text) (l : Lit) : Prop :=
  ∃ K, LexTo res t K ∧ Tok.semi ∉ K ∧ K ≠ [] ∧
    pCons (.kw "DEFAULT" :: K) = some ([.default l], []) 

theorem litText_num {s : Text} (h : IsNumeral s) : LitText res s (.num false s) :=
  ⟨_, lex_numeral h, by simp, by simp, rfl⟩

theorem litText_neg {s : Text} (h : IsNumeral s) : LitText res ('-' :: s) (.num true s) := by
  have h1 : Opens res ['-'] [.minus] := fun _ => rfl
  exact ⟨_, h1.then (lex_numeral h), by simp, by simp, rfl⟩

theorem natText_numeral (n : Nat) : IsNumeral (natText n) := by
  obtain ⟨c, cs, h1, h2, h3, -⟩ := natText_spec n
  exact digits_numeral ⟨c, cs, h1, h2, h3⟩

theorem litText_int (i : Int) : LitText res (intText i) (numLit i) := by
  cases i with
  | ofNat n => exact litText_num (natText_numeral n)
  | negSucc n => exact litText_neg (natText_numeral _)

theorem litText_true : LitText res (lit "true") (.bool true) :=
  ⟨[.kw "TRUE"], lex_word name_true, by decide, by decide, rfl⟩

theorem litText_false : LitText res (lit "false") (.bool false) :=
  ⟨[.kw "FALSE"], lex_word name_false, by decide, by decide, rfl⟩

theorem litText_null : LitText res (lit "NULL") .null :=
  ⟨[.kw "NULL"], lex_word name_NULL, by decide, by decide, rfl⟩

theorem numeral_head {s : Text} (h : IsNumeral s) : ∀ r, s ≠ '-' :: r := by
  rintro r rfl
  obtain ⟨c, cs, h1, h2, -⟩ := h
  cases h1
  exact absurd h2 (by decide)

theorem litOf_real {env : SqliteEnv} {p : LitPrinters} {r : F64} {neg : Bool} {s : Text}
    (h : p.real r = (if neg then '-' :: s else s)) (hs : IsNumeral s) :
    litOf p (.real r) = .num neg s := by
  simp only [litOf, h]
  cases neg with
  | true => rfl
  | false =>
    simp only [Bool.false_eq_true, ↓reduceIte]
    split
    · next r' => exact absurd rfl (numeral_head hs r')
    · rfl

theorem sqlLiteral_ok {env : SqliteEnv} {p : LitPrinters} {st : SqliteType} {v : SqlVal}
    (h : LiteralReads env p st v) :
    ∃ t, sqlLiteral p v = .ok t ∧ LitText res t (litOf p v) := by
  cases v with
  | null => exact ⟨_, rfl, litText_null⟩
  | bool b =>
    cases b
    · exact ⟨_, rfl, litText_false⟩
    · exact ⟨_, rfl, litText_true⟩
  | int i => exact ⟨_, rfl, litText_int _⟩
  | bigInt i => exact ⟨_, rfl, litText_int _⟩
  | real r =>
    obtain ⟨-, neg, s, h1, h2, -⟩ := h
    refine ⟨_, rfl, ?_⟩
    rw [litOf_real (env := env) h1 h2, h1]
    cases neg
    · exact litText_num h2
    · exact litText_neg h2
  | text s => exact ⟨_, rfl, _, lex_squote h.2, by simp, by simp, rfl⟩
  | blob b =>
    exact ⟨_, rfl, _, (lex_hex (hexUpper_no_quote b)).lexTo, by simp, by simp, rfl⟩
  | json j => exact h.elim
  | date j => exact h.elim
  | timestamp j => exact h.elim
  | custom j => exact h.elim

/-! ### The other statements -/

theorem opens_semi : Opens res (lit ";") [.semi] := fun _ => rfl
theorem opens_alter : Opens res (lit "ALTER TABLE ") [.kw "ALTER", .kw "TABLE"] := fun _ => rfl

theorem dropTable_reads (hk : CoversDdl kw res) {n : String} (hn : IsName n) :
    Scripted res sq (SqliteDdl.dropTable kw n) [.dropTable n] := by
  have h1 : Opens res (lit "DROP TABLE ") [.kw "DROP", .kw "TABLE"] := fun _ => rfl
  refine scripted_stmt (K := [.kw "DROP", .kw "TABLE", .ident n]) (by simp) (by simp) ?_ rfl
  have := h1.trans ((lex_quoteName hk hn).opens (by exact brkB rfl) opens_semi)
  simp only [SqliteDdl.dropTable, List.append_assoc]
  exact this

theorem dropColumn_reads (hk : CoversDdl kw res) {t n : String} (ht : IsName t) (hn : IsName n) :
    Scripted res sq (lit "ALTER TABLE " ++ quoteName kw t ++ lit " DROP COLUMN " ++
      quoteName kw n ++ lit ";") [.dropColumn t n] := by
  have h1 : Opens res (lit " DROP COLUMN ") [.kw "DROP", .kw "COLUMN"] := fun _ => rfl
  refine scripted_stmt (K := [.kw "ALTER", .kw "TABLE", .ident t, .kw "DROP", .kw "COLUMN",
    .ident n]) (by simp) (by simp) ?_ rfl
  have := opens_alter.trans ((lex_quoteName hk ht).opens (by exact brkA rfl)
    (h1.trans ((lex_quoteName hk hn).opens (by exact brkB rfl) opens_semi)))
  simp only [List.append_assoc]
  exact this

theorem renameTable_reads (hk : CoversDdl kw res) {t n : String} (ht : IsName t) (hn : IsName n) :
    Scripted res sq (lit "ALTER TABLE " ++ quoteName kw t ++ lit " RENAME TO " ++
      quoteName kw n ++ lit ";") [.renameTable t n] := by
  have h1 : Opens res (lit " RENAME TO ") [.kw "RENAME", .kw "TO"] := fun _ => rfl
  refine scripted_stmt (K := [.kw "ALTER", .kw "TABLE", .ident t, .kw "RENAME", .kw "TO",
    .ident n]) (by simp) (by simp) ?_ rfl
  have := opens_alter.trans ((lex_quoteName hk ht).opens (by exact brkA rfl)
    (h1.trans ((lex_quoteName hk hn).opens (by exact brkB rfl) opens_semi)))
  simp only [List.append_assoc]
  exact this

theorem pNames_ok {ns : List String} (hne : ns ≠ []) {s : String} :
    pNames (joinToks [.comma] (ns.map fun n => [.ident n]) ++ [.kw "FROM", .ident s]) =
      some (ns, [.kw "FROM", .ident s]) := by
  induction ns with
  | nil => exact absurd rfl hne
  | cons n ns ih =>
    cases ns with
    | nil => rfl
    | cons m ns =>
      have := ih (by simp)
      simp only [List.map_cons, joinToks, List.cons_append, List.nil_append, pNames] at this ⊢
      rw [this]

theorem copyTable_stmt (hk : CoversDdl kw res) {old new : ATable} (ho : IsName old.name)
    (hn : IsName new.name) (hc : ∀ c ∈ new.columns, IsName c.name) :
    ∃ K, K ≠ [] ∧ Tok.semi ∉ K ∧ Opens res (SqliteDdl.copyTable kw old new) (K ++ [.semi]) ∧
      (new.columns ≠ [] → parseStmt true K =
        some (.insertSelect new.name (new.columns.map (·.name)) old.name)) ∧
      (new.columns = [] → parseStmt true K = none) := by
  have h1 : Opens res (lit "INSERT INTO ") [.kw "INSERT", .kw "INTO"] := fun _ => rfl
  have h2 : Opens res (lit " SELECT ") [.kw "SELECT"] := fun _ => rfl
  have h3 : Opens res (lit " FROM ") [.kw "FROM"] := fun _ => rfl
  have h4 : Opens res (lit ", ") [.comma] := fun _ => rfl
  have hj := lexTo_join (res := res) h4 (fun _ => .inr (.inr (.inr (.inr (.inl rfl)))))
    (ts := new.columns.map fun c => quoteName kw c.name)
    (kss := new.columns.map fun c => [.ident c.name])
    (allMatch_map fun c hcc => lex_quoteName hk (hc c hcc))
  have := h1.trans ((lex_quoteName hk hn).opens (by exact brkA rfl) (h2.trans
    (hj.opens (by exact brkA rfl) (h3.trans ((lex_quoteName hk ho).opens (by exact brkB rfl)
      opens_semi)))))
  refine ⟨.kw "INSERT" :: .kw "INTO" :: .ident new.name :: .kw "SELECT" ::
    (joinToks [.comma] (new.columns.map fun c => [.ident c.name]) ++
      [.kw "FROM", .ident old.name]), by simp, ?_, ?_, ?_, ?_⟩
  · have : Tok.semi ∉ joinToks [.comma] (new.columns.map fun c => [.ident c.name]) := by
      refine semi_join (by simp) ?_
      intro k hk
      obtain ⟨c, -, rfl⟩ := List.mem_map.1 hk
      simp
    simp [this]
  · simp only [SqliteDdl.copyTable, List.append_assoc]
    simpa only [List.append_assoc, List.cons_append, List.nil_append] using this
  · intro hne
    have := pNames_ok (ns := new.columns.map (·.name)) (by simpa using hne) (s := old.name)
    simp only [List.map_map, Function.comp_def] at this
    simp only [parseStmt, this]
  · intro hne
    rw [hne]
    rfl

theorem copyTable_reads (hk : CoversDdl kw res) {old new : ATable} (ho : IsName old.name)
    (hn : IsName new.name) (hc : ∀ c ∈ new.columns, IsName c.name) :
    Reads res true (SqliteDdl.copyTable kw old new)
      [.insertSelect new.name (new.columns.map (·.name)) old.name] := by
  obtain ⟨K, h1, h2, h3, h4, h5⟩ := copyTable_stmt (res := res) hk ho hn hc
  refine reads_stmt h1 h2 h3 ?_
  by_cases hne : new.columns = []
  · exact .inr (h5 hne)
  · exact .inl (h4 hne)

theorem addColumn_reads (hk : CoversDdl kw res) (hf : TypesFree res) {env : SqliteEnv}
    {p : LitPrinters} {t : String} {c : AColumn} {v : SqlVal} {st : SqliteType} (ht : IsName t)
    (hc : PlainColumn c) (hv : columnDefault c = .ok v) (hl : LiteralReads env p st v) :
    ∃ s, SqliteDdl.addColumn kw p t c = .ok s ∧ s ≠ [] ∧ Scripted res true s
      [.addColumn t { colDefOf c with cons := conList c ++ [.default (litOf p v)] }] := by
  obtain ⟨ds, d1, d2⟩ := defineColumn_ok hk hf hc
  obtain ⟨ls, l1, K, k1, k2, k3, k4⟩ := sqlLiteral_ok (res := res) hl
  simp only [SqliteDdl.addColumn, hv, Gen.bind, d1, l1]
  have h1 : Opens res (lit " ADD COLUMN ") [.kw "ADD", .kw "COLUMN"] := fun _ => rfl
  have h2 : Opens res (lit " DEFAULT ") [.kw "DEFAULT"] := fun _ => rfl
  refine ⟨_, rfl, (fun e => by cases e), ?_⟩
  have hlex := opens_alter.trans ((lex_quoteName hk ht).opens (by exact brkA rfl)
    (h1.trans (d2.opens (by exact brkA rfl) (h2.trans (k1.opens (by exact brkB rfl)
      opens_semi)))))
  refine scripted_stmt (K := .kw "ALTER" :: .kw "TABLE" :: .ident t :: .kw "ADD" ::
    .kw "COLUMN" :: (colToks (colDefOf c) ++ .kw "DEFAULT" :: K)) (by simp) ?_ ?_ ?_
  · have := semi_colToks (colDefOf c)
    simp [this, k2]
  · simp only [List.append_assoc]
    simpa only [List.append_assoc, List.cons_append, List.nil_append] using hlex
  · have := pColDef_default (c := colDefOf c) (conList_no_default c) k4
    simp only [parseStmt, pAlter, this]
    rfl

/-! ### Operations -/

/-- What an operation needs so that butane can describe it to SQLite. -/
def PlainOp (env : SqliteEnv) (p : LitPrinters) : Operation → Prop
  | .addTable t => PlainTable t
  | .addTableIfNotExists t => PlainTable t
  | .addTableConstraints _ => True
  | .removeTableConstraints _ => True
  | .removeTable n => IsName n
  | .addColumn t c => IsName t ∧ PlainColumn c ∧ AddableColumn env p c
  | .removeColumn t n => IsName t ∧ IsName n
  | .changeColumn t _ new => IsName t ∧ PlainColumn new

theorem tmpName_name {n : String} (h : IsName n) : IsName (SqliteDdl.tmpName n) := by
  obtain ⟨c, cs, h1, h2, h3⟩ := h
  refine ⟨c, cs ++ "__butane_tmp".toList, ?_, h2, ?_⟩
  · simp only [SqliteDdl.tmpName, String.toList_append, h1, List.cons_append]
  · rw [List.all_append, h3]; rfl

theorem newValue_iff {c : AColumn} {v : SqlVal} (ht : ∃ st, StoredAs c st) :
    NewValue c v ↔ columnDefault c = .ok v := by
  obtain ⟨st, ty, h1, h2⟩ := ht
  constructor
  · intro h
    clear h1 h2
    cases h <;> simp_all only [columnDefault, typeDefault, Bool.false_eq_true, ↓reduceIte]
  · intro h
    simp only [columnDefault] at h
    cases hd : c.default with
    | some w => simp only [hd, Gen.ok.injEq] at h; subst h; exact .default hd
    | none =>
      simp only [hd] at h
      cases hn : c.nullable with
      | true => simp only [hn, ↓reduceIte, Gen.ok.injEq] at h; subst h; exact .null hd hn
      | false =>
        simp only [hn, Bool.false_eq_true, ↓reduceIte, h1] at h
        cases ty <;> simp only [typeDefault, Gen.ok.injEq, reduceCtorEq] at h <;> subst h
        · exact .bool hd hn h1
        · exact .int hd hn h1
        · exact .bigInt hd hn h1
        · exact .real hd hn h1
        · exact .text hd hn h1
        · exact .blob hd hn h1
        · exact .json hd hn h1
        · exact .date hd hn h1
        · exact .timestamp hd hn h1

theorem changeText_reads (hk : CoversDdl kw res) (hf : TypesFree res) {old changed : ATable}
    (ho : IsName old.name) (hc : ∀ c ∈ changed.columns, PlainColumn c) {create : Text}
    (hcr : SqliteDdl.createTable kw { changed with name := SqliteDdl.tmpName old.name } false =
      .ok create) :
    Reads res true (joinText (lit "\n") [create,
      SqliteDdl.copyTable kw old { changed with name := SqliteDdl.tmpName old.name },
      SqliteDdl.dropTable kw old.name,
      lit "ALTER TABLE " ++ quoteName kw (SqliteDdl.tmpName old.name) ++ lit " RENAME TO " ++
        quoteName kw old.name ++ lit ";"]) (changeOf old changed) := by
  have htmp := tmpName_name ho
  obtain ⟨s, h1, -, h2⟩ := createTable_reads (t := { changed with name := SqliteDdl.tmpName old.name })
    hk hf htmp hc false
  rw [hcr] at h1
  cases h1
  have hcopy := copyTable_reads (new := { changed with name := SqliteDdl.tmpName old.name })
    hk ho htmp (fun c h => (hc c h).name)
  exact reads_join (res := res) (.cons h2 (.cons hcopy
    (.cons (.inl (dropTable_reads hk ho)) (.cons (.inl (renameTable_reads hk htmp ho)) .nil))))

theorem columnsPlain_replace {t : ATable} (h : ∀ c ∈ t.columns, PlainColumn c) {c : AColumn}
    (hc : PlainColumn c) : ∀ x ∈ (t.replaceColumn c).columns, PlainColumn x := by
  intro x hx
  rcases names_replaceCol_mem hx with rfl | hx
  · exact hc
  · exact h x hx

theorem columnsPlain_remove {t : ATable} (h : ∀ c ∈ t.columns, PlainColumn c) (n : String) :
    ∀ x ∈ (t.removeColumn n).columns, PlainColumn x :=
  fun x hx => h x (List.mem_filter.1 hx).1

theorem plain_transform {env : SqliteEnv} {p : LitPrinters} {cur : ADB} (hv : cur.tables.Sorted)
    (hp : PlainSchema cur) {op : Operation} (hop : PlainOp env p op) :
    PlainSchema (cur.transformWith op) := by
  intro n t ht
  simp only [ADB.getTable] at ht
  cases op with
  | addTable a =>
    simp only [ADB.transformWith, SMap.lookup_insert] at ht
    split at ht
    · cases ht; exact hop
    · exact hp n t ht
  | addTableIfNotExists a =>
    simp only [ADB.transformWith, SMap.lookup_insert] at ht
    split at ht
    · cases ht; exact hop
    · exact hp n t ht
  | addTableConstraints a => exact hp n t ht
  | removeTableConstraints a => exact hp n t ht
  | removeTable a =>
    simp only [ADB.transformWith, ADB.removeTable, SMap.lookup_erase hv] at ht
    split at ht
    · cases ht
    · exact hp n t ht
  | addColumn a c =>
    simp only [ADB.transformWith, SMap.lookup_modify] at ht
    split at ht
    · obtain ⟨u, hu, rfl⟩ := Option.map_eq_some_iff.1 ht
      have := hp _ u hu
      exact ⟨this.name, columnsPlain_replace this.columns hop.2.1⟩
    · exact hp n t ht
  | removeColumn a c =>
    simp only [ADB.transformWith, SMap.lookup_modify] at ht
    split at ht
    · obtain ⟨u, hu, rfl⟩ := Option.map_eq_some_iff.1 ht
      have := hp _ u hu
      exact ⟨this.name, columnsPlain_remove this.columns c⟩
    · exact hp n t ht
  | changeColumn a o c =>
    simp only [ADB.transformWith, SMap.lookup_modify] at ht
    split at ht
    · obtain ⟨u, hu, rfl⟩ := Option.map_eq_some_iff.1 ht
      have := hp _ u hu
      exact ⟨this.name, columnsPlain_replace this.columns hop.2⟩
    · exact hp n t ht

theorem replaceCol_twice (cols : List AColumn) (c : AColumn) :
    replaceCol (replaceCol cols c) c = replaceCol cols c := by
  induction cols with
  | nil => simp [replaceCol]
  | cons x cols ih =>
    simp only [replaceCol]
    by_cases h : (x.name == c.name) = true
    · simp [h, replaceCol]
    · simp only [h, replaceCol, ih, Bool.false_eq_true, ↓reduceIte]

theorem replace_then {cur : ADB} (hs : cur.tables.Sorted) {n : String} {t u : ATable}
    (ht : cur.getTable n = some t) (hu : u.name = n) (f : ATable → ATable) (hf : f t = u)
    (hff : f u = u) :
    ({ (cur.replaceTable u) with tables := (cur.replaceTable u).tables.modify n f } : ADB) =
      { cur with tables := cur.tables.modify n f } := by
  simp only [ADB.replaceTable, ADB.mk.injEq, and_true, hu]
  refine SMap.ext (SMap.sorted_modify (SMap.sorted_insert hs _ _) _ _) (SMap.sorted_modify hs _ _) ?_
  intro k
  simp only [SMap.lookup_modify, SMap.lookup_insert]
  by_cases h : k = n
  · subst h
    simp only [ADB.getTable] at ht
    simp [ht, hf, hff]
  · simp [h]

/-- The schema used for the next operation is the transformed one. -/
theorem opTexts_step {p : LitPrinters} {cur : ADB} (hv : ValidSchema cur) {op : Operation} {t : Text}
    {cur' : ADB} (h : SqliteDdl.sqlForOp kw p cur op = .ok (t, cur')) :
    cur'.transformWith op = cur.transformWith op := by
  have hchange : ∀ (tbl : String) (c : AColumn) (new : Option AColumn) (f : ATable → ATable),
      (∀ x, f x = SqliteDdl.changedTable x c new) → (∀ x, f (f x) = f x) →
      SqliteDdl.changeColumn kw cur tbl c new = .ok (t, cur') →
      ({ cur' with tables := cur'.tables.modify tbl f } : ADB) =
        { cur with tables := cur.tables.modify tbl f } := by
    intro tbl c new f hf hff h
    simp only [SqliteDdl.changeColumn] at h
    cases ht : cur.getTable tbl with
    | none => simp only [ht, Gen.ok.injEq, Prod.mk.injEq] at h; obtain ⟨-, rfl⟩ := h; rfl
    | some u =>
      simp only [ht] at h
      obtain ⟨s, -, h⟩ := bind_ok h
      simp only [Gen.ok.injEq, Prod.mk.injEq] at h
      obtain ⟨-, rfl⟩ := h
      refine replace_then hv.sorted ht ?_ f (hf u) ?_
      · have := name_of_getTable hv ht
        cases new <;> simpa [SqliteDdl.changedTable, ATable.replaceColumn, ATable.removeColumn]
      · rw [← hf u, hff]
  have hkeep : ∀ {x : Gen Text}, (x.bind fun s => .ok (s, cur)) = .ok (t, cur') → cur' = cur := by
    intro x h
    obtain ⟨s, -, h⟩ := bind_ok h
    simp only [Gen.ok.injEq, Prod.mk.injEq] at h
    exact h.2.symm
  cases op with
  | addTable a => rw [hkeep h]
  | addTableIfNotExists a => rw [hkeep h]
  | addTableConstraints a => cases h; rfl
  | removeTableConstraints a => cases h; rfl
  | removeTable a => cases h; rfl
  | addColumn a c => rw [hkeep h]
  | removeColumn a c =>
    simp only [SqliteDdl.sqlForOp, SqliteDdl.removeColumn] at h
    cases ht : cur.getTable a with
    | none => simp [ht] at h
    | some u =>
      simp only [ht] at h
      cases hc : u.column c with
      | none => simp [hc] at h
      | some x =>
        simp only [hc] at h
        have hx : x.name = c := (colByName_some hc).2
        split at h
        · refine hchange a x none _ ?_ ?_ h
          · intro y; simp only [SqliteDdl.changedTable, hx]
          · intro y; simp [ATable.removeColumn, List.filter_filter]
        · cases h; rfl
  | changeColumn a o c =>
    refine hchange a o (some c) _ ?_ ?_ h
    · intro y; rfl
    · intro y; simp only [ATable.replaceColumn, replaceCol_twice]

theorem sqlForOp_reads (hk : CoversDdl kw res) (hf : TypesFree res) {env : SqliteEnv}
    {p : LitPrinters} {cur : ADB} (hv : ValidSchema cur) (hp : PlainSchema cur) {op : Operation}
    (hop : PlainOp env p op) {t : Text} {cur' : ADB}
    (h : SqliteDdl.sqlForOp kw p cur op = .ok (t, cur')) :
    Reads res true t (stmtsOf p cur op) := by
  have hcreate : ∀ {a : ATable} {b : Bool}, PlainTable a →
      ((SqliteDdl.createTable kw a b).bind fun s => .ok (s, cur)) = .ok (t, cur') →
      Reads res true t [createOf b a] := by
    intro a b ha h
    obtain ⟨s, h1, h⟩ := bind_ok h
    simp only [Gen.ok.injEq, Prod.mk.injEq] at h
    obtain ⟨rfl, -⟩ := h
    obtain ⟨s', g1, -, g2⟩ := createTable_reads hk hf ha.name ha.columns b
    rw [h1] at g1
    cases g1
    exact g2
  have hchange : ∀ (tbl : String) (c : AColumn) (new : Option AColumn) (u : ATable),
      cur.getTable tbl = some u →
      (∀ x ∈ (SqliteDdl.changedTable u c new).columns, PlainColumn x) →
      SqliteDdl.changeColumn kw cur tbl c new = .ok (t, cur') →
      Reads res true t (changeOf u (SqliteDdl.changedTable u c new)) := by
    intro tbl c new u hu hpl h
    have hname := name_of_getTable hv hu
    simp only [SqliteDdl.changeColumn, hu] at h
    obtain ⟨s, h1, h⟩ := bind_ok h
    simp only [Gen.ok.injEq, Prod.mk.injEq] at h
    obtain ⟨rfl, -⟩ := h
    have := changeText_reads hk hf (hp _ u hu).name hpl h1
    simpa only [hname] using this
  cases op with
  | addTable a => exact hcreate hop h
  | addTableIfNotExists a => exact hcreate hop h
  | addTableConstraints a => cases h; exact .inl scripted_nil
  | removeTableConstraints a => cases h; exact .inl scripted_nil
  | removeTable a => cases h; exact .inl (dropTable_reads hk hop)
  | addColumn a c =>
    simp only [SqliteDdl.sqlForOp] at h
    obtain ⟨s, h1, h⟩ := bind_ok h
    simp only [Gen.ok.injEq, Prod.mk.injEq] at h
    obtain ⟨rfl, -⟩ := h
    obtain ⟨st, hst⟩ := hop.2.1.type
    have h1' := h1
    simp only [SqliteDdl.addColumn] at h1'
    obtain ⟨v, hv', -⟩ := bind_ok h1'
    have hl := hop.2.2.value v st ((newValue_iff ⟨st, hst⟩).2 hv') hst
    obtain ⟨s', g1, -, g2⟩ := addColumn_reads (res := res) hk hf hop.1 hop.2.1 hv' hl
    rw [h1] at g1
    cases g1
    simp only [stmtsOf, hv']
    exact .inl g2
  | removeColumn a c =>
    simp only [SqliteDdl.sqlForOp, SqliteDdl.removeColumn] at h
    simp only [stmtsOf]
    cases ht : cur.getTable a with
    | none => simp [ht] at h
    | some u =>
      simp only [ht] at h
      cases hc : u.column c with
      | none => simp [hc] at h
      | some x =>
        simp only [hc] at h ⊢
        have hx : x.name = c := (colByName_some hc).2
        split at h
        · next hr =>
          rw [if_pos hr]
          have := hchange a x none u ht
            (columnsPlain_remove (hp _ u ht).columns _) h
          simpa only [SqliteDdl.changedTable, hx] using this
        · next hr =>
          rw [if_neg hr]
          cases h
          exact .inl (dropColumn_reads hk hop.1 hop.2)
  | changeColumn a o c =>
    simp only [SqliteDdl.sqlForOp] at h
    simp only [stmtsOf]
    cases ht : cur.getTable a with
    | none =>
      simp only [SqliteDdl.changeColumn, ht, Gen.ok.injEq, Prod.mk.injEq] at h
      obtain ⟨rfl, -⟩ := h
      exact .inl scripted_nil
    | some u =>
      exact hchange a o (some c) u ht (columnsPlain_replace (hp _ u ht).columns hop.2) h

/-! ### Migrations -/

/-- The statements of a list of operations. -/
def allStmts (p : LitPrinters) : ADB → List Operation → List DStmt
  | _, [] => []
  | cur, op :: ops => stmtsOf p cur op ++ allStmts p (cur.transformWith op) ops

/-- The operation leaves column names distinct. -/
theorem opTexts_reads (hk : CoversDdl kw res) (hf : TypesFree res) {env : SqliteEnv}
    {p : LitPrinters} {ops : List Operation} (hops : ∀ op ∈ ops, PlainOp env p op)
    (hok : ∀ op ∈ ops, opOk op) {cur : ADB}
    (hv : ValidSchema cur) (hp : PlainSchema cur) {ts : List Text}
    (h : SqliteDdl.opTexts kw p cur ops = .ok ts) :
    ∃ sss, AllMatch (Reads res true) ts sss ∧ sss.flatten = allStmts p cur ops := by
  induction ops generalizing cur ts with
  | nil => cases h; exact ⟨[], .nil, rfl⟩
  | cons op ops ih =>
    simp only [SqliteDdl.opTexts] at h
    obtain ⟨⟨t, cur'⟩, h1, h⟩ := bind_ok h
    obtain ⟨ts', h2, h⟩ := bind_ok h
    cases h
    have hop := hops op (List.mem_cons_self ..)
    rw [opTexts_step hv h1] at h2
    obtain ⟨sss, g1, g2⟩ := ih (fun o ho => hops o (List.mem_cons_of_mem _ ho))
      (fun o ho => hok o (List.mem_cons_of_mem _ ho))
      (valid_transformWith hv op (hok op (List.mem_cons_self ..)))
      (plain_transform hv.sorted hp hop) h2
    exact ⟨_ :: sss, .cons (sqlForOp_reads hk hf hv hp hop h1) g1, by
      simp only [List.flatten_cons, g2, allStmts]⟩

theorem scripted_empty {ss : List DStmt} (h : Reads res sq [] ss) : ss = [] := by
  rcases h with ⟨K, o, p⟩ | ⟨K, o, f⟩
  · have e := o []
    simp only [List.append_nil, lexFrom, pending] at e
    subst e
    have := p []
    simpa [splitSemi, parseAll] using this.symm
  · have e := o []
    simp only [List.append_nil, lexFrom, pending] at e
    subst e
    have := f []
    simp [splitSemi, parseAll] at this

theorem reads_filter {ts : List Text} {sss : List (List DStmt)}
    (h : AllMatch (Reads res sq) ts sss) :
    ∃ sss', AllMatch (Reads res sq) (ts.filter fun t => !t.isEmpty) sss' ∧
      sss'.flatten = sss.flatten := by
  induction h with
  | nil => exact ⟨[], .nil, rfl⟩
  | @cons t ss ts sss h1 h2 ih =>
    obtain ⟨sss', g1, g2⟩ := ih
    cases t with
    | nil =>
      have := scripted_empty h1
      subst this
      exact ⟨sss', g1, by simpa using g2⟩
    | cons c t => exact ⟨ss :: sss', .cons h1 g1, by simp [g2]⟩

/-- The script of a migration reads as the statements of its operations, or not at all. -/
theorem migrationSql_parse (hk : CoversDdl kw res) (hf : TypesFree res) {env : SqliteEnv}
    {p : LitPrinters} {ops : List Operation} (hops : ∀ op ∈ ops, PlainOp env p op)
    (hok : ∀ op ∈ ops, opOk op) {cur : ADB}
    (hv : ValidSchema cur) (hp : PlainSchema cur) {text : Text}
    (h : SqliteDdl.migrationSql kw p cur ops = .ok text) :
    Ddl.parse true res text = some (allStmts p cur ops) ∨ Ddl.parse true res text = none := by
  simp only [SqliteDdl.migrationSql] at h
  obtain ⟨ts, h1, h⟩ := bind_ok h
  cases h
  obtain ⟨sss, g1, g2⟩ := opTexts_reads hk hf hops hok hv hp h1
  obtain ⟨sss', f1, f2⟩ := reads_filter g1
  have := (reads_join f1).append (.inl scripted_newline : Reads res true (lit "\n") [])
  rw [List.append_nil, f2, g2] at this
  exact this.parse

end Butane.DdlP
