/-
The script of a migration on Turso reads as that on SQLite, without STRICT.
-/
import Verif.Proofs.TursoSplit
import Verif.Proofs.DdlSqlite
import Verif.Proofs.DdlRun

namespace Butane.DdlP
open Butane.Ddl Spec
open Butane.Sql (isWordChar isWordStart isDigit upper)

variable {res : String → Bool} {kw : String → Bool}

/-- The statement without STRICT. -/
def unstrict : DStmt → DStmt
  | .createTable i n cs fs _ => .createTable i n cs fs false
  | s => s

/-! ### Reading -/

/-- The text cannot be read, but all its tokens can. -/
def Refused (res : String → Bool) (t : Text) : Prop :=
  ∃ K, Opens res t K ∧ Tok.bad ∉ K ∧ ∀ R, parseAll true (splitSemi (K ++ R)) = none

/-- Both texts can be read, as the same statements but for STRICT, or neither. -/
def Twin (res : String → Bool) (t t' : Text) : Prop :=
  (∃ ss, Scripted res true t ss ∧ Scripted res true t' (ss.map unstrict)) ∨
    (Fails res true t ∧ Refused res t')

theorem scripted_bad {K : List Tok} {ss : List DStmt}
    (h : ∀ R, parseAll true (splitSemi (K ++ R)) = (parseAll true (splitSemi R)).map (ss ++ ·)) :
    Tok.bad ∉ K := by
  intro hb
  have := h []
  rw [List.append_nil] at this
  have hs : parseAll true (splitSemi K) = some ss := by
    rw [this]
    simp [splitSemi, parseAll]
  obtain ⟨L, h1, h2⟩ := splitSemi_mem hb (by simp)
  exact parseAll_bad hs L h1 h2

theorem Twin.append {t1 t1' t2 t2' : Text} (h1 : Twin res t1 t1') (h2 : Twin res t2 t2') :
    Twin res (t1 ++ t2) (t1' ++ t2') := by
  rcases h1 with ⟨s1, a1, b1⟩ | ⟨⟨K1, o1, f1⟩, ⟨L1, p1, n1, g1⟩⟩
  · rcases h2 with ⟨s2, a2, b2⟩ | ⟨⟨K2, o2, f2⟩, ⟨L2, p2, n2, g2⟩⟩
    · exact .inl ⟨s1 ++ s2, a1.append a2, by rw [List.map_append]; exact b1.append b2⟩
    · obtain ⟨K1, o1, e1⟩ := a1
      obtain ⟨L1, p1, g1⟩ := b1
      refine .inr ⟨⟨_, o1.trans o2, fun R => ?_⟩, ⟨_, p1.trans p2, ?_, fun R => ?_⟩⟩
      · rw [List.append_assoc, e1, f2]; rfl
      · simp only [List.mem_append, not_or]
        exact ⟨scripted_bad g1, n2⟩
      · rw [List.append_assoc, g1, g2]; rfl
  · have hK : ∃ K, Opens res t2 K := by
      rcases h2 with ⟨s2, ⟨K, o, -⟩, -⟩ | ⟨⟨K, o, -⟩, -⟩ <;> exact ⟨K, o⟩
    have hL : ∃ L, Opens res t2' L ∧ Tok.bad ∉ L := by
      rcases h2 with ⟨s2, -, ⟨K, o, e⟩⟩ | ⟨-, ⟨K, o, n, -⟩⟩
      · exact ⟨K, o, scripted_bad e⟩
      · exact ⟨K, o, n⟩
    obtain ⟨K2, o2⟩ := hK
    obtain ⟨L2, p2, n2⟩ := hL
    refine .inr ⟨⟨_, o1.trans o2, fun R => ?_⟩, ⟨_, p1.trans p2, ?_, fun R => ?_⟩⟩
    · rw [List.append_assoc, f1]
    · simp only [List.mem_append, not_or]
      exact ⟨n1, n2⟩
    · rw [List.append_assoc, g1]

theorem twin_same {t : Text} {s : DStmt} (h : Scripted res true t [s]) (hs : unstrict s = s) :
    Twin res t t := .inl ⟨[s], h, by simpa [hs] using h⟩

theorem twin_nil : Twin res [] [] := .inl ⟨[], scripted_nil, scripted_nil⟩
theorem twin_newline : Twin res (lit "\n") (lit "\n") :=
  .inl ⟨[], scripted_newline, scripted_newline⟩

theorem twin_join {ts ts' : List Text} (h : AllMatch (Twin res) ts ts') :
    Twin res (joinText (lit "\n") ts) (joinText (lit "\n") ts') := by
  induction h with
  | nil => exact twin_nil
  | cons h1 h2 ih =>
    cases h2 with
    | nil => exact h1
    | cons h3 h4 =>
      simp only [joinText, List.append_assoc] at ih ⊢
      exact h1.append (twin_newline.append ih)

/-- What the two texts are read as. -/
theorem Twin.parse {t t' : Text} (h : Twin res t t') :
    Ddl.parse true res t' = (Ddl.parse true res t).map (List.map unstrict) ∧
      Tok.bad ∉ lex res t' := by
  rcases h with ⟨ss, h1, h2⟩ | ⟨⟨K, o, f⟩, ⟨L, p, n, g⟩⟩
  · refine ⟨by rw [h1.parse, h2.parse]; rfl, parse_readable h2.parse⟩
  · have e1 : lex res t = K := by
      have := o []
      rw [List.append_nil] at this
      simpa [lex, lexFrom, pending] using this
    have e2 : lex res t' = L := by
      have := p []
      rw [List.append_nil] at this
      simpa [lex, lexFrom, pending] using this
    have hf := f []
    have hg := g []
    rw [List.append_nil] at hf hg
    refine ⟨?_, by rw [e2]; exact n⟩
    unfold Ddl.parse
    rw [e1, e2, hf, hg]
    rfl

/-! ### Tables -/

theorem cons_ok (hk : CoversDdl kw res) {cols : List AColumn} (ht : ∀ c ∈ cols, PlainColumn c) :
    ∃ ts, Gen.mapM (fun (p : AColumn × ARef) => SqliteDdl.defineConstraint kw p.1 p.2)
      (cols.filterMap fun c => c.reference.map fun r => (c, r)) = .ok ts ∧
      AllMatch (LexTo res) ts ((cols.filterMap refOf).map fkToks) := by
  induction cols with
  | nil => exact ⟨[], rfl, .nil⟩
  | cons c cols ih =>
    obtain ⟨ts, h1, h2⟩ := ih fun x hx => ht x (List.mem_cons_of_mem _ hx)
    cases hr : c.reference with
    | none =>
      refine ⟨ts, ?_, ?_⟩
      · simp only [List.filterMap_cons, hr, Option.map_none]; exact h1
      · simp only [List.filterMap_cons, refOf, hr]; exact h2
    | some r =>
      obtain ⟨x, f, g1, g2, g3⟩ := defineConstraint_ok hk (ht c (List.mem_cons_self ..)) hr
      refine ⟨x :: ts, ?_, ?_⟩
      · simp only [List.filterMap_cons, hr, Option.map_some, Gen.mapM, g1, Gen.bind, h1]
      · simp only [List.filterMap_cons, g2, List.map_cons]; exact .cons g3 h2

theorem allMatch_append {α β : Type} {R : α → β → Prop} {a c : List α} {b d : List β}
    (h1 : AllMatch R a b) (h2 : AllMatch R c d) : AllMatch R (a ++ c) (b ++ d) := by
  induction h1 with
  | nil => exact h2
  | cons h _ ih => exact .cons h ih

/-- The tokens of a table definition. -/
def weakToks (ifNot : Bool) (t : ATable) : List Tok :=
  .kw "CREATE" :: .kw "TABLE" :: ((if ifNot then [.kw "IF", .kw "NOT", .kw "EXISTS"] else []) ++
    .ident t.name :: .lparen :: (joinToks [.comma] ((t.columns.map colDefOf).map colToks ++
      (refsOf t).map fkToks) ++ [.rparen]))

theorem weakTable_lex (hk : CoversDdl kw res) (hf : TypesFree res) {t : ATable}
    (hn : IsName t.name) (ht : ∀ c ∈ t.columns, PlainColumn c) (ifNot : Bool) :
    ∃ s, TursoDdl.createTable kw t ifNot = .ok s ∧ Opens res s (weakToks ifNot t ++ [.semi]) := by
  obtain ⟨ds, d1, d2⟩ := defs_ok hk hf ht
  obtain ⟨cs, c1, c2⟩ := cons_ok (res := res) hk ht
  simp only [TursoDdl.createTable, d1, Gen.bind, c1]
  refine ⟨_, rfl, ?_⟩
  have hall : AllMatch (LexTo res) (ds ++ cs) ((t.columns.map colDefOf).map colToks ++
      (refsOf t).map fkToks) := by
    refine allMatch_append ?_ c2
    simpa only [List.map_map, Function.comp_def] using d2
  have o1 : Opens res (lit "CREATE TABLE ") [.kw "CREATE", .kw "TABLE"] := fun _ => rfl
  have o2 : Opens res (if ifNot = true then lit "IF NOT EXISTS " else [])
      (if ifNot = true then [.kw "IF", .kw "NOT", .kw "EXISTS"] else []) := by
    cases ifNot
    · exact opens_nil
    · exact fun _ => rfl
  have o3 : Opens res (lit " (") [.lparen] := fun _ => rfl
  generalize (if ifNot = true then lit "IF NOT EXISTS " else []) = I at o2 ⊢
  generalize TursoDdl.byteLen _ = n
  by_cases hlen : n ≤ 120
  · rw [if_pos hlen]
    have o4 : Opens res (lit ", ") [.comma] := fun _ => rfl
    have o5 : Opens res (lit ");") [.rparen, .semi] := fun _ => rfl
    have hdefs := lexTo_join (res := res) o4 (fun _ => .inr (.inr (.inr (.inr (.inl rfl))))) hall
    have := o1.trans (o2.trans ((lex_quoteName hk hn).opens (by exact brkA rfl)
      (o3.trans (hdefs.opens (by exact brkB rfl) o5))))
    simp only [weakToks, List.append_assoc, List.cons_append, List.nil_append] at this ⊢
    exact this
  · rw [if_neg hlen]
    have o3' : Opens res (lit "\n") [] := fun _ => rfl
    have o4 : Opens res (lit ",\n") [.comma] := fun _ => rfl
    have o5 : Opens res (lit "\n);") [.rparen, .semi] := fun _ => rfl
    have o6 : Opens res (lit "    ") [] := fun _ => rfl
    have hin : AllMatch (LexTo res) ((ds ++ cs).map fun d => lit "    " ++ d)
        ((t.columns.map colDefOf).map colToks ++ (refsOf t).map fkToks) := by
      generalize ds ++ cs = xs at hall
      generalize (t.columns.map colDefOf).map colToks ++ (refsOf t).map fkToks = ys at hall
      induction hall with
      | nil => exact .nil
      | cons h _ ih => exact .cons (by simpa using o6.then h) ih
    have hdefs := lexTo_join (res := res) o4 (fun _ => .inr (.inr (.inr (.inr (.inl rfl))))) hin
    have := o1.trans (o2.trans ((lex_quoteName hk hn).opens (by exact brkA rfl)
      (o3.trans (o3'.trans (hdefs.opens (by exact brkB rfl) o5)))))
    simpa only [weakToks, List.append_assoc, List.cons_append, List.nil_append] using this

theorem pFks_commas {fs : List RefCon} (hne : fs ≠ []) (r : List Tok) :
    pFks true (joinToks [.comma] (fs.map fkToks) ++ .rparen :: r) = some (fs, r) := by
  induction fs with
  | nil => exact absurd rfl hne
  | cons f fs ih =>
    cases fs with
    | nil => rfl
    | cons g fs =>
      have := ih (by simp)
      simp only [List.map_cons, joinToks, fkToks, List.cons_append, List.nil_append] at this ⊢
      rw [pFks]
      rw [this]

/-- The references at the end of a table definition. -/
def weakFks : List RefCon → List Tok
  | [] => []
  | fs => .comma :: joinToks [.comma] (fs.map fkToks)

theorem join_append {a b : List (List Tok)} (ha : a ≠ []) :
    joinToks [.comma] (a ++ b) = joinToks [.comma] a ++
      (match b with | [] => [] | b => .comma :: joinToks [.comma] b) := by
  induction a with
  | nil => exact absurd rfl ha
  | cons x a ih =>
    cases a with
    | nil => cases b <;> simp [joinToks]
    | cons y a =>
      have := ih (by simp)
      simp only [List.cons_append, joinToks, List.append_assoc] at this ⊢
      rw [this]

theorem weakBody_ok {cs : List ColDef} (hne : cs ≠ [])
    (hc : ∀ c ∈ cs, ∀ x ∈ c.cons, ∀ l, x ≠ .default l) (fs : List RefCon) (r : List Tok) (F : Nat)
    (hF : cs.length ≤ F) :
    pBody true F (joinToks [.comma] (cs.map colToks) ++ (weakFks fs ++ .rparen :: r)) =
      some (cs, fs, r) := by
  induction cs generalizing F with
  | nil => exact absurd rfl hne
  | cons c cs ih =>
    obtain ⟨F, rfl⟩ : ∃ k, F = k + 1 := ⟨F - 1, by simp only [List.length_cons] at hF; omega⟩
    have hc0 := hc c (List.mem_cons_self ..)
    cases cs with
    | nil =>
      simp only [List.map_cons, List.map_nil, joinToks]
      cases fs with
      | nil =>
        simp only [weakFks, List.nil_append, pBody]
        rw [pColDef_ok hc0 (by exact .inr rfl)]
      | cons f fs =>
        have hfk := pFks_commas (fs := f :: fs) (by simp) r
        obtain ⟨x, hx⟩ : ∃ x, joinToks [.comma] ((f :: fs).map fkToks) = .kw "FOREIGN" :: x := by
          cases fs with
          | nil => exact ⟨_, rfl⟩
          | cons g fs =>
            simp only [List.map_cons, joinToks, fkToks, List.cons_append]
            exact ⟨_, rfl⟩
        simp only [weakFks, List.cons_append, pBody]
        rw [pColDef_ok hc0 (by exact .inl rfl)]
        rw [hx, List.cons_append] at hfk ⊢
        simp only [hfk]
    | cons d cs =>
      have := ih (by simp) (fun x hx => hc x (List.mem_cons_of_mem _ hx)) F
        (by simp only [List.length_cons] at hF ⊢; omega)
      simp only [List.map_cons, joinToks, List.append_assoc, List.nil_append,
        List.cons_append, pBody] at this ⊢
      rw [pColDef_ok hc0 (by exact .inl rfl)]
      have hnf : ∃ s r', joinToks [.comma] (colToks d :: cs.map colToks) ++
          (weakFks fs ++ .rparen :: r) = .ident s :: r' := by
        cases cs <;> exact ⟨_, _, rfl⟩
      obtain ⟨s, r', hs⟩ := hnf
      rw [hs] at this ⊢
      simp only [this]

theorem parse_weakToks {ifNot : Bool} {t : ATable} (hne : t.columns ≠ []) :
    parseStmt true (weakToks ifNot t) = some (unstrict (createOf ifNot t)) := by
  have hcs : t.columns.map colDefOf ≠ [] := by simpa using hne
  have hp : pCreate true ifNot (.ident t.name :: .lparen ::
      (joinToks [.comma] ((t.columns.map colDefOf).map colToks ++ (refsOf t).map fkToks) ++
        [.rparen])) = some (.createTable ifNot t.name (t.columns.map colDefOf) (refsOf t) false) := by
    rw [join_append (by simpa using hne)]
    have : (match (refsOf t).map fkToks with | [] => [] | b => .comma :: joinToks [.comma] b) =
        weakFks (refsOf t) := by
      cases refsOf t <;> rfl
    rw [this]
    simp only [pCreate, List.append_assoc]
    rw [weakBody_ok hcs (by
      intro c hc x hx l
      obtain ⟨a, -, rfl⟩ := List.mem_map.1 hc
      exact conList_no_default a x hx l)]
    have := joinToks_len ((t.columns.map colDefOf).map colToks) (by
      intro k hk
      obtain ⟨c, -, rfl⟩ := List.mem_map.1 hk
      simp [colToks])
    simp only [List.length_append, List.length_map] at this ⊢
    omega
  cases ifNot
  · exact hp
  · exact hp

theorem parse_weakToks_empty {ifNot : Bool} {t : ATable} (h : t.columns = []) :
    parseStmt true (weakToks ifNot t) = none := by
  have hr : refsOf t = [] := by simp [refsOf, h]
  unfold weakToks
  rw [h, hr]
  cases ifNot <;> rfl

theorem semi_weakToks (ifNot : Bool) (t : ATable) : Tok.semi ∉ weakToks ifNot t := by
  have h1 : Tok.semi ∉ joinToks [.comma] ((t.columns.map colDefOf).map colToks ++
      (refsOf t).map fkToks) := by
    refine semi_join (by simp) ?_
    intro k hk
    rcases List.mem_append.1 hk with hk | hk
    · obtain ⟨c, -, rfl⟩ := List.mem_map.1 hk
      exact semi_colToks c
    · obtain ⟨f, -, rfl⟩ := List.mem_map.1 hk
      simp [fkToks]
  cases ifNot <;> simp only [weakToks, List.mem_cons, List.mem_append, not_or, h1,
    List.not_mem_nil, reduceCtorEq, not_false_eq_true, and_self, Bool.false_eq_true, ↓reduceIte]

theorem stmt_fails {t : Text} {K : List Tok} (hne : K ≠ []) (hsemi : Tok.semi ∉ K)
    (ho : Opens res t (K ++ [.semi])) (hp : parseStmt true K = none) : Fails res true t := by
  refine ⟨_, ho, fun R => ?_⟩
  rw [List.append_assoc, List.singleton_append, splitSemi_append hsemi]
  cases K with
  | nil => exact absurd rfl hne
  | cons k K => simp only [parseAll, hp]

theorem stmt_refused {t : Text} {K : List Tok} (hne : K ≠ []) (hsemi : Tok.semi ∉ K)
    (hbad : Tok.bad ∉ K) (ho : Opens res t (K ++ [.semi])) (hp : parseStmt true K = none) :
    Refused res t := by
  obtain ⟨L, o, f⟩ := stmt_fails hne hsemi ho hp
  refine ⟨_, ho, by simpa using hbad, fun R => ?_⟩
  rw [List.append_assoc, List.singleton_append, splitSemi_append hsemi]
  cases K with
  | nil => exact absurd rfl hne
  | cons k K => simp only [parseAll, hp]

theorem table_twin (hk : CoversDdl kw res) (hf : TypesFree res) {t : ATable}
    (hn : IsName t.name) (ht : ∀ c ∈ t.columns, PlainColumn c) {ifNot : Bool} {s s' : Text}
    (h : SqliteDdl.createTable kw t ifNot = .ok s) (h' : TursoDdl.createTable kw t ifNot = .ok s') :
    Twin res s s' := by
  obtain ⟨x, h1, h2⟩ := createTable_lex (res := res) hk hf hn ht ifNot
  obtain ⟨y, g1, g2⟩ := weakTable_lex (res := res) hk hf hn ht ifNot
  rw [h] at h1
  rw [h'] at g1
  cases h1
  cases g1
  by_cases hne : t.columns = []
  · refine .inr ⟨stmt_fails (by simp [createToks]) (semi_createToks _ _) h2
      (parse_createToks_empty hne), stmt_refused (by simp [weakToks]) (semi_weakToks _ _) ?_ g2
      (parse_weakToks_empty hne)⟩
    have hr : refsOf t = [] := by simp [refsOf, hne]
    unfold weakToks
    rw [hne, hr]
    cases ifNot <;> simp [joinToks]
  · exact .inl ⟨[createOf ifNot t], scripted_stmt (by simp [createToks]) (semi_createToks _ _) h2
      (parse_createToks hne), scripted_stmt (by simp [weakToks]) (semi_weakToks _ _) g2
      (parse_weakToks hne)⟩

theorem weakCopy_stmt (hk : CoversDdl kw res) {old new : ATable} (ho : IsName old.name)
    (hn : IsName new.name) (hc : ∀ c ∈ new.columns, IsName c.name) :
    ∃ K, K ≠ [] ∧ Tok.semi ∉ K ∧ Opens res (TursoDdl.copyTable kw old new) (K ++ [.semi]) ∧
      (new.columns ≠ [] → parseStmt true K =
        some (.insertSelect new.name (new.columns.map (·.name)) old.name)) ∧
      (new.columns = [] → parseStmt true K = none ∧ Tok.bad ∉ K) := by
  have hnames : AllMatch (LexTo res) (new.columns.map fun c => quoteName kw c.name)
      (new.columns.map fun c => [.ident c.name]) :=
    allMatch_map fun c hcc => lex_quoteName hk (hc c hcc)
  refine ⟨.kw "INSERT" :: .kw "INTO" :: .ident new.name :: .kw "SELECT" ::
    (joinToks [.comma] (new.columns.map fun c => [.ident c.name]) ++
      [.kw "FROM", .ident old.name]), by simp, ?_, ?_, ?_, ?_⟩
  · have : Tok.semi ∉ joinToks [.comma] (new.columns.map fun c => [.ident c.name]) := by
      refine semi_join (by simp) ?_
      intro k hk
      obtain ⟨c, -, rfl⟩ := List.mem_map.1 hk
      simp
    simp [this]
  · have h1 : Opens res (lit "INSERT INTO ") [.kw "INSERT", .kw "INTO"] := fun _ => rfl
    unfold TursoDdl.copyTable
    simp only
    split
    · have h2 : Opens res (lit " SELECT ") [.kw "SELECT"] := fun _ => rfl
      have h3 : Opens res (lit " FROM ") [.kw "FROM"] := fun _ => rfl
      have h4 : Opens res (lit ", ") [.comma] := fun _ => rfl
      have hj := lexTo_join (res := res) h4 (fun _ => .inr (.inr (.inr (.inr (.inl rfl))))) hnames
      have := h1.trans ((lex_quoteName hk hn).opens (by exact brkA rfl) (h2.trans
        (hj.opens (by exact brkA rfl) (h3.trans ((lex_quoteName hk ho).opens (by exact brkB rfl)
          opens_semi)))))
      simp only [List.append_assoc]
      simpa only [List.append_assoc, List.cons_append, List.nil_append] using this
    · have h2 : Opens res (lit " SELECT\n    ") [.kw "SELECT"] := fun _ => rfl
      have h3 : Opens res (lit "\nFROM ") [.kw "FROM"] := fun _ => rfl
      have h4 : Opens res (lit ",\n    ") [.comma] := fun _ => rfl
      have hj := lexTo_join (res := res) h4 (fun _ => .inr (.inr (.inr (.inr (.inl rfl))))) hnames
      have := h1.trans ((lex_quoteName hk hn).opens (by exact brkA rfl) (h2.trans
        (hj.opens (by exact brkA rfl) (h3.trans ((lex_quoteName hk ho).opens (by exact brkB rfl)
          opens_semi)))))
      simp only [List.append_assoc]
      simpa only [List.append_assoc, List.cons_append, List.nil_append] using this
  · intro hne
    have := pNames_ok (ns := new.columns.map (·.name)) (by simpa using hne) (s := old.name)
    simp only [List.map_map, Function.comp_def] at this
    simp only [parseStmt, this]
  · intro hne
    rw [hne]
    exact ⟨rfl, by simp [joinToks]⟩

theorem copy_twin (hk : CoversDdl kw res) {old new : ATable} (ho : IsName old.name)
    (hn : IsName new.name) (hc : ∀ c ∈ new.columns, IsName c.name) :
    Twin res (SqliteDdl.copyTable kw old new) (TursoDdl.copyTable kw old new) := by
  obtain ⟨K, h1, h2, h3, h4, h5⟩ := copyTable_stmt (res := res) hk ho hn hc
  obtain ⟨L, g1, g2, g3, g4, g5⟩ := weakCopy_stmt (res := res) hk ho hn hc
  by_cases hne : new.columns = []
  · exact .inr ⟨stmt_fails h1 h2 h3 (h5 hne), stmt_refused g1 g2 (g5 hne).2 g3 (g5 hne).1⟩
  · exact .inl ⟨_, scripted_stmt h1 h2 h3 (h4 hne), scripted_stmt g1 g2 g3 (g4 hne)⟩

/-! ### Operations -/

/-- Both generators succeed, with the same next schema, or neither. -/
theorem table_both (t : ATable) (i : Bool) :
    (∃ s, SqliteDdl.createTable kw t i = .ok s) ↔ ∃ s, TursoDdl.createTable kw t i = .ok s := by
  simp only [SqliteDdl.createTable, SqliteDdl.tableConstraints, TursoDdl.createTable]
  cases Gen.mapM (SqliteDdl.defineColumn kw) t.columns with
  | err e => simp [Gen.bind]
  | panic => simp [Gen.bind]
  | ok ds =>
    simp only [Gen.bind]
    cases Gen.mapM (fun (p : AColumn × ARef) => SqliteDdl.defineConstraint kw p.1 p.2)
      (t.columns.filterMap fun c => c.reference.map fun r => (c, r)) <;> simp

theorem bind_both {α β γ : Type} {x : Gen α} {y : Gen β} {f : α → Gen (Text × γ)}
    {g : β → Gen (Text × γ)} (h : (∃ a, x = .ok a) ↔ ∃ b, y = .ok b) {c : γ}
    (hf : ∀ a, ∃ t, f a = .ok (t, c)) (hg : ∀ b, ∃ t, g b = .ok (t, c)) (d : γ) :
    (∃ t, x.bind f = .ok (t, d)) ↔ ∃ t, y.bind g = .ok (t, d) := by
  constructor
  · rintro ⟨t, ht⟩
    obtain ⟨a, ha, hfa⟩ := bind_ok ht
    obtain ⟨b, hb⟩ := h.1 ⟨a, ha⟩
    obtain ⟨t', ht'⟩ := hf a
    rw [ht'] at hfa
    cases hfa
    obtain ⟨u, hu⟩ := hg b
    exact ⟨u, by rw [hb]; exact hu⟩
  · rintro ⟨t, ht⟩
    obtain ⟨b, hb, hgb⟩ := bind_ok ht
    obtain ⟨a, ha⟩ := h.2 ⟨b, hb⟩
    obtain ⟨t', ht'⟩ := hg b
    rw [ht'] at hgb
    cases hgb
    obtain ⟨u, hu⟩ := hf a
    exact ⟨u, by rw [ha]; exact hu⟩

theorem change_both (cur : ADB) (t : String) (o : AColumn) (new : Option AColumn) (cur' : ADB) :
    (∃ s, SqliteDdl.changeColumn kw cur t o new = .ok (s, cur')) ↔
      ∃ s, TursoDdl.changeColumn kw cur t o new = .ok (s, cur') := by
  unfold SqliteDdl.changeColumn TursoDdl.changeColumn
  cases cur.getTable t with
  | none => exact Iff.rfl
  | some u =>
    simp only
    exact bind_both (table_both _ _) (c := _) (fun a => ⟨_, rfl⟩) (fun b => ⟨_, rfl⟩) cur'

theorem op_both (p : LitPrinters) (cur : ADB) (op : Operation) (cur' : ADB) :
    (∃ s, SqliteDdl.sqlForOp kw p cur op = .ok (s, cur')) ↔
      ∃ s, TursoDdl.sqlForOp kw p cur op = .ok (s, cur') := by
  cases op with
  | addTable t => exact bind_both (table_both _ _) (c := cur) (fun a => ⟨_, rfl⟩) (fun b => ⟨_, rfl⟩) cur'
  | addTableIfNotExists t =>
    exact bind_both (table_both _ _) (c := cur) (fun a => ⟨_, rfl⟩) (fun b => ⟨_, rfl⟩) cur'
  | addTableConstraints t => exact Iff.rfl
  | removeTableConstraints t => exact Iff.rfl
  | removeTable n => exact Iff.rfl
  | addColumn t c => exact Iff.rfl
  | removeColumn t n =>
    simp only [SqliteDdl.sqlForOp, TursoDdl.sqlForOp, SqliteDdl.removeColumn, TursoDdl.removeColumn]
    cases cur.getTable t with
    | none => simp
    | some u =>
      simp only
      cases u.column n with
      | none => simp
      | some x =>
        simp only
        split
        · exact change_both _ _ _ _ _
        · exact Iff.rfl
  | changeColumn t o c => exact change_both _ _ _ _ _

theorem op_twin (hk : CoversDdl kw res) (hf : TypesFree res) {env : SqliteEnv}
    {p : LitPrinters} {cur : ADB} (hv : ValidSchema cur) (hp : PlainSchema cur) {op : Operation}
    (hop : PlainOp env p op) {t t' : Text} {cur' : ADB}
    (h : SqliteDdl.sqlForOp kw p cur op = .ok (t, cur'))
    (h' : TursoDdl.sqlForOp kw p cur op = .ok (t', cur')) : Twin res t t' := by
  have hcreate : ∀ {a : ATable} {b : Bool}, PlainTable a →
      ((SqliteDdl.createTable kw a b).bind fun s => .ok (s, cur)) = .ok (t, cur') →
      ((TursoDdl.createTable kw a b).bind fun s => .ok (s, cur)) = .ok (t', cur') →
      Twin res t t' := by
    intro a b ha h h'
    obtain ⟨s, h1, h⟩ := bind_ok h
    obtain ⟨s', h1', h'⟩ := bind_ok h'
    cases h
    cases h'
    exact table_twin hk hf ha.name ha.columns h1 h1'
  have hchange : ∀ (tbl : String) (c : AColumn) (new : Option AColumn) (u : ATable),
      cur.getTable tbl = some u →
      (∀ x ∈ (SqliteDdl.changedTable u c new).columns, PlainColumn x) →
      SqliteDdl.changeColumn kw cur tbl c new = .ok (t, cur') →
      TursoDdl.changeColumn kw cur tbl c new = .ok (t', cur') → Twin res t t' := by
    intro tbl c new u hu hpl h h'
    have hname := name_of_getTable hv hu
    have hun := (hp _ u hu).name
    simp only [SqliteDdl.changeColumn, hu] at h
    simp only [TursoDdl.changeColumn, hu] at h'
    obtain ⟨s, h1, h⟩ := bind_ok h
    obtain ⟨s', h1', h'⟩ := bind_ok h'
    simp only [Gen.ok.injEq, Prod.mk.injEq] at h h'
    obtain ⟨rfl, -⟩ := h
    obtain ⟨rfl, -⟩ := h'
    have htmp := tmpName_name hun
    have a := table_twin (res := res) (t := { SqliteDdl.changedTable u c new with
      name := SqliteDdl.tmpName u.name }) hk hf htmp hpl h1 h1'
    have b := copy_twin (res := res) (new := { SqliteDdl.changedTable u c new with
      name := SqliteDdl.tmpName u.name }) hk hun htmp fun x hx => (hpl x hx).name
    have d := twin_same (dropTable_reads (res := res) hk hun) rfl
    have hun' : IsName tbl := by rw [← hname]; exact hun
    have e := twin_same (renameTable_reads (res := res) hk htmp hun') rfl
    exact twin_join (.cons a (.cons b (.cons d (.cons e .nil))))
  cases op with
  | addTable a => exact hcreate hop h h'
  | addTableIfNotExists a => exact hcreate hop h h'
  | addTableConstraints a => cases h; cases h'; exact twin_nil
  | removeTableConstraints a => cases h; cases h'; exact twin_nil
  | removeTable a => cases h; cases h'; exact twin_same (dropTable_reads hk hop) rfl
  | addColumn a c =>
    have e : t = t' := by
      have : TursoDdl.sqlForOp kw p cur (.addColumn a c) = .ok (t, cur') := h
      rw [this] at h'
      cases h'
      rfl
    subst e
    simp only [SqliteDdl.sqlForOp] at h
    obtain ⟨s, h1, h⟩ := bind_ok h
    cases h
    obtain ⟨st, hst⟩ := hop.2.1.type
    have h1' := h1
    simp only [SqliteDdl.addColumn] at h1'
    obtain ⟨v, hv', -⟩ := bind_ok h1'
    have hl := hop.2.2.value v st ((newValue_iff ⟨st, hst⟩).2 hv') hst
    obtain ⟨s', g1, -, g2⟩ := addColumn_reads (res := res) hk hf hop.1 hop.2.1 hv' hl
    rw [h1] at g1
    cases g1
    exact twin_same g2 rfl
  | removeColumn a c =>
    simp only [SqliteDdl.sqlForOp, SqliteDdl.removeColumn] at h
    simp only [TursoDdl.sqlForOp, TursoDdl.removeColumn] at h'
    cases ht : cur.getTable a with
    | none => simp [ht] at h
    | some u =>
      simp only [ht] at h h'
      cases hc : u.column c with
      | none => simp [hc] at h
      | some x =>
        simp only [hc] at h h'
        split at h
        · next hr =>
          rw [if_pos hr] at h'
          exact hchange a x none u ht (columnsPlain_remove (hp _ u ht).columns _) h h'
        · next hr =>
          rw [if_neg hr] at h'
          cases h
          cases h'
          exact twin_same (dropColumn_reads hk hop.1 hop.2) rfl
  | changeColumn a o c =>
    simp only [SqliteDdl.sqlForOp] at h
    simp only [TursoDdl.sqlForOp] at h'
    cases ht : cur.getTable a with
    | none =>
      simp only [SqliteDdl.changeColumn, ht, Gen.ok.injEq, Prod.mk.injEq] at h
      simp only [TursoDdl.changeColumn, ht, Gen.ok.injEq, Prod.mk.injEq] at h'
      obtain ⟨rfl, -⟩ := h
      obtain ⟨rfl, -⟩ := h'
      exact twin_nil
    | some u =>
      exact hchange a o (some c) u ht (columnsPlain_replace (hp _ u ht).columns hop.2) h h'

/-! ### Scripts -/

theorem joinText_cons_ne {sep t : Text} {ts : List Text} (h : t ≠ []) :
    joinText sep (t :: ts) ≠ [] := by
  cases ts with
  | nil => exact h
  | cons u ts => simp [joinText, h]

theorem lit_append_ne {s : String} {t : Text} (h : lit s ≠ []) : lit s ++ t ≠ [] := by simp [h]

theorem table_ne {t : ATable} {b : Bool} {s : Text} :
    (SqliteDdl.createTable kw t b = .ok s → s ≠ []) ∧
      (TursoDdl.createTable kw t b = .ok s → s ≠ []) := by
  constructor <;> intro h
  · simp only [SqliteDdl.createTable] at h
    obtain ⟨d, -, h⟩ := bind_ok h
    obtain ⟨e, -, h⟩ := bind_ok h
    cases h
    simp [lit]
  · simp only [TursoDdl.createTable] at h
    obtain ⟨d, -, h⟩ := bind_ok h
    obtain ⟨e, -, h⟩ := bind_ok h
    simp only [Gen.ok.injEq] at h
    by_cases hl : TursoDdl.byteLen (lit "CREATE TABLE " ++
        (if b = true then lit "IF NOT EXISTS " else []) ++ quoteName kw t.name ++ lit " (" ++
        joinText (lit ", ") (d ++ e) ++ lit ");") ≤ 120
    · rw [if_pos hl] at h
      subst h
      simp [lit]
    · rw [if_neg hl] at h
      subst h
      simp [lit]

theorem change_ne {cur : ADB} {t : String} {o : AColumn} {new : Option AColumn} {cur' : ADB}
    {s s' : Text} (h : SqliteDdl.changeColumn kw cur t o new = .ok (s, cur'))
    (h' : TursoDdl.changeColumn kw cur t o new = .ok (s', cur')) :
    s.isEmpty = s'.isEmpty := by
  cases hu : cur.getTable t with
  | none =>
    simp only [SqliteDdl.changeColumn, hu, Gen.ok.injEq, Prod.mk.injEq] at h
    simp only [TursoDdl.changeColumn, hu, Gen.ok.injEq, Prod.mk.injEq] at h'
    rw [← h.1, ← h'.1]
  | some u =>
    simp only [SqliteDdl.changeColumn, hu] at h
    simp only [TursoDdl.changeColumn, hu] at h'
    obtain ⟨a, h1, h⟩ := bind_ok h
    obtain ⟨a', h1', h'⟩ := bind_ok h'
    simp only [Gen.ok.injEq, Prod.mk.injEq] at h h'
    have e1 : s ≠ [] := h.1 ▸ joinText_cons_ne (table_ne.1 h1)
    have e2 : s' ≠ [] := h'.1 ▸ joinText_cons_ne (table_ne.2 h1')
    cases s with
    | nil => exact absurd rfl e1
    | cons => cases s' with
      | nil => exact absurd rfl e2
      | cons => rfl

/-- A text is empty for both or for neither. -/
theorem op_empty {p : LitPrinters} {cur : ADB} {op : Operation} {t t' : Text} {cur' : ADB}
    (h : SqliteDdl.sqlForOp kw p cur op = .ok (t, cur'))
    (h' : TursoDdl.sqlForOp kw p cur op = .ok (t', cur')) : t.isEmpty = t'.isEmpty := by
  have hcreate : ∀ {a : ATable} {b : Bool},
      ((SqliteDdl.createTable kw a b).bind fun s => .ok (s, cur)) = .ok (t, cur') →
      ((TursoDdl.createTable kw a b).bind fun s => .ok (s, cur)) = .ok (t', cur') →
      t.isEmpty = t'.isEmpty := by
    intro a b h h'
    obtain ⟨s, h1, h⟩ := bind_ok h
    obtain ⟨s', h1', h'⟩ := bind_ok h'
    cases h
    cases h'
    have e1 := table_ne.1 h1
    have e2 := table_ne.2 h1'
    cases t with
    | nil => exact absurd rfl e1
    | cons => cases t' with
      | nil => exact absurd rfl e2
      | cons => rfl
  have hsame : SqliteDdl.sqlForOp kw p cur op = TursoDdl.sqlForOp kw p cur op →
      t.isEmpty = t'.isEmpty := by
    intro e
    rw [h, h'] at e
    cases e
    rfl
  cases op with
  | addTable a => exact hcreate h h'
  | addTableIfNotExists a => exact hcreate h h'
  | addTableConstraints a => exact hsame rfl
  | removeTableConstraints a => exact hsame rfl
  | removeTable a => exact hsame rfl
  | addColumn a c => exact hsame rfl
  | removeColumn a c =>
    simp only [SqliteDdl.sqlForOp, SqliteDdl.removeColumn] at h
    simp only [TursoDdl.sqlForOp, TursoDdl.removeColumn] at h'
    cases ht : cur.getTable a with
    | none => simp [ht] at h
    | some u =>
      simp only [ht] at h h'
      cases hc : u.column c with
      | none => simp [hc] at h
      | some x =>
        simp only [hc] at h h'
        split at h
        · next hr =>
          rw [if_pos hr] at h'
          exact change_ne h h'
        · next hr =>
          rw [if_neg hr] at h'
          cases h
          cases h'
          rfl
  | changeColumn a o c => exact change_ne h h'

theorem opTexts_twin (hk : CoversDdl kw res) (hf : TypesFree res) {env : SqliteEnv}
    {p : LitPrinters} {ops : List Operation} (hops : ∀ op ∈ ops, PlainOp env p op)
    (hok : ∀ op ∈ ops, opOk op) {cur : ADB} (hv : ValidSchema cur) (hp : PlainSchema cur) :
    (∃ ts ts', SqliteDdl.opTexts kw p cur ops = .ok ts ∧ TursoDdl.opTexts kw p cur ops = .ok ts' ∧
      AllMatch (fun t t' => t.isEmpty = t'.isEmpty ∧ Twin res t t') ts ts') ∨
    ((∀ ts, SqliteDdl.opTexts kw p cur ops ≠ .ok ts) ∧
      ∀ ts, TursoDdl.opTexts kw p cur ops ≠ .ok ts) := by
  induction ops generalizing cur with
  | nil => exact .inl ⟨[], [], rfl, rfl, .nil⟩
  | cons op ops ih =>
    have hop := hops op (List.mem_cons_self ..)
    by_cases hx : ∃ t cur', SqliteDdl.sqlForOp kw p cur op = .ok (t, cur')
    · obtain ⟨t, cur', h1⟩ := hx
      obtain ⟨t', h1'⟩ := (op_both p cur op cur').1 ⟨t, h1⟩
      have hstep := opTexts_step hv h1
      have := ih (cur := cur.transformWith op) (fun o ho => hops o (List.mem_cons_of_mem _ ho))
        (fun o ho => hok o (List.mem_cons_of_mem _ ho))
        (valid_transformWith hv op (hok op (List.mem_cons_self ..)))
        (plain_transform hv.sorted hp hop)
      simp only [SqliteDdl.opTexts, TursoDdl.opTexts, h1, h1', Gen.bind, hstep]
      rcases this with ⟨ts, ts', g1, g2, g3⟩ | ⟨g1, g2⟩
      · refine .inl ⟨t :: ts, t' :: ts', by rw [g1], by rw [g2],
          .cons ⟨op_empty h1 h1', op_twin hk hf hv hp hop h1 h1'⟩ g3⟩
      · refine .inr ⟨fun x hx => ?_, fun x hx => ?_⟩
        · split at hx
          · next e => exact g1 _ e
          · cases hx
          · cases hx
        · split at hx
          · next e => exact g2 _ e
          · cases hx
          · cases hx
    · refine .inr ⟨fun ts h => ?_, fun ts h => ?_⟩
      · simp only [SqliteDdl.opTexts] at h
        obtain ⟨⟨t, cur'⟩, h1, -⟩ := bind_ok h
        exact hx ⟨t, cur', h1⟩
      · simp only [TursoDdl.opTexts] at h
        obtain ⟨⟨t, cur'⟩, h1, -⟩ := bind_ok h
        obtain ⟨t', h1'⟩ := (op_both p cur op cur').2 ⟨t, h1⟩
        exact hx ⟨t', cur', h1'⟩

theorem twin_filter {ts ts' : List Text}
    (h : AllMatch (fun t t' => t.isEmpty = t'.isEmpty ∧ Twin res t t') ts ts') :
    AllMatch (Twin res) (ts.filter fun t => !t.isEmpty) (ts'.filter fun t => !t.isEmpty) := by
  induction h with
  | nil => exact .nil
  | @cons t t' ts ts' h1 _ ih =>
    simp only [List.filter_cons, h1.1]
    cases t'.isEmpty
    · exact .cons h1.2 ih
    · exact ih

/-- The script of a migration on Turso exists if that on SQLite does, and reads as that on SQLite,
without STRICT. -/
theorem migrationSql_twin (hk : CoversDdl kw res) (hf : TypesFree res) {env : SqliteEnv}
    {p : LitPrinters} {ops : List Operation} (hops : ∀ op ∈ ops, PlainOp env p op)
    (hok : ∀ op ∈ ops, opOk op) {cur : ADB} (hv : ValidSchema cur) (hp : PlainSchema cur) :
    (∃ t t', SqliteDdl.migrationSql kw p cur ops = .ok t ∧ TursoDdl.migrationSql kw p cur ops = .ok t' ∧
      Twin res t t') ∨
    ((∀ t, SqliteDdl.migrationSql kw p cur ops ≠ .ok t) ∧
      ∀ t, TursoDdl.migrationSql kw p cur ops ≠ .ok t) := by
  rcases opTexts_twin (res := res) hk hf hops hok hv hp with ⟨ts, ts', g1, g2, g3⟩ | ⟨g1, g2⟩
  · refine .inl ⟨_, _, by simp only [SqliteDdl.migrationSql, g1, Gen.bind],
      by simp only [TursoDdl.migrationSql, g2, Gen.bind],
      (twin_join (twin_filter g3)).append twin_newline⟩
  · refine .inr ⟨fun t h => ?_, fun t h => ?_⟩
    · simp only [SqliteDdl.migrationSql] at h
      obtain ⟨ts, h1, -⟩ := bind_ok h
      exact g1 _ h1
    · simp only [TursoDdl.migrationSql] at h
      obtain ⟨ts, h1, -⟩ := bind_ok h
      exact g2 _ h1

/-! ### Executing -/

/-- Every CREATE TABLE is STRICT. -/
def AllStrict (ss : List DStmt) : Prop :=
  ∀ s ∈ ss, ∀ i n cs fs b, s = .createTable i n cs fs b → b = true

/-- A table that is not STRICT is not created by `exec`. -/
theorem tursoExec_strict {e : TursoEnv} {db : SDb} {s : DStmt}
    (hs : ∀ i n cs fs b, s = .createTable i n cs fs b → b = true) :
    tursoExec e db (unstrict s) = exec e.store db s ∨
      (e.renames = false ∧ tursoExec e db (unstrict s) = none ∧ ∃ a b, s = .renameTable a b) := by
  cases s with
  | createTable i n cs fs b => cases hs i n cs fs b rfl; exact .inl rfl
  | renameTable a b =>
    cases hr : e.renames
    · exact .inr ⟨rfl, by simp [unstrict, tursoExec, hr], a, b, rfl⟩
    · exact .inl (by simp [unstrict, tursoExec, hr])
  | _ => exact .inl rfl

theorem tursoAll_some {e : TursoEnv} {ss : List DStmt} (hs : AllStrict ss) {db db' : SDb}
    (h : tursoAll e db (ss.map unstrict) = some db') : execAll e.store db ss = some db' := by
  induction ss generalizing db with
  | nil => exact h
  | cons s ss ih =>
    simp only [List.map_cons, tursoAll] at h
    simp only [execAll]
    rcases tursoExec_strict (e := e) (db := db) (hs s (List.mem_cons_self ..)) with h1 | ⟨-, h1, -⟩
    · rw [h1] at h
      cases hx : exec e.store db s with
      | none => simp [hx] at h
      | some d =>
        simp only [hx] at h ⊢
        exact ih (fun s' m => hs s' (List.mem_cons_of_mem _ m)) h
    · simp [h1] at h

theorem tursoAll_renames {e : TursoEnv} (he : e.renames = true) {ss : List DStmt}
    (hs : AllStrict ss) (db : SDb) : tursoAll e db (ss.map unstrict) = execAll e.store db ss := by
  induction ss generalizing db with
  | nil => rfl
  | cons s ss ih =>
    simp only [List.map_cons, tursoAll, execAll]
    rcases tursoExec_strict (e := e) (db := db) (hs s (List.mem_cons_self ..)) with h1 | ⟨h0, -⟩
    · rw [h1]
      cases exec e.store db s with
      | none => rfl
      | some d => exact ih (fun s' m => hs s' (List.mem_cons_of_mem _ m)) d
    · rw [he] at h0
      cases h0

end Butane.DdlP
