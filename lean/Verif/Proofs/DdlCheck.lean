import Verif.Proofs.DdlRun
/-
Decision procedures for the hypotheses about schemas and databases, for concrete examples; and
how literals are read.
-/
namespace Butane.DdlP
open Butane.Ddl Spec
open Butane.Sql (isWordChar isWordStart isDigit upper)

variable {env : SqliteEnv} {res : String → Bool}

/-! ### Schemas -/

def isNameB (s : String) : Bool :=
  match s.toList with
  | c :: cs => isWordStart c && cs.all isWordChar
  | [] => false

theorem isName_of {s : String} (h : isNameB s = true) : IsName s := by
  unfold isNameB at h
  split at h
  · next c cs e => exact ⟨c, cs, e, by simpa using h⟩
  · cases h

def plainColumnB (c : AColumn) : Bool :=
  isNameB c.name &&
  (match c.typeid with
    | some (.ty ty) => (sqliteType ty).isSome
    | _ => false) &&
  (!c.auto || c.pk) &&
  (match c.reference with
    | none => true
    | some (.literal t k) =>
      isNameB t && isNameB k && !("__butane_tmp".toList.isSuffixOf t.toList)
    | some (.deferred _) => false)

theorem plainColumn_of {c : AColumn} (h : plainColumnB c = true) : PlainColumn c := by
  simp only [plainColumnB, Bool.and_eq_true] at h
  obtain ⟨⟨⟨h1, h2⟩, h3⟩, h4⟩ := h
  refine ⟨isName_of h1, ?_, ?_, ?_⟩
  · split at h2
    · next ty e =>
      obtain ⟨st, hst⟩ := Option.isSome_iff_exists.1 h2
      exact ⟨st, ty, e, hst⟩
    · cases h2
  · intro h
    simpa [h] using h3
  · intro r hr
    rw [hr] at h4
    cases r with
    | deferred k => cases h4
    | literal t k =>
      simp only [Bool.and_eq_true, Bool.not_eq_true'] at h4
      refine ⟨t, k, rfl, isName_of h4.1.1, isName_of h4.1.2, ?_⟩
      rintro n rfl
      have h5 := h4.2
      rw [← Bool.not_eq_true, List.isSuffixOf_iff_suffix] at h5
      refine h5 ⟨n.toList, ?_⟩
      simp [replacement]

def plainSchemaB (adb : ADB) : Bool :=
  adb.tables.all fun e => isNameB e.2.name && e.2.columns.all plainColumnB

theorem plainSchema_of {adb : ADB} (h : plainSchemaB adb = true) : PlainSchema adb := by
  intro n t hn
  have hm := SMap.mem_of_lookup hn
  simp only [plainSchemaB, List.all_eq_true, Bool.and_eq_true] at h
  have := h _ hm
  exact ⟨isName_of this.1, fun c hc => plainColumn_of (this.2 c hc)⟩

def validSchemaB (adb : ADB) : Bool :=
  decide (adb.tables.Pairwise fun a b => compare a.1 b.1 = .lt) &&
  adb.tables.all fun e => decide (e.1 = e.2.name) && decide ((e.2.columns.map (·.name)).Nodup)

theorem validSchema_of {adb : ADB} (h : validSchemaB adb = true) : ValidSchema adb := by
  simp only [validSchemaB, Bool.and_eq_true, decide_eq_true_eq, List.all_eq_true] at h
  exact ⟨h.1, fun e he => (h.2 e he).1, fun e he => (h.2 e he).2⟩

/-! ### Databases -/

/-- The database that has the schema and these rows. -/
def withRows (adb : ADB) (rows : String → List (List SqliteVal)) : SDb :=
  adb.tables.map fun e => (e.1, ⟨e.2.columns.map colDefOf, refsOf e.2, rows e.1⟩)

theorem lookup_map {V W : Type} (m : SMap String V) (f : String → V → W) (n : String) :
    SMap.lookup (m.map fun e => (e.1, f e.1 e.2)) n = (SMap.lookup m n).map (f n) := by
  induction m with
  | nil => rfl
  | cons e m ih =>
    obtain ⟨k, v⟩ := e
    simp only [List.map_cons, SMap.lookup]
    split
    · next h => rw [SMap.cmp_eq_iff.1 h]; rfl
    · exact ih

theorem lookup_withRows (adb : ADB) (rows : String → List (List SqliteVal)) (n : String) :
    SMap.lookup (withRows adb rows) n = (adb.getTable n).map fun t =>
      (⟨t.columns.map colDefOf, refsOf t, rows n⟩ : STable) :=
  lookup_map adb.tables (fun n t => (⟨t.columns.map colDefOf, refsOf t, rows n⟩ : STable)) n

theorem withRows_implements {adb : ADB} (hv : ValidSchema adb) (hp : PlainSchema adb)
    (rows : String → List (List SqliteVal)) : Implements adb (withRows adb rows) := by
  intro n
  rw [lookup_withRows]
  cases h : adb.getTable n with
  | none => trivial
  | some t => exact tableIs_create (hp n t h).columns (hv.distinct _ (SMap.mem_of_lookup h)) _

def storedB (env : SqliteEnv) : List ColDef → List SqliteVal → Bool
  | [], [] => true
  | d :: ds, v :: vs =>
    (match strictType d.type with
      | some st => decide (env.coerce st v = some v)
      | none => false) && storedB env ds vs
  | _, _ => false

theorem stored_of {cols : List ColDef} {r : List SqliteVal} (h : storedB env cols r = true) :
    AllMatch (fun (d : ColDef) v => ∃ st, strictType d.type = some st ∧ env.coerce st v = some v)
      cols r := by
  induction cols generalizing r with
  | nil => cases r with
    | nil => exact .nil
    | cons v vs => cases h
  | cons d ds ih => cases r with
    | nil => cases h
    | cons v vs =>
      simp only [storedB, Bool.and_eq_true] at h
      refine .cons ?_ (ih h.2)
      have h1 := h.1
      split at h1
      · next st e => exact ⟨st, e, of_decide_eq_true h1⟩
      · cases h1

def properB (env : SqliteEnv) (adb : ADB) (rows : String → List (List SqliteVal)) : Bool :=
  adb.tables.all fun e => (rows e.1).all fun r => storedB env (e.2.columns.map colDefOf) r

theorem withRows_proper {adb : ADB} (hv : ValidSchema adb)
    {rows : String → List (List SqliteVal)} (h : properB env adb rows = true) :
    Proper.Db env (withRows adb rows) := by
  constructor
  · have := hv.sorted
    unfold SMap.Sorted withRows at *
    rw [List.pairwise_map]
    exact this
  · intro n s hs
    rw [lookup_withRows] at hs
    obtain ⟨t, ht, rfl⟩ := Option.map_eq_some_iff.1 hs
    have hm := SMap.mem_of_lookup ht
    constructor
    · show ((t.columns.map colDefOf).map (·.name)).Nodup
      rw [names_map]
      exact hv.distinct _ hm
    · intro r hr
      simp only [properB, List.all_eq_true] at h
      exact stored_of (h _ hm r hr)

/-! ### Literals -/

theorem pCons_nil {r rest : List Tok} (h : pCons r = some ([], rest)) : rest = r := by
  unfold pCons at h
  split at h <;> (try split at h) <;> first | (cases h; done) | skip
  cases h
  rfl

theorem lexTo_lex {t : Text} {K : List Tok} (h : LexTo res t K) : lex res t = K := by
  have := h [] (by simp [Break])
  simpa [lex, lexFrom, pending] using this

theorem readLiteral_of {t : Text} {l : Lit} (h : LitText res t l) : readLiteral res t = some l := by
  obtain ⟨K, h1, -, -, h2⟩ := h
  unfold readLiteral
  rw [lexTo_lex h1]
  unfold pCons at h2
  split at h2
  · next e => simp at e
  · next e => simp at e
  · next e => simp at e
  · next s r e =>
    cases e
    split at h2
    · next cs r' e2 =>
      cases h2
      cases pCons_nil e2
      rfl
    · cases h2
  · next tok r hne e =>
    cases e
    split at h2
    · next l' cs r' e1 e2 =>
      cases h2
      cases pCons_nil e2
      cases tok <;> exact e1
    · cases h2
  · cases h2

/-- Something is read from a text that ends with a quote. -/
theorem lex_ends_quote (m : Mode) (t : Text) : lexFrom res m (t ++ ['\'']) ≠ [] := by
  induction t generalizing m with
  | nil =>
    simp only [List.nil_append, lexFrom]
    have hs : start '\'' = ([], .str []) := rfl
    have hw : isWordChar '\'' = false := rfl
    have hd : isDigit '\'' = false := rfl
    cases m <;> simp [step, flush, hs, hw, hd, pending]
    split <;> simp [pending]
  | cons c t ih =>
    simp only [List.cons_append, lexFrom]
    intro h
    exact ih _ (List.append_eq_nil_iff.1 h).2

/-- A string read from a quoted text is shorter than the text if that has quotes. -/
theorem lex_str_length (n : Nat) (acc t x : Text) (hn : t.length ≤ n)
    (h : lexFrom res (.str acc) (t ++ ['\'']) = [.str x]) :
    x.length ≤ acc.length + t.length ∧ ('\'' ∈ t → x.length < acc.length + t.length) := by
  induction n generalizing acc t with
  | zero =>
    obtain rfl := List.length_eq_zero_iff.1 (Nat.le_zero.1 hn)
    simp [lexFrom, step, pending] at h
    subst h
    simp
  | succ n ih =>
  match t with
  | [] =>
    simp [lexFrom, step, pending] at h
    subst h
    simp
  | c :: t' =>
    simp only [List.cons_append, lexFrom, step] at h
    by_cases hc : c = '\''
    · subst hc
      simp only [↓reduceIte, List.nil_append] at h
      match t' with
      | [] => simp [lexFrom, step, pending] at h
      | d :: t'' =>
        simp only [List.cons_append, lexFrom, step] at h
        by_cases hd : d = '\''
        · subst hd
          simp only [↓reduceIte, List.nil_append] at h
          have := (ih _ _ (by simp at hn; omega) h).1
          simp only [List.length_cons] at *
          omega
        · simp only [hd, ↓reduceIte, flush, pending, List.cons_append, List.nil_append,
            List.cons.injEq, List.append_eq_nil_iff] at h
          exact absurd h.2.2 (lex_ends_quote _ _)
    · simp only [hc, ↓reduceIte, List.nil_append] at h
      have := ih _ _ (by simp at hn; omega) h
      simp only [List.length_cons, List.mem_cons] at *
      refine ⟨by omega, fun hm => ?_⟩
      rcases hm with hm | hm
      · exact absurd hm.symm hc
      · have := this.2 hm
        omega

end Butane.DdlP
