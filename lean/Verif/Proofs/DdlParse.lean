/-
The texts of schema statements read back as the expected statements.
-/
import Verif.Proofs.DdlLex
import Verif.Spec.Schema

namespace Butane.DdlP
open Butane.Ddl Spec
open Butane.Sql (isWordChar isWordStart isDigit upper)

variable {res : String → Bool} {kw : String → Bool} {sq : Bool}

/-- The text begins with a break. -/
def startsBreak : Text → Bool
  | [] => false
  | c :: _ => c == ' ' || c == '\n' || c == '(' || c == ')' || c == ',' || c == ';'

theorem brkB {s : Text} (h : startsBreak s = true) (r : Text) : Break (s ++ r) := by
  cases s with
  | nil => cases h
  | cons c s => simpa [startsBreak, Break, or_assoc] using h

theorem brkA {s t : Text} (h : startsBreak s = true) (r : Text) : Break (s ++ t ++ r) := by
  rw [List.append_assoc]; exact brkB h _

theorem softB {s : Text} (h : startsBreak s = true) : Soft s := fun r _ => brkB h r
theorem softA {s t : Text} (h : startsBreak s = true) : Soft (s ++ t) := fun r _ => brkA h r

/-! ### Lists with separators -/

def joinToks (sep : List Tok) : List (List Tok) → List Tok
  | [] => []
  | [t] => t
  | t :: u :: rest => t ++ sep ++ joinToks sep (u :: rest)

theorem lexTo_join {sep : Text} {ks : List Tok} (ho : Opens res sep ks) (hb : ∀ r, Break (sep ++ r))
    {ts : List Text} {kss : List (List Tok)} (h : AllMatch (LexTo res) ts kss) :
    LexTo res (joinText sep ts) (joinToks ks kss) := by
  induction h with
  | nil => exact lexTo_nil
  | cons h1 h2 ih =>
    cases h2 with
    | nil => exact h1
    | cons h3 h4 =>
      simp only [joinText, joinToks, List.append_assoc] at ih ⊢
      exact h1.append (fun r _ => by rw [List.append_assoc]; exact hb _) (ho.then ih)

theorem allMatch_map {α β γ : Type} {R : β → γ → Prop} {f : α → β} {g : α → γ} {l : List α}
    (h : ∀ a ∈ l, R (f a) (g a)) : AllMatch R (l.map f) (l.map g) := by
  induction l with
  | nil => exact .nil
  | cons a l ih =>
    exact .cons (h a (List.mem_cons_self ..)) (ih fun x hx => h x (List.mem_cons_of_mem _ hx))

theorem mapM_ok {α β : Type} {f : α → Gen β} {l : List α} {bs : List β}
    (h : Gen.mapM f l = .ok bs) : AllMatch (fun a b => f a = .ok b) l bs := by
  induction l generalizing bs with
  | nil => simp only [Gen.mapM, Gen.ok.injEq] at h; subst h; exact .nil
  | cons a l ih =>
    simp only [Gen.mapM] at h
    cases ha : f a with
    | err e => rw [ha] at h; cases h
    | panic => rw [ha] at h; cases h
    | ok b =>
      rw [ha] at h
      simp only [Gen.bind] at h
      cases hl : Gen.mapM f l with
      | err e => rw [hl] at h; cases h
      | panic => rw [hl] at h; cases h
      | ok cs => rw [hl] at h; cases h; exact .cons ha (ih hl)

theorem bind_ok {α β : Type} {x : Gen α} {f : α → Gen β} {b : β} (h : x.bind f = .ok b) :
    ∃ a, x = .ok a ∧ f a = .ok b := by
  cases x with
  | ok a => exact ⟨a, rfl, h⟩
  | err e => cases h
  | panic => cases h

/-! ### Scripts -/

/-- The text reads as these statements, whatever follows. -/
def Scripted (res : String → Bool) (sq : Bool) (t : Text) (ss : List DStmt) : Prop :=
  ∃ K, Opens res t K ∧ ∀ R, parseAll sq (splitSemi (K ++ R)) =
    (parseAll sq (splitSemi R)).map (ss ++ ·)

theorem splitSemi_ne (R : List Tok) : splitSemi R ≠ [] := by
  cases R with
  | nil => simp [splitSemi]
  | cons t r =>
    cases t <;> simp only [splitSemi] <;> first | (split <;> simp) | simp

theorem splitSemi_append {K : List Tok} (h : Tok.semi ∉ K) (R : List Tok) :
    splitSemi (K ++ .semi :: R) = K :: splitSemi R := by
  induction K with
  | nil => rfl
  | cons t K ih =>
    have hK : Tok.semi ∉ K := fun hh => h (List.mem_cons_of_mem _ hh)
    have ht : t ≠ .semi := fun e => h (e ▸ List.mem_cons_self ..)
    have := ih hK
    rw [List.cons_append]
    cases t <;> first | exact absurd rfl ht | simp only [splitSemi, this]

theorem scripted_stmt {t : Text} {K : List Tok} {s : DStmt} (hne : K ≠ []) (hsemi : Tok.semi ∉ K)
    (ho : Opens res t (K ++ [.semi])) (hp : parseStmt sq K = some s) : Scripted res sq t [s] := by
  refine ⟨_, ho, fun R => ?_⟩
  rw [List.append_assoc, List.singleton_append, splitSemi_append hsemi]
  cases K with
  | nil => exact absurd rfl hne
  | cons k K =>
    simp only [parseAll, hp]
    cases parseAll sq (splitSemi R) <;> rfl

theorem scripted_nil : Scripted res sq [] [] := ⟨[], opens_nil, fun R => by simp⟩

theorem Scripted.append {t1 t2 : Text} {s1 s2 : List DStmt} (h1 : Scripted res sq t1 s1)
    (h2 : Scripted res sq t2 s2) : Scripted res sq (t1 ++ t2) (s1 ++ s2) := by
  obtain ⟨K1, o1, p1⟩ := h1
  obtain ⟨K2, o2, p2⟩ := h2
  refine ⟨_, o1.trans o2, fun R => ?_⟩
  rw [List.append_assoc, p1, p2]
  cases parseAll sq (splitSemi R) <;> simp

theorem scripted_newline : Scripted res sq (lit "\n") [] := ⟨[], fun _ => rfl, fun R => by simp⟩

theorem scripted_join {ts : List Text} {sss : List (List DStmt)}
    (h : AllMatch (Scripted res sq) ts sss) :
    Scripted res sq (joinText (lit "\n") ts) sss.flatten := by
  induction h with
  | nil => exact scripted_nil
  | cons h1 h2 ih =>
    cases h2 with
    | nil => simpa [joinText] using h1
    | cons h3 h4 =>
      simp only [joinText, List.flatten_cons, List.append_assoc] at ih ⊢
      have := h1.append (scripted_newline.append ih)
      simpa only [List.nil_append, List.append_assoc] using this

theorem Scripted.parse {t : Text} {ss : List DStmt} (h : Scripted res sq t ss) :
    Ddl.parse sq res t = some ss := by
  obtain ⟨K, ho, hp⟩ := h
  unfold Ddl.parse lex
  have := ho []
  rw [List.append_nil] at this
  rw [this, hp]
  simp [lexFrom, pending, splitSemi, parseAll]

/-! ### Columns -/

/-- The tokens of a constraint without a value. -/
def conToks : Con → List Tok
  | .notNull => [.kw "NOT", .kw "NULL"]
  | .primaryKey => [.kw "PRIMARY", .kw "KEY"]
  | .unique => [.kw "UNIQUE"]
  | .default _ => []

/-- The constraints of a column as both backends write them. -/
def conList (c : AColumn) : List Con :=
  (if c.nullable then [] else [.notNull]) ++ (if c.pk then [.primaryKey] else []) ++
  (if c.unique then [.unique] else [])

/-- Tokens that end a list of constraints. -/
def Stop : List Tok → Prop
  | [] => True
  | t :: _ => t = .comma ∨ t = .rparen

theorem pCons_stop {r : List Tok} (h : Stop r) : pCons r = some ([], r) := by
  cases r with
  | nil => rfl
  | cons t r => rcases h with h | h <;> subst h <;> rfl

theorem pCons_con {c : Con} (hc : ∀ l, c ≠ .default l) (r : List Tok) :
    pCons (conToks c ++ r) = (pCons r).map fun p => (c :: p.1, p.2) := by
  cases c with
  | default l => exact absurd rfl (hc l)
  | _ =>
    simp only [conToks, List.cons_append, List.nil_append, pCons]
    cases pCons r <;> rfl

theorem pCons_cons {cs : List Con} (hc : ∀ c ∈ cs, ∀ l, c ≠ .default l) (r : List Tok) :
    pCons ((cs.map conToks).flatten ++ r) = (pCons r).map fun p => (cs ++ p.1, p.2) := by
  induction cs with
  | nil => cases h : pCons r <;> simp [h]
  | cons c cs ih =>
    rw [List.map_cons, List.flatten_cons, List.append_assoc, pCons_con (hc c (List.mem_cons_self ..)),
      ih fun x hx => hc x (List.mem_cons_of_mem _ hx)]
    cases pCons r <;> rfl

theorem conList_no_default (c : AColumn) : ∀ x ∈ conList c, ∀ l, x ≠ .default l := by
  intro x hx l e
  subst e
  simp only [conList] at hx
  split at hx <;> split at hx <;> split at hx <;> simp at hx

/-- A token list that does not begin with an identifier. -/
def NoIdent : List Tok → Prop
  | .ident _ :: _ => False
  | _ => True

theorem pType_idents (ws : List String) {r : List Tok} (h : NoIdent r) :
    pType (ws.map .ident ++ r) = (ws, r) := by
  induction ws with
  | nil =>
    cases r with
    | nil => rfl
    | cons t r => cases t <;> first | rfl | exact absurd h id
  | cons w ws ih => simp [pType, ih]

/-- The tokens of a column definition. -/
def colToks (c : ColDef) : List Tok :=
  .ident c.name :: (c.type.map .ident ++ (c.cons.map conToks).flatten)

theorem noIdent_cons {cs : List Con} {r : List Tok} (hr : NoIdent r) :
    NoIdent ((cs.map conToks).flatten ++ r) := by
  induction cs with
  | nil => exact hr
  | cons c cs ih =>
    cases c with
    | default l => simpa [conToks] using ih
    | _ => trivial

theorem Stop.noIdent {r : List Tok} (h : Stop r) : NoIdent r := by
  cases r with
  | nil => trivial
  | cons t r => rcases h with h | h <;> subst h <;> trivial

theorem pColDef_ok {c : ColDef} (hc : ∀ x ∈ c.cons, ∀ l, x ≠ .default l) {r : List Tok}
    (hr : Stop r) : pColDef (colToks c ++ r) = some (c, r) := by
  simp only [colToks, List.cons_append, List.append_assoc, pColDef]
  rw [pType_idents _ (noIdent_cons hr.noIdent)]
  simp only
  rw [pCons_cons hc, pCons_stop hr]
  simp

/-- With a default at the end. -/
theorem pColDef_default {c : ColDef} (hc : ∀ x ∈ c.cons, ∀ l, x ≠ .default l) {l : Lit}
    {k : List Tok} (hk : pCons (.kw "DEFAULT" :: k) = some ([.default l], [])) :
    pColDef (colToks c ++ .kw "DEFAULT" :: k) =
      some ({ c with cons := c.cons ++ [.default l] }, []) := by
  simp only [colToks, List.cons_append, List.append_assoc, pColDef]
  rw [pType_idents _ (noIdent_cons (r := .kw "DEFAULT" :: k) trivial)]
  simp only
  rw [pCons_cons hc, hk]
  simp

/-! ### Table definitions -/

def fkToks (f : RefCon) : List Tok :=
  [.kw "FOREIGN", .kw "KEY", .lparen, .ident f.col, .rparen, .kw "REFERENCES", .ident f.table,
    .lparen, .ident f.refCol, .rparen]

theorem pFks_ok {fs : List RefCon} (hne : fs ≠ []) (r : List Tok) :
    pFks true ((fs.map fkToks).flatten ++ .rparen :: r) = some (fs, r) := by
  induction fs with
  | nil => exact absurd rfl hne
  | cons f fs ih =>
    cases fs with
    | nil => rfl
    | cons g fs =>
      have := ih (by simp)
      simp only [List.map_cons, List.flatten_cons, fkToks, List.cons_append, List.nil_append] at this
      simp only [List.map_cons, List.flatten_cons, fkToks, List.cons_append, List.nil_append]
      rw [pFks]
      simp only [↓reduceIte]
      · rw [this]
      · rintro r' h; cases h
      · rintro r' h; cases h

/-- The tokens after the last column. -/
def fksToks (fs : List RefCon) : List Tok :=
  match fs with
  | [] => []
  | fs => .comma :: (fs.map fkToks).flatten

theorem pBody_ok {cs : List ColDef} (hne : cs ≠ [])
    (hc : ∀ c ∈ cs, ∀ x ∈ c.cons, ∀ l, x ≠ .default l) (fs : List RefCon) (r : List Tok) (F : Nat)
    (hF : cs.length ≤ F) :
    pBody true F (joinToks [.comma] (cs.map colToks) ++ (fksToks fs ++ .rparen :: r)) =
      some (cs, fs, r) := by
  induction cs generalizing F with
  | nil => exact absurd rfl hne
  | cons c cs ih =>
    obtain ⟨F, rfl⟩ : ∃ k, F = k + 1 := ⟨F - 1, by simp only [List.length_cons] at hF; omega⟩
    have hc0 := hc c (List.mem_cons_self ..)
    cases cs with
    | nil =>
      simp only [List.map_cons, List.map_nil, joinToks]
      cases fs with
      | nil =>
        simp only [fksToks, List.nil_append, pBody]
        rw [pColDef_ok hc0 (by exact .inr rfl)]
      | cons f fs =>
        have hfk := pFks_ok (fs := f :: fs) (by simp) r
        simp only [fksToks, List.cons_append, pBody]
        rw [pColDef_ok hc0 (by exact .inl rfl)]
        simp only [List.map_cons, List.flatten_cons, fkToks, List.cons_append,
          List.nil_append] at hfk ⊢
        rw [hfk]
    | cons d cs =>
      have := ih (by simp) (fun x hx => hc x (List.mem_cons_of_mem _ hx)) F
        (by simp only [List.length_cons] at hF ⊢; omega)
      simp only [List.map_cons, joinToks, List.append_assoc, List.nil_append,
        List.cons_append, pBody] at this ⊢
      rw [pColDef_ok hc0 (by exact .inl rfl)]
      have hnf : ∃ s r', joinToks [.comma] (colToks d :: cs.map colToks) ++
          (fksToks fs ++ .rparen :: r) = .ident s :: r' := by
        cases cs <;> exact ⟨_, _, rfl⟩
      obtain ⟨s, r', hs⟩ := hnf
      rw [hs] at this ⊢
      simp only [this]

theorem joinToks_len (ks : List (List Tok)) (h : ∀ k ∈ ks, k ≠ []) :
    ks.length ≤ (joinToks [.comma] ks).length := by
  induction ks with
  | nil => simp
  | cons k ks ih =>
    cases ks with
    | nil =>
      have := h k (List.mem_cons_self ..)
      cases k with
      | nil => exact absurd rfl this
      | cons => simp [joinToks]
    | cons k' ks =>
      have := ih fun x hx => h x (List.mem_cons_of_mem _ hx)
      simp only [joinToks, List.length_cons, List.length_append] at this ⊢
      omega

theorem pCreate_ok {cs : List ColDef} (hne : cs ≠ [])
    (hc : ∀ c ∈ cs, ∀ x ∈ c.cons, ∀ l, x ≠ .default l) (fs : List RefCon) (ifNot : Bool) (n : String) :
    pCreate true ifNot (.ident n :: .lparen :: (joinToks [.comma] (cs.map colToks) ++
      (fksToks fs ++ [.rparen, .ident "STRICT"]))) = some (.createTable ifNot n cs fs true) := by
  simp only [pCreate]
  rw [pBody_ok hne hc fs [.ident "STRICT"]]
  · rfl
  · have := joinToks_len (cs.map colToks) (by
      intro k hk
      obtain ⟨c, -, rfl⟩ := List.mem_map.1 hk
      simp [colToks])
    simp only [List.length_append, List.length_map] at this ⊢
    omega

/-! ### No semicolons -/

theorem semi_conToks (c : Con) : Tok.semi ∉ conToks c := by cases c <;> simp [conToks]

theorem semi_colToks (c : ColDef) : Tok.semi ∉ colToks c := by
  simp only [colToks, List.mem_cons, List.mem_append, List.mem_map, List.mem_flatten, not_or,
    reduceCtorEq, not_false_eq_true, true_and]
  refine ⟨(by rintro ⟨a, -, h⟩; cases h), ?_⟩
  rintro ⟨l, ⟨x, -, rfl⟩, h⟩
  exact semi_conToks x h

theorem semi_join {ks : List (List Tok)} {sep : List Tok} (hs : Tok.semi ∉ sep)
    (h : ∀ k ∈ ks, Tok.semi ∉ k) : Tok.semi ∉ joinToks sep ks := by
  induction ks with
  | nil => simp [joinToks]
  | cons k ks ih =>
    cases ks with
    | nil => exact h k (List.mem_cons_self ..)
    | cons k' ks =>
      simp only [joinToks, List.mem_append, not_or]
      exact ⟨⟨h k (List.mem_cons_self ..), hs⟩, ih fun x hx => h x (List.mem_cons_of_mem _ hx)⟩

theorem semi_fks (fs : List RefCon) : Tok.semi ∉ fksToks fs := by
  have : Tok.semi ∉ (fs.map fkToks).flatten := by
    simp only [List.mem_flatten, List.mem_map]
    rintro ⟨l, ⟨f, -, rfl⟩, h⟩
    simp [fkToks] at h
  cases fs with
  | nil => simp [fksToks]
  | cons f fs => simp only [fksToks, List.mem_cons, reduceCtorEq, false_or]; exact this

end Butane.DdlP
