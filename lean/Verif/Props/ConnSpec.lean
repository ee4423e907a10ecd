import Verif.Proofs.ConnSpec
/-
Properties C49 and C60: connection strings.
-/
namespace Butane.Props
open Butane Butane.Spec Butane.ConnP

/-! ### C49 -/

theorem addParameter_uri {url : List Char → UrlParse} {ws : Char → Bool} {spec : ConnSpec}
    (hkv : ¬ (spec.backend = "pg".toList ∧ isPgKeyValue ws spec.conn = true)) (n v : List Char) :
    addParameter url ws spec n v = if isUri url spec.conn then
      some { spec with conn := spec.conn ++
        ((if spec.conn.contains '?' then '&' else '?') :: (n ++ '=' :: v)) } else none := by
  unfold addParameter
  rw [if_neg hkv]
  cases hu : isUri url spec.conn with
  | false => rfl
  | true =>
    cases hc : spec.conn.contains '?' <;> simp only [Bool.not_true, Bool.false_eq_true, if_false, if_true]

theorem pgKeyValue_iff {ws : Char → Bool} (heq : ws '=' = false) {s : List Char} :
    isPgKeyValue ws s = true ↔ HasKey ws s ∧ ¬ "://".toList <:+: s := by
  unfold isPgKeyValue
  by_cases h : hasInfix "://".toList s = true
  · rw [if_pos h]
    exact ⟨fun h' => (by cases h'), fun h' => absurd (hasInfix_iff.1 h) h'.2⟩
  · rw [if_neg h, kvAnywhere_iff heq]
    exact ⟨fun h' => ⟨h', fun h2 => h (hasInfix_iff.2 h2)⟩, fun h' => h'.1⟩

/-- C49 for connection strings that are URIs: adding any list of parameters keeps the existing
ones and adds the new ones in order.  Missing: names and values with characters that mean something
in a connection string, strings with a fragment (both false, see below), and for PostgreSQL URIs
without `://`. -/
theorem add_parameters_uri_partial (url : List Char → UrlParse) (ws : Char → Bool)
    (decode : List Char → List Char) (hd : DecodeLaw decode)
    (ps : List (List Char × List Char)) (hp : ∀ p ∈ ps, PlainParam ws p.1 ∧ PlainParam ws p.2)
    (spec spec' : ConnSpec) (hpg : spec.backend ≠ "pg".toList ∨ "://".toList <:+: spec.conn)
    (hf : '#' ∉ spec.conn) (h : addParameters url ws spec ps = some spec') :
    uriParams decode spec'.conn = uriParams decode spec.conn ++ ps ∧ spec'.backend = spec.backend := by
  induction ps generalizing spec with
  | nil => cases h; simp
  | cons p ps ih =>
    obtain ⟨n, v⟩ := p
    obtain ⟨hn, hv⟩ := hp (n, v) List.mem_cons_self
    simp only [addParameters] at h
    split at h
    · cases h
    next spec1 h1 =>
    have hkv : ¬ (spec.backend = "pg".toList ∧ isPgKeyValue ws spec.conn = true) := by
      rintro ⟨h2, h3⟩
      rcases hpg with h4 | h4
      · exact h4 h2
      · rw [isPgKeyValue, if_pos (hasInfix_iff.2 h4)] at h3
        cases h3
    have h5 : spec1 = { spec with conn := spec.conn ++
        ((if spec.conn.contains '?' then '&' else '?') :: (n ++ '=' :: v)) } := by
      rw [addParameter_uri hkv] at h1
      split at h1
      · cases h1; rfl
      · cases h1
    have h6 := ih (fun p hp' => hp p (List.mem_cons_of_mem _ hp')) spec1
      (by
        rw [h5]
        rcases hpg with h4 | h4
        · exact .inl h4
        · exact .inr (h4.trans (List.prefix_append _ _).isInfix))
      (by
        rw [h5]
        have := plain_pair_not_mem hn hv (c := '#') (by decide)
        simp only [List.mem_append, List.mem_cons, not_or] at this ⊢
        refine ⟨hf, ?_, this⟩
        split <;> decide) h
    refine ⟨?_, by rw [h6.2, h5]⟩
    rw [h6.1, h5]
    simp only
    rw [params_add hd hf hn hv]
    simp

/-- Adding parameters to a URI succeeds, if the url crate still reads a URI with a longer query. -/
theorem add_parameters_uri_succeeds (url : List Char → UrlParse) (ws : Char → Bool)
    (hu : ∀ s c t, c = '?' ∨ c = '&' → isUri url s = true → isUri url (s ++ c :: t) = true)
    (ps : List (List Char × List Char)) (spec : ConnSpec)
    (hpg : spec.backend ≠ "pg".toList ∨ "://".toList <:+: spec.conn)
    (h : isUri url spec.conn = true) : ∃ spec', addParameters url ws spec ps = some spec' := by
  induction ps generalizing spec with
  | nil => exact ⟨_, rfl⟩
  | cons p ps ih =>
    obtain ⟨n, v⟩ := p
    have hkv : ¬ (spec.backend = "pg".toList ∧ isPgKeyValue ws spec.conn = true) := by
      rintro ⟨h2, h3⟩
      rcases hpg with h4 | h4
      · exact h4 h2
      · rw [isPgKeyValue, if_pos (hasInfix_iff.2 h4)] at h3
        cases h3
    simp only [addParameters, addParameter_uri hkv, h, if_true]
    have hg : ∀ t, ({ spec with conn := spec.conn ++ t } : ConnSpec).backend ≠ "pg".toList ∨
        "://".toList <:+: ({ spec with conn := spec.conn ++ t } : ConnSpec).conn := by
      intro t
      rcases hpg with h4 | h4
      · exact .inl h4
      · exact .inr (h4.trans (List.prefix_append _ _).isInfix)
    refine ih _ (hg _) (hu _ _ _ ?_ h)
    split
    · exact .inr rfl
    · exact .inl rfl

/-- C49 for PostgreSQL key/value strings: adding parameters succeeds, keeps the existing ones and
adds the new ones in order.  Missing: values with white space, quotes and so on (false, see below),
and strings that end with a backslash. -/
theorem add_parameters_kv_partial (url : List Char → UrlParse) (ws : Char → Bool)
    (hsp : ws ' ' = true) (heq : ws '=' = false)
    (ps : List (List Char × List Char))
    (hp : ∀ p ∈ ps, PlainParam ws p.1 ∧ PlainParam ws p.2 ∧ p.1 ≠ [] ∧ p.2 ≠ [])
    (spec : ConnSpec) (hpg : spec.backend = "pg".toList) (hk : HasKey ws spec.conn)
    (hu : ¬ "://".toList <:+: spec.conn) (hb : spec.conn.getLast? ≠ some '\\')
    (old : List (List Char × List Char)) (hold : kvParams ws spec.conn = some old) :
    ∃ spec', addParameters url ws spec ps = some spec' ∧ spec'.backend = spec.backend ∧
      kvParams ws spec'.conn = some (old ++ ps) := by
  induction ps generalizing spec old with
  | nil => exact ⟨spec, rfl, rfl, by simpa using hold⟩
  | cons p ps ih =>
    obtain ⟨n, v⟩ := p
    obtain ⟨hn, hv, hn', hv'⟩ := hp (n, v) List.mem_cons_self
    have hkv : isPgKeyValue ws spec.conn = true := (pgKeyValue_iff heq).2 ⟨hk, hu⟩
    simp only [addParameters, addParameter, if_pos (And.intro hpg hkv)]
    have hlast : (spec.conn ++ ' ' :: (n ++ '=' :: v)).getLast? ≠ some '\\' := by
      obtain ⟨x, hx⟩ : ∃ x, v.getLast? = some x := by
        cases hg : v.getLast? with
        | none => exact absurd (List.getLast?_eq_none_iff.1 hg) hv'
        | some x => exact ⟨x, rfl⟩
      have e : (spec.conn ++ ' ' :: (n ++ '=' :: v)).getLast? = some x := by
        rw [show spec.conn ++ ' ' :: (n ++ '=' :: v) = (spec.conn ++ ' ' :: (n ++ ['='])) ++ v by simp,
          List.getLast?_append, hx]
        rfl
      rw [e]
      intro h
      cases h
      exact (hv '\\' (List.mem_of_getLast? hx)).2 (by decide)
    obtain ⟨spec', h1, h2, h3⟩ := ih (fun p hp' => hp p (List.mem_cons_of_mem _ hp'))
      { spec with conn := spec.conn ++ ' ' :: (n ++ '=' :: v) } hpg (ConnP.HasKey.append hk _)
      (colon_append hu (by
        have := plain_pair_not_mem hn hv (c := '/') (by decide)
        rw [List.mem_cons, not_or]
        exact ⟨by decide, this⟩)) hlast (old ++ [(n, v)])
      (kvParams_append hsp heq hn hn' hv hv' _ hb hold)
    exact ⟨spec', h1, h2, by simpa using h3⟩

/-- An error leaves nothing behind and happens exactly for strings that are neither. -/
theorem add_parameter_error (url : List Char → UrlParse) (ws : Char → Bool) (heq : ws '=' = false)
    (spec : ConnSpec) (n v : List Char) :
    addParameter url ws spec n v = none ↔
      ¬ (spec.backend = "pg".toList ∧ HasKey ws spec.conn ∧ ¬ "://".toList <:+: spec.conn) ∧
      ∀ sch, url spec.conn ≠ .ok sch := by
  rw [← pgKeyValue_iff heq]
  by_cases hkv : spec.backend = "pg".toList ∧ isPgKeyValue ws spec.conn = true
  · unfold addParameter
    rw [if_pos hkv]
    exact ⟨fun h => (by cases h), fun h => absurd hkv h.1⟩
  · rw [addParameter_uri hkv]
    cases hu : url spec.conn with
    | ok sch =>
      simp only [isUri, hu, if_true]
      exact ⟨fun h => (by cases h), fun h => absurd rfl (h.2 sch)⟩
    | invalidPort =>
      simp only [isUri, hu]
      exact ⟨fun _ => ⟨hkv, fun _ h => by cases h⟩, fun _ => rfl⟩
    | otherError =>
      simp only [isUri, hu]
      exact ⟨fun _ => ⟨hkv, fun _ h => by cases h⟩, fun _ => rfl⟩

def exUrl (s : List Char) : UrlParse :=
  if "postgres://".toList.isPrefixOf s then .ok "postgres".toList
  else if "file:".toList.isPrefixOf s then .ok "file".toList
  else if "sqlite:".toList.isPrefixOf s || "SQLite:".toList.isPrefixOf s then .ok "sqlite".toList
  else .otherError

example : addParameters exUrl Char.isWhitespace ⟨"pg".toList, "postgres://h/db".toList⟩
      [("a".toList, "1".toList), ("b".toList, "2".toList)] =
    some ⟨"pg".toList, "postgres://h/db?a=1&b=2".toList⟩ := by decide

example : DecodeLaw id ∧ uriParams id "postgres://h/db?a=1&b=2".toList =
    [("a".toList, "1".toList), ("b".toList, "2".toList)] :=
  ⟨fun _ _ _ => rfl, by decide⟩

example : PlainParam Char.isWhitespace "connect_timeout".toList := by
  unfold PlainParam
  decide

example : addParameters exUrl Char.isWhitespace ⟨"pg".toList, "host=h user='a b'".toList⟩
      [("dbname".toList, "x".toList)] =
    some ⟨"pg".toList, "host=h user='a b' dbname=x".toList⟩ := by decide

example : kvParams Char.isWhitespace "host=h user = 'a b'".toList =
    some [("host".toList, "h".toList), ("user".toList, "a b".toList)] := by decide

example : HasKey Char.isWhitespace "host=h".toList :=
  (kvAnywhere_iff (by decide)).1 (by decide)

/-- **C49 fails for every URI with a fragment**: the new parameter becomes part of the fragment and
is lost. -/
theorem add_parameter_fragment_violated (url : List Char → UrlParse) (ws : Char → Bool)
    (decode : List Char → List Char) (spec spec' : ConnSpec) (n v : List Char)
    (hkv : ¬ (spec.backend = "pg".toList ∧ isPgKeyValue ws spec.conn = true))
    (hf : '#' ∈ spec.conn) (h : addParameter url ws spec n v = some spec') :
    uriParams decode spec'.conn = uriParams decode spec.conn := by
  rw [addParameter_uri hkv] at h
  unfold uriParams
  split at h
  · cases h
    simp only [cut_first hf]
  · cases h

example : addParameter exUrl Char.isWhitespace ⟨"sqlite".toList, "file:a.db#x".toList⟩
    "mode".toList "ro".toList = some ⟨"sqlite".toList, "file:a.db#x?mode=ro".toList⟩ := by decide

/-- **C49 fails for every value with an ampersand**: the value ends there, and what follows is read
as another parameter. -/
theorem add_parameter_ampersand_violated (url : List Char → UrlParse) (ws : Char → Bool)
    (decode : List Char → List Char) (hd : DecodeLaw decode) (spec spec' : ConnSpec)
    (n v w : List Char) (hn : PlainParam ws n) (hv : PlainParam ws v) (hw : PlainParam ws w)
    (hw' : w ≠ [])
    (hkv : ¬ (spec.backend = "pg".toList ∧ isPgKeyValue ws spec.conn = true))
    (hf : '#' ∉ spec.conn) (h : addParameter url ws spec n (v ++ '&' :: w) = some spec') :
    uriParams decode spec'.conn = uriParams decode spec.conn ++ [(n, v), (w, [])] := by
  have h5 : spec'.conn = spec.conn ++
      ((if spec.conn.contains '?' then '&' else '?') :: (n ++ '=' :: v ++ '&' :: w)) := by
    rw [addParameter_uri hkv] at h
    split at h
    · cases h; simp
    · cases h
  rw [h5, params_append hf, pieces_append, pieces_plain (plain_pair_not_mem hn hv (by decide)),
    pieces_plain (PlainParam.not_mem hw '&' (by decide))]
  · have h1 : pair decode w = (w, []) := by
      simp only [pair, cut_none (PlainParam.not_mem hw '=' (by decide)), Option.getD_none]
      rw [hd w (PlainParam.not_mem hw '%' (by decide)) (PlainParam.not_mem hw '+' (by decide)),
        hd [] (by simp) (by simp)]
    simp [pair_plain hd hn hv, hw', h1]
  · have h1 := plain_pair_not_mem hn hv (c := '#') (by decide)
    have h2 := PlainParam.not_mem hw '#' (by decide)
    simp only [List.mem_append, List.mem_cons, not_or] at h1 ⊢
    exact ⟨h1, by decide, h2⟩

/-- **C49 fails for a value with a space in a key/value string**: the result cannot be read. -/
theorem add_parameter_space_violated (url : List Char → UrlParse) :
    ∃ spec', addParameter url Char.isWhitespace ⟨"pg".toList, "host=h".toList⟩
        "application_name".toList "my app".toList = some spec' ∧
      kvParams Char.isWhitespace "host=h".toList = some [("host".toList, "h".toList)] ∧
      kvParams Char.isWhitespace spec'.conn = none := by
  refine ⟨⟨"pg".toList, "host=h application_name=my app".toList⟩, ?_, by decide, by decide⟩
  have h : isPgKeyValue Char.isWhitespace "host=h".toList = true := by decide
  simp only [addParameter, h, and_self, if_true]
  decide

/-! ### C60: the backend of a connection string -/

open Classical in
/-- The documented result as a function. -/
noncomputable def documented (url : List Char → UrlParse) (ws : Char → Bool) (s : List Char) :
    List Char × List Char :=
  match url s with
  | .ok sch =>
    if sch = "sqlite".toList then ("sqlite".toList, "file:".toList ++ ((cut ':' s).2.getD []))
    else if sch = "file".toList then ("sqlite".toList, s)
    else if sch = "postgres".toList then ("pg".toList, s)
    else if sch = "postgresql".toList then ("pg".toList, s)
    else if sch = "libsql".toList then ("turso".toList, "turso:".toList ++ ((cut ':' s).2.getD []))
    else (sch, s)
  | .invalidPort => if "postgres".toList <+: s then ("pg".toList, s) else ("sqlite".toList, s)
  | .otherError => if HasKey ws s then ("pg".toList, s) else ("sqlite".toList, s)

theorem documented_eq {url : List Char → UrlParse} {ws : Char → Bool} {s b c : List Char}
    (h : Documented url ws s b c) : documented url ws s = (b, c) := by
  unfold documented
  cases h with
  | sqlite sch rest h1 h2 h3 =>
    rw [h1]
    simp only [if_true, h2, cut_append h3, Option.getD_some]
  | file h1 =>
    rw [h1]
    simp only
    rw [if_neg (by decide), if_pos trivial]
  | postgres h1 =>
    rcases h1 with h1 | h1
    · rw [h1]
      simp only
      rw [if_neg (by decide), if_neg (by decide), if_pos trivial]
    · rw [h1]
      simp only
      rw [if_neg (by decide), if_neg (by decide), if_neg (by decide), if_pos trivial]
  | libsql sch rest h1 h2 h3 =>
    rw [h1]
    simp only
    rw [if_neg (by decide), if_neg (by decide), if_neg (by decide), if_neg (by decide),
      if_pos trivial, h2, cut_append h3]
    rfl
  | other =>
    rename_i h1 h2
    rw [h1]
    simp only [List.mem_cons, List.not_mem_nil, or_false, not_or] at h2
    simp only
    rw [if_neg h2.1, if_neg h2.2.1, if_neg h2.2.2.1, if_neg h2.2.2.2.1, if_neg h2.2.2.2.2]
  | hosts h1 h2 => rw [h1]; simp only; rw [if_pos h2]
  | keys h1 h2 => rw [h1]; simp only; rw [if_pos h2]
  | path h1 h2 => rw [h1]; simp only; rw [if_neg h2]
  | badPort h1 h2 => rw [h1]; simp only; rw [if_neg h2]

/-- The documentation determines the result. -/
theorem documented_unique {url : List Char → UrlParse} {ws : Char → Bool} {s b c b' c' : List Char}
    (h : Documented url ws s b c) (h' : Documented url ws s b' c') : b = b' ∧ c = c' := by
  have := (documented_eq h).symm.trans (documented_eq h')
  simpa using this

/-- C60: the backend and its connection string are the documented ones, when a scheme is written in
lower case and a string of keys and values has no `://` in it. -/
theorem backend_documented_partial (url : List Char → UrlParse) (ws : Char → Bool)
    (heq : ws '=' = false) (s : List Char)
    (h1 : ∀ sch, url s = .ok sch → ':' ∉ sch ∧ ∃ rest, s = sch ++ ':' :: rest)
    (h2 : url s = .otherError → HasKey ws s → ¬ "://".toList <:+: s) :
    Documented url ws s (connSpecOf url ws s).backend (connSpecOf url ws s).conn := by
  unfold connSpecOf
  cases hu : url s with
  | ok sch =>
    obtain ⟨hc, rest, hr⟩ := h1 sch hu
    simp only
    split
    · next h =>
      have e : replaceFirst "sqlite:".toList "file:".toList s = "file:".toList ++ rest := by
        rw [hr, h, show "sqlite".toList ++ ':' :: rest = "sqlite:".toList ++ rest from rfl]
        exact replaceFirst_prefix _ _ _ (by decide)
      rw [e]
      exact .sqlite sch rest (by rw [hu, h]) hr hc
    · split
      · next h => exact .file (by rw [hu, h])
      · split
        · next h =>
          refine .postgres ?_
          rw [hu]
          rcases h with h | h
          · exact .inl (by rw [h])
          · exact .inr (by rw [h])
        · split
          · next h =>
            have e : replaceFirst "libsql:".toList "turso:".toList s = "turso:".toList ++ rest := by
              rw [hr, h, show "libsql".toList ++ ':' :: rest = "libsql:".toList ++ rest from rfl]
              exact replaceFirst_prefix _ _ _ (by decide)
            rw [e]
            exact .libsql sch rest (by rw [hu, h]) hr hc
          · next a b c d =>
            refine .other sch hu ?_
            simp only [List.mem_cons, List.not_mem_nil, or_false, not_or] at c ⊢
            exact ⟨a, b, c.1, c.2, d⟩
  | invalidPort =>
    simp only
    split
    · next h => exact .hosts hu (isPrefixOf_iff.1 h)
    · next h => exact .badPort hu fun h' => h (isPrefixOf_iff.2 h')
  | otherError =>
    simp only
    by_cases hk : HasKey ws s
    · rw [if_pos ((pgKeyValue_iff heq).2 ⟨hk, h2 hu hk⟩)]
      exact .keys hu hk
    · rw [if_neg fun h => hk ((pgKeyValue_iff heq).1 h).1]
      exact .path hu hk

example : connSpecOf exUrl Char.isWhitespace "sqlite:a.db".toList =
    ⟨"sqlite".toList, "file:a.db".toList⟩ := by decide
example : connSpecOf exUrl Char.isWhitespace "user = me".toList =
    ⟨"pg".toList, "user = me".toList⟩ := by decide
example : connSpecOf exUrl Char.isWhitespace "a.db".toList =
    ⟨"sqlite".toList, "a.db".toList⟩ := by decide
example : ∀ sch, exUrl "sqlite:a.db".toList = .ok sch →
    ':' ∉ sch ∧ ∃ rest, "sqlite:a.db".toList = sch ++ ':' :: rest := by
  intro sch h
  have : exUrl "sqlite:a.db".toList = .ok "sqlite".toList := by decide
  rw [this] at h
  cases h
  exact ⟨by decide, "a.db".toList, by decide⟩

/-- **C60 fails when a string of keys and values contains `://`**, in a password for example: it is
taken for the name of an SQLite file. -/
theorem backend_password_violated (url : List Char → UrlParse) (ws : Char → Bool) (s : List Char)
    (hu : url s = .otherError) (hk : HasKey ws s) (hc : "://".toList <:+: s) :
    connSpecOf url ws s = ⟨"sqlite".toList, s⟩ ∧ ¬ Documented url ws s "sqlite".toList s := by
  refine ⟨?_, fun h => ?_⟩
  · have h1 : isPgKeyValue ws s = false := by
      unfold isPgKeyValue
      rw [if_pos (hasInfix_iff.2 hc)]
    simp only [connSpecOf, hu, h1, Bool.false_eq_true, if_false]
  · have := documented_unique h (.keys hu hk)
    exact absurd this.1 (by decide)

example : exUrl "host=h password=x://y".toList = .otherError ∧
    HasKey Char.isWhitespace "host=h password=x://y".toList ∧
    "://".toList <:+: "host=h password=x://y".toList :=
  ⟨by decide, (kvAnywhere_iff (by decide)).1 (by decide), ⟨"host=h password=x".toList, "y".toList, by decide⟩⟩

/-- **C60 fails when the scheme is not written in lower case**: SQLite is chosen, but the string is
not turned into a `file` URI. -/
theorem backend_scheme_case_violated (url : List Char → UrlParse) (ws : Char → Bool)
    (hu : url "SQLite:a.db".toList = .ok "sqlite".toList) :
    connSpecOf url ws "SQLite:a.db".toList = ⟨"sqlite".toList, "SQLite:a.db".toList⟩ ∧
      ¬ Documented url ws "SQLite:a.db".toList "sqlite".toList "SQLite:a.db".toList := by
  refine ⟨?_, fun h => ?_⟩
  · simp only [connSpecOf, hu, if_true]
    decide
  · have := documented_unique h (.sqlite "SQLite".toList "a.db".toList hu (by decide) (by decide))
    exact absurd this.2 (by decide)

example : exUrl "SQLite:a.db".toList = .ok "sqlite".toList := by decide

end Butane.Props
