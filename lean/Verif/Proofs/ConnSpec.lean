import Verif.Spec.ConnSpec
/-
Lemmas on connection strings.
-/
namespace Butane.ConnP
open Butane Butane.Spec

/-! ### Cutting -/

theorem cut_append {c : Char} {a : List Char} (h : c ∉ a) (b : List Char) :
    cut c (a ++ c :: b) = (a, some b) := by
  induction a with
  | nil => simp [cut]
  | cons x a ih =>
    simp only [List.mem_cons, not_or] at h
    simp only [List.cons_append, cut, if_neg (Ne.symm h.1), ih h.2]

theorem cut_none {c : Char} {a : List Char} (h : c ∉ a) : cut c a = (a, none) := by
  induction a with
  | nil => rfl
  | cons x a ih =>
    simp only [List.mem_cons, not_or] at h
    simp only [cut, if_neg (Ne.symm h.1), ih h.2]

theorem cut_first {c : Char} {a : List Char} (h : c ∈ a) (b : List Char) :
    (cut c (a ++ b)).1 = (cut c a).1 := by
  induction a with
  | nil => cases h
  | cons x a ih =>
    by_cases hx : x = c
    · simp [cut, hx]
    · rcases List.mem_cons.1 h with rfl | h
      · exact absurd rfl hx
      · simp [cut, hx, ih h]

theorem split_first {c : Char} {s : List Char} (h : c ∈ s) : ∃ a b, s = a ++ c :: b ∧ c ∉ a := by
  induction s with
  | nil => cases h
  | cons x s ih =>
    by_cases hx : x = c
    · exact ⟨[], s, by simp [hx], by simp⟩
    · rcases List.mem_cons.1 h with rfl | h
      · exact absurd rfl hx
      · obtain ⟨a, b, rfl, h2⟩ := ih h
        exact ⟨x :: a, b, rfl, by simp [h2, Ne.symm hx]⟩

theorem pieces_ne (c : Char) (s : List Char) : pieces c s ≠ [] := by
  cases s with
  | nil => simp [pieces]
  | cons x s =>
    simp only [pieces]
    split
    · simp
    · split <;> simp

theorem pieces_append (c : Char) (a b : List Char) :
    pieces c (a ++ c :: b) = pieces c a ++ pieces c b := by
  induction a with
  | nil => simp [pieces]
  | cons x a ih =>
    simp only [List.cons_append, pieces, ih]
    split
    · rfl
    · cases h : pieces c a with
      | nil => exact absurd h (pieces_ne c a)
      | cons p ps => rfl

theorem pieces_plain {c : Char} {a : List Char} (h : c ∉ a) : pieces c a = [a] := by
  induction a with
  | nil => rfl
  | cons x a ih =>
    simp only [List.mem_cons, not_or] at h
    simp only [pieces, if_neg (Ne.symm h.1), ih h.2]

theorem PlainParam.not_mem {ws : Char → Bool} {s : List Char} (h : PlainParam ws s) (c : Char)
    (hc : c ∈ ['&', '=', '#', '%', '+', '?', '\'', '\\', ':', '/']) : c ∉ s :=
  fun hm => (h c hm).2 hc

/-- Whatever is appended without a fragment sign. -/
theorem params_append {decode : List Char → List Char} {s q : List Char} (hs : '#' ∉ s)
    (hq' : '#' ∉ q) :
    uriParams decode (s ++ ((if s.contains '?' then '&' else '?') :: q)) =
      uriParams decode s ++ ((pieces '&' q).filter (· ≠ [])).map (pair decode) := by
  by_cases hq : '?' ∈ s
  · obtain ⟨a, b, rfl, h2⟩ := split_first hq
    have hc : (a ++ '?' :: b).contains '?' = true := by simp
    rw [hc, if_pos rfl]
    have hb : '#' ∉ b := fun h => hs (by simp [h])
    have ha : '#' ∉ a := fun h => hs (by simp [h])
    have h3 : '#' ∉ a ++ '?' :: b ++ '&' :: q := by
      simp only [List.mem_append, List.mem_cons, not_or] at *
      refine ⟨⟨ha, ?_, hb⟩, ?_, hq'⟩ <;> decide
    unfold uriParams
    rw [cut_none h3, cut_none hs]
    simp only [List.append_assoc, List.cons_append]
    rw [cut_append h2, cut_append h2]
    simp only [pieces_append, List.filter_append, List.map_append]
  · have hc : s.contains '?' = false := by simpa using hq
    rw [hc]
    simp only [Bool.false_eq_true, ↓reduceIte]
    have h3 : '#' ∉ s ++ '?' :: q := by
      simp only [List.mem_append, List.mem_cons, not_or] at *
      refine ⟨hs, ?_, hq'⟩; decide
    unfold uriParams
    rw [cut_none h3, cut_none hs]
    simp only
    rw [cut_append hq, cut_none hq]
    simp only [List.nil_append]

theorem pair_plain {decode : List Char → List Char} (hd : DecodeLaw decode) {ws : Char → Bool}
    {n v : List Char} (hn : PlainParam ws n) (hv : PlainParam ws v) :
    pair decode (n ++ '=' :: v) = (n, v) := by
  simp only [pair, cut_append (PlainParam.not_mem hn '=' (by decide)), Option.getD_some]
  rw [hd n (PlainParam.not_mem hn '%' (by decide)) (PlainParam.not_mem hn '+' (by decide)),
    hd v (PlainParam.not_mem hv '%' (by decide)) (PlainParam.not_mem hv '+' (by decide))]

theorem plain_pair_not_mem {ws : Char → Bool} {n v : List Char} (hn : PlainParam ws n)
    (hv : PlainParam ws v) {c : Char} (hc : c ∈ ['&', '#', '?', ':', '/']) : c ∉ n ++ '=' :: v := by
  have h1 : c ∈ ['&', '=', '#', '%', '+', '?', '\'', '\\', ':', '/'] := by
    revert hc; revert c; decide
  have h2 : c ≠ '=' := by rintro rfl; revert hc; decide
  simp [PlainParam.not_mem hn c h1, PlainParam.not_mem hv c h1, h2]

/-- A string without fragment. -/
theorem params_add {decode : List Char → List Char} (hd : DecodeLaw decode) {ws : Char → Bool}
    {s n v : List Char} (hs : '#' ∉ s) (hn : PlainParam ws n) (hv : PlainParam ws v) :
    uriParams decode (s ++ ((if s.contains '?' then '&' else '?') :: (n ++ '=' :: v))) =
      uriParams decode s ++ [(n, v)] := by
  rw [params_append hs (plain_pair_not_mem hn hv (by decide)),
    pieces_plain (plain_pair_not_mem hn hv (by decide))]
  simp [pair_plain hd hn hv]

/-! ### Infixes and the regular expression -/

theorem isPrefixOf_iff {p s : List Char} : p.isPrefixOf s = true ↔ p <+: s := List.isPrefixOf_iff_prefix

theorem hasInfix_iff {p s : List Char} : hasInfix p s = true ↔ p <:+: s := by
  induction s with
  | nil => simp [hasInfix]
  | cons c s ih =>
    simp only [hasInfix, Bool.or_eq_true, isPrefixOf_iff, ih]
    constructor
    · rintro (h | h)
      · exact h.isInfix
      · exact h.trans (List.suffix_cons c s).isInfix
    · intro h
      exact List.infix_cons_iff.1 h

theorem colon_append {s t : List Char} (hs : ¬ "://".toList <:+: s) (ht : '/' ∉ t) :
    ¬ "://".toList <:+: s ++ t := by
  rintro ⟨p, q, h⟩
  rcases List.append_eq_append_iff.1 h with ⟨a, h1, h2⟩ | ⟨a, h1, h2⟩
  · exact hs ⟨p, a, h1.symm⟩
  · by_cases ha : a = []
    · subst ha
      exact hs ⟨p, [], by simpa using h1⟩
    · apply ht
      have : a.getLast? = some '/' := by
        have := congrArg List.getLast? h1
        rw [List.getLast?_append, List.getLast?_append] at this
        cases ha' : a.getLast? with
        | none => exact absurd (List.getLast?_eq_none_iff.1 ha') ha
        | some x => rw [ha'] at this; simpa using this.symm
      rw [h2]
      exact List.mem_append_left _ (List.mem_of_getLast? this)

theorem kvHere_iff {ws : Char → Bool} (hws : ws '=' = false) {s : List Char} : kvHere ws s = true ↔
    ∃ k w b, s = k ++ (w ++ '=' :: b) ∧ k ∈ kvKeys ∧ ∀ c ∈ w, ws c = true := by
  simp only [kvHere, List.any_eq_true, Bool.and_eq_true, isPrefixOf_iff, beq_iff_eq]
  constructor
  · rintro ⟨k, hk, ⟨r, rfl⟩, h2⟩
    simp only [List.drop_left'] at h2
    have h3 := List.takeWhile_append_dropWhile (p := ws) (l := r)
    cases hd : r.dropWhile ws with
    | nil => rw [hd] at h2; cases h2
    | cons x b =>
      rw [hd] at h2 h3
      simp only [List.head?_cons, Option.some.injEq] at h2
      subst h2
      refine ⟨k, r.takeWhile ws, b, by rw [h3], hk, fun c hc => ?_⟩
      exact List.all_eq_true.1 (List.all_takeWhile (p := ws) (l := r)) c hc
  · rintro ⟨k, w, b, rfl, hk, hw⟩
    refine ⟨k, hk, ⟨_, rfl⟩, ?_⟩
    simp only [List.drop_left']
    rw [List.dropWhile_append_of_pos hw]
    simp [hws]

theorem kvAnywhere_iff {ws : Char → Bool} (hws : ws '=' = false) {s : List Char} :
    kvAnywhere ws s = true ↔ HasKey ws s := by
  induction s with
  | nil =>
    simp only [kvAnywhere, kvHere_iff hws]
    constructor
    · rintro ⟨k, w, b, h, h2⟩
      exact ⟨[], k, w, b, h, h2⟩
    · rintro ⟨a, k, w, b, h, _⟩
      simp at h
  | cons c s ih =>
    simp only [kvAnywhere, Bool.or_eq_true, kvHere_iff hws, ih]
    constructor
    · rintro (⟨k, w, b, h, h2⟩ | ⟨a, k, w, b, h, h2⟩)
      · exact ⟨[], k, w, b, h, h2⟩
      · exact ⟨c :: a, k, w, b, by rw [h]; rfl, h2⟩
    · rintro ⟨a, k, w, b, h, h2⟩
      cases a with
      | nil => exact .inl ⟨k, w, b, h, h2⟩
      | cons x a =>
        simp only [List.cons_append, List.cons.injEq] at h
        exact .inr ⟨a, k, w, b, h.2, h2⟩

theorem HasKey.append {ws : Char → Bool} {s : List Char} (h : HasKey ws s) (t : List Char) :
    HasKey ws (s ++ t) := by
  obtain ⟨a, k, w, b, rfl, h2⟩ := h
  exact ⟨a, k, w, b ++ t, by simp, h2⟩

/-! ### Replacing the scheme -/

theorem replaceFirst_prefix (p rep s : List Char) (hp : p ≠ []) :
    replaceFirst p rep (p ++ s) = rep ++ s := by
  cases p with
  | nil => exact absurd rfl hp
  | cons c p =>
    have h1 : (c :: p).isPrefixOf (c :: (p ++ s)) = true := by
      rw [isPrefixOf_iff]
      exact ⟨s, rfl⟩
    simp only [List.cons_append, replaceFirst, h1, if_true, List.length_cons, List.drop_succ_cons,
      List.drop_left']

/-! ### Key/value strings -/

theorem simpleValue_append {ws : Char → Bool} {t : List Char} (ht : ∃ c u, t = c :: u ∧ ws c = true ∧ c ≠ '\\')
    (n : Nat) (s : List Char) (hn : s.length ≤ n) (hs : s.getLast? ≠ some '\\') :
    simpleValue ws (s ++ t) = ((simpleValue ws s).1, (simpleValue ws s).2 ++ t) := by
  induction n generalizing s with
  | zero =>
    have : s = [] := List.length_eq_zero_iff.1 (by omega)
    subst this
    obtain ⟨c, u, rfl, hc, hb⟩ := ht
    simp only [List.nil_append]
    unfold simpleValue
    split
    · next h => cases h
    · next h => cases h; exact absurd rfl hb
    · next h => cases h; simp [hc]
  | succ n ih =>
    match s, hn, hs with
    | [], _, _ => exact ih [] (by simp) (by simp)
    | [c], _, hs =>
      have hc : c ≠ '\\' := by simpa using hs
      have h0 := ih [] (by simp) (by simp)
      simp only [List.nil_append] at h0
      have h1 : simpleValue ws ([c] ++ t) = if ws c then ([], c :: t)
          else if c = '\\' then ([], []) else (c :: (simpleValue ws t).1, (simpleValue ws t).2) := by
        simp only [List.singleton_append]
        rw [simpleValue.eq_def]
        split
        · next h => cases h
        · next h => cases h; exact absurd rfl hc
        · next h => cases h; rfl
      rw [h1, h0]
      simp only [simpleValue, hc, if_false]
      by_cases hw : ws c
      · simp [hw]
      · simp [hw]
    | '\\' :: d :: s, hn, hs =>
      simp only [List.cons_append, simpleValue]
      have hlen : s.length ≤ n := by simp at hn; omega
      by_cases he : s = []
      · subst he
        have h0 := ih [] (by simp) (by simp)
        simp only [List.nil_append] at h0
        simp only [List.nil_append, h0]
      · rw [ih s hlen (by
          intro h
          apply hs
          rw [← h]
          obtain ⟨x, xs, rfl⟩ : ∃ x xs, s = x :: xs := by
            cases s with
            | nil => exact absurd rfl he
            | cons x xs => exact ⟨x, xs, rfl⟩
          simp)]
    | c :: d :: s, hn, hs =>
      by_cases hc : c = '\\'
      · subst hc
        simp only [List.cons_append, simpleValue]
        have hlen : s.length ≤ n := by simp at hn; omega
        by_cases he : s = []
        · subst he
          have h0 := ih [] (by simp) (by simp)
          simp only [List.nil_append] at h0
          simp only [List.nil_append, h0]
        · rw [ih s hlen (by
            intro h
            apply hs
            rw [← h]
            obtain ⟨x, xs, rfl⟩ : ∃ x xs, s = x :: xs := by
              cases s with
              | nil => exact absurd rfl he
              | cons x xs => exact ⟨x, xs, rfl⟩
            simp)]
      · have key : ∀ r : List Char, simpleValue ws (c :: r) = if ws c then ([], c :: r)
            else if c = '\\' then ([], []) else (c :: (simpleValue ws r).1, (simpleValue ws r).2) := by
          intro r
          rw [simpleValue.eq_def]
          split
          · next h => cases h
          · next h => cases h; exact absurd rfl hc
          · next h => cases h; rfl
        have h2 := ih (d :: s) (by simp at hn ⊢; omega) (by
          intro h; apply hs; rw [← h]; simp)
        rw [List.cons_append, key, key, h2]
        by_cases hw : ws c
        · simp [hw]
        · simp [hw, hc]

theorem quotedValue_append (t : List Char) (n : Nat) (s : List Char) (hn : s.length ≤ n)
    {v r : List Char} (h : quotedValue s = some (v, r)) :
    quotedValue (s ++ t) = some (v, r ++ t) := by
  induction n generalizing s v r with
  | zero =>
    have : s = [] := List.length_eq_zero_iff.1 (by omega)
    subst this
    cases h
  | succ n ih =>
    rw [quotedValue.eq_def] at h
    split at h
    · cases h
    · next c s =>
      split at h
      · cases h
      · next q hq =>
        cases h
        simp only [List.cons_append, quotedValue]
        rw [ih s (by simp at hn; omega) hq]
    · next c s hne =>
      split at h
      · next hc =>
        cases h
        subst hc
        rw [List.cons_append, quotedValue.eq_def]
        simp
      · next hc =>
        split at h
        · cases h
        · next q hq =>
          cases h
          have := ih s (by simp at hn; omega) hq
          rw [List.cons_append, quotedValue.eq_def]
          split
          · next h => cases h
          · next d u he =>
            cases s with
            | nil => cases hq
            | cons x s =>
              simp only [List.cons_append, List.cons.injEq] at he
              obtain ⟨rfl, rfl, rfl⟩ := he
              exact (hne _ _ rfl rfl).elim
          · next d u _ he =>
            cases he
            rw [if_neg hc, this]

theorem simpleValue_suffix (ws : Char → Bool) (n : Nat) (s : List Char) (hn : s.length ≤ n) :
    (simpleValue ws s).2 <:+ s := by
  induction n generalizing s with
  | zero =>
    have : s = [] := List.length_eq_zero_iff.1 (by omega)
    subst this
    exact List.suffix_rfl
  | succ n ih =>
    rw [simpleValue.eq_def]
    split
    · exact List.suffix_rfl
    · next c s =>
      exact (ih s (by simp at hn; omega)).trans
        ((List.suffix_cons c s).trans (List.suffix_cons _ _))
    · next c s _ =>
      split
      · exact List.suffix_rfl
      · split
        · exact List.nil_suffix
        · exact (ih s (by simp at hn; omega)).trans (List.suffix_cons _ _)

theorem quotedValue_suffix (n : Nat) (s : List Char) (hn : s.length ≤ n) {v r : List Char}
    (h : quotedValue s = some (v, r)) : r <:+ s := by
  induction n generalizing s v r with
  | zero =>
    have : s = [] := List.length_eq_zero_iff.1 (by omega)
    subst this
    cases h
  | succ n ih =>
    rw [quotedValue.eq_def] at h
    split at h
    · cases h
    · next c s =>
      split at h
      · cases h
      · next q hq =>
        cases h
        exact (ih s (by simp at hn; omega) hq).trans
          ((List.suffix_cons c s).trans (List.suffix_cons _ _))
    · next c s _ =>
      split at h
      · cases h
        exact List.suffix_cons _ _
      · split at h
        · cases h
        · next q hq =>
          cases h
          exact (ih s (by simp at hn; omega) hq).trans (List.suffix_cons _ _)

theorem last_suffix {r s : List Char} {x : Char} (h : r <:+ s) (hs : s.getLast? ≠ some x) :
    r.getLast? ≠ some x := by
  obtain ⟨a, rfl⟩ := h
  intro h
  apply hs
  rw [List.getLast?_append, h]
  rfl

theorem kvValue_append {ws : Char → Bool} {t : List Char}
    (ht : ∃ c u, t = c :: u ∧ ws c = true ∧ c ≠ '\\') {s v r : List Char} (hs : s.getLast? ≠ some '\\')
    (h : kvValue ws s = some (v, r)) :
    kvValue ws (s ++ t) = some (v, r ++ t) ∧ r.getLast? ≠ some '\\' := by
  unfold kvValue at h
  split at h
  · next s =>
    refine ⟨quotedValue_append t _ s (Nat.le_refl _) h, last_suffix ?_ hs⟩
    exact (quotedValue_suffix _ s (Nat.le_refl _) h).trans (List.suffix_cons _ _)
  · next hq =>
    split at h
    · cases h
    · next hv =>
      have h1 : simpleValue ws s = (v, r) := by simpa using h
      have h2 := simpleValue_append ht _ s (Nat.le_refl _) hs
      rw [h1] at h2 hv
      refine ⟨?_, last_suffix ?_ hs⟩
      · unfold kvValue
        split
        · next u he =>
          cases s with
          | nil => simp [simpleValue] at h1; obtain ⟨h1, _⟩ := h1; exact absurd h1 (fun e => hv (by first | exact e | exact e.symm))
          | cons x s =>
            simp only [List.cons_append, List.cons.injEq] at he
            exact absurd (by rw [he.1]) (hq s)
        · rw [h2, if_neg hv]
      · have := simpleValue_suffix ws _ s (Nat.le_refl _)
        rwa [h1] at this

theorem simpleValue_plain {ws : Char → Bool} {v : List Char} (hv : PlainParam ws v) :
    simpleValue ws v = (v, []) := by
  induction v with
  | nil => rfl
  | cons c v ih =>
    have h1 := hv c List.mem_cons_self
    have hc : c ≠ '\\' := by
      rintro rfl
      exact h1.2 (by decide)
    have h2 := ih fun x hx => hv x (List.mem_cons_of_mem _ hx)
    rw [simpleValue.eq_def]
    split
    · next h => cases h
    · next h => cases h; exact absurd rfl hc
    · next h => cases h; simp [h1.1, hc, h2]

/-- Appending a pair to a string that can be read. -/
theorem kvPairs_append {ws : Char → Bool} (hsp : ws ' ' = true) (heq : ws '=' = false)
    {n v : List Char} (hn : PlainParam ws n) (hn' : n ≠ []) (hv : PlainParam ws v) (hv' : v ≠ [])
    (f : Nat) (s : List Char) (hs : s.getLast? ≠ some '\\') {ps : List (List Char × List Char)}
    (h : kvPairs ws f s = some ps) :
    kvPairs ws (f + 1) (s ++ ' ' :: (n ++ '=' :: v)) = some (ps ++ [(n, v)]) := by
  have ht : ∃ c u, ' ' :: (n ++ '=' :: v) = c :: u ∧ ws c = true ∧ c ≠ '\\' :=
    ⟨' ', _, rfl, hsp, by decide⟩
  induction f generalizing s ps with
  | zero => cases h
  | succ f ih =>
    simp only [kvPairs] at h
    unfold kvPairs
    rw [List.dropWhile_append]
    split at h
    · next hd =>
      cases h
      rw [hd]
      obtain ⟨c, n', rfl⟩ : ∃ c n', n = c :: n' := by
        cases n with
        | nil => exact absurd rfl hn'
        | cons c n' => exact ⟨c, n', rfl⟩
      have hc := (hn c List.mem_cons_self).1
      have h1 : List.dropWhile ws (' ' :: (c :: n' ++ '=' :: v)) = c :: (n' ++ '=' :: v) := by
        simp [hsp, hc]
      simp only [List.isEmpty_nil, if_true, h1]
      have h2 : (c :: (n' ++ '=' :: v)).takeWhile (fun x => !ws x && x != '=') = c :: n' := by
        rw [← List.cons_append, List.takeWhile_append_of_pos]
        · simp
        · intro x hx
          have h3 := hn x hx
          have : x ≠ '=' := by rintro rfl; exact h3.2 (by decide)
          simp [h3.1, this]
      rw [h2, ← List.cons_append, List.drop_left]
      have h4 : List.dropWhile ws ('=' :: v) = '=' :: v := by simp [heq]
      have h5 : List.dropWhile ws v = v := by
        cases v with
        | nil => rfl
        | cons x v => simp [(hv x List.mem_cons_self).1]
      have h6 : kvValue ws v = some (v, []) := by
        unfold kvValue
        split
        · next u => exact absurd (by decide) ((hv '\'' List.mem_cons_self).2)
        · rw [simpleValue_plain hv, if_neg hv']
      simp [h4, h5, h6, kvPairs]
    · next c s' hd =>
      rw [hd]
      simp only [List.isEmpty_cons, Bool.false_eq_true, if_false, List.cons_append]
      split at h
      · cases h
      next hk =>
      obtain ⟨r, hr, h⟩ : ∃ r, ((c :: s').drop ((c :: s').takeWhile
          (fun x => !ws x && x != '=')).length).dropWhile ws = '=' :: r ∧
          (match kvValue ws (r.dropWhile ws) with
          | none => none
          | some (v, rest) =>
            match kvPairs ws f rest with
            | none => none
            | some ps => some ((((c :: s').takeWhile fun x => !ws x && x != '='), v) :: ps)) =
              some ps := by
        split at h
        · next r hr => exact ⟨r, hr, h⟩
        · cases h
      split at h
      · cases h
      next w rest hw =>
      split at h
      · cases h
      next qs hq =>
      cases h
      have htw : (c :: (s' ++ ' ' :: (n ++ '=' :: v))).takeWhile (fun x => !ws x && x != '=') =
          (c :: s').takeWhile (fun x => !ws x && x != '=') := by
        rw [← List.cons_append, List.takeWhile_append]
        split
        · next h =>
          have : (' ' :: (n ++ '=' :: v)).takeWhile (fun x => !ws x && x != '=') = [] := by
            simp [hsp]
          rw [this, List.append_nil]
          exact ((List.takeWhile_prefix _).eq_of_length h).symm
        · rfl
      rw [htw, if_neg hk]
      have hle : ((c :: s').takeWhile (fun x => !ws x && x != '=')).length ≤ (c :: s').length :=
        (List.takeWhile_prefix _).length_le
      rw [← List.cons_append, List.drop_append_of_le_length hle, List.dropWhile_append, hr]
      simp only [List.isEmpty_cons, Bool.false_eq_true, if_false, List.cons_append]
      have hrs : r.dropWhile ws <:+ s := by
        have h1 : r <:+ (c :: s') := by
          have := List.dropWhile_suffix (l := (c :: s').drop
            ((c :: s').takeWhile (fun x => !ws x && x != '=')).length) ws
          rw [hr] at this
          exact (List.suffix_cons _ _).trans (this.trans (List.drop_suffix _ _))
        have h2 : (c :: s') <:+ s := by rw [← hd]; exact List.dropWhile_suffix _
        exact (List.dropWhile_suffix _).trans (h1.trans h2)
      have hne : r.dropWhile ws ≠ [] := by
        intro he
        rw [he] at hw
        simp [kvValue, simpleValue] at hw
      rw [List.dropWhile_append]
      have hemp : (r.dropWhile ws).isEmpty = false := by
        cases hx : r.dropWhile ws with
        | nil => exact absurd hx hne
        | cons => rfl
      rw [hemp]
      obtain ⟨h3, h4⟩ := kvValue_append ht (last_suffix hrs hs) hw
      simp only [Bool.false_eq_true, if_false, h3]
      rw [ih rest h4 hq]

theorem kvPairs_more {ws : Char → Bool} (f : Nat) (s : List Char) {ps : List (List Char × List Char)}
    (h : kvPairs ws f s = some ps) (k : Nat) : kvPairs ws (f + k) s = some ps := by
  induction f generalizing s ps with
  | zero => cases h
  | succ f ih =>
    rw [Nat.add_right_comm]
    simp only [kvPairs] at h ⊢
    split at h
    · exact h
    · next c s' hd =>
      split at h
      · cases h
      next hk =>
      rw [if_neg hk]
      split at h
      · next r hr =>
        split at h
        · cases h
        next w rest hw =>
        split at h
        · cases h
        next qs hq =>
        rw [ih rest hq]
        exact h
      · cases h

/-- Adding a pair to a key/value string. -/
theorem kvParams_append {ws : Char → Bool} (hsp : ws ' ' = true) (heq : ws '=' = false)
    {n v : List Char} (hn : PlainParam ws n) (hn' : n ≠ []) (hv : PlainParam ws v) (hv' : v ≠ [])
    (s : List Char) (hs : s.getLast? ≠ some '\\') {ps : List (List Char × List Char)}
    (h : kvParams ws s = some ps) :
    kvParams ws (s ++ ' ' :: (n ++ '=' :: v)) = some (ps ++ [(n, v)]) := by
  have h1 := kvPairs_append hsp heq hn hn' hv hv' _ s hs h
  have h2 := kvPairs_more _ _ h1 (n.length + v.length + 1)
  unfold kvParams
  rw [← h2]
  congr 1
  simp only [List.length_append, List.length_cons]
  omega

end Butane.ConnP
