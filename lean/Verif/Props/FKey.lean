/-
C27 - C29, C56: foreign keys and lazily loaded values, in sequence and concurrently.

The operations and the steps of threads are those of Model/FKey.lean.
-/
import Verif.Spec.FKey

namespace Butane.Props
open Butane Spec

/-! ### Fixtures -/

/-- A blog with an automatic key: key and name. -/
abbrev FBlog := Option Int64 × String

def blogKey : KeyOps FBlog (Option Int64) := autoI64 FBlog (·.1)

/-- A database with one blog. -/
def oneBlog (k : Option Int64) : Except OpErr FBlog :=
  if k = some 7 then .ok (some 7, "cats") else .error .noSuchObject

theorem blogKey_roundTrip : KeyRoundTrip blogKey := by
  intro k v h
  cases k with
  | none => cases h
  | some i =>
    cases h
    rfl

/-! ### C27 -/

variable {T K : Type} {ops : KeyOps T K}

/-- C27: how a foreign key gets its key: from a key, from an object, from a reference to
an object, or from a column. -/
theorem fkey_made (hrt : KeyRoundTrip ops) :
    (∀ k f, FKey.fromPk ops k = .ok f → KeyIs ops k f) ∧
    (∀ t, KeyIs ops (ops.pkOf t) (FKey.ofObj t)) ∧
    (∀ t f, FKey.ofRef ops t = .ok f → KeyIs ops (ops.pkOf t) f) ∧
    (∀ v k, ops.fromSql v = .ok k → KeyIs ops k (FKey.fromSqlRef v)) := by
  have h1 : ∀ k f, FKey.fromPk ops k = .ok f → KeyIs ops k f := by
    intro k f h
    unfold FKey.fromPk at h
    split at h
    · rename_i v hv
      cases h
      exact ⟨fun t ht => (nomatch ht), fun w hw => (by cases hw; exact hrt k _ hv), .inr (by simp)⟩
    · cases h
  refine ⟨h1, ?_, fun t f h => h1 _ f h, ?_⟩
  · intro t
    exact ⟨fun u hu => (by cases hu; rfl), fun v hv => (nomatch hv), .inl (by simp [FKey.ofObj])⟩
  · intro v k h
    exact ⟨fun u hu => (nomatch hu), fun w hw => (by cases hw; exact h), .inr (by simp [FKey.fromSqlRef])⟩

theorem fStep_refers {k : K} (hrt : KeyRoundTrip ops) (hk : ops.toSql k ≠ none) {f : FKey T}
    (h : KeyIs ops k f) {o : FOp T K}
    (hf : ∀ fetch, o = .load fetch → SoundFetch ops (fun k r => fetch k = r)) :
    GoodReply ops k (fStep ops f o).1 ∧ KeyIs ops k (fStep ops f o).2 := by
  obtain ⟨val, valpk⟩ := f
  obtain ⟨h1, h2, h3⟩ := h
  cases o with
  | pk =>
    refine ⟨?_, h1, h2, h3⟩
    cases val with
    | some t => simp [fStep, GoodReply, FKey.pk, h1 t rfl]
    | none =>
      cases valpk with
      | some v => simp [fStep, GoodReply, FKey.pk, h2 v rfl]
      | none => simp at h3
  | get =>
    refine ⟨?_, h1, h2, h3⟩
    cases val with
    | some t => exact .inl ⟨t, rfl, h1 t rfl⟩
    | none => exact .inr rfl
  | toSql =>
    cases valpk with
    | some v => exact ⟨⟨v, rfl, h2 v rfl⟩, h1, h2, h3⟩
    | none =>
      cases val with
      | none => simp at h3
      | some t =>
        have ht := h1 t rfl
        cases hv : ops.toSql k with
        | none => exact absurd hv hk
        | some v =>
          have he : fStep ops ⟨some t, none⟩ .toSql = (.toSql (.ok v), ⟨some t, some v⟩) := by
            simp [fStep, FKey.toSql, ht, hv]
          rw [he]
          exact ⟨⟨v, rfl, hrt k v hv⟩, h1, fun w hw => by cases hw; exact hrt k v hv, .inl (by simp)⟩
  | load fetch =>
    cases val with
    | some t => exact ⟨.inl ⟨t, rfl, h1 t rfl⟩, h1, h2, h3⟩
    | none =>
      cases valpk with
      | none => simp at h3
      | some v =>
        have hd := h2 v rfl
        cases hfe : fetch k with
        | error e =>
          have he : fStep ops ⟨none, some v⟩ (.load fetch) = (.load (.err e), ⟨none, some v⟩) := by
            simp [fStep, FKey.load, hd, hfe]
          rw [he]
          exact ⟨.inr ⟨e, rfl⟩, h1, h2, h3⟩
        | ok t =>
          have he : fStep ops ⟨none, some v⟩ (.load fetch) = (.load (.ok t), ⟨some t, some v⟩) := by
            simp [fStep, FKey.load, hd, hfe]
          rw [he]
          have ht : ops.pkOf t = k := hf fetch rfl k t hfe
          exact ⟨.inl ⟨t, rfl, ht⟩, fun u hu => by cases hu; exact ht, h2, .inl (by simp)⟩

/-- C27: in every history of `pk`, `get`, `to_sql` and `load` calls, with any answers of
the database, a foreign key that refers to `k` reports `k`, objects with key `k`, and
never panics.

The key must be one that can be stored, i.e. not an uninitialised automatic key. -/
theorem fkey_history {k : K} (hrt : KeyRoundTrip ops) (hk : ops.toSql k ≠ none) :
    ∀ (os : List (FOp T K)), (∀ fetch, .load fetch ∈ os → SoundFetch ops (fun k r => fetch k = r)) →
      ∀ {f : FKey T}, KeyIs ops k f →
      (∀ r ∈ (fRun ops f os).1, GoodReply ops k r) ∧ KeyIs ops k (fRun ops f os).2 := by
  intro os
  induction os with
  | nil => exact fun _ f h => ⟨by simp [fRun], h⟩
  | cons o os ih =>
    intro hf f h
    obtain ⟨h1, h2⟩ := fStep_refers hrt hk h (o := o) (fun fetch he => hf fetch (by simp [he]))
    obtain ⟨h3, h4⟩ := ih (fun fetch he => hf fetch (by simp [he])) h2
    refine ⟨?_, h4⟩
    intro r hr
    rcases List.mem_cons.1 hr with rfl | hr
    · exact h1
    · exact h3 r hr

theorem fStep_val {f : FKey T} {t : T} (h : f.val = some t) (o : FOp T K) :
    IsObject t (fStep ops f o).1 ∧ (fStep ops f o).2.val = some t := by
  obtain ⟨val, valpk⟩ := f
  obtain rfl : val = some t := h
  cases o with
  | pk => exact ⟨trivial, rfl⟩
  | get => exact ⟨rfl, rfl⟩
  | load fetch => exact ⟨rfl, rfl⟩
  | toSql =>
    refine ⟨trivial, ?_⟩
    simp only [fStep, FKey.toSql]
    split
    · rfl
    · split <;> rfl

/-- C27: once a load has returned an object, all later loads and gets return that object,
whatever the database answers: it is not fetched again. -/
theorem fkey_loaded_once {f f' : FKey T} {fetch : K → Except OpErr T} {t : T}
    (h : f.load ops fetch = (.ok t, f')) (os : List (FOp T K)) :
    (∀ r ∈ (fRun ops f' os).1, IsObject t r) ∧ (fRun ops f' os).2.val = some t := by
  have h0 : f'.val = some t := by
    unfold FKey.load at h
    split at h
    · cases h; assumption
    · split at h
      · cases h
      · split at h
        · cases h
        · split at h
          · cases h
          · cases h; rfl
  clear h
  induction os generalizing f' with
  | nil => exact ⟨by simp [fRun], h0⟩
  | cons o os ih =>
    obtain ⟨h1, h2⟩ := fStep_val (ops := ops) h0 o
    obtain ⟨h3, h4⟩ := ih h2
    refine ⟨?_, h4⟩
    intro r hr
    rcases List.mem_cons.1 hr with rfl | hr
    · exact h1
    · exact h3 r hr

/-- C27: a foreign key is stored as the same value every time. -/
theorem fkey_stored_once {f : FKey T} {v : SqlVal} (h : (f.toSql ops).1 = .ok v)
    (os : List (FOp T K)) :
    ∀ w, .toSql w ∈ (fRun ops (f.toSql ops).2 os).1 → w = .ok v := by
  have h0 : (f.toSql ops).2.valpk = some v := by
    unfold FKey.toSql at h ⊢
    split at h
    · rename_i hv
      cases h
      simp [hv]
    · split at h
      · cases h
      · split at h
        · cases h
        · cases h
          simp_all
  generalize (f.toSql ops).2 = g at h0
  clear h
  induction os generalizing g with
  | nil => intro w hw; cases hw
  | cons o os ih =>
    have hstep : (fStep ops g o).2.valpk = some v ∧ ∀ w, (fStep ops g o).1 = .toSql w → w = .ok v := by
      cases o with
      | pk => exact ⟨h0, fun w hw => nomatch hw⟩
      | get => exact ⟨h0, fun w hw => nomatch hw⟩
      | toSql =>
        simp only [fStep, FKey.toSql, h0]
        exact ⟨trivial, fun w hw => by cases hw; rfl⟩
      | load fetch =>
        refine ⟨?_, fun w hw => nomatch hw⟩
        simp only [fStep, FKey.load, h0]
        split
        · exact h0
        · split
          · exact h0
          · split
            · exact h0
            · rfl
    intro w hw
    rcases List.mem_cons.1 hw with hw | hw
    · exact hstep.2 w hw.symm
    · exact ih _ hstep.1 w hw

/-- C27: a failed load changes nothing, so that it can be tried again. -/
theorem fkey_failed_load {f f' : FKey T} {fetch : K → Except OpErr T} {e : OpErr}
    (h : f.load ops fetch = (.err e, f')) : f' = f ∧ f'.get = .err .valueNotLoaded := by
  unfold FKey.load at h
  split at h
  · cases h
  · rename_i hv
    split at h
    · cases h
    · split at h
      · cases h; exact ⟨rfl, by simp [FKey.get, hv]⟩
      · split at h
        · cases h; exact ⟨rfl, by simp [FKey.get, hv]⟩
        · cases h

/-- A history: the first load fails, the second one succeeds, the third one would fail. -/
def blogCalls : List (FOp FBlog (Option Int64)) :=
  [.pk, .load (fun _ => .error .db), .get, .load oneBlog, .load (fun _ => .error .db), .toSql, .get]

example : FKey.fromPk blogKey (some 7) = .ok ⟨none, some (.bigInt 7)⟩ ∧
    (fRun blogKey ⟨none, some (.bigInt 7)⟩ blogCalls).1 =
      [.pk (.ok (some 7)), .load (.err .db), .get (.err .valueNotLoaded), .load (.ok (some 7, "cats")),
       .load (.ok (some 7, "cats")), .toSql (.ok (.bigInt 7)), .get (.ok (some 7, "cats"))] :=
  ⟨rfl, rfl⟩

example : ∀ r ∈ (fRun blogKey ⟨none, some (.bigInt 7)⟩ blogCalls).1, GoodReply blogKey (some 7) r := by
  refine (fkey_history blogKey_roundTrip (by decide) blogCalls ?_
    ((fkey_made blogKey_roundTrip).1 (some 7) _ rfl)).1
  intro fetch h k t hf
  simp only [blogCalls, List.mem_cons, List.not_mem_nil, or_false, reduceCtorEq, false_or,
    FOp.load.injEq] at h
  rcases h with rfl | rfl | rfl
  · cases hf
  · simp only [oneBlog] at hf
    split at hf
    · rename_i he
      cases hf
      rw [he]
      rfl
    · cases hf
  · cases hf

/-- A foreign key made from an object that has not been saved panics when it is stored:
the hypothesis on the key is needed. -/
theorem fkey_unsaved_violated : FKey.toSql blogKey (FKey.ofObj (none, "new")) =
    (.panic, FKey.ofObj (none, "new")) ∧ FKey.ofRef blogKey (none, "new") = .panic := ⟨rfl, rfl⟩

/-- A foreign key read from a column with a value of another type panics when asked for
its key, although reading it succeeded. -/
theorem fkey_bad_column_violated :
    FKey.pk blogKey (FKey.fromSqlRef (.text "seven")) = .panic := rfl

/-! ### C56 -/

/-- C56: whether a foreign key equals another key does not depend on whether it has been
loaded.  Partial: the other key must be storable (`fkey_eq_unsaved_violated`), and the
conversion to the database must keep keys apart. -/
theorem fkey_eq_partial {k other : K} {f : FKey T} (h : KeyIs ops k f)
    (hpk : ∀ v, f.valpk = some v → ops.toSql k = some v)
    (hs : ops.toSql other ≠ none)
    (heq : ∀ a b v w, ops.toSql a = some v → ops.toSql b = some w → v.beq w = ops.eq a b) :
    f.eq ops other = .ok (ops.eq k other) := by
  obtain ⟨val, valpk⟩ := f
  cases val with
  | some t => simp [FKey.eq, h.val t rfl]
  | none =>
    cases valpk with
    | none => exact absurd h.some_ (by simp)
    | some v =>
      cases ho : ops.toSql other with
      | none => exact absurd ho hs
      | some w => simp [FKey.eq, ho, heq k other v w (hpk v rfl) ho]

theorem blogKey_eq : ∀ a b v w, blogKey.toSql a = some v → blogKey.toSql b = some w →
    v.beq w = blogKey.eq a b := by
  intro a b v w ha hb
  cases a with
  | none => cases ha
  | some x =>
    cases b with
    | none => cases hb
    | some y =>
      cases ha
      cases hb
      rfl

example : FKey.eq blogKey ⟨none, some (.bigInt 7)⟩ (some 7) = .ok true ∧
    FKey.eq blogKey ⟨some (some 7, "cats"), some (.bigInt 7)⟩ (some 8) = .ok false := by
  refine ⟨fkey_eq_partial (k := some 7) ?_ ?_ (by decide) blogKey_eq,
    fkey_eq_partial (k := some 7) ?_ ?_ (by decide) blogKey_eq⟩
  · exact (fkey_made blogKey_roundTrip).1 (some 7) _ rfl
  · intro v hv; cases hv; rfl
  · exact ⟨fun t ht => by cases ht; rfl, fun v hv => by cases hv; rfl, .inl (by simp)⟩
  · intro v hv; cases hv; rfl

/-- C56 is false of the code: compared with an object that has not been saved, an
unloaded foreign key panics and a loaded one is different. -/
theorem fkey_eq_unsaved_violated :
    FKey.eq blogKey ⟨none, some (.bigInt 7)⟩ none = .panic ∧
    FKey.eq blogKey ⟨some (some 7, "cats"), some (.bigInt 7)⟩ none = .ok false := ⟨rfl, rfl⟩

/-! ### C28 -/

section init
variable {ι α : Type} [DecidableEq ι] {answers : Except OpErr α → Prop}

/-- What is true at a thread's position. -/
def InitOK (c₀ : Option α) (answers : Except OpErr α → Prop) (c : Option α) : InitPc α → Prop
  | .set a => answers (.ok a)
  | .read => c ≠ none
  | .done (.ok a) => c = some a
  | .done (.err e) => answers (.error e)
  | .done .panic => False
  | .check => True
  | .fetch => c₀ = none

theorem init_step_mono {c c' : Option α} {p q : InitPc α} (h : InitStep answers c p c' q) {a : α}
    (hc : c = some a) : c' = some a := by
  cases h <;> simp_all

theorem init_ok_mono {c₀ c c' : Option α} (hc : ∀ a, c = some a → c' = some a) {p : InitPc α}
    (h : InitOK c₀ answers c p) : InitOK c₀ answers c' p := by
  cases p with
  | read =>
    show c' ≠ none
    have h : c ≠ none := h
    cases c with
    | none => exact absurd rfl h
    | some a => rw [hc a rfl]; simp
  | done r =>
    cases r with
    | ok a => exact hc a h
    | err e => exact h
    | panic => exact h
  | _ => exact h

/-- C28: in every interleaving of any number of threads, everybody who gets a value gets
the value that is in the cell, nobody panics, errors are answers of the database, and the
value was there before or is an answer of the database. -/
theorem init_agree {c₀ c : Option α} {p : ι → InitPc α}
    (h : Interleaved (InitStep answers) c₀ (fun _ => .check) c p) :
    (∀ i a, p i = .done (.ok a) → c = some a) ∧
    (∀ i j a b, p i = .done (.ok a) → p j = .done (.ok b) → a = b) ∧
    (∀ i, p i ≠ .done .panic) ∧
    (∀ i e, p i = .done (.err e) → answers (.error e)) ∧
    (∀ a, c₀ = some a → c = some a) ∧
    (∀ a, c = some a → c₀ = some a ∨ answers (.ok a)) := by
  have key : (∀ i, InitOK c₀ answers c (p i)) ∧ (∀ a, c₀ = some a → c = some a) ∧
      (∀ a, c = some a → c₀ = some a ∨ answers (.ok a)) := by
    induction h with
    | start => exact ⟨fun _ => trivial, fun _ h => h, fun _ h => .inl h⟩
    | @step c p c' q i h hs ih =>
      obtain ⟨h1, h2, h3⟩ := ih
      have hq : InitOK c₀ answers c' q := by
        have hi := h1 i
        generalize p i = pi at hs hi
        cases hs with
        | hit => rfl
        | miss =>
          show c₀ = none
          cases hc : c₀ with
          | none => rfl
          | some a => cases h2 a hc
        | failed ha => exact ha
        | fetched ha => exact ha
        | set => show some _ ≠ none; simp
        | set_late => show some _ ≠ none; simp
        | read => rfl
        | read_none => exact absurd rfl hi
      refine ⟨?_, fun a ha => init_step_mono hs (h2 a ha), ?_⟩
      · intro j
        by_cases hj : j = i
        · simp only [hj, if_true]
          exact hq
        · simp only [hj, if_false]
          exact init_ok_mono (fun a ha => init_step_mono hs ha) (h1 j)
      · intro a ha
        have hi := h1 i
        generalize p i = pi at hs hi
        cases hs with
        | set =>
          cases ha
          exact .inr hi
        | _ => exact h3 a ha
  obtain ⟨h1, h2, h3⟩ := key
  have hval : ∀ i a, p i = .done (.ok a) → c = some a := by
    intro i a hi
    have := h1 i
    rw [hi] at this
    exact this
  refine ⟨hval, ?_, ?_, ?_, h2, h3⟩
  · intro i j a b hi hj
    exact Option.some.inj ((hval i a hi).symm.trans (hval j b hj))
  · intro i hi
    have := h1 i
    rw [hi] at this
    exact this
  · intro i e hi
    have := h1 i
    rw [hi] at this
    exact this

/-- C28: a value that is there stays, through every further interleaving. -/
theorem init_stable {c₀ c : Option α} {p₀ p : ι → InitPc α}
    (h : Interleaved (InitStep answers) c₀ p₀ c p) {a : α} (ha : c₀ = some a) : c = some a := by
  induction h with
  | start => exact ha
  | step i _ hs ih => exact init_step_mono hs ih

/-- The number of steps a thread still has to take. -/
def _root_.Butane.InitPc.rank {α : Type} : InitPc α → Nat
  | .check => 4
  | .fetch => 3
  | .set _ => 2
  | .read => 1
  | .done _ => 0

/-- C28: nobody waits for anybody else: a thread that is not done can always take a step
(as long as the database answers), and is done after at most four. -/
theorem init_progress (hans : ∃ r, answers r) (c : Option α) (p : InitPc α) :
    (p.rank ≠ 0 → ∃ c' q, InitStep answers c p c' q) ∧
    ∀ c' q, InitStep answers c p c' q → q.rank < p.rank := by
  constructor
  · intro hp
    cases p with
    | check =>
      cases c with
      | none => exact ⟨_, _, .miss⟩
      | some a => exact ⟨_, _, .hit⟩
    | fetch =>
      obtain ⟨r, hr⟩ := hans
      cases r with
      | error e => exact ⟨_, _, .failed hr⟩
      | ok a => exact ⟨_, _, .fetched hr⟩
    | set a =>
      cases c with
      | none => exact ⟨_, _, .set⟩
      | some b => exact ⟨_, _, .set_late⟩
    | read =>
      cases c with
      | none => exact ⟨_, _, .read_none⟩
      | some b => exact ⟨_, _, .read⟩
    | done r => exact absurd rfl hp
  · intro c' q h
    cases h <;> simp [InitPc.rank]

end init

/-- Two threads fetch different values; the second one gets the value of the first. -/
example : ∃ p : Nat → InitPc String,
    Interleaved (InitStep fun _ => True) none (fun _ => .check) (some "first") p ∧
    p 0 = .done (.ok "first") ∧ p 1 = .done (.ok "first") := by
  refine ⟨_, .step 1 (.step 1 (.step 0 (.step 0 (.step 1 (.step 0 (.step 1 (.step 0 .start .miss) .miss)
    (.fetched (a := "first") trivial)) (.fetched (a := "second") trivial)) .set) .read) .set_late) .read,
    rfl, rfl⟩

/-! ### C28 and C29 for foreign keys -/

section threads
variable {ι : Type} [DecidableEq ι] {answers : K → Except OpErr T → Prop}

/-- What is true at a thread's position. -/
def FOK (ops : KeyOps T K) (k : K) (sv : SqlVal) (f : FKey T) : FPc T K → Prop
  | .pkValpk => f.valpk ≠ none
  | .pkDone r => r = .ok k
  | .sqlVal => f.val ≠ none
  | .sqlSet v => v = sv
  | .sqlRead => f.valpk ≠ none
  | .sqlDone (.ok v) => f.valpk = some v
  | .sqlDone (.err _) => False
  | .loadValpk => f.valpk ≠ none
  | .loadFetch k' => k' = k
  | .loadSet t => ops.pkOf t = k
  | .loadRead => f.val ≠ none
  | .loadDone (.ok t) => f.val = some t
  | .loadDone .panic => False
  | _ => True

theorem fstep_mono {f f' : FKey T} {p q : FPc T K} (h : FStep ops answers f p f' q) :
    (∀ t, f.val = some t → f'.val = some t) ∧ (∀ v, f.valpk = some v → f'.valpk = some v) := by
  cases h <;> simp_all

theorem fok_mono {k : K} {sv : SqlVal} {f f' : FKey T} (h1 : ∀ t, f.val = some t → f'.val = some t)
    (h2 : ∀ v, f.valpk = some v → f'.valpk = some v) {p : FPc T K} (h : FOK ops k sv f p) :
    FOK ops k sv f' p := by
  have hv : f.val ≠ none → f'.val ≠ none := by
    intro hn
    cases hf : f.val with
    | none => exact absurd hf hn
    | some t => rw [h1 t hf]; simp
  have hp : f.valpk ≠ none → f'.valpk ≠ none := by
    intro hn
    cases hf : f.valpk with
    | none => exact absurd hf hn
    | some t => rw [h2 t hf]; simp
  cases p with
  | sqlDone r =>
    cases r with
    | ok v => exact h2 v h
    | err e => exact h
    | panic => trivial
  | loadDone r =>
    cases r with
    | ok t => exact h1 t h
    | err e => trivial
    | panic => exact h
  | pkValpk => exact hp h
  | sqlVal => exact hv h
  | sqlRead => exact hp h
  | loadValpk => exact hp h
  | loadRead => exact hv h
  | _ => exact h

theorem fthreads_inv {k : K} {sv : SqlVal} (hrt : KeyRoundTrip ops) (hk : ops.toSql k = some sv)
    (hans : SoundFetch ops answers) {f₀ f : FKey T} (h0 : KeyIs ops k f₀) {calls : ι → FCall}
    {p : ι → FPc T K} (h : Interleaved (FStep ops answers) f₀ (fun i => (calls i).start) f p) :
    KeyIs ops k f ∧ ∀ i, FOK ops k sv f (p i) := by
  induction h with
  | start =>
    refine ⟨h0, fun i => ?_⟩
    cases h : calls i <;> simp [FCall.start, FOK, h]
  | @step f p f' q i h hs ih =>
    obtain ⟨h1, h2⟩ := ih
    have hm := fstep_mono hs
    have hnew : KeyIs ops k f' ∧ FOK ops k sv f' q := by
      have hi := h2 i
      generalize p i = pi at hs hi
      have hvalpk : f.val = none → f.valpk ≠ none := by
        intro hn
        rcases h1.some_ with h | h
        · exact absurd hn h
        · exact h
      have hval : f.valpk = none → f.val ≠ none := by
        intro hn
        rcases h1.some_ with h | h
        · exact h
        · exact absurd hn h
      cases hs with
      | pkVal h => exact ⟨h1, by rw [FOK, h1.val _ h]⟩
      | pkVal_none h => exact ⟨h1, hvalpk h⟩
      | pkValpk h hd => exact ⟨h1, by
          rw [h1.valpk _ h] at hd
          cases hd
          rfl⟩
      | pkValpk_bad h hd => rw [h1.valpk _ h] at hd; cases hd
      | pkValpk_none h => exact absurd h hi
      | sqlValpk h => exact ⟨h1, h⟩
      | sqlValpk_none h => exact ⟨h1, hval h⟩
      | sqlVal h hd =>
        rw [h1.val _ h, hk] at hd
        cases hd
        exact ⟨h1, rfl⟩
      | sqlVal_bad h hd => exact ⟨h1, trivial⟩
      | sqlVal_none h => exact absurd h hi
      | sqlSet h =>
        obtain rfl : _ = sv := hi
        refine ⟨⟨h1.val, ?_, .inr (by simp)⟩, by simp [FOK]⟩
        intro v hv
        cases hv
        exact hrt k _ hk
      | sqlSet_late h => exact ⟨h1, trivial⟩
      | sqlRead h => exact ⟨h1, h⟩
      | sqlRead_none h => exact absurd h hi
      | loadVal h => exact ⟨h1, h⟩
      | loadVal_none h => exact ⟨h1, hvalpk h⟩
      | loadValpk h hd => exact ⟨h1, by
          rw [h1.valpk _ h] at hd
          cases hd
          rfl⟩
      | loadValpk_bad h hd => exact ⟨h1, trivial⟩
      | loadValpk_none h => exact absurd h hi
      | loadFetch h =>
        obtain rfl : _ = k := hi
        exact ⟨h1, hans _ _ h⟩
      | loadFetch_err h => exact ⟨h1, trivial⟩
      | loadSet h =>
        refine ⟨⟨?_, h1.valpk, .inl (by simp)⟩, by simp [FOK]⟩
        intro t ht
        cases ht
        exact hi
      | loadSet_late h => exact ⟨h1, by simp [FOK, h]⟩
      | loadRead h => exact ⟨h1, h⟩
      | loadRead_none h => exact absurd h hi
    refine ⟨hnew.1, fun j => ?_⟩
    by_cases hj : j = i
    · simp only [hj, if_true]
      exact hnew.2
    · simp only [hj, if_false]
      exact fok_mono hm.1 hm.2 (h2 j)

/-- C28: any number of threads call `load`, `pk` and `to_sql` on one foreign key that
refers to `k`, in any interleaving.  No `load` or `pk` panics, every `load` that succeeds
returns the same object, which has key `k`, and every `pk` returns `k`. -/
theorem fkey_concurrent {k : K} {sv : SqlVal} (hrt : KeyRoundTrip ops) (hk : ops.toSql k = some sv)
    (hans : SoundFetch ops answers) {f₀ f : FKey T} (h0 : KeyIs ops k f₀) {calls : ι → FCall}
    {p : ι → FPc T K} (h : Interleaved (FStep ops answers) f₀ (fun i => (calls i).start) f p) :
    (∀ i r, p i = .pkDone r → r = .ok k) ∧
    (∀ i, p i ≠ .loadDone .panic) ∧
    (∀ i t, p i = .loadDone (.ok t) → ops.pkOf t = k) ∧
    (∀ i j t u, p i = .loadDone (.ok t) → p j = .loadDone (.ok u) → t = u) ∧
    (∀ i v, p i = .sqlDone (.ok v) → ops.fromSql v = .ok k) ∧
    KeyIs ops k f := by
  obtain ⟨h1, h2⟩ := fthreads_inv hrt hk hans h0 h
  have at_ : ∀ {i q}, p i = q → FOK ops k sv f q := fun {i q} hq => hq ▸ h2 i
  refine ⟨fun i r hi => at_ hi, fun i hi => at_ hi, fun i t hi => h1.val t (at_ hi), ?_,
    fun i v hi => h1.valpk v (at_ hi), h1⟩
  intro i j t u hi hj
  have ha : f.val = some t := at_ hi
  have hb : f.val = some u := at_ hj
  exact Option.some.inj (ha.symm.trans hb)

/-- C29.  Partial: the key value must be there when the threads start, as in every
foreign key made from a key or read from the database
(`fkey_concurrent_to_sql_violated`). -/
theorem fkey_concurrent_to_sql_partial {k : K} {sv : SqlVal} (hrt : KeyRoundTrip ops)
    (hk : ops.toSql k = some sv) (hans : SoundFetch ops answers) {f₀ f : FKey T}
    (h0 : KeyIs ops k f₀) {v₀ : SqlVal} (hv : f₀.valpk = some v₀) {calls : ι → FCall}
    {p : ι → FPc T K} (h : Interleaved (FStep ops answers) f₀ (fun i => (calls i).start) f p) :
    ∀ i r, p i = .sqlDone r → r = .ok v₀ := by
  have key : f.valpk = some v₀ ∧ ∀ i, p i ≠ .sqlVal ∧ (∀ v, p i ≠ .sqlSet v) ∧ p i ≠ .sqlDone .panic := by
    induction h with
    | start =>
      refine ⟨hv, fun i => ?_⟩
      cases hc : calls i <;> simp [FCall.start, hc]
    | @step f p f' q i h hs ih =>
      obtain ⟨g1, g2⟩ := ih
      refine ⟨(fstep_mono hs).2 _ g1, fun j => ?_⟩
      by_cases hj : j = i
      · simp only [hj, if_true]
        have hi := g2 i
        generalize p i = pi at hs hi
        cases hs <;> simp_all
      · simp only [hj, if_false]
        exact g2 j
  have hinv := (fthreads_inv hrt hk hans h0 h).2
  intro i r hi
  cases r with
  | ok v =>
    have : FOK ops k sv f (.sqlDone (.ok v)) := hi ▸ hinv i
    rw [Option.some.inj (this.symm.trans key.1)]
  | err e =>
    have : FOK ops k sv f (.sqlDone (.err e)) := hi ▸ hinv i
    exact this.elim
  | panic => exact absurd hi (key.2 i).2.2

end threads

/-- C29 is false of the code: a foreign key made from an object, converted by two threads
at the same time. -/
theorem fkey_concurrent_to_sql_violated :
    ∃ f p, Interleaved (FStep blogKey fun k r => oneBlog k = r) (FKey.ofObj (some 7, "cats"))
      (fun _ : Nat => FCall.toSql.start) f p ∧ p 0 = .sqlRead ∧ p 1 = .sqlDone .panic := by
  refine ⟨⟨some (some 7, "cats"), some (.bigInt 7)⟩, _,
    .step 1 (.step 0 (.step 1 (.step 0 (.step 1 (.step 0 .start (.sqlValpk_none rfl)) (.sqlValpk_none rfl))
      (.sqlVal rfl rfl)) (.sqlVal rfl rfl)) (.sqlSet rfl)) (.sqlSet_late rfl), rfl, rfl⟩

/-- Two threads load, a third one converts; the answer of the second fetch is dropped. -/
example : ∃ f p, Interleaved (FStep blogKey fun k r => oneBlog k = r) ⟨none, some (.bigInt 7)⟩
    (fun i : Nat => (if i = 2 then FCall.toSql else .load).start) f p ∧
    p 0 = .loadDone (.ok (some 7, "cats")) ∧ p 1 = .loadRead ∧ p 2 = .sqlDone (.ok (.bigInt 7)) := by
  refine ⟨⟨some (some 7, "cats"), some (.bigInt 7)⟩, _,
    .step 1 (.step 0 (.step 0 (.step 2 (.step 1 (.step 0 (.step 1 (.step 0 (.step 1 (.step 0 .start
      (.loadVal_none rfl)) (.loadVal_none rfl)) (.loadValpk rfl rfl)) (.loadValpk rfl rfl))
      (.loadFetch (t := (some 7, "cats")) rfl)) (.loadFetch (t := (some 7, "cats")) rfl))
      (.sqlValpk rfl)) (.loadSet rfl)) (.loadRead rfl)) (.loadSet_late rfl), rfl, rfl, rfl⟩

example : SoundFetch blogKey (fun k r => oneBlog k = r) := by
  intro k t h
  simp only [oneBlog] at h
  split at h
  · rename_i he
    cases h
    rw [he]
    rfl
  · cases h

end Butane.Props
