/-
Lazily loaded values and foreign keys, sequential and concurrent.
Models butane_core/src/util.rs, butane_core/src/fkey.rs, and the key types it uses
(butane_core/src/autopk.rs).
-/
import Verif.Model.DataObject

namespace Butane

/-- How a call ends. -/
inductive Ret (α : Type) where
  | ok (a : α)
  | err (e : OpErr)
  | panic
deriving DecidableEq, Repr

/-- What foreign keys use of the model `T` they refer to and its key type `K`:
`DataObject::pk`, `ToSql::to_sql` (`none` where it panics: an uninitialised `AutoPk`,
autopk.rs:71-79), `FromSql::from_sql_ref` and `PartialEq` of the key type. -/
structure KeyOps (T K : Type) where
  pkOf : T → K
  toSql : K → Option SqlVal
  fromSql : SqlVal → Except OpErr K
  eq : K → K → Bool

/-- `AutoPk<i64>`: `to_sql` autopk.rs:71-79, `from_sql_ref` autopk.rs:47-55 with that of
`i64` (sqlval.rs:366-385, 413-423: only `BigInt`), `eq` autopk.rs:81-89. -/
def autoI64 (T : Type) (pk : T → Option Int64) : KeyOps T (Option Int64) where
  pkOf := pk
  toSql k := k.map .bigInt
  fromSql
    | .bigInt i => .ok (some i)
    | _ => .error .decode
  eq a b :=
    match a, b with
    | some x, some y => x == y
    | _, _ => false

/-- `ForeignKey<T>`, fkey.rs:36-46: the contents of its two `OnceLock`s. -/
structure FKey (T : Type) where
  val : Option T
  valpk : Option SqlVal
deriving DecidableEq, Repr

namespace FKey
variable {T K : Type} (ops : KeyOps T K)

/-- `from_pk`, fkey.rs:49-53. -/
def fromPk (k : K) : Ret (FKey T) :=
  match ops.toSql k with
  | some v => .ok ⟨none, some v⟩
  | none => .panic

/-- `From<T>`, fkey.rs:141-147. -/
def ofObj (t : T) : FKey T := ⟨some t, none⟩

/-- `From<&T>`, fkey.rs:148-152. -/
def ofRef (t : T) : Ret (FKey T) := fromPk ops (ops.pkOf t)

/-- `FromSql::from_sql_ref`, fkey.rs:187-197. -/
def fromSqlRef (v : SqlVal) : FKey T := ⟨none, some v⟩

/-- `get`, fkey.rs:57-62. -/
def get (f : FKey T) : Ret T :=
  match f.val with
  | some t => .ok t
  | none => .err .valueNotLoaded

/-- `pk`, fkey.rs:65-73. -/
def pk (f : FKey T) : Ret K :=
  match f.val with
  | some t => .ok (ops.pkOf t)
  | none =>
    match f.valpk with
    | some v =>
      match ops.fromSql v with
      | .ok k => .ok k
      | .error _ => .panic
    | none => .panic

/-- `ensure_valpk`, fkey.rs:82-91, for one thread; this is also `to_sql`, `to_sql_ref`
and `into_sql`, fkey.rs:165-179. -/
def toSql (f : FKey T) : Ret SqlVal × FKey T :=
  match f.valpk with
  | some v => (.ok v, f)
  | none =>
    match f.val with
    | none => (.panic, f)
    | some t =>
      match ops.toSql (ops.pkOf t) with
      | none => (.panic, f)
      | some v => (.ok v, { f with valpk := some v })

/-- `load`, fkey.rs:126-139 (110-124 for async), with `get_or_init_once_lock`,
util.rs:5-15, for one thread.  `fetch` is `DataObject::get`. -/
def load (fetch : K → Except OpErr T) (f : FKey T) : Ret T × FKey T :=
  match f.val with
  | some t => (.ok t, f)
  | none =>
    match f.valpk with
    | none => (.panic, f)
    | some v =>
      match ops.fromSql v with
      | .error e => (.err e, f)
      | .ok k =>
        match fetch k with
        | .error e => (.err e, f)
        | .ok t => (.ok t, { f with val := some t })

/-- `PartialEq`, fkey.rs:198-212; `other` is `other.as_pk()`. -/
def eq (f : FKey T) (other : K) : Ret Bool :=
  match f.val with
  | some t => .ok (ops.eq (ops.pkOf t) other)
  | none =>
    match f.valpk with
    | some v =>
      match ops.toSql other with
      | some w => .ok (v.beq w)
      | none => .panic
    | none => .panic

end FKey

/-! ### Threads

A thread is at a point between two accesses of a `OnceLock`; each access is one step
(`OnceLock::get` and `OnceLock::set` are atomic).  The fetch from the database is a step
of its own, with any answer that `answers` allows. -/

/-- Where a thread is in `get_or_init_once_lock`, util.rs:5-15 (20-39 for async). -/
inductive InitPc (α : Type) where
  | check
  | fetch
  | set (a : α)
  | read
  | done (r : Ret α)
deriving DecidableEq

/-- One step of one thread. -/
inductive InitStep {α : Type} (answers : Except OpErr α → Prop) :
    Option α → InitPc α → Option α → InitPc α → Prop
  | hit {a} : InitStep answers (some a) .check (some a) (.done (.ok a))
  | miss : InitStep answers none .check none .fetch
  | failed {c e} : answers (.error e) → InitStep answers c .fetch c (.done (.err e))
  | fetched {c a} : answers (.ok a) → InitStep answers c .fetch c (.set a)
  | set {a} : InitStep answers none (.set a) (some a) .read
  | set_late {b a} : InitStep answers (some b) (.set a) (some b) .read
  | read {a} : InitStep answers (some a) .read (some a) (.done (.ok a))
  | read_none : InitStep answers none .read none (.done .panic)


/-- What a thread does with a foreign key. -/
inductive FCall where
  | pk
  | toSql
  | load
deriving DecidableEq

/-- Where a thread is in `pk`, `ensure_valpk` or `load`. -/
inductive FPc (T K : Type) where
  | pkVal
  | pkValpk
  | pkDone (r : Ret K)
  | sqlValpk
  | sqlVal
  | sqlSet (v : SqlVal)
  | sqlRead
  | sqlDone (r : Ret SqlVal)
  | loadVal
  | loadValpk
  | loadFetch (k : K)
  | loadSet (t : T)
  | loadRead
  | loadDone (r : Ret T)

/-- Where a call begins. -/
def FCall.start {T K : Type} : FCall → FPc T K
  | .pk => .pkVal
  | .toSql => .sqlValpk
  | .load => .loadVal

/-- One step of one thread on a shared foreign key: `pk` fkey.rs:65-73, `ensure_valpk`
fkey.rs:82-91, `load` fkey.rs:110-139.  `answers k` are the possible results of
`DataObject::get` with key `k`. -/
inductive FStep {T K : Type} (ops : KeyOps T K) (answers : K → Except OpErr T → Prop) :
    FKey T → FPc T K → FKey T → FPc T K → Prop
  | pkVal {f t} : f.val = some t → FStep ops answers f .pkVal f (.pkDone (.ok (ops.pkOf t)))
  | pkVal_none {f} : f.val = none → FStep ops answers f .pkVal f .pkValpk
  | pkValpk {f v k} : f.valpk = some v → ops.fromSql v = .ok k →
      FStep ops answers f .pkValpk f (.pkDone (.ok k))
  | pkValpk_bad {f v e} : f.valpk = some v → ops.fromSql v = .error e →
      FStep ops answers f .pkValpk f (.pkDone .panic)
  | pkValpk_none {f} : f.valpk = none → FStep ops answers f .pkValpk f (.pkDone .panic)
  | sqlValpk {f v} : f.valpk = some v → FStep ops answers f .sqlValpk f (.sqlDone (.ok v))
  | sqlValpk_none {f} : f.valpk = none → FStep ops answers f .sqlValpk f .sqlVal
  | sqlVal {f t v} : f.val = some t → ops.toSql (ops.pkOf t) = some v →
      FStep ops answers f .sqlVal f (.sqlSet v)
  | sqlVal_bad {f t} : f.val = some t → ops.toSql (ops.pkOf t) = none →
      FStep ops answers f .sqlVal f (.sqlDone .panic)
  | sqlVal_none {f} : f.val = none → FStep ops answers f .sqlVal f (.sqlDone .panic)
  | sqlSet {f v} : f.valpk = none → FStep ops answers f (.sqlSet v) { f with valpk := some v } .sqlRead
  | sqlSet_late {f v w} : f.valpk = some w → FStep ops answers f (.sqlSet v) f (.sqlDone .panic)
  | sqlRead {f v} : f.valpk = some v → FStep ops answers f .sqlRead f (.sqlDone (.ok v))
  | sqlRead_none {f} : f.valpk = none → FStep ops answers f .sqlRead f (.sqlDone .panic)
  | loadVal {f t} : f.val = some t → FStep ops answers f .loadVal f (.loadDone (.ok t))
  | loadVal_none {f} : f.val = none → FStep ops answers f .loadVal f .loadValpk
  | loadValpk {f v k} : f.valpk = some v → ops.fromSql v = .ok k →
      FStep ops answers f .loadValpk f (.loadFetch k)
  | loadValpk_bad {f v e} : f.valpk = some v → ops.fromSql v = .error e →
      FStep ops answers f .loadValpk f (.loadDone (.err e))
  | loadValpk_none {f} : f.valpk = none → FStep ops answers f .loadValpk f (.loadDone .panic)
  | loadFetch {f k t} : answers k (.ok t) → FStep ops answers f (.loadFetch k) f (.loadSet t)
  | loadFetch_err {f k e} : answers k (.error e) → FStep ops answers f (.loadFetch k) f (.loadDone (.err e))
  | loadSet {f t} : f.val = none → FStep ops answers f (.loadSet t) { f with val := some t } .loadRead
  | loadSet_late {f t u} : f.val = some u → FStep ops answers f (.loadSet t) f .loadRead
  | loadRead {f t} : f.val = some t → FStep ops answers f .loadRead f (.loadDone (.ok t))
  | loadRead_none {f} : f.val = none → FStep ops answers f .loadRead f (.loadDone .panic)

end Butane
