/-
The history of a project: its code changes, migrations are made and run, and programs store objects.
-/
import Verif.Spec.ObjMany
import Verif.Spec.CrateDb
import Verif.Spec.ClearData
import Verif.Spec.SqliteUndo
import Verif.Model.CliData

namespace Butane.Spec
open Butane Butane.Ddl Butane.Codegen

/-- The objects and `Many` fields are those of the models of the crate. -/
structure CrateWorld (ft : Features) (items : List Item) (k : SqliteConn) (W : World) : Prop where
  stock : ∀ n s, W.stock n = some s → ∃ st ∈ modelsOf items, n = tableOf st ∧ UsableModel ft items k st s.m s.pk
  models : ∀ st ∈ modelsOf items, ∃ s, W.stock (tableOf st) = some s
  links : ∀ n L, W.links n = some L → ∃ st ∈ modelsOf items, ∃ f ∈ st.fields, ∃ q, IsMany f q ∧
    ∃ st' ∈ modelsOf items, q.last.name = st'.ident.name ∧
      n = tableOf st ++ "_" ++ f.ident.name ++ "_Many" ∧
      (∃ s, W.stock (tableOf st) = some s ∧ s.pk = L.owner) ∧
      ∃ s, W.stock (tableOf st') = some s ∧ s.pk = L.target
  many : ∀ st ∈ modelsOf items, ∀ f ∈ st.fields, ∀ q, IsMany f q →
    ∃ L, W.links (tableOf st ++ "_" ++ f.ident.name ++ "_Many") = some L

/-- `o'` is what becomes of `o` when its model changes: the fields both have have the same values, and the
new ones have their defaults. -/
structure ObjBecomes (m m' : TModel) (Default : String → (t : FieldTy) → t.Val → Prop)
    (o : ObjVals m.fields) (o' : ObjVals m'.fields) : Prop where
  kept : ∀ n t x, valueOf n m.fields o = some ⟨t, x⟩ → HasField m' n t → valueOf n m'.fields o' = some ⟨t, x⟩
  added : ∀ n t, HasField m' n t → ¬ HasField m n t → ∃ x, valueOf n m'.fields o' = some ⟨t, x⟩ ∧ Default n t x

/-- The objects of a model when it changes: of every object becomes one with the same key, and there are
no others. -/
structure StockBecomes (codecs : TextCodecs) (st : Struct) (s s' : Stock) : Prop where
  model : Extends s.m s'.m s.pk s'.pk
  objs : ∀ id, KeyLike s.pk id → Both (ObjBecomes s.m s'.m (StructDefault codecs st)) (s.objs id) (s'.objs id)

/-- What becomes of objects and `Many` fields when the code changes, `items` being the new code: models that
stay keep their objects, new ones have none; `Many` fields that stay keep their items, new ones have
none.  (No model takes the table of a `Many` field, and the other way around.) -/
structure WorldBecomes (codecs : TextCodecs) (items : List Item) (W W' : World) : Prop where
  stock : ∀ n s', W'.stock n = some s' → W.links n = none ∧
    (W.stock n = none → ∀ id, s'.objs id = none) ∧
    ∀ s, W.stock n = some s → ∃ st ∈ modelsOf items, n = tableOf st ∧ StockBecomes codecs st s s'
  links : ∀ n L', W'.links n = some L' → W.stock n = none ∧
    (W.links n = none → ∀ x y, ¬ L'.linked x y) ∧
    ∀ L, W.links n = some L → L'.owner.ty = L.owner.ty ∧ L'.target.ty = L.target.ty ∧
      ∀ x y, L'.linked x y ↔ L.linked x y

/-- What becomes of objects and `Many` fields through several versions of the code. -/
inductive Upgrades (ft : Features) (k : SqliteConn) : List (List Item) → World → World → Prop
  | none {W} : Upgrades ft k [] W W
  | next {items l W W1 W'} : CrateWorld ft items k W1 → WorldBecomes k.codecs items W W1 → Upgrades ft k l W1 W' →
      Upgrades ft k (items :: l) W W'

/-- `migrate` is run on a database, by the program or with the tool; whatever it reports. -/
inductive Migrates (env : SqliteEnv) (res : String → Bool) (s : FsMigrations) (db db' : MigDb SDb) : Prop
  | program {c : MigConn SDb} {r} : c.exec = sqliteExec env res →
      (s.toMigs "sqlite").migrate (Cli.rounds s) c db = (r, db') → Migrates env res s db db'
  | tool {c : MigConn SDb} {name r} : c.exec = sqliteExec env res →
      Cli.migrate (s.toMigs "sqlite") (Cli.rounds s) c name db = (r, db') → Migrates env res s db db'

/-- The versions of the code that undoing migrations goes back through, if `H` are the applied ones before
them: for each the code of the one before, and no models for the first. -/
def backThrough (H undone : List (String × List Item)) : List (List Item) :=
  ((H.map (·.2)).getLastD [] :: undone.map (·.2)).dropLast.reverse

/-- The history of a project and its database, which objects and items there should be, the migrations that
are applied, and those that were made and not applied, with the code they were made for.

It starts without migrations and with an empty database.  Programs save and delete objects and change
`Many` fields.  The code is changed and compiled.  A migration is made, or there is nothing to do, or
making it fails; if the database has all migrations and there is nothing to do, the program may be
replaced by that of the new code.  The latest migration is detached.  Other backends are added and
removed.  The data is deleted with the tool, which may stop at any table.  And the database is migrated,
which may stop at any migration; the objects and items become those of the last version that was
applied.  Migrations are undone, which may also stop at any migration. -/
inductive ProjectRun (g : Cfg) (k : SqliteConn) (p : LitPrinters) :
    FsMigrations → MigDb SDb → World → List (String × List Item) → List (String × List Item) → Prop
  | start : ProjectRun g k p ⟨[], none⟩ ⟨[], none⟩ ⟨fun _ => none, fun _ => none⟩ [] []
  | program {s db W H P u W'} : ProjectRun g k p s db W H P → ProgramRun k db.user W u W' →
      ProjectRun g k p s ⟨u, db.log⟩ W' H P
  | compile {s s' db W H P} : ProjectRun g k p s db W H P → s'.latest = s.latest →
      (∀ n, n ≠ "current" → s'.dirs.lookup n = s.dirs.lookup n) → ProjectRun g k p s' db W H P
  | make {s s' db W H P items get spec name} : ProjectRun g k p s db W H P →
      WellNamed items → Typed g.ft items → PlainCrate g.ft items → Compiled g items s → Finds get →
      (∀ b, get b.name = some b ∨ spec = some (some b) → b.name = "sqlite" → b = sqliteBackend k.kw p) →
      s.dirs.lookup name = none → name ≠ "current" → ¬ Recorded db name →
      (∀ new old, s.getDb g.ft.json "current" = .ok new → LatestSchema g.ft.json s old →
        Addable k.env p old new ∧ Addable k.env p new old) →
      Cli.makeMigration g.ft.json get spec name s = (.ok true, s') → ProjectRun g k p s' db W H (P ++ [(name, items)])
  | makeNot {s s' db W H P get spec name r} : ProjectRun g k p s db W H P → Finds get →
      (∀ b, get b.name = some b ∨ spec = some (some b) → b.name = "sqlite" → b = sqliteBackend k.kw p) →
      s.dirs.lookup name = none → name ≠ "current" → ¬ Recorded db name →
      (∀ new, s.getDb g.ft.json "current" = .ok new → Settled new ∧ SqliteSchema new ∧
        ∀ old, LatestSchema g.ft.json s old → Addable k.env p old new ∧ Addable k.env p new old) →
      Cli.makeMigration g.ft.json get spec name s = (r, s') → r ≠ .ok true → ProjectRun g k p s' db W H P
  | replace {s s' db W W' H items get spec name} : ProjectRun g k p s db W H [] →
      WellNamed items → Typed g.ft items → PlainCrate g.ft items → Compiled g items s →
      Cli.makeMigration g.ft.json get spec name s = (.ok false, s') →
      CrateWorld g.ft items k W' → WorldBecomes k.codecs items W W' → ProjectRun g k p s' db W' H []
  | detach {s s' db W H P} {c : MigConn SDb} {r} : ProjectRun g k p s db W H P →
      Cli.detachLatest (some (.ok c)) db s = (r, s') →
      ProjectRun g k p s' db W H (match r with | .ok _ => P.dropLast | .error _ => P)
  | addBackend {s s' db W H P get name r} : ProjectRun g k p s db W H P → Finds get → name ≠ "sqlite" →
      Cli.addBackend g.ft.json get name s = (r, s') → ProjectRun g k p s' db W H P
  | removeBackend {s s' db W H P get name r} : ProjectRun g k p s db W H P → Finds get → name ≠ "sqlite" →
      Cli.removeBackend get name s = (r, s') → ProjectRun g k p s' db W H P
  | clear {s db db' W H P} {c : MigConn SDb} {fails shown r} : ProjectRun g k p s db W H P →
      Cli.clearData g.ft.json k fails s c db = (shown, r, db') → ProjectRun g k p s db' (W.emptied (cleared shown r)) H P
  | migrate {s db db' W W' H done rest} : ProjectRun g k p s db W H (done ++ rest) → Migrates k.env k.reserved s db db' →
      (∀ e ∈ done, Recorded db' e.1) → (∀ e ∈ rest, ¬ Recorded db' e.1) →
      Upgrades g.ft k (done.map (·.2)) W W' → ProjectRun g k p s db' W' (H ++ done) rest
  | undo {s db db' W W' H undone P} : ProjectRun g k p s db W (H ++ undone) P → Undoes k.env k.reserved s db db' →
      (∀ e ∈ H, Recorded db' e.1) → (∀ e ∈ undone, ¬ Recorded db' e.1) →
      Upgrades g.ft k (backThrough H undone) W W' → ProjectRun g k p s db' W' H (undone ++ P)

/-- The new code can take over the objects and `Many` fields: of the models it keeps, keys and the types of
the fields they keep are the same and new fields have defaults; the keys of `Many` fields it keeps have
the same types; and models and `Many` fields do not take each other's tables.  `V` tells which models
and `Many` fields the new code has. -/
structure TakesOver (codecs : TextCodecs) (items : List Item) (W V : World) : Prop where
  stock : ∀ n s', V.stock n = some s' → W.links n = none ∧ ∀ s, W.stock n = some s →
    Extends s.m s'.m s.pk s'.pk ∧ ∀ st ∈ modelsOf items, n = tableOf st → ∀ f t, HasField s'.m f t →
      ¬ HasField s.m f t → ∃ x, StructDefault codecs st f t x
  links : ∀ n L', V.links n = some L' → W.stock n = none ∧ ∀ L, W.links n = some L →
    L'.owner.ty = L.owner.ty ∧ L'.target.ty = L.target.ty

/-- The same models and `Many` fields. -/
structure SameShape (V W : World) : Prop where
  stock : ∀ n, (W.stock n).map (fun s => (s.m, s.pk)) = (V.stock n).map (fun s => (s.m, s.pk))
  links : ∀ n, (W.links n).map (fun L => (L.owner, L.target)) = (V.links n).map (fun L => (L.owner, L.target))

/-- Each version of the code can take over what the one before has. -/
inductive TakeOvers (ft : Features) (k : SqliteConn) : List (List Item) → World → World → Prop
  | none {V} : TakeOvers ft k [] V V
  | next {items l W V V'} : CrateWorld ft items k V → TakesOver k.codecs items W V → TakeOvers ft k l V V' →
      TakeOvers ft k (items :: l) W V'

end Butane.Spec
