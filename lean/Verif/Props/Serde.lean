/-
C87: objects survive serialization.

Serialization is that of Model/Serde.lean; when the libraries keep a value is in
Spec/Serde.lean.
-/
import Verif.Spec.Serde
import Verif.Props.FKey
import Verif.Props.Many

namespace Butane.Props
open Butane Sql Spec Serde

/-! ### Values -/

theorem readInt_ok {lo hi i : Int} (h1 : lo ≤ i) (h2 : i ≤ hi) : readInt lo hi (.int i) = some i := by
  simp [readInt, h1, h2]

theorem readInt_64 (i : Int64) : readInt (-9223372036854775808) 9223372036854775807 (.int i.toInt) = some i.toInt :=
  readInt_ok (Int64.le_toInt i) (Int64.toInt_le i)

theorem readInt_32 (i : Int32) : readInt (-2147483648) 2147483647 (.int i.toInt) = some i.toInt :=
  readInt_ok (Int32.le_toInt i) (Int32.toInt_le i)

theorem readInt_16 (i : Int16) : readInt (-32768) 32767 (.int i.toInt) = some i.toInt :=
  readInt_ok (Int16.le_toInt i) (Int16.toInt_le i)

theorem readInt_8 (i : Int8) : readInt (-128) 127 (.int i.toInt) = some i.toInt :=
  readInt_ok (Int8.le_toInt i) (Int8.toInt_le i)

theorem readByte_ok (b : UInt8) : readByte (.int b.toNat) = some b := by
  have h : b.toNat < 256 := b.toNat_lt
  rw [readByte, readInt_ok (by omega) (by omega)]
  simp

theorem readBytes_ok (b : List UInt8) : readBytes (bytesVal b) = some b := by
  simp only [readBytes, bytesVal]
  induction b with
  | nil => rfl
  | cons x xs ih => simp [List.mapM_cons, readByte_ok, ih]

/-- C87: a database value is read back as it was, whatever its kind: it is a default value
in a migration, or the owner of a `Many`. -/
theorem sqlval_json (lib : SerdeLib) (v : SqlVal) (h : LibKeeps lib v) :
    readSqlVal lib (sqlVal lib v) = some v := by
  cases v with
  | null => simp [sqlVal, readSqlVal]
  | bool b => simp [sqlVal, readSqlVal]
  | int i =>
    simp only [sqlVal, readSqlVal]
    rw [readInt_32]
    simp
  | bigInt i =>
    simp only [sqlVal, readSqlVal]
    rw [readInt_64]
    simp
  | real r =>
    have h : lib.readReal (lib.realVal r) = some r := h
    simp [sqlVal, readSqlVal, h]
  | text s => simp [sqlVal, readSqlVal]
  | blob b => simp [sqlVal, readSqlVal, readBytes_ok]
  | json j =>
    have h : lib.readJson (lib.jsonVal j) = some j := h
    simp [sqlVal, readSqlVal, h]
  | date d =>
    have h : lib.readDate (lib.dateVal d) = some d := h
    simp [sqlVal, readSqlVal, h]
  | timestamp t =>
    have h : lib.readTime (lib.timeVal t) = some t := h
    simp [sqlVal, readSqlVal, h]
  | custom ty data =>
    have h : lib.readPgType (lib.pgTypeVal ty) = some ty := h
    simp [sqlVal, readSqlVal, field, h, readBytes_ok]

/-- C87: so is the type of a column. -/
theorem sqltype_json (lib : SerdeLib) (t : SqlType) (h : LibKeepsType lib t) :
    readType lib (typeVal lib t) = some t := by
  cases t with
  | custom ty =>
    have h : lib.readPgType (lib.pgTypeVal ty) = some ty := h
    simp [typeVal, readType, h]
  | _ => simp [typeVal, readType]

/-- Libraries that write numbers by their bits and everything else as text. -/
def exSerdeLib : SerdeLib where
  realVal r := .float r.bits
  readReal j := match j with | .float b => some ⟨b⟩ | _ => none
  real32Val r := .int r.bits.toNat
  readReal32 j := match j with | .int i => some ⟨UInt32.ofNat i.toNat⟩ | _ => none
  dateVal d := .int d
  readDate j := match j with | .int d => some d | _ => none
  timeVal d := .int d
  readTime j := match j with | .int d => some d | _ => none
  utcVal d := .int d
  readUtc j := match j with | .int d => some d | _ => none
  jsonVal s := .str s
  readJson j := match j with | .str s => some s | _ => none
  uuidVal u := bytesVal u.toList
  readUuid j := match readBytes j with | some b => FieldTy.uuidFromSlice b | none => none
  pgTypeVal s := .str s
  readPgType j := match j with | .str s => some s | _ => none

example : readSqlVal exSerdeLib (sqlVal exSerdeLib (.custom "point" [1, 2])) = some (.custom "point" [1, 2]) :=
  sqlval_json _ _ rfl

example : sqlVal exSerdeLib (.bigInt 7) = .obj [("BigInt", .int 7)] := rfl

/-! ### Fields -/

theorem variantOf_get (vs : List String) (h : vs.Nodup) (i : Fin vs.length) :
    FieldTy.variantOf vs (vs.get i) = some i := by
  induction vs with
  | nil => exact i.elim0
  | cons v vs ih =>
    rw [List.nodup_cons] at h
    cases i using Fin.cases with
    | zero => simp [FieldTy.variantOf]
    | succ i =>
      have hne : v ≠ vs.get i := fun he => h.1 (he ▸ List.get_mem vs i)
      have he : (v :: vs).get i.succ = vs.get i := rfl
      rw [he, FieldTy.variantOf, if_neg hne, ih h.2 i]
      rfl

/-- C87: a value of any field type, nested to any depth, is read back as it was.

Partial: an option inside an option is excluded (`field_json_violated`), as is what the
libraries do not keep. -/
theorem field_json_partial (lib : SerdeLib) (parseUuid : String → Option (Vector UInt8 16)) :
    ∀ (t : FieldTy) (x : t.Val), FieldKept lib parseUuid t x →
      ∃ j, fieldJson lib parseUuid t x = .ok j ∧ readField lib t j = .ok x := by
  intro t
  induction t with
  | bool => exact fun x _ => ⟨_, rfl, rfl⟩
  | i64 =>
    intro x _
    refine ⟨_, rfl, ?_⟩
    simp only [readField]
    rw [readInt_64]
    simp
  | i32 =>
    intro x _
    refine ⟨_, rfl, ?_⟩
    simp only [readField]
    rw [readInt_32]
    simp
  | i16 =>
    intro x _
    refine ⟨_, rfl, ?_⟩
    simp only [readField]
    rw [readInt_16]
    simp
  | i8 =>
    intro x _
    refine ⟨_, rfl, ?_⟩
    simp only [readField]
    rw [readInt_8]
    simp
  | u32 =>
    intro x _
    have h1 := x.toNat_lt
    refine ⟨_, rfl, ?_⟩
    simp only [readField]
    rw [readInt_ok (by omega) (by omega)]
    simp
  | u16 =>
    intro x _
    have h1 := x.toNat_lt
    refine ⟨_, rfl, ?_⟩
    simp only [readField]
    rw [readInt_ok (by omega) (by omega)]
    simp
  | u8 =>
    intro x _
    refine ⟨_, rfl, ?_⟩
    simp only [readField, readByte_ok]
  | f64 =>
    intro x h
    have h : lib.readReal (lib.realVal x) = some x := h
    exact ⟨_, rfl, by simp only [readField, h]⟩
  | f32 =>
    intro x h
    have h : lib.readReal32 (lib.real32Val x) = some x := h
    exact ⟨_, rfl, by simp only [readField, h]⟩
  | string => exact fun x _ => ⟨_, rfl, rfl⟩
  | bytes => exact fun x _ => ⟨_, rfl, by simp only [readField, readBytes_ok]⟩
  | uuid =>
    intro x h
    have h : lib.readUuid (lib.uuidVal x) = some x := h
    exact ⟨_, rfl, by simp only [readField, h]⟩
  | json j =>
    intro x h
    obtain ⟨s, h1, h2, h3⟩ : ∃ s, j.ser x = some s ∧ lib.readJson (lib.jsonVal s) = some s ∧
      j.de s = some x := h
    exact ⟨lib.jsonVal s, by simp only [fieldJson, h1], by simp only [readField, h2, h3]⟩
  | date =>
    intro x h
    have h : lib.readDate (lib.dateVal x) = some x := h
    exact ⟨_, rfl, by simp only [readField, h]⟩
  | timestamp =>
    intro x h
    have h : lib.readTime (lib.timeVal x) = some x := h
    exact ⟨_, rfl, by simp only [readField, h]⟩
  | dateTimeUtc =>
    intro x h
    have h : lib.readUtc (lib.utcVal x) = some x := h
    exact ⟨_, rfl, by simp only [readField, h]⟩
  | enum_ vs =>
    intro x h
    refine ⟨_, rfl, ?_⟩
    simp only [readField, variantOf_get vs h x]
  | newtype t ih => exact fun x h => ih x h
  | autoPk t ih =>
    intro x h
    cases x with
    | none => exact ⟨_, rfl, rfl⟩
    | some y =>
      obtain ⟨h1, h2⟩ := h y rfl
      obtain ⟨j, h3, h4⟩ := ih y h1
      refine ⟨.obj [("inner", j)], by simp only [fieldJson, h3], ?_⟩
      have hf : field "inner" [("inner", j)] = some (some j) := by simp [field]
      cases j with
      | null => exact absurd h3 h2
      | _ => simp only [readField, hf, h4]
  | fkey t ih =>
    intro v h
    obtain ⟨k, h1, h2, h3⟩ := h
    obtain ⟨j, h4, h5⟩ := ih k h3
    exact ⟨j, by simp only [fieldJson, h1, h4], by simp only [readField, h5, h2]⟩
  | option t ih =>
    intro x h
    cases x with
    | none => exact ⟨_, rfl, rfl⟩
    | some y =>
      obtain ⟨h1, h2⟩ := h y rfl
      obtain ⟨j, h3, h4⟩ := ih y h1
      refine ⟨j, by simp only [fieldJson, h3], ?_⟩
      cases j with
      | null => exact absurd h3 h2
      | _ => simp only [readField, h4]

/-- An optional foreign key to a model with an automatic key. -/
example : ∃ j, fieldJson exSerdeLib (fun _ => none) (.option (.fkey (.autoPk .i64))) (some (.bigInt 7)) = .ok j ∧
    readField exSerdeLib (.option (.fkey (.autoPk .i64))) j = .ok (some (.bigInt 7)) := by
  refine field_json_partial _ _ (.option (.fkey (.autoPk .i64))) (some (.bigInt 7)) ?_
  intro y hy
  cases hy
  refine ⟨⟨some 7, rfl, rfl, ?_⟩, by simp [fieldJson, FieldTy.fromSql, Conv.bind]⟩
  intro z hz
  cases hz
  exact ⟨trivial, by simp [fieldJson]⟩

/-- C87 is false of an option inside an option: `Some(None)` is written as `None` is. -/
theorem field_json_violated (lib : SerdeLib) :
    fieldJson lib (fun _ => none) (.option (.option .i64)) (some none) = .ok .null ∧
    readField lib (.option (.option .i64)) .null = .ok none := ⟨rfl, rfl⟩

/-! ### Foreign keys -/

variable {T K : Type} {ops : KeyOps T K}

/-- C87: a foreign key to an object that has been saved, loaded or not, is written and read
back without a panic as a foreign key to the same object, which is stored as the same value.
It is not loaded.

Partial: the key must be initialised (`fkey_json_violated`). -/
theorem fkey_json_partial {ks : KeySerde K} (hrt : KeyRoundTrip ops) (hks : KeyKept ks) {k : K} {v : SqlVal}
    (hv : ops.toSql k = some v) {f : FKey T} (h : KeyIs ops k f) :
    ∃ j f', fkeyVal ops ks f = .ok j ∧ readFkey ops ks j = .ok f' ∧ KeyIs ops k f' ∧
      f'.pk ops = .ok k ∧ (f'.toSql ops).1 = .ok v ∧ f'.get = .err .valueNotLoaded := by
  have hpk : f.pk ops = .ok k := by
    have := (fStep_refers (o := .pk) hrt (by simp [hv]) h (fun _ he => nomatch he)).1
    simpa [fStep, GoodReply] using this
  have hf : FKey.fromPk ops k = .ok ⟨none, some v⟩ := by simp [FKey.fromPk, hv]
  refine ⟨ks.ser k, ⟨none, some v⟩, by simp [fkeyVal, hpk], by simp [readFkey, hks k, hf],
    (fkey_made hrt).1 k _ hf, ?_, rfl, rfl⟩
  simp [FKey.pk, hrt k v hv]

/-- `AutoPk<i64>` -/
def autoSerde : KeySerde (Option Int64) :=
  ⟨autoVal fun i => .int i.toInt,
    readAuto fun j => (readInt (-9223372036854775808) 9223372036854775807 j).map Int64.ofInt⟩

theorem autoSerde_kept : KeyKept autoSerde := by
  intro k
  cases k with
  | none => rfl
  | some i =>
    simp only [autoSerde, autoVal, readAuto, field, List.filter_cons, List.filter_nil, decide_true, if_true, readOption, readInt_64]
    simp

/-- A foreign key that holds the blog itself. -/
example : ∃ j f', fkeyVal blogKey autoSerde (FKey.ofObj (some 7, "cats")) = .ok j ∧
    readFkey blogKey autoSerde j = .ok f' ∧ f'.pk blogKey = .ok (some 7) := by
  obtain ⟨j, f', h1, h2, _, h3, _⟩ := fkey_json_partial (ks := autoSerde) blogKey_roundTrip autoSerde_kept
    (k := some 7) rfl ((fkey_made blogKey_roundTrip).2.1 (some 7, "cats"))
  exact ⟨j, f', h1, h2, h3⟩

/-- C87 is false of a foreign key that holds an object that has not been saved: it is
written, but reading it panics. -/
theorem fkey_json_violated : ∃ j, fkeyVal blogKey autoSerde (FKey.ofObj (none, "dogs")) = .ok j ∧
    readFkey blogKey autoSerde j = .panic := ⟨_, rfl, rfl⟩

/-! ### Many -/

/-- C87: what is read back of a `Many`: the owner and the table. -/
theorem many_json_exact (lib : SerdeLib) (m : Many) (ty : SqlType) (ht : LibKeepsType lib ty)
    (ho : ∀ v, m.owner = some v → LibKeeps lib v) :
    readMany lib (manyVal lib m ty) =
      some ({ m with newValues := [], removedValues := [], cache := none }, ty) := by
  have hty := sqltype_json lib ty ht
  obtain ⟨table, owner, new, removed, cache⟩ := m
  cases owner with
  | none => simp [manyVal, readMany, field, readOption, hty]
  | some v =>
    have hv := sqlval_json lib v (ho v rfl)
    have hr : readOption (readSqlVal lib) (sqlVal lib v) = some (some v) := by
      cases v <;> simp_all [readOption, sqlVal]
    simp [manyVal, readMany, field, hr, hty]

/-- C87: a `Many` that has no unsaved changes shows the same objects after it is read back:
loading it gives the objects that are linked to its owner.

Partial: unsaved changes are lost (`many_json_violated`). -/
theorem many_json_partial {im : ModelDef} {pk : Field} {s : Session} {OKey IKey : DbVal → Prop}
    {st : Store} {o : SqlVal} {m : Many} {db : Db} (hm : ModelOK s im pk)
    (hh : Holds im s pk IKey st db) (h : ManyOK s OKey IKey o m db) (lib : SerdeLib) (ty : SqlType)
    (ht : LibKeepsType lib ty) (ho : LibKeeps lib o)
    (hnew : m.newValues = []) (hrem : m.removedValues = []) :
    ∃ m', readMany lib (manyVal lib m ty) = some (m', ty) ∧ m'.get = .error .valueNotLoaded ∧
      (∃ res m'', m'.LoadOut im s db res m'') ∧
      ∀ res m'', m'.LoadOut im s db res m'' → ∃ os, res = .ok os ∧ m''.get = .ok os ∧
        Shows im st os (· ∈ itemsOf (links db m.itemTable) (toDb o)) := by
  have he := many_json_exact lib m ty ht (fun v hv => by
    rw [h.owner] at hv
    cases hv
    exact ho)
  have hok : ManyOK s OKey IKey o { m with newValues := [], removedValues := [], cache := none } db :=
    ⟨h.session, h.owners, h.items, h.table, h.owner, h.okey, fun _ hv => (nomatch hv),
      fun _ hv => (nomatch hv), hnew ▸ h.fitsNew, hrem ▸ h.fitsRemoved⟩
  obtain ⟨h1, h2⟩ := many_load_partial hm hh hok rfl (fun _ _ hk => nomatch hk) (fun _ hk => nomatch hk)
  refine ⟨_, he, rfl, h1, fun res m'' hl => ?_⟩
  obtain ⟨os, h3, h4, h5⟩ := h2 res m'' hl
  exact ⟨os, h3, h4, shows_congr h5 (fun k => by simp)⟩

example (b : Backend) : ∃ m', readMany exSerdeLib (manyVal exSerdeLib (tagsOf1 [] []) .bigInt) = some (m', .bigInt) ∧
    ∃ res m'', m'.LoadOut tagModel (linkSession b) linkDb res m'' ∧ ∃ os, res = .ok os ∧
      some (text "a") ∈ os.map (objKey tagModel) := by
  obtain ⟨m', h1, _, ⟨res, m'', h2⟩, h3⟩ := many_json_partial (tagOK b) (tagHolds b)
    (tagsOf1_ok b (new := []) (removed := []) (by decide) (by decide)) exSerdeLib .bigInt trivial trivial rfl rfl
  obtain ⟨os, h4, _, h5⟩ := h3 res m'' h2
  exact ⟨m', h1, res, m'', h2, os, h4, (h5.2.2 _).2 ⟨⟨tag "a", rfl⟩, by decide⟩⟩

/-- C87 is false of unsaved changes: saving what was read back adds nothing, although the
original had "c" to add. -/
theorem many_json_violated (b : Backend) (lib : SerdeLib) :
    ∃ m', readMany lib (manyVal lib (tagsOf1 [.text "c"] []) .bigInt) = some (m', .bigInt) ∧
      (∃ db', m'.save (linkSession b) (fun _ => false) linkDb = (db', m', none) ∧
        (itemsOf (links db' "blog_tags_Many") (.int 1)).Perm [text "a", text "b"]) ∧
      ∃ db', (tagsOf1 [.text "c"] []).save (linkSession b) (fun _ => false) linkDb =
          (db', tagsOf1 [] [], none) ∧
        (itemsOf (links db' "blog_tags_Many") (.int 1)).Perm [text "a", text "b", text "c"] := by
  refine ⟨tagsOf1 [] [], many_json_exact lib _ _ trivial (fun v hv => by cases hv; trivial), ?_, ?_⟩
  · obtain ⟨db', h1, h2, _⟩ := many_save_partial (tagsOf1_ok b (new := []) (removed := [])
      (by decide) (by decide)) (by decide)
    exact ⟨db', h1, h2.trans (by decide)⟩
  · obtain ⟨db', h1, h2, _⟩ := many_save_partial (tagsOf1_ok b (new := ["c"]) (removed := [])
      (by decide) (by decide)) (by decide)
    exact ⟨db', h1, h2.trans (by decide)⟩

end Butane.Props
