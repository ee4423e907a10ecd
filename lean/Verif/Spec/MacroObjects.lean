/-
What the text inside `filter!` says of an object, and when the models the macro knows are those
of the objects.
-/
import Verif.Spec.FilterMacro
import Verif.Spec.ObjQuery

namespace Butane.Spec
open Butane Butane.Macro

/-- The expression, as written, is true of the object `o` of model `T`, whose objects are `s`. -/
def ObjTrueOf (E : MEnv) (k : SqliteConn) (W : World) :
    String → (s : Stock) → ObjVals s.m.fields → RExpr → Prop
  | T, s, o, .binary .and l r => ObjTrueOf E k W T s o l ∧ ObjTrueOf E k W T s o r
  | T, s, o, .binary .or l r => ObjTrueOf E k W T s o l ∨ ObjTrueOf E k W T s o r
  | _, s, o, .binary op l r =>
    ∃ c f v x, opMeans op = some c ∧ nameOf? l = some f ∧ writtenValue r = some v ∧
      FieldSql s.m o f x ∧ Compares k c x v
  | T, s, o, .call recv m arg _ =>
    ∃ f, nameOf? recv = some f ∧
      ((m = "like" ∧ ∃ v x, writtenValue arg = some v ∧ FieldSql s.m o f x ∧ Compares k .like x v) ∨
       (m = "is_in" ∧ ∃ vs x, arg = .rust (.list vs) ∧ FieldSql s.m o f x ∧
        ∃ v ∈ vs, Related k .eq x v) ∨
       (m = "matches" ∧ ∃ t s' id o', E.field T f = some (.fkey t) ∧
        W.stock (E.obj t).table = some s' ∧ s'.Has id o' ∧ FieldSql s.m o f id ∧
        (arg = .lit id ∨ ObjTrueOf E k W t s' o' arg)) ∨
       (m = "contains" ∧ ∃ link t s' id o' L own, E.field T f = some (.many link t) ∧
        W.stock (E.obj t).table = some s' ∧ s'.Has id o' ∧ W.links link = some L ∧
        FieldSql s.m o s.pk.name own ∧ L.linked own id ∧
        (arg = .lit id ∨ ObjTrueOf E k W t s' o' arg)))
  | T, s, o, .group e => ObjTrueOf E k W T s o e
  | _, _, _, _ => False

/-- The fields of a model are not named as the columns of a link table. -/
def NoLinkNames (E : MEnv) (T : String) (s : Stock) : Prop :=
  (s.pk.name ≠ "owner" ∧ s.pk.name ≠ "has") ∧
  ∀ f, isCol (E.field T f) = true → f ≠ "owner" ∧ f ≠ "has"

/-- The models of the macro are those of the objects: fields have the declared names and kinds,
keys and compared values pass the type checker only if they are of the right type; columns need no
quotes, and no field of a model a `Many` refers to is named `owner` or `has`. -/
structure WorldFor (E : MEnv) (k : SqliteConn) (W : World) : Prop where
  key : ∀ T s, W.stock (E.obj T).table = some s → (E.obj T).pkcol = s.pk.name ∧
    ∃ t, HasField s.m s.pk.name t
  col : ∀ T s f, W.stock (E.obj T).table = some s → isCol (E.field T f) = true →
    PlainName k.reserved f ∧ ∃ t, HasField s.m f t
  fkey : ∀ T s f t, W.stock (E.obj T).table = some s → E.field T f = some (.fkey t) →
    ∃ s', W.stock (E.obj t).table = some s' ∧ KeyField s f s'
  many : ∀ T s f m t, W.stock (E.obj T).table = some s → E.field T f = some (.many m t) →
    ∃ s' L, W.stock (E.obj t).table = some s' ∧ W.links m = some L ∧ L.owner = s.pk ∧
      L.target = s'.pk ∧ NoLinkNames E t s'
  keyOk : ∀ T s v, W.stock (E.obj T).table = some s → E.keyOk T v = true → KeyLike s.pk v
  cmpOk : ∀ T f op v, E.cmpOk T f op v = true → CanBind k v

/-- What Rust's types do not guarantee of `like` and `is_in`: their values can be bound, and `like` is
not used on a real. -/
def LikesOk (E : MEnv) (k : SqliteConn) (W : World) : String → RExpr → Prop
  | T, .binary _ l r => LikesOk E k W T l ∧ LikesOk E k W T r
  | T, .call recv m arg _ =>
    (m = "like" → ∀ v, writtenValue arg = some v → CanBind k v ∧
      ∀ f s, nameOf? recv = some f → W.stock (E.obj T).table = some s →
        ∀ t, HasField s.m f t → sqliteType t.sqltype ≠ some .real) ∧
    (m = "is_in" → ∀ vs, arg = .rust (.list vs) → ∀ v ∈ vs, CanBind k v) ∧
    (∀ f t, nameOf? recv = some f →
      (E.field T f = some (.fkey t) ∨ ∃ n, E.field T f = some (.many n t)) → LikesOk E k W t arg)
  | _, _ => True

end Butane.Spec
