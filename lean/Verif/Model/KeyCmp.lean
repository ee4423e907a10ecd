/-
Comparing keys.
Models the comparisons of butane_core/src/autopk.rs and butane_codegen's comparisons of
objects with foreign keys (butane_core/src/codegen/dbobj.rs).
-/
import Verif.Model.FKey

namespace Butane

/-- What `AutoPk<T>` uses of `T`: `PartialEq`, `Ord` and `PrimaryKeyType::is_valid`
(sqlval.rs:316-326: true unless the type says otherwise). -/
structure KeyCmp (K : Type) where
  eq : K → K → Bool
  cmp : K → K → Ordering
  isValid : K → Bool

namespace AutoPk
variable {K : Type} (c : KeyCmp K)

/-- `is_valid`, autopk.rs:110-117. -/
def isValid : Option K → Bool
  | some x => c.isValid x
  | none => false

/-- `PartialEq`, autopk.rs:84-92. -/
def eq (a b : Option K) : Bool :=
  if !isValid c a || !isValid c b then false
  else
    match a, b with
    | some x, some y => c.eq x y
    | none, none => true
    | _, _ => false

/-- `PartialEq<T>`, autopk.rs:94-102. -/
def eqKey (a : Option K) (k : K) : Bool :=
  if !isValid c a || !c.isValid k then false
  else
    match a with
    | some x => c.eq x k
    | none => false

/-- `PartialOrd`, autopk.rs:130-140. -/
def partialCmp (a b : Option K) : Option Ordering :=
  match a with
  | some x =>
    match b with
    | some y => some (c.cmp x y)
    | none => none
  | none => none

end AutoPk

/-- `fk == other` for two foreign keys, fkey.rs:198-212 with `as_pk`, fkey.rs:154-161: the key of
the other one is found first when it is needed. -/
def FKey.eqFk {T K : Type} (ops : KeyOps T K) (f g : FKey T) : Ret Bool :=
  match g.pk ops with
  | .ok k => f.eq ops k
  | .err e => .err e
  | .panic => .panic

/-- `object == fk`, codegen/dbobj.rs:133-142: turned round; `as_pk` of the object is its key,
codegen/dbobj.rs:143-156. -/
def FKey.objEq {T K : Type} (ops : KeyOps T K) (t : T) (f : FKey T) : Ret Bool :=
  f.eq ops (ops.pkOf t)

end Butane
