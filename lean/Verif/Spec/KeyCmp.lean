/-
What comparisons are supposed to satisfy: the laws of the traits of Rust's `std::cmp`.
-/
import Verif.Model.KeyCmp

namespace Butane.Spec
open Butane

/-- `PartialEq`: symmetric and transitive. -/
structure PartialEqLaws {α : Type} (eq : α → α → Bool) : Prop where
  symm : ∀ a b, eq a b = eq b a
  trans : ∀ a b c, eq a b = true → eq b c = true → eq a c = true

/-- `PartialOrd`: agrees with `==`, is dual and transitive. -/
structure PartialOrdLaws {α : Type} (eq : α → α → Bool) (cmp : α → α → Option Ordering) : Prop where
  agrees : ∀ a b, eq a b = true ↔ cmp a b = some .eq
  dual : ∀ a b, cmp b a = (cmp a b).map Ordering.swap
  trans : ∀ a b c, cmp a b = some .lt → cmp b c = some .lt → cmp a c = some .lt

/-- `Eq` and `Ord`: moreover `==` is reflexive and everything is comparable. -/
structure OrdLaws {α : Type} (eq : α → α → Bool) (cmp : α → α → Ordering) : Prop where
  peq : PartialEqLaws eq
  refl : ∀ a, eq a a = true
  pord : PartialOrdLaws eq (fun a b => some (cmp a b))

end Butane.Spec
