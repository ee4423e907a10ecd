import Verif.Model.TypeKey
/- Order laws and text lemmas for type keys. -/
namespace Butane

instance : Std.LawfulEqOrd TypeKey where
  compare_self := by
    intro a
    change TypeKey.cmp a a = .eq
    cases a <;> exact Std.ReflCmp.compare_self (cmp := (compare : String → String → Ordering))
  eq_of_compare := by
    intro a b h
    change TypeKey.cmp a b = .eq at h
    cases a <;> cases b <;> simp only [TypeKey.cmp] at h
    · exact congrArg _ (Std.LawfulEqOrd.eq_of_compare (α := String) h)
    · cases h
    · cases h
    · exact congrArg _ (Std.LawfulEqOrd.eq_of_compare (α := String) h)

instance : Std.TransOrd TypeKey where
  eq_swap := by
    intro a b
    change TypeKey.cmp a b = (TypeKey.cmp b a).swap
    cases a <;> cases b <;> simp only [TypeKey.cmp] <;>
      first | rfl | exact Std.OrientedCmp.eq_swap (cmp := (compare : String → String → Ordering))
  isLE_trans := by
    intro a b c h h'
    change (TypeKey.cmp a b).isLE = true at h
    change (TypeKey.cmp b c).isLE = true at h'
    change (TypeKey.cmp a c).isLE = true
    cases a <;> cases b <;> cases c <;> simp only [TypeKey.cmp] at h h' ⊢ <;>
      first
      | rfl
      | (exfalso; revert h; decide)
      | (exfalso; revert h'; decide)
      | exact Std.TransCmp.isLE_trans (cmp := (compare : String → String → Ordering)) h h'

theorem splitOffBytes_zero (cs : List Char) : splitOffBytes 0 cs = some cs := by
  simp [splitOffBytes]

theorem splitOffBytes_ascii3 (a b c : Char) (rest : List Char) (ha : a.utf8Size = 1)
    (hb : b.utf8Size = 1) (hc : c.utf8Size = 1) :
    splitOffBytes 3 (a :: b :: c :: rest) = some rest := by
  simp [splitOffBytes, ha, hb, hc]

end Butane
