import Verif.Spec.Policy

/-!
Terms that do the same.
-/

namespace Verif.Spec.TermEq
open Verif Verif.Spec Verif.Policy

/-- The terms match the same packets and do the same with them. -/
def SameEffect (a b : Term) : Prop := (∀ p, Matches a p ↔ Matches b p) ∧ (∀ x, x ∈ a.action ↔ x ∈ b.action)

/-- The terms agree in the fields that a comparison does not look at. -/
def SameRest (a b : Term) : Prop :=
  a.addressExclude = b.addressExclude ∧ a.restrictAddressFamily = b.restrictAddressFamily ∧ a.dscpMatch = b.dscpMatch ∧
  a.dscpExcept = b.dscpExcept

/-- The networks of a term are proper. -/
def ProperNets (t : Term) : Prop :=
  (∀ n ∈ t.address, WF n) ∧ (∀ n ∈ t.sourceAddress, WF n) ∧ (∀ n ∈ t.sourceAddressExclude, WF n) ∧
  (∀ n ∈ t.destinationAddress, WF n) ∧ (∀ n ∈ t.destinationAddressExclude, WF n)

/-- The list has networks of one family only. -/
def OneFamily (l : List Net) : Prop := ∀ a ∈ l, ∀ b ∈ l, a.ver = b.ver

/-- Each list of addresses of a term has networks of one family only. -/
def OneFamilyEach (t : Term) : Prop :=
  OneFamily t.address ∧ OneFamily t.sourceAddress ∧ OneFamily t.sourceAddressExclude ∧ OneFamily t.destinationAddress ∧
  OneFamily t.destinationAddressExclude

end Verif.Spec.TermEq
