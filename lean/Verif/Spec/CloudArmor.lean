import Verif.Spec.Policy
import Verif.Spec.FirstMatch
import Verif.Model.CloudArmor

/-!
What a Google Cloud Armor security policy does: of the rules whose source ranges contain the source address, the one with
the lowest priority number acts.
-/

namespace Verif.Spec
namespace Armor
open Verif Verif.CloudArmor Policy

/-- The source address lies in the range. -/
def InRange (p : Packet) : Range → Prop
  | .star => True
  | .net v a len => p.ver = v ∧ p.src / 2 ^ (v.bits - len) = a / 2 ^ (v.bits - len)

/-- The rule matches the packet. -/
def Hits (r : Rule) (p : Packet) : Prop := ∃ x ∈ r.ranges, InRange p x

/-- Of the rules that match, one with the action has the lowest priority number. -/
def Decides (rs : List Rule) (p : Packet) (action : String) : Prop :=
  Best (fun r s => r.priority < s.priority) (fun r a => Hits r p ∧ r.action = a) rs action

/-- The family a header names: the first option that is not `noverbose`, `inet` if there is none. -/
def Family (options : List String) (af : String) : Prop :=
  (options.filter fun o => o != "noverbose").head?.getD "inet" = af

/-- The packet is one the filter of the family is for. -/
def OfFamily (af : String) (p : Packet) : Prop := (af = "inet" → p.ver = .v4) ∧ (af = "inet6" → p.ver = .v6)

/-- The name of the action of a term. -/
def Acts (t : Term) (action : String) : Prop :=
  (t.action = ["accept"] ∧ action = "allow") ∨ (t.action = ["deny"] ∧ action = "deny(404)")

/-- The term is meant for the platform. -/
def Meant (t : Term) : Prop := (t.platform = [] ∨ "cloudarmor" ∈ t.platform) ∧ "cloudarmor" ∉ t.platformExclude

/-- The first term for the platform that matches has the action. -/
def PolicyDecides (ts : List Term) (p : Packet) (action : String) : Prop :=
  First (fun t a => Meant t ∧ Matches t p ∧ Acts t a) ts action

end Armor
end Verif.Spec
