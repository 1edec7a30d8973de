import Verif.Spec.Flat
import Verif.Model.Sonic

/-!
What SONiC does with the rules in CONFIG_DB: the rules directly under `ACL_RULE` count, and of those that match the one
with the highest priority acts.
-/

namespace Verif.Spec
namespace Cdb
open Verif Verif.Sonic Policy Flat

/-- The packet matches the rule. -/
structure Hits (r : Rule) (p : Packet) : Prop where
  proto : IfSet r.proto (NumberIs p)
  flags : r.flags = true → p.proto = "tcp" ∧ p.hasOption "tcp-established" = true
  icmp : IfSet r.icmp fun i => p.ver = i.1 ∧ (p.icmpType, i.2) ∈ icmpNumbers i.1
  src : IfSet r.src fun n => Covers n p.ver p.src
  dst : IfSet r.dst fun n => Covers n p.ver p.dst
  sport : IfSet r.sport fun n => PortIn p p.sport (n, n)
  sportRange : IfSet r.sportRange (PortIn p p.sport)
  dport : IfSet r.dport fun n => PortIn p p.dport (n, n)
  dportRange : IfSet r.dportRange (PortIn p p.dport)

/-- The rules directly in a dictionary. -/
def direct : Dict → List (String × Entry)
  | .rules l => l
  | .wrap _ l => l

/-- The rules under `ACL_RULE`. -/
def seen : Dict → List (String × Entry)
  | .rules _ => []
  | .wrap inner _ => direct inner

/-- All rules, however deep. -/
def everything : Dict → List (String × Entry)
  | .rules l => l
  | .wrap inner l => everything inner ++ l

/-- Of the rules that match, one with the action has the highest priority. -/
def Decides (d : Dict) (p : Packet) (action : String) : Prop :=
  Best (fun e f => e.2.priority > f.2.priority) (fun e a => Hits e.2.rule p ∧ e.2.rule.action = a) (seen d) action

/-- The names of the actions. -/
def names : List (String × String) := [("accept", "FORWARD"), ("deny", "DROP")]

/-- The first term that counts and matches has the action. -/
def PolicyDecides (ts : List OpenConfig.OTerm) (p : Packet) (action : String) : Prop :=
  First (fun r a => Wants "sonic" names r.expired r.term p a) ts action

/-- The options of a header name the family. -/
def Names (options : List String) (v : Ver) : Prop :=
  "mixed" ∈ options ∨ (v = .v4 ∧ "inet" ∈ options) ∨ (v = .v6 ∧ "inet6" ∈ options)

end Cdb
end Verif.Spec
