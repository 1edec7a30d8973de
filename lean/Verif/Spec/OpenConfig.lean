import Verif.Spec.Flat
import Verif.Model.OpenConfig

/-!
What an OpenConfig ACL set does: of the entries that match, the one with the lowest sequence number acts.
-/

namespace Verif.Spec
namespace Oc
open Verif Verif.OpenConfig Policy Flat

/-- What the names of `builtin-detail` mean. -/
def DetailHolds (p : Packet) (d : String) : Prop :=
  (d = "TCP_ESTABLISHED" ∧ p.proto = "tcp" ∧ p.hasOption "tcp-established" = true) ∨
  (d = "TCP_INITIAL" ∧ p.proto = "tcp" ∧ p.hasOption "initial" = true) ∨
  (d = "FRAGMENT" ∧ p.hasOption "is-fragment" = true)

/-- The packet matches the entry of a set of family `v`. -/
structure Hits (v : Ver) (a : Ace) (p : Packet) : Prop where
  ver : p.ver = v
  src : IfSet a.src fun n => Covers n p.ver p.src
  dst : IfSet a.dst fun n => Covers n p.ver p.dst
  sport : IfSet a.sport (PortIn p p.sport)
  dport : IfSet a.dport (PortIn p p.dport)
  proto : IfSet a.proto (NumberIs p)
  detail : IfSet a.detail (DetailHolds p)

/-- Of the entries that match, one with the action has the lowest sequence number. -/
def Decides (s : AclSet) (p : Packet) (action : String) : Prop :=
  Best (fun e f => e.1 < f.1) (fun e a => Hits s.ver e.2 p ∧ e.2.action = a) s.entries action

/-- The names of the actions. -/
def names : List (String × String) := [("accept", "ACCEPT"), ("deny", "DROP"), ("reject", "REJECT")]

/-- The first term that counts and matches has the action. -/
def PolicyDecides (ts : List OTerm) (p : Packet) (action : String) : Prop :=
  First (fun r a => Wants "openconfig" names r.expired r.term p a) ts action

/-- The families that the options of a header name; nothing is said about headers that name several. -/
def Families (options : List String) (vs : List Ver) : Prop :=
  ("inet6" ∉ options ∧ "mixed" ∉ options ∧ vs = [.v4]) ∨
  ("inet" ∉ options ∧ "inet6" ∈ options ∧ "mixed" ∉ options ∧ vs = [.v6]) ∨
  ("inet" ∉ options ∧ "inet6" ∉ options ∧ "mixed" ∈ options ∧ vs = [.v4, .v6])

end Oc
end Verif.Spec
