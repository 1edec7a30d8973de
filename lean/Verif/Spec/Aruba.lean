import Verif.Spec.Flat
import Verif.Model.Aruba

/-!
What an Aruba controller does with session access lists: the rules in order, the first that matches acts; an alias is every
netdestination block of its name and family.
-/

namespace Verif.Spec
namespace Aruba
open Verif Verif.Aruba Policy

/-- The address is in a netdestination of the name. -/
def DestHas (ds : List Dest) (v : Ver) (name : Str) (x : Nat) : Prop :=
  ∃ d ∈ ds, d.name = name ∧ (d.v6 = true ↔ v = .v6) ∧ ∃ n ∈ d.nets, Mem n v x

/-- A side of a rule. -/
def SideHits (ds : List Dest) (v : Ver) (x : Nat) (isUser : Bool) : Side → Prop
  | .any => True
  | .user => isUser = true
  | .alias name => DestHas ds v name x

/-- The service of a rule: two ports are the first and the last of a range. -/
def SvcHits (p : Packet) : Svc → Prop
  | .any => True
  | .number n => (p.proto, n) ∈ iana
  | .ports proto [a] => p.proto = String.ofList proto ∧ p.dport = a
  | .ports proto [a, b] => p.proto = String.ofList proto ∧ a ≤ p.dport ∧ p.dport ≤ b
  | .ports _ _ => False

/-- A line makes the decision: a rule that is not a removal, has an action and matches. -/
def Hits (ds : List Dest) (p : Packet) (l : Line) (a : String) : Prop :=
  ∃ r, l = .rule r ∧ r.negate = false ∧ r.action = some a ∧ (r.v6 = true ↔ p.ver = .v6) ∧
    SideHits ds p.ver p.src (p.hasOption "source-is-user") r.src ∧
    SideHits ds p.ver p.dst (p.hasOption "destination-is-user") r.dst ∧ SvcHits p r.svc

/-- The lines of the access list of a name. -/
def linesOf (bs : List Block) (name : String) : List Line :=
  (bs.filter fun b => b.name = some name).flatMap Block.lines

/-- All netdestinations of the configuration. -/
def destsOf (bs : List Block) : List Dest := bs.flatMap Block.dests

/-- What the access list of the name does with a packet. -/
def Decides (bs : List Block) (name : String) (p : Packet) (a : String) : Prop :=
  First (Hits (destsOf bs) p) (linesOf bs name) a

/-- The names of the actions. -/
def names : List (String × String) := [("accept", "permit"), ("deny", "deny")]

/-- The first term that counts and matches has the action. -/
def FilterDecides (ts : List OpenConfig.OTerm) (p : Packet) (a : String) : Prop :=
  First (fun r a => Flat.Wants "aruba" names r.expired r.term p a) ts a

/-- The terms of filters, with whether the filter is for IPv6. -/
def termsOf (fs : List Aruba.Filter) : List (Bool × OpenConfig.OTerm) :=
  fs.flatMap fun f => f.terms.map fun t => (decide ("inet6" ∈ f.options), t)

/-- A text in lower case. -/
def lowered (s : Str) : Str := s.map Char.toLower

end Aruba
end Verif.Spec
