import Verif.Spec.Flat
import Verif.Spec.Cisco
import Verif.Model.Nsx

/-!
What VMware NSX does with the generated rules: the first rule that matches decides. Addresses and services of a rule are
alternatives; without addresses or services it is for any. Only packets that open a connection are looked at.
-/

namespace Verif.Spec
namespace Nsx
open Verif Verif.Nsx Policy

/-- The packet has the protocol of the service; texts are not understood. -/
def ProtoIs (p : Packet) : Aclgenerator.Proto → Prop
  | .num n => Flat.NumberIs p n
  | .str _ => False

/-- The service matches the packet. -/
structure ServiceHits (s : Service) (p : Packet) : Prop where
  proto : ProtoIs p s.proto
  sport : s.sport = [] ∨ ∃ r ∈ s.sport, Flat.PortIn p p.sport r
  dport : s.dport = [] ∨ ∃ r ∈ s.dport, Flat.PortIn p p.dport r
  icmp : Flat.IfSet s.icmp fun k => (p.icmpType, k) ∈ icmpNumbers p.ver

/-- The rule matches the packet. -/
structure Hits (r : Rule) (p : Packet) : Prop where
  src : r.src = [] ∨ ∃ n ∈ r.src, Flat.Covers n p.ver p.src
  dst : r.dst = [] ∨ ∃ n ∈ r.dst, Flat.Covers n p.ver p.dst
  service : r.services = [] ∨ ∃ s ∈ r.services, ServiceHits s p
  family : Flat.IfSet r.families fun l => p.ver ∈ l

/-- The first rule that matches has the action. -/
def Decides (rs : List Rule) (p : Packet) (a : String) : Prop := First (fun r a => Hits r p ∧ r.action = a) rs a

/-- The type in the options of a header. -/
def typeOf (opts : List String) : Option String := opts[1]?

/-- Filters with the options are about packets of the version. -/
def About (opts : List String) (v : Ver) : Prop :=
  typeOf opts = some "mixed" ∨ typeOf opts = some (if v = .v6 then "inet6" else "inet")

/-- What NSX-V calls the actions. -/
def namesV : List (String × String) :=
  [("accept", "allow"), ("deny", "deny"), ("reject", "reject"), ("reject-with-tcp-rst", "reject")]

/-- What NSX-T calls the actions. -/
def namesT : List (String × String) :=
  [("accept", "ALLOW"), ("deny", "DROP"), ("reject", "REJECT"), ("reject-with-tcp-rst", "REJECT")]

/-- The first term that counts and matches decides. -/
def PolicyDecides (platform : String) (names : List (String × String)) (ts : List NTerm) (p : Packet) (a : String) : Prop :=
  First (fun n a => Flat.Wants platform names n.expired n.term p a) ts a

/-- The header limits the rules to the security group. -/
def Group (opts : List String) (g : String) : Prop :=
  ∃ name type pre post, opts = name :: type :: pre ++ "securitygroup" :: g :: post ∧ "securitygroup" ∉ pre

/-- The rule has the name of the term, does what it says, is logged just if it asks for it, and its types of icmp are among those of
the term. -/
structure Carries (names : List (String × String)) (n : NTerm) (r : Rule) : Prop where
  live : n.expired = false
  name : r.name = n.term.name
  action : ∃ w, n.term.action.head? = some w ∧ (w, r.action) ∈ names
  logged : r.logged = true ↔ n.term.logging ≠ []
  types : ∀ s ∈ r.services, ∀ k, s.icmp = some k → ∃ w ∈ n.term.icmpType, ∃ v, (w, k) ∈ icmpNumbers v

/-- The term may be left out: it does not count, is about replies, has another action, a protocol of one family, or addresses in both
directions, which may have no family in common. -/
def Spared (platform : String) (names : List (String × String)) (n : NTerm) : Prop :=
  n.expired = true ∨ ¬ (n.term.platform = [] ∨ platform ∈ n.term.platform) ∨ platform ∈ n.term.platformExclude ∨
  n.term.option ≠ [] ∨ (∃ w, n.term.action.head? = some w ∧ w ∉ names.map Prod.fst) ∨
  "icmp" ∈ n.term.protocol ∨ "icmpv6" ∈ n.term.protocol ∨ (n.term.sourceAddress ≠ [] ∧ n.term.destinationAddress ≠ [])

/-- One rule for each of the terms, in their order, except for those that may be left out. -/
inductive Listed (platform : String) (names : List (String × String)) : List NTerm → List Rule → Prop
  | nil : Listed platform names [] []
  | skip {n : NTerm} {ns : List NTerm} {rs : List Rule} : Spared platform names n → Listed platform names ns rs →
      Listed platform names (n :: ns) rs
  | one {n : NTerm} {ns : List NTerm} {r : Rule} {rs : List Rule} : Carries names n r → Listed platform names ns rs →
      Listed platform names (n :: ns) (r :: rs)

end Nsx
end Verif.Spec
