import Verif.Spec.Flat
import Verif.Model.Packetfilter

/-!
What pf does with a rule set. A packet is looked at once when it comes in and once when it goes out. The rules are tried
in order; a rule with `quick` that matches decides at once, otherwise the last one that matches decides. A packet that no
rule matches passes. A list of addresses stands for one rule for each element, so that one matching element is enough. A
table that is not defined is empty. Flags are looked at in TCP packets only; `keep state` without flags means
`flags S/SA`.
-/

namespace Verif.Spec
namespace Packetfilter
open Verif Verif.Packetfilter Policy Aclgenerator

/-- A packet on its way `in` or `out`. -/
structure Flow where
  packet : Packet
  dir : String := "in"

/-- Numbers of the protocol names pf knows (names of `/etc/protocols`). -/
def protoNumbers : List (String × Nat) :=
  [("hopopt", 0), ("icmp", 1), ("igmp", 2), ("ggp", 3), ("tcp", 6), ("egp", 8), ("igp", 9),
   ("udp", 17), ("rdp", 27), ("ipv6", 41), ("ipv6-route", 43), ("rsvp", 46), ("gre", 47),
   ("esp", 50), ("ah", 51), ("ipv6-icmp", 58), ("ipv6-nonxt", 59), ("ipv6-opts", 60), ("ospf", 89), ("ipip", 94), ("pim", 103),
   ("vrrp", 112), ("l2tp", 115), ("sctp", 132), ("udplite", 136)]

/-- The packet has the protocol. -/
def ProtoIs (s : String) (p : Packet) : Prop := ∃ e ∈ protoNumbers, e.1 = s ∧ Flat.NumberIs p (e.2 : Int)

/-- The address is in the table. -/
def InTable (ts : List (String × List Net)) (name : String) (v : Ver) (x : Nat) : Prop :=
  ∃ t ∈ ts, t.1 = name ∧ ∃ n ∈ t.2, Flat.Covers (n.ver, n.addr, n.plen) v x

/-- The element of a list of addresses matches. -/
def TargetHits (ts : List (String × List Net)) (a : Target) (v : Ver) (x : Nat) : Prop :=
  match a with
  | .any => True
  | .table s => InTable ts s v x
  | .except s => ¬ InTable ts s v x

/-- The letters of TCP flags. -/
def flagNames : List (Char × String) :=
  [('S', "syn"), ('A', "ack"), ('F', "fin"), ('R', "rst"), ('U', "urg"), ('P', "psh")]

/-- The packet has the flag. -/
def HasFlag (p : Packet) (c : Char) : Prop := ∃ e ∈ flagNames, e.1 = c ∧ p.hasOption e.2 = true

/-- The flags that the rule looks at. -/
def FlagsOf (r : Rule) : Option (List Char × List Char) :=
  match r.flags with
  | some f => some f
  | none => if r.action = "pass" ∧ r.state = "keep state" then some (['S'], ['S', 'A']) else none

/-- A port, of TCP or UDP. -/
def PortHits (l : List PortRange) (p : Packet) (x : Nat) : Prop := l = [] ∨ (p.proto ∈ ["tcp", "udp"] ∧ PMem l x)

/-- The rule matches the packet. -/
structure RuleHits (ts : List (String × List Net)) (f : Flow) (r : Rule) : Prop where
  direction : r.direction = "" ∨ r.direction = f.dir
  interface : Flat.IfSet r.interface fun i => (if f.dir = "in" then f.packet.inInterface else f.packet.outInterface) = i
  family : r.family = "" ∨ r.family = if f.packet.ver = .v4 then "inet" else "inet6"
  proto : r.protos = [] ∨ ∃ s ∈ r.protos, ProtoIs s f.packet
  src : ∃ a ∈ r.src, TargetHits ts a f.packet.ver f.packet.src
  dst : ∃ a ∈ r.dst, TargetHits ts a f.packet.ver f.packet.dst
  sport : PortHits r.sport f.packet f.packet.sport
  dport : PortHits r.dport f.packet f.packet.dport
  flags : Flat.IfSet (FlagsOf r) fun a => f.packet.proto = "tcp" → ∀ c ∈ a.2, HasFlag f.packet c ↔ c ∈ a.1
  types : r.types = [] ∨ (f.packet.proto = "icmp" ∧ ∃ k ∈ r.types, (f.packet.icmpType, k) ∈ icmpV4)
  types6 : r.types6 = [] ∨ (f.packet.proto = "icmpv6" ∧ ∃ k ∈ r.types6, (f.packet.icmpType, k) ∈ icmpV6)

/-- What becomes of the packet; `v` is the action of the last rule so far that matches. -/
inductive Walk (hits : Rule → Prop) : String → List Rule → String → Prop
  | done {v} : Walk hits v [] v
  | quick {v r rs} : hits r → r.quick = true → Walk hits v (r :: rs) r.action
  | later {v r rs w} : hits r → r.quick = false → Walk hits r.action rs w → Walk hits v (r :: rs) w
  | miss {v r rs w} : ¬ hits r → Walk hits v rs w → Walk hits v (r :: rs) w

/-- What the rule set does with the packet. -/
def Does (o : Output) (f : Flow) (v : String) : Prop := Walk (RuleHits o.tables f) "pass" o.rules v

/-- The term is not expired and meant for the platform. -/
def Live (g : PTerm) : Prop :=
  g.expired = false ∧ (g.term.platform = [] ∨ "packetfilter" ∈ g.term.platform) ∧ "packetfilter" ∉ g.term.platformExclude

/-- The filter is about packets of the family. -/
def FamilyIs (options : List String) (v : Ver) : Prop :=
  "mixed" ∈ options ∨ ("inet6" ∈ options ∧ v = .v6) ∨ ("inet6" ∉ options ∧ v = .v4)

/-- The filter is about packets in the direction. -/
def DirectionIs (options : List String) (dir : String) : Prop :=
  ("in" ∈ options → dir = "in") ∧ ("in" ∉ options → "out" ∈ options → dir = "out")

/-- A term with an interface is about packets that come in or go out there. -/
def SideIs (t : Term) (dir : String) : Prop :=
  (t.sourceInterface ≠ none → dir = "in") ∧ (t.destinationInterface ≠ none → dir = "out")

/-- The names of decisions. -/
def verdicts : List (String × String) := [("accept", "pass"), ("deny", "block drop"), ("reject", "block return")]

/-- A term of a filter with these options decides so about the packet. -/
def Wants (f : Flow) (x : List String × PTerm) (v : String) : Prop :=
  Live x.2 ∧ FamilyIs x.1 f.packet.ver ∧ DirectionIs x.1 f.dir ∧ SideIs x.2.term f.dir ∧ Matches x.2.term f.packet ∧
  ∃ w, x.2.term.action = [w] ∧ (w, v) ∈ verdicts

/-- The terms of a policy with the options of their filters. -/
def terms (fs : List Filter) : List (List String × PTerm) := fs.flatMap fun x => x.terms.map fun g => (x.options, g)

/-- The first term that decides about the packet decides so, or none decides and the packet passes. -/
def Decides (fs : List Filter) (f : Flow) (v : String) : Prop :=
  First (Wants f) (terms fs) v ∨ ((∀ x ∈ terms fs, ∀ w, ¬ Wants f x w) ∧ v = "pass")

/-- The lists of addresses of a policy. -/
def Lists (fs : List Filter) (l : List Net) : Prop :=
  ∃ x ∈ fs, ∃ g ∈ x.terms, l = g.term.sourceAddress ∨ l = g.term.destinationAddress

/-- A token means the same wherever it is used: a list with an address of a token covers all addresses that any list has
from the token. -/
def Closed (fs : List Filter) : Prop :=
  ∀ l m, Lists fs l → Lists fs m → ∀ n ∈ m, n.parent ∈ l.map Net.parent → ∀ v x, Mem n v x → Den l v x

/-- A packet of a real network, with the meaning of the options of policies: `established` means that the `ack` flag is
set, or UDP. -/
structure Real (p : Packet) : Prop where
  proto : p.proto ∈ iana.map Prod.fst
  icmp4 : p.ver = .v4 → p.proto ≠ "icmpv6"
  icmp6 : p.ver = .v6 → p.proto ≠ "icmp"
  est : p.hasOption "established" = p.hasOption "tcp-established"
  udp : p.proto = "udp" → p.hasOption "tcp-established" = true
  tcp : p.proto = "tcp" → p.hasOption "tcp-established" = p.hasOption "ack"
  every : p.hasOption "all" = true ↔ ∀ e ∈ flagNames, p.hasOption e.2 = true

/-- The packet does not belong to a TCP connection that has begun already. -/
def Opens (p : Packet) : Prop := p.proto = "tcp" → p.hasOption "syn" = true ∧ p.hasOption "ack" = false

/-- The rules come from the terms, in order, at most one from each, and `P` holds for each term with its rule. -/
def RulesFrom (fs : List Filter) (rs : List Rule) (P : List String × PTerm → Rule → Prop) : Prop :=
  ∃ l : List ((List String × PTerm) × Option Rule), l.map Prod.fst = terms fs ∧ l.filterMap Prod.snd = rs ∧
    ∀ e ∈ l, ∀ r, e.2 = some r → P e.1 r

end Packetfilter
end Verif.Spec
