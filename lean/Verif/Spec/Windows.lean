import Verif.Spec.Flat
import Verif.Model.Windows

/-!
What Windows does with the generated commands. The firewall looks at all rules of a direction: a packet that a blocking rule
matches is blocked, whatever else matches. In an IPsec policy a rule ties a list of filters to an action; a filter that is
mirrored also matches the replies.
-/

namespace Verif.Spec
namespace Windows
open Verif Verif.Windows Policy
open Verif.Cisco (RTerm)

/-- The protocols the firewall has names for. -/
def protoNames : List (String × Nat) := [("tcp", 6), ("udp", 17), ("icmpv4", 1), ("icmpv6", 58)]

/-- The packet has the protocol of a rule. -/
def ProtoHits (p : Packet) : ProtoTok → Prop
  | .word s => s = "any" ∨ ∃ n, (s, n) ∈ protoNames ∧ (p.proto, n) ∈ iana
  | .num n => Flat.NumberIs p n
  | .typed f ty =>
    (f = "icmpv4" ∧ p.proto = "icmp" ∧ (p.icmpType, ty) ∈ icmpV4) ∨
    (f = "icmpv6" ∧ p.proto = "icmpv6" ∧ (p.icmpType, ty) ∈ icmpV6)

/-- The end of the packet on this host. -/
def here (dir : String) (p : Packet) : Nat × Nat := if dir = "in" then (p.dst, p.dport) else (p.src, p.sport)

/-- The other end. -/
def there (dir : String) (p : Packet) : Nat × Nat := if dir = "in" then (p.src, p.sport) else (p.dst, p.dport)

/-- The rule matches the packet in the direction. -/
structure Hits (r : Rule) (dir : String) (p : Packet) : Prop where
  way : r.dir = dir
  localIp : Flat.IfSet r.localIp fun n => Flat.Covers n p.ver (here dir p).1
  remoteIp : Flat.IfSet r.remoteIp fun n => Flat.Covers n p.ver (there dir p).1
  localPorts : r.localPorts ≠ [] → ∃ q ∈ r.localPorts, q.1 ≤ (here dir p).2 ∧ (here dir p).2 ≤ q.2
  remotePorts : r.remotePorts ≠ [] → ∃ q ∈ r.remotePorts, q.1 ≤ (there dir p).2 ∧ (there dir p).2 ≤ q.2
  ports : r.localPorts ++ r.remotePorts ≠ [] → r.proto = .word "tcp" ∨ r.proto = .word "udp"
  proto : ProtoHits p r.proto

/-- The firewall blocks the packet. -/
def Blocks (rs : List Rule) (dir : String) (p : Packet) : Prop := ∃ r ∈ rs, r.action = "block" ∧ Hits r dir p

/-- The firewall lets the packet pass. -/
def Allows (rs : List Rule) (dir : String) (p : Packet) : Prop :=
  (∃ r ∈ rs, r.action = "allow" ∧ Hits r dir p) ∧ ¬ Blocks rs dir p

/-- The version of the packets a filter with the options is about. -/
def versionOf (opts : List String) : Ver := if "inet6" ∈ opts.tail then .v6 else .v4

/-- The terms of the filters for the direction and the version. -/
def termsOf (dir : String) (v : Ver) (fs : List Filter) : List RTerm :=
  (fs.filter fun f => f.here && f.options.head? == some dir && versionOf f.options == v).flatMap Filter.terms

/-- What the firewall calls the actions. -/
def actionNames : List (String × String) := [("accept", "allow"), ("deny", "block")]

/-- The term counts, matches the packet and has the action. -/
def Wants (r : RTerm) (p : Packet) (a : String) : Prop :=
  Flat.Wants "windows_advfirewall" actionNames r.expired r.term p a

/-- The first term that counts and matches decides. -/
def PolicyDecides (ts : List RTerm) (p : Packet) (a : String) : Prop := First (fun r a => Wants r p a) ts a

/-! ### IPsec -/

/-- The protocols IPsec filters have names for. -/
def secNames : List (String × Nat) := [("icmp", 1), ("tcp", 6), ("udp", 17)]

/-- The packet has the protocol of a filter. -/
def SecProto (p : Packet) : ProtoTok → Prop
  | .word s => s = "any" ∨ ∃ n, (s, n) ∈ secNames ∧ (p.proto, n) ∈ iana
  | .num n => Flat.NumberIs p n
  | .typed _ _ => False

/-- The conditions of a filter hold for the packet. -/
structure CondHits (c : Cond) (p : Packet) : Prop where
  ver : p.ver = .v4
  src : Flat.IfSet c.src fun n => Flat.Covers (.v4, n.1, n.2) p.ver p.src
  dst : Flat.IfSet c.dst fun n => Flat.Covers (.v4, n.1, n.2) p.ver p.dst
  sport : Flat.IfSet c.sport fun x => p.sport = x
  dport : Flat.IfSet c.dport fun x => p.dport = x
  ports : c.sport ≠ none ∨ c.dport ≠ none → c.proto = .word "tcp" ∨ c.proto = .word "udp"
  proto : SecProto p c.proto

/-- The packet the other way round. -/
def mirror (p : Packet) : Packet := { p with src := p.dst, dst := p.src, sport := p.dport, dport := p.sport }

/-- One of the filters of the list matches the packet. -/
def ListHits (cs : List Cmd) (list : Str) (p : Packet) : Prop :=
  ∃ c, Cmd.filter list c ∈ cs ∧ (CondHits c p ∨ CondHits c (mirror p))

/-- The term counts and is not one for replies. -/
def Live (r : RTerm) : Prop :=
  (r.expired = false ∧ (r.term.platform = [] ∨ "windows_ipsec" ∈ r.term.platform) ∧ "windows_ipsec" ∉ r.term.platformExclude) ∧
  "established" ∉ r.term.option ∧ "tcp-established" ∉ r.term.option

/-- The name of the rule, list or action of a term. -/
def nameOf (filter : String) (t : Term) (suffix : String) : Str :=
  filter.toList.take 1 ++ ['_'] ++ t.name ++ suffix.toList

/-- What IPsec calls the actions. -/
def secActionNames : List (String × String) := [("accept", "permit"), ("deny", "block"), ("reject", "block")]

end Windows
end Verif.Spec
