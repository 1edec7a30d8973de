import Verif.Spec.Flat
import Verif.Spec.Cisco
import Verif.Model.Versa

/-!
What a Versa firewall does with a packet that opens a session: the first access policy that matches decides. A name stands for what is
defined under it; a name that is not defined stands for nothing.
-/

namespace Verif.Spec
namespace Versa
open Verif Verif.Versa Policy Aclgenerator

/-! ### the device -/

/-- The group stands for the address. -/
def GroupHas (o : Output) (group : Str) (v : Ver) (x : Nat) : Prop :=
  ∃ ms, (group, ms) ∈ o.groups ∧ ∃ m ∈ ms, ∃ n, (m, n) ∈ o.addresses ∧ Flat.Covers (n.ver, n.addr, n.plen) v x

/-- The address and its zone are among those of a side. -/
def SideHits (o : Output) (s : Option Side) (zone : String) (v : Ver) (x : Nat) : Prop :=
  Flat.IfSet s fun s => zone ∈ s.zones ∧ Flat.IfSet s.group fun g => if s.negate then ¬ GroupHas o g v x else GroupHas o g v x

/-- Protocols of services. -/
def serviceProtos : List (String × Int) :=
  [("TCP", 6), ("UDP", 17), ("SCTP", 132), ("ESP", 50), ("AH", 51), ("GRE", 47), ("IGMP", 2), ("PIM", 103), ("OSPF", 89)]

/-- The service of the name matches. -/
def ServiceHits (o : Output) (p : Packet) (name : Str) : Prop :=
  ∃ s ∈ o.services, s.name = name ∧ (∃ e ∈ serviceProtos, e.1.toList = s.proto ∧ Flat.NumberIs p e.2) ∧
    (s.sport = [] ∨ ∃ r ∈ s.sport, Flat.PortIn p p.sport r) ∧ (s.dport = [] ∨ ∃ r ∈ s.dport, Flat.PortIn p p.dport r)

/-- The predefined service matches; the others are not described here. -/
def PredefinedHits (p : Packet) (name : String) : Prop := name = "ICMP" ∧ Flat.NumberIs p 1

/-- The rule matches the packet. -/
structure Hits (o : Output) (p : Packet) (r : VRule) : Prop where
  src : SideHits o r.src p.srcZone p.ver p.src
  dst : SideHits o r.dst p.dstZone p.ver p.dst
  service : (r.services = [] ∧ r.predefined = []) ∨ (∃ s ∈ r.services, ServiceHits o p s) ∨ ∃ s ∈ r.predefined, PredefinedHits p s
  dscp : OneOf r.dscp p.dscp

/-- The first rule that matches has the action. -/
def Decides (o : Output) (p : Packet) (a : String) : Prop :=
  First (fun r a => Hits o p r ∧ ∃ e, r.act = some (a, e)) o.rules a

/-! ### the policy -/

/-- What the options after the zones say: pairs of a word and a name, and at most one family. -/
inductive Says : List String → List (String × String) → Option String → Prop
  | nil : Says [] [] none
  | pair {k v : String} {rest : List String} {ns : List (String × String)} {af : Option String} :
      k ∈ ["template", "tenant", "policy"] → Says rest ns af → Says (k :: v :: rest) ((k, v) :: ns) af
  | family {a : String} {rest : List String} {ns : List (String × String)} :
      a ∈ ["inet", "inet6", "mixed"] → Says rest ns none → Says (a :: rest) ns (some a)
  | quiet {o : String} {rest : List String} {ns : List (String × String)} {af : Option String} :
      o ∉ ["template", "tenant", "policy", "inet", "inet6", "mixed"] → (∃ a b, o.toList = a ++ "noverbose".toList ++ b) →
      Says rest ns af → Says (o :: rest) ns af

/-- A header: the zones and the options after them. -/
def Head (options : List String) (a b : String) (ns : List (String × String)) (af : Option String) : Prop :=
  ∃ rest, options = "from-zone" :: a :: "to-zone" :: b :: rest ∧ Says rest ns af

/-- A filter with the family is about packets of the version; by default it is about both. -/
def About (af : Option String) (v : Ver) : Prop :=
  af = none ∨ af = some "mixed" ∨ af = some (if v = .v6 then "inet6" else "inet")

/-- The term is for this platform, and neither for replies nor for established connections. -/
def Live (g : VTerm) : Prop :=
  g.base.expired = false ∧ g.base.reply = false ∧ (g.base.term.platform = [] ∨ "versa" ∈ g.base.term.platform) ∧
  "versa" ∉ g.base.term.platformExclude ∧ "established" ∉ g.base.term.option ∧ "tcp-established" ∉ g.base.term.option

/-- The zones of a side: those of the term or else that of the header, which is for any if it is `all`. -/
def ZoneIs (own : List String) (z zone : String) : Prop := own ≠ [] ∨ z = "all" ∨ z = zone

/-- What the device calls the actions. -/
def verdicts : List (String × String) := [("accept", "allow"), ("deny", "deny"), ("reject", "reject")]

/-- The term, in a filter between the zones, wants the packet to be treated so. -/
def Wants (a b : String) (p : Packet) (g : VTerm) (w : String) : Prop :=
  Live g ∧ ZoneIs g.base.term.sourceZone a p.srcZone ∧ ZoneIs g.base.term.destinationZone b p.dstZone ∧ Matches g.base.term p ∧
  ∃ u, g.base.term.action = [u] ∧ (u, w) ∈ verdicts

/-! ### rules -/

/-- What is logged. -/
inductive Logs : List String → String → Prop
  | none : Logs [] "never"
  | start {s : String} {l : List String} : s.toList.map Char.toLower = "true".toList → Logs (s :: l) "start"
  | both {l : List String} : Logs ("log-both" :: l) "both"
  | never {s : String} {l : List String} : s.toList.map Char.toLower ≠ "true".toList → s ≠ "log-both" → Logs (s :: l) "never"

/-- A side of a rule: the zones, the group if there are addresses, and whether it stands for the addresses that are not in it. -/
structure Sided (af : Option String) (own : List String) (z : String) (group : Str) (inc exc : List Net) (s : Option Side) : Prop where
  any : s = none ↔ own = [] ∧ z = "all"
  zones : ∀ x, s = some x → (own ≠ [] ∧ x.zones = own) ∨ (own = [] ∧ x.zones = [z])
  group : ∀ x, s = some x → x.group = if inc = [] then none else some group
  negate : ∀ x, s = some x → (x.negate = true ↔ inc ≠ [] ∧ exc ≠ [])
  some : inc ≠ [] → ∃ n ∈ inc, About af n.ver

/-- The rule carries what the term says. Services are a number of names made of the name of the rule. -/
structure Carries (af : Option String) (a b : String) (g : VTerm) (r : VRule) : Prop where
  name : r.name.length ≤ 62
  src : Sided af g.base.term.sourceZone a ("src-".toList ++ r.name) g.base.term.sourceAddress g.base.term.sourceAddressExclude r.src
  dst : Sided af g.base.term.destinationZone b ("dest-".toList ++ r.name) g.base.term.destinationAddress g.base.term.destinationAddressExclude r.dst
  services : r.services = [] ∨ r.services =
    (List.range (g.base.term.protocol.erase "icmp").length).map fun j => r.name ++ "-app".toList ++ (toString (j + 1)).toList
  predefined : r.predefined = g.apps ++ if "icmp" ∈ g.base.term.protocol then ["ICMP"] else []
  dscp : ∀ d, d ∈ r.dscp ↔ d ∈ g.base.term.dscpMatch ∧ ∃ k : Int, PyStr.pyInt d.toList = some k ∧ 0 ≤ k ∧ k ≤ 63
  act : ∀ u us, g.base.term.action = u :: us → ∃ e, r.act = some (if u = "accept" then "allow" else u, e) ∧ Logs g.base.term.logging e
  noAct : g.base.term.action = [] → r.act = none
  icmpType : g.base.term.icmpType = []

/-- The networks are among those of the list, but for where they come from. -/
def Among (s l : List Net) : Prop := ∀ n ∈ s, ∃ m ∈ l, n.ver = m.ver ∧ n.addr = m.addr ∧ n.plen = m.plen

/-- A part of a term: it differs in the name, which gets a number, and in the addresses, which are some of those of the term. -/
def PartOf (g g' : VTerm) : Prop := ∃ (i : Nat) (s d : List Net),
  g' = { g with base := { g.base with term := { g.base.term with
    name := g.base.term.name ++ '_' :: (toString i).toList, sourceAddress := s, destinationAddress := d } } } ∧
  Among s g.base.term.sourceAddress ∧ Among d g.base.term.destinationAddress ∧
  (g.base.term.sourceAddress ≠ [] → s ≠ []) ∧ (g.base.term.destinationAddress ≠ [] → d ≠ [])

/-- The addresses fit into one rule. -/
def Small (g : VTerm) : Prop :=
  ((g.base.term.sourceAddress ++ g.base.term.destinationAddress).map fun n => if n.ver = .v6 then 4 else 1).sum ≤ 1023

/-- What a term is replaced by: itself if it is small, or else by itself or parts that match what it matches. -/
def Cut (g : VTerm) (gs : List VTerm) : Prop :=
  gs = [g] ∨ (¬ Small g ∧ (∀ g' ∈ gs, PartOf g g') ∧ ∀ p, (∃ g' ∈ gs, Matches g'.base.term p) ↔ Matches g.base.term p)

/-- A filter that is rendered: what its header says, its terms cut into pieces, and the pieces with their rules. -/
structure Block where
  filter : Filter
  src : String
  dst : String
  pairs : List (String × String)
  family : Option String
  pieces : List (VTerm × List VTerm)
  outs : List (VTerm × List VRule)

/-- The rules of a filter. -/
def Block.rules (b : Block) : List VRule := b.outs.flatMap Prod.snd

/-- No address of a side is of the family. -/
def Void (af : Option String) (l : List Net) : Prop := l ≠ [] ∧ ∀ n ∈ l, ¬ About af n.ver

/-- How a filter is rendered: each piece of a term gives at most one rule, which is called like it and carries what it says; none if it
is not live, and else none only if it has addresses of other families only. -/
structure Rendered (b : Block) : Prop where
  head : Head b.filter.options b.src b.dst b.pairs b.family
  terms : b.pieces.map Prod.fst = b.filter.terms
  cut : ∀ x ∈ b.pieces, Cut x.1 x.2
  outs : b.outs.map Prod.fst = b.pieces.flatMap Prod.snd
  dead : ∀ x ∈ b.outs, ¬ Live x.1 → x.2 = []
  one : ∀ x ∈ b.outs, x.2.length ≤ 1
  carries : ∀ x ∈ b.outs, ∀ r ∈ x.2, r.name = x.1.base.term.name ∧ Carries b.family b.src b.dst x.1 r
  void : ∀ x ∈ b.outs, Live x.1 → x.2 = [] →
    Void b.family x.1.base.term.sourceAddress ∨ Void b.family x.1.base.term.destinationAddress
  names : (b.rules.map VRule.name).Nodup

/-- The last name that the headers give for a word, if any. -/
def named (pairs : List (String × String)) (k : String) (default : String) : String :=
  (((pairs.filter fun kv => kv.1 = k ∧ kv.2 ≠ "").map Prod.snd).getLast?).getD default

/-- The names in the output are those that the headers give. -/
def NamesAre (pairs : List (String × String)) (n : Names) : Prop :=
  n.template = named pairs "template" "_templatename" ∧ n.tenant = named pairs "tenant" "_tenantname" ∧
  n.policy = named pairs "policy" "_policyname"

/-- The group of a side is defined once, and stands for the addresses of the family among those given. -/
def Holds (o : Output) (af : Option String) (inc : List Net) (s : Option Side) : Prop :=
  ∀ x g, s = some x → x.group = some g → ∃ ms, (∀ ms', (g, ms') ∈ o.groups ↔ ms' = ms) ∧
    ∀ n, (∃ m ∈ ms, (m, n) ∈ o.addresses) ↔ n ∈ inc ∧ About af n.ver

/-- The service is not defined. -/
def Dangling (o : Output) (name : Str) : Prop := ∀ s ∈ o.services, s.name ≠ name

/-- The term needs services: it has ports, or a protocol other than the first ICMP. -/
def Busy (g : VTerm) : Prop := g.base.term.sourcePort ≠ [] ∨ g.base.term.destinationPort ≠ [] ∨ g.base.term.protocol.erase "icmp" ≠ []

end Versa
end Verif.Spec
