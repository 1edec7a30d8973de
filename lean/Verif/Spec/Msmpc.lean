import Verif.Spec.Flat
import Verif.Spec.Cisco
import Verif.Model.Msmpc

/-!
What a stateful firewall on an MS-MPC card does with a packet that opens a session: the first active term that matches decides, and
otherwise the packet is dropped. The name of a set of applications stands for the applications that are defined in the group.
-/

namespace Verif.Spec
namespace Msmpc
open Verif Verif.Msmpc Policy Aclgenerator
open Verif.Srx (STerm)

/-! ### the device -/

/-- A block of addresses: the most specific item that has the address decides, `except` wins ties, and other addresses do not match. -/
def AddrHits (inc exc : List Pfx) (v : Ver) (x : Nat) : Prop :=
  (inc = [] ∧ exc = []) ∨ ∃ n ∈ inc, Flat.Covers n v x ∧ ∀ e ∈ exc, Flat.Covers e v x → e.2.2 < n.2.2

/-- Lists of prefixes: in one of them and in none of the exceptions. -/
def PrefixHits (inc exc : List String) (f : String → Bool) : Prop :=
  (inc = [] ∧ exc = []) ∨ ((∃ n ∈ inc, f n = true) ∧ ∀ n ∈ exc, f n = false)

/-- The numbers of the protocol names the device knows. -/
def protoNames : List (String × Nat) :=
  [("ah", 51), ("egp", 8), ("esp", 50), ("gre", 47), ("icmp", 1), ("icmp6", 58), ("igmp", 2), ("ipip", 4), ("ospf", 89), ("pim", 103),
   ("rsvp", 46), ("sctp", 132), ("tcp", 6), ("udp", 17)]

/-- The packet has the protocol, which is a name or a number. -/
def ProtoIs (p : Packet) (s : String) : Prop :=
  (∃ e ∈ protoNames, e.1 = s ∧ (p.proto, e.2) ∈ iana) ∨ ∃ e ∈ iana, e.1 = p.proto ∧ s = toString e.2

/-- The application matches. -/
structure DefHits (p : Packet) (d : AppDef) : Prop where
  proto : Flat.IfSet d.proto (ProtoIs p)
  sport : Flat.IfSet d.sport (Flat.PortIn p p.sport)
  dport : Flat.IfSet d.dport (Flat.PortIn p p.dport)
  type : Flat.IfSet d.type fun k => (p.proto = "icmp" ∧ (p.icmpType, k) ∈ icmpV4) ∨ (p.proto = "icmpv6" ∧ (p.icmpType, k) ∈ icmpV6)
  codes : OneOf d.codes p.icmpCode

/-- The set of applications matches. -/
def SetHits (o : Group) (p : Packet) (s : Str) : Prop :=
  ∃ ms, (s, ms) ∈ o.sets ∧ ∃ m ∈ ms, ∃ d ∈ o.apps, d.name = m ∧ DefHits p d

/-- The rule matches the packet. -/
structure RuleHits (o : Group) (p : Packet) (r : Rule) : Prop where
  active : r.inactive = false
  src : AddrHits r.src r.srcExcept p.ver p.src
  dst : AddrHits r.dst r.dstExcept p.ver p.dst
  srcPrefix : PrefixHits r.srcPrefix r.srcPrefixExcept p.inSrcPrefix
  dstPrefix : PrefixHits r.dstPrefix r.dstPrefixExcept p.inDstPrefix
  app : Flat.IfSet r.appSet (SetHits o p)

/-- What the words after `then` mean. -/
def words : List (String × String) := [("accept", "accept"), ("discard", "deny"), ("reject", "reject")]

/-- What is printed is a rule that matches and says `v`. -/
def Hits (o : Group) (p : Packet) (x : Out) (v : String) : Prop :=
  ∃ r, x = .term r ∧ RuleHits o p r ∧ ∃ w, r.actions = [w] ∧ (w, v) ∈ words

/-- The device does `v` with the packet. -/
def Does (o : Group) (p : Packet) (v : String) : Prop :=
  First (Hits o p) o.terms v ∨ ((∀ x ∈ o.terms, ∀ w, ¬ Hits o p x w) ∧ v = "deny")

/-! ### the policy -/

/-- The term is for this platform, and neither for replies nor for established connections. -/
def Kept (g : STerm) : Prop :=
  g.expired = false ∧ g.reply = false ∧ (g.term.platform = [] ∨ "msmpc" ∈ g.term.platform) ∧ "msmpc" ∉ g.term.platformExclude ∧
  "established" ∉ g.term.option ∧ "tcp-established" ∉ g.term.option

/-- It also is not switched off. -/
def Live (g : STerm) : Prop := Kept g ∧ "inactive" ∉ g.term.option

/-- A filter with the options after its name is for the family: by default for both. -/
def FamilyIs (rest : List String) (v : Ver) : Prop :=
  "mixed" ∈ rest ∨ (if v = .v4 then "inet" else "inet6") ∈ rest ∨ ("inet" ∉ rest ∧ "inet6" ∉ rest)

/-- The direction of a filter with the options. -/
inductive DirectionIs (rest : List String) : String → Prop
  | ingress : "ingress" ∈ rest → DirectionIs rest "input"
  | egress : "egress" ∈ rest → DirectionIs rest "output"
  | both : "ingress" ∉ rest → "egress" ∉ rest → DirectionIs rest "input-output"

/-- The term wants the packet to be treated so. -/
def Wants (p : Packet) (g : STerm) (v : String) : Prop :=
  Live g ∧ Matches g.term p ∧ g.term.action = [v] ∧ v ∈ ["accept", "deny", "reject"]

/-- The filter says `v`. -/
def Decides (f : Filter) (p : Packet) (v : String) : Prop :=
  First (Wants p) f.terms v ∨ ((∀ g ∈ f.terms, ∀ w, ¬ Wants p g w) ∧ v = "deny")

/-! ### rules -/

/-- The networks that a term mentions. -/
def nets (t : Term) : List Net := t.sourceAddress ++ t.sourceAddressExclude ++ t.destinationAddress ++ t.destinationAddressExclude

/-- The term is printed for each family by itself: the filter is for both and it has addresses of both. -/
def Split (rest : List String) (t : Term) : Prop :=
  (∀ v, FamilyIs rest v) ∧ (∃ n ∈ nets t, n.ver = .v4) ∧ ∃ n ∈ nets t, n.ver = .v6

/-- What the words of a policy become. -/
def actionWords : List (String × String) := [("accept", "accept"), ("deny", "discard"), ("reject", "reject")]

open Classical in
/-- The rule, which is for a family, carries what the term says. -/
structure Carries (rest : List String) (g : STerm) (v : Ver) (r : Rule) : Prop where
  family : ∀ n ∈ r.src ++ r.srcExcept ++ r.dst ++ r.dstExcept, n.1 = v
  name : r.name = g.term.name ++ if Split rest g.term then (if v = .v4 then "-inet".toList else "-inet6".toList) else []
  inactive : r.inactive = true ↔ "inactive" ∈ g.term.option
  srcPrefix : r.srcPrefix = g.term.sourcePrefix ∧ r.srcPrefixExcept = g.term.sourcePrefixExcept
  dstPrefix : r.dstPrefix = g.term.destinationPrefix ∧ r.dstPrefixExcept = g.term.destinationPrefixExcept
  app : r.appSet = none ↔ g.term.sourcePort = [] ∧ g.term.destinationPort = [] ∧ g.term.icmpType = [] ∧ g.term.protocol = []
  actions : r.actions.length = g.term.action.length ∧
    ∀ (i : Nat) a b, g.term.action[i]? = some a → r.actions[i]? = some b → (a, b) ∈ actionWords
  syslog : r.syslog = true ↔ g.term.logging ≠ [] ∧ "disable" ∉ g.term.logging

/-- The networks are the same. -/
def SameNet (a b : Net) : Prop := a.ver = b.ver ∧ a.addr = b.addr ∧ a.plen = b.plen

/-- A side has addresses, but none of the family that is not excluded as it is. -/
def Void (v : Ver) (inc exc : List Net) : Prop := inc ≠ [] ∧ ∀ n ∈ inc, n.ver = v → ∃ e ∈ exc, SameNet n e

/-- The term needs no rule for the family. -/
def Spared (t : Term) (v : Ver) : Prop :=
  (v = .v6 ∧ "icmp" ∈ t.protocol ∧ "icmpv6" ∉ t.protocol) ∨ (v = .v4 ∧ "icmpv6" ∈ t.protocol ∧ "icmp" ∉ t.protocol) ∨
  Void v t.sourceAddress t.sourceAddressExclude ∨ Void v t.destinationAddress t.destinationAddressExclude

/-- How a term with what is printed for it is rendered. -/
structure Printed (rest : List String) (g : STerm) (os : List Out) : Prop where
  dead : ¬ Kept g → os = []
  verbatim : Kept g → g.term.verbatim ≠ [] → os = [.verbatim ((g.term.verbatim.filter fun e => e.1 = "msmpc").map Prod.snd)]
  rules : g.term.verbatim = [] → ∀ o ∈ os, ∃ v r, FamilyIs rest v ∧ o = .term r ∧ Carries rest g v r
  few : os.length ≤ 1 ∨ (Split rest g.term ∧ ∃ r r', os = [.term r, .term r'] ∧ Carries rest g .v4 r ∧ Carries rest g .v6 r')
  spared : Kept g → g.term.verbatim = [] → os = [] → ∀ v, FamilyIs rest v → Spared g.term v

/-- How a filter is rendered: term by term. -/
structure Rendered (f : Filter) (o : Group) (rest : List String) (bs : List (STerm × List Out)) : Prop where
  head : f.options = o.name :: rest
  direction : DirectionIs rest o.direction
  terms : bs.map Prod.fst = f.terms
  outs : o.terms = bs.flatMap Prod.snd
  printed : ∀ b ∈ bs, Printed rest b.1 b.2

/-- The name of a rule. -/
def ruleNames (o : Group) : List Str := o.terms.filterMap fun x => match x with | .term r => some r.name | .verbatim _ => none

/-! ### applications -/

/-- The name is defined once, as a set that is not empty and whose members are each defined once. -/
def Defined (o : Group) (s : Str) : Prop :=
  ∃ ms, (o.sets.filter fun e => e.1 = s) = [(s, ms)] ∧ ms ≠ [] ∧ ∀ m ∈ ms, ∃ d, (o.apps.filter fun e => e.name = m) = [d]

/-- The options after the name of a filter that are accepted: besides one `noverbose` at most one family and one direction. -/
structure Fine (rest : List String) : Prop where
  known : ∀ o ∈ rest, o ∈ ["inet", "inet6", "mixed", "ingress", "egress", "", "noverbose"]
  family : (rest.filter fun o => o ∈ ["inet", "inet6", "mixed"]).length ≤ 1
  direction : (rest.filter fun o => o ∈ ["ingress", "egress", ""]).length ≤ 1
  verbose : (rest.filter fun o => o = "noverbose").length ≤ 1

/-- The types are those of the one protocol of the term. -/
def TypesOk (t : Term) : Prop :=
  t.icmpType = [] ∨ (t.protocol = ["icmp"] ∧ ∀ s ∈ t.icmpType, s ∈ icmpV4.map Prod.fst) ∨
  (t.protocol = ["icmpv6"] ∧ ∀ s ∈ t.icmpType, s ∈ icmpV6.map Prod.fst)

/-- The term is looked at, so that its name counts. -/
def Seen (g : STerm) : Prop := g.reply = false ∧ "established" ∉ g.term.option ∧ "tcp-established" ∉ g.term.option

instance (g : STerm) : Decidable (Seen g) := inferInstanceAs (Decidable (_ ∧ _ ∧ _))

end Msmpc
end Verif.Spec
