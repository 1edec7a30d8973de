import Verif.Spec.Flat
import Verif.Model.Gce

/-!
What a Google Compute Engine firewall does. A rule belongs to a network and a direction. Its sources may be given by
ranges, tags and service accounts, any of which suffices; a target tag or target service account restricts it to some of
the instances. Of the rules that match the one with the lowest priority number acts, 1000 if none is given; among equals
those that deny.
-/

namespace Verif.Spec
namespace Gce
open Verif Verif.Gce Policy Aclgenerator

/-- A packet at an instance: the network, the direction seen from the instance, the service account of the instance and
of the other side. The tags of the sides are those of the packet. -/
structure Flow where
  packet : Packet
  network : String := ""
  direction : String := "INGRESS"
  account : String := ""
  peer : String := ""

/-- The address lies in one of the ranges. -/
def InRanges (l : List Net) (v : Ver) (x : Nat) : Prop := ∃ n ∈ l, Flat.Covers (n.ver, n.addr, n.plen) v x

/-- The names of protocols the firewall knows. -/
def knownNames : List (String × Nat) :=
  [("tcp", 6), ("udp", 17), ("icmp", 1), ("esp", 50), ("ah", 51), ("ipip", 4), ("sctp", 132)]

/-- The protocol of the packet is the one of the entry. -/
def ProtoIs (p : Packet) : Proto → Prop
  | .str s => s = "all" ∨ ∃ k, (s, k) ∈ knownNames ∧ Flat.NumberIs p (k : Int)
  | .num n => Flat.NumberIs p n

/-- The entry matches the packet. -/
def EntryHits (e : Entry) (p : Packet) : Prop :=
  ProtoIs p e.proto ∧ (e.ports = [] ∨ ∃ r ∈ e.ports, Flat.PortIn p p.dport r)

/-- The tag of the instance the rule is applied to. -/
def Flow.tag (f : Flow) : String := if f.direction = "INGRESS" then f.packet.dstTag else f.packet.srcTag

/-- The other side is one the rule is for. -/
def PeerIs (r : Rule) (f : Flow) : Prop :=
  if f.direction = "INGRESS" then
    (r.sourceRanges = [] ∧ r.sourceTags = [] ∧ r.sourceAccounts = []) ∨
      InRanges r.sourceRanges f.packet.ver f.packet.src ∨ f.packet.srcTag ∈ r.sourceTags ∨ f.peer ∈ r.sourceAccounts
  else r.destinationRanges = [] ∨ InRanges r.destinationRanges f.packet.ver f.packet.dst

/-- The rule matches the flow. -/
def Hits (r : Rule) (f : Flow) : Prop :=
  (r.network.getD "" = f.network ∧ r.direction = f.direction) ∧
  (OneOf r.targetTags f.tag ∧ OneOf r.targetAccounts f.account) ∧ PeerIs r f ∧
  ∃ e ∈ r.entries, EntryHits e f.packet

/-- The priority of a rule. -/
def prio (r : Rule) : Nat := r.priority.getD 1000

/-- The rule goes first if both match. -/
def Beats (r s : Rule) : Prop :=
  prio r < prio s ∨ (prio r = prio s ∧ (r.action = "denied" ∨ s.action = "allowed"))

/-- A rule that matches and goes before all others that match has the action. -/
def Decides (rs : List Rule) (f : Flow) (action : String) : Prop :=
  ∃ r ∈ rs, Hits r f ∧ r.action = action ∧ ∀ s ∈ rs, Hits s f → Beats r s

/-- An IPv6 address that stands for an IPv4 address: IPv4-mapped, 6to4, or IPv4-compatible. -/
def Embedded (x : Nat) : Prop := x / 2 ^ 32 = 0xffff ∨ x / 2 ^ 112 = 0x2002 ∨ (x / 2 ^ 32 = 0 ∧ x ≠ 0)

/-- The term counts. -/
def Live (g : GTerm) : Prop :=
  g.expired = false ∧ g.reply = false ∧ (g.term.platform = [] ∨ "gce" ∈ g.term.platform) ∧
  "gce" ∉ g.term.platformExclude

/-- The term counts, matches the flow and has the action. -/
def Wants (f : Flow) (g : GTerm) (action : String) : Prop :=
  Live g ∧ (Matches g.term f.packet ∧ OneOf g.dstAccounts f.account ∧ OneOf g.srcAccounts f.peer) ∧
  ((g.term.action = ["accept"] ∧ action = "allowed") ∨ (g.term.action = ["deny"] ∧ action = "denied"))

/-- The first term that counts and matches has the action. -/
def PolicyDecides (gs : List GTerm) (f : Flow) (action : String) : Prop := First (Wants f) gs action

/-- The words with a meaning of their own in a header. -/
def headerWords : List String := ["INGRESS", "EGRESS", "inet", "inet6", "mixed"]

/-- The option is a number. -/
def Number (s : String) : Prop := s.toList ≠ [] ∧ ∀ c ∈ s.toList, c.isDigit = true

/-- A header says: direction, family, network. The options stand for themselves, in any order. -/
structure Header (options : List String) (direction family network : String) : Prop where
  direction : direction = if "EGRESS" ∈ options then "EGRESS" else "INGRESS"
  family : (family = "inet" ∧ "inet6" ∉ options ∧ "mixed" ∉ options) ∨
    (family = "inet6" ∧ "inet6" ∈ options ∧ "inet" ∉ options ∧ "mixed" ∉ options) ∨
    (family = "mixed" ∧ "mixed" ∈ options ∧ "inet" ∉ options ∧ "inet6" ∉ options)
  network : ((∀ o ∈ options, o ∈ headerWords ∨ Number o) ∧ network = "") ∨
    ∃ a b, options = a ++ network :: b ∧ network ∉ headerWords ∧ ¬ Number network ∧ ∀ o ∈ a, o ∈ headerWords ∨ Number o
  once : options.Nodup ∧ ∀ a ∈ options, ∀ b ∈ options, Number a → Number b → a = b

/-- A term that denies everything: nothing is set but the name, the comment and the log. -/
def CatchAll (g : GTerm) : Prop :=
  g.term = { name := g.term.name, action := ["deny"], logging := g.term.logging } ∧ g.priority = none ∧ g.owner = none ∧
  g.srcAccounts = [] ∧ g.dstAccounts = [] ∧ g.extra = false

/-- The priority of a term: a term that denies everything comes last. -/
def Rank (g : GTerm) (n : Nat) : Prop := (CatchAll g ∧ n = 65534) ∨ (¬ CatchAll g ∧ n = g.priority.getD 1000)

/-- The priorities of the terms are in line with their order. -/
def Ordered (g h : GTerm) : Prop :=
  ∀ m n, Rank g m → Rank h n → m < n ∨ (m = n ∧ (g.term.action = ["deny"] ∨ h.term.action = ["accept"]))

/-- The flow is one a filter of the family is for. -/
def OfFamily (family : String) (f : Flow) : Prop :=
  (family = "inet" → f.packet.ver = .v4) ∧ (family = "inet6" → f.packet.ver = .v6)

/-- What counts against the quota of a network: ranges, protocols, ports, tags, accounts. -/
def Attributes (r : Rule) : Nat :=
  r.sourceRanges.length + r.destinationRanges.length + (r.entries.map fun e => 1 + e.ports.length).sum +
  r.sourceTags.length + r.targetTags.length + r.sourceAccounts.length + r.targetAccounts.length

/-- The sizes the firewall takes. -/
structure WithinLimits (r : Rule) : Prop where
  name : r.name.length ≤ 63
  description : r.description.length ≤ 2047
  sources : r.sourceRanges.length ≤ 256
  destinations : r.destinationRanges.length ≤ 256
  sourceTags : r.sourceTags.length ≤ 30
  targetTags : r.targetTags.length ≤ 70
  sourceAccounts : r.sourceAccounts.length ≤ 10
  targetAccounts : r.targetAccounts.length ≤ 10
  entries : r.entries ≠ [] ∧ ∀ e ∈ r.entries, e.ports.length ≤ 256
  ranges : r.sourceRanges = [] ∨ r.destinationRanges = []
  apart : (r.sourceTags = [] ∧ r.targetTags = []) ∨ (r.sourceAccounts = [] ∧ r.targetAccounts = [])
  noEmpty : "" ∉ r.sourceTags ++ r.targetTags

/-- The text of a comment: its lines with blanks between, and the owner at the end. -/
def Text (comment : List Str) (owner : Option Str) : Str :=
  [' '].intercalate (comment ++ (owner.map fun o => "Owner: ".toList ++ o).toList)

/-- The last part of a path. -/
def LastPart (path b : Str) : Prop := '/' ∉ b ∧ (path = b ∨ ∃ q, path = q ++ '/' :: b)

/-- The name of the rule for a term that needs only one: the network, if there is one, the name, and a mark for egress. -/
def NameOf (network direction : String) (name out : Str) : Prop :=
  ∃ pre, ((network = "" ∧ pre = []) ∨ (network ≠ "" ∧ ∃ b, LastPart network.toList b ∧ pre = b ++ ['-'])) ∧
    out = pre ++ name ++ (if direction = "EGRESS" then "-e".toList else [])

end Gce
end Verif.Spec
