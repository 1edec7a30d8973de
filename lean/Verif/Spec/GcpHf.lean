import Verif.Spec.Gce
import Verif.Model.GcpHf

/-!
What a hierarchical firewall policy of Google Cloud does. Of the rules that match, the one with the lowest priority number
acts: it allows, denies, or hands over to the next level of the hierarchy. The other side of a flow may be given by ranges
and by lists of threat intelligence, any of which suffices; a rule with targets is for these networks only.
-/

namespace Verif.Spec
namespace GcpHf
open Verif Verif.GcpHf Policy Aclgenerator

/-- A packet at an instance of a network, given by project and name, with the direction seen from the instance. -/
structure Flow where
  packet : Packet
  network : Str × Str := ([], [])
  direction : String := "INGRESS"

/-- The address is given by the ranges or by the lists. Without either any address is. -/
def Given (ranges : List Net) (lists : List String) (listed : String → Bool) (v : Ver) (x : Nat) : Prop :=
  (ranges = [] ∧ lists = []) ∨ Gce.InRanges ranges v x ∨ ∃ n ∈ lists, listed n = true

/-- The rule matches the flow. -/
def Hits (r : Rule) (f : Flow) : Prop :=
  r.direction = f.direction ∧ OneOf r.targets f.network ∧
  (Given r.sourceRanges r.sourceIntel f.packet.inSrcPrefix f.packet.ver f.packet.src ∧
    Given r.destinationRanges r.destinationIntel f.packet.inDstPrefix f.packet.ver f.packet.dst) ∧
  ∃ e ∈ r.entries, Gce.EntryHits e f.packet

/-- The rule with the lowest priority number among those that match has the action. -/
def Decides (rs : List Rule) (f : Flow) (action : String) : Prop :=
  Best (fun r s : Rule => r.priority < s.priority) (fun r a => Hits r f ∧ r.action = a) rs action

/-- The direction a header says. -/
def directionOf (options : List String) : String := if "EGRESS" ∈ options then "EGRESS" else "INGRESS"

/-- The family a header says. -/
def Family (options : List String) (family : String) : Prop :=
  (family = "inet" ∧ "inet6" ∉ options ∧ "mixed" ∉ options) ∨
  (family = "inet6" ∧ "inet6" ∈ options ∧ "inet" ∉ options ∧ "mixed" ∉ options) ∨
  (family = "mixed" ∧ "mixed" ∈ options ∧ "inet" ∉ options ∧ "inet6" ∉ options)

/-- The packet is one a filter of the family is for. -/
def OfFamily (family : String) (v : Ver) : Prop := (family = "inet" → v = .v4) ∧ (family = "inet6" → v = .v6)

/-- The term counts. -/
def Live (g : HTerm) : Prop :=
  g.reply = false ∧ (g.term.platform = [] ∨ "gcp_hf" ∈ g.term.platform) ∧ "gcp_hf" ∉ g.term.platformExclude

/-- The names of the actions; `next` is for the next level of the hierarchy. -/
def actionNames : List (String × String) := [("accept", "allow"), ("deny", "deny"), ("next", "goto_next")]

/-- A term of a filter with the given options counts, matches the flow and has the action. -/
def Wants (f : Flow) (x : List String × HTerm) (action : String) : Prop :=
  (directionOf x.1 = f.direction ∧ ∃ family, Family x.1 family ∧ OfFamily family f.packet.ver) ∧ Live x.2 ∧
  (Matches x.2.term f.packet ∧ OneOf x.2.targets f.network) ∧ ∃ w, x.2.term.action = [w] ∧ (w, action) ∈ actionNames

/-- The terms of a policy with the options of their filters. -/
def allTerms (fs : List Filter) : List (List String × HTerm) := fs.flatMap fun f => f.terms.map fun g => (f.options, g)

/-- The first term that counts and matches has the action. -/
def PolicyDecides (fs : List Filter) (f : Flow) (action : String) : Prop := First (Wants f) (allTerms fs) action

/-- What a rule costs: ranges, lists, protocols, ports, targets. -/
def Cost (r : Rule) : Nat :=
  r.sourceRanges.length + r.destinationRanges.length + r.sourceIntel.length + r.destinationIntel.length +
  (r.entries.map fun e => 1 + e.ports.length).sum + r.targets.length

/-- The maximum a header says: 100 if it says none. -/
def Maximum (options : List String) (n : Nat) : Prop :=
  ((∀ o ∈ options, ¬ Gce.Number o) ∧ n = 100) ∨ (toString n ∈ options ∧ ∀ o ∈ options, Gce.Number o → o = toString n)

/-- Lower case letters and digits. -/
def Plain (c : Char) : Prop := ('a' ≤ c ∧ c ≤ 'z') ∨ ('0' ≤ c ∧ c ≤ '9')

/-- A name of lower case letters, digits and hyphens that begins with a letter and does not end with a hyphen. -/
def Label (s : Str) : Prop :=
  (∀ c ∈ s, Plain c ∨ c = '-') ∧ (∃ c cs, s = c :: cs ∧ 'a' ≤ c ∧ c ≤ 'z') ∧ s.getLast? ≠ some '-'

/-- The threat intelligence there is. -/
def threatLists : List String :=
  ["iplist-tor-exit-nodes", "iplist-known-malicious-ips", "iplist-search-engines-crawlers", "iplist-public-clouds",
   "iplist-public-clouds-aws", "iplist-public-clouds-azure", "iplist-public-clouds-gcp"]

/-- The sizes and names the firewall takes. -/
structure WithinLimits (r : Rule) : Prop where
  description : r.description.length ≤ 64
  sources : r.sourceRanges.length ≤ 256
  destinations : r.destinationRanges.length ≤ 256
  one : (r.sourceRanges = [] ∧ r.sourceIntel = []) ∨ (r.destinationRanges = [] ∧ r.destinationIntel = [])
  other : r.sourceRanges ≠ [] ∨ r.sourceIntel ≠ [] ∨ r.destinationRanges ≠ [] ∨ r.destinationIntel ≠ []
  direction : r.direction = "INGRESS" ∨ r.direction = "EGRESS"
  entries : r.entries ≠ [] ∧ ∀ e ∈ r.entries, e.ports.length ≤ 256
  targets : r.targets.length ≤ 256 ∧
    ∀ x ∈ r.targets, (6 ≤ x.1.length ∧ x.1.length ≤ 30 ∧ Label x.1) ∧ (x.2.length ≤ 63 ∧ Label x.2)
  lists : ∀ n ∈ r.sourceIntel ++ r.destinationIntel, n ∈ threatLists
  versions : ∀ a ∈ r.sourceRanges ++ r.destinationRanges, ∀ b ∈ r.sourceRanges ++ r.destinationRanges, a.ver = b.ver

/-- The words with a meaning of their own in a header. -/
def headerWords : List String := ["INGRESS", "EGRESS", "inet", "inet6", "mixed", "ga", "beta"]

end GcpHf
end Verif.Spec
