import Verif.Spec.Flat
import Verif.Spec.Cisco
import Verif.Model.Pan

/-!
What a Palo Alto firewall does with a packet that opens a session: the first rule for its zones that matches decides. Members of the
source and destination are alternatives, as are services and applications. A name stands for the addresses and groups that have it.
-/

namespace Verif.Spec
namespace Pan
open Verif Verif.Pan Policy Aclgenerator

/-! ### the device -/

/-- The name stands for the address; nothing is called by the empty text. -/
inductive Has (o : Output) (v : Ver) (x : Nat) : String → Prop
  | address {name : String} {n : Net} : (name, n) ∈ o.addresses → name ≠ "" → Flat.Covers (n.ver, n.addr, n.plen) v x → Has o v x name
  | group {name m : String} {ms : List String} : (name, ms) ∈ o.groups → name ≠ "" → m ∈ ms → Has o v x m → Has o v x name

/-- The member stands for the address. -/
def MemberHas (o : Output) (v : Ver) (x : Nat) : Member → Prop
  | .any => True
  | .anyIpv4 => o.anyIpv4 = true ∧ v = .v4
  | .group name => Has o v x name
  | .net n => Flat.Covers (n.ver, n.addr, n.plen) v x

/-- The address is one of those of a side. -/
def SideHas (o : Output) (negate : Bool) (ms : List Member) (v : Ver) (x : Nat) : Prop :=
  if negate then ¬ ∃ m ∈ ms, MemberHas o v x m else ∃ m ∈ ms, MemberHas o v x m

/-- The protocols services can have. -/
def serviceProtos : List (String × Int) := [("tcp", 6), ("udp", 17), ("sctp", 132)]

/-- The service of the name matches. -/
def ServiceHits (o : Output) (p : Packet) (name : Str) : Prop :=
  ∃ s ∈ o.services, s.name = name ∧ (∃ n, (s.proto, n) ∈ serviceProtos ∧ Flat.NumberIs p n) ∧
    (s.sport = [] ∨ ∃ r ∈ s.sport, Flat.PortIn p p.sport r) ∧ ∃ r ∈ s.dport, Flat.PortIn p p.dport r

/-- Applications the device knows, with their protocols. -/
def knownApps : List (String × Int) :=
  [("icmp", 1), ("igmp", 2), ("gre", 47), ("ipsec-esp", 50), ("ipsec-ah", 51), ("ipv6-icmp", 58), ("sctp", 132)]

/-- The application of the name matches. -/
def AppHits (o : Output) (p : Packet) (name : String) : Prop :=
  (∃ n, (name, n) ∈ knownApps ∧ Flat.NumberIs p n) ∨
  ∃ a ∈ o.refs, a.name = name ∧ Flat.NumberIs p (if a.v6 then 58 else 1) ∧
    (p.icmpType, a.type) ∈ icmpNumbers (if a.v6 then .v6 else .v4)

/-- The service of a rule; an application on its default ports needs nothing more for the applications above. -/
def ServiceOk (o : Output) (p : Packet) : ServiceField → Prop
  | .any => True
  | .appDefault => True
  | .names l => ∃ s ∈ l, ServiceHits o p s

/-- The rule matches the packet. -/
structure Hits (o : Output) (r : PRule) (p : Packet) : Prop where
  fromZone : r.fromZone = "any" ∨ r.fromZone = p.srcZone
  toZone : r.toZone = "any" ∨ r.toZone = p.dstZone
  src : SideHas o r.negate r.src p.ver p.src
  dst : SideHas o r.negate r.dst p.ver p.dst
  service : ServiceOk o p r.service
  app : r.apps = [] ∨ ∃ a ∈ r.apps, AppHits o p a

/-- The first rule that matches has the action. -/
def Decides (o : Output) (p : Packet) (a : String) : Prop := First (fun r a => Hits o r p ∧ r.action = a) o.rules a

/-! ### the policy -/

/-- The family of a header: IPv4 by default. -/
def familyOf (opts : List String) : String := opts[4]?.getD "inet"

/-- Filters with the options are about packets of the version. -/
def About (opts : List String) (v : Ver) : Prop :=
  familyOf opts = "mixed" ∨ familyOf opts = if v = .v6 then "inet6" else "inet"

/-- Filters with the options are about packets between the zones. -/
def Between (opts : List String) (a b : String) : Prop :=
  (opts[1]? = some "any" ∨ opts[1]? = some a) ∧ (opts[3]? = some "any" ∨ opts[3]? = some b)

/-- The term is for this platform, and neither for replies nor for established connections. -/
def Live (g : PTerm) : Prop :=
  g.expired = false ∧ g.reply = false ∧ (g.term.platform = [] ∨ "paloalto" ∈ g.term.platform) ∧
  "paloalto" ∉ g.term.platformExclude ∧ "established" ∉ g.term.option ∧ "tcp-established" ∉ g.term.option

/-- What the device calls the actions. -/
def names : List (String × String) :=
  [("accept", "allow"), ("deny", "deny"), ("reject", "reset-client"), ("reject-with-tcp-rst", "reset-client")]

/-- The term of the filter wants the packet to be treated so. -/
def Wants (p : Packet) (x : Filter × PTerm) (a : String) : Prop :=
  Live x.2 ∧ Between x.1.options p.srcZone p.dstZone ∧ About x.1.options p.ver ∧ Matches x.2.term p ∧
  ∃ w, x.2.term.action = [w] ∧ (w, a) ∈ names

/-- The first term of the filters for the platform that counts and matches decides. -/
def PolicyDecides (fs : List Filter) (p : Packet) (a : String) : Prop :=
  First (Wants p) ((fs.filter Filter.here).flatMap fun f => f.terms.map fun g => (f, g)) a

/-! ### tokens -/

/-- A side of a term: the options of its filter, the zone, the addresses, the excluded ones, and those of the other side. -/
structure Use where
  opts : List String
  zone : Option String
  inc : List Net
  exc : List Net
  oinc : List Net
  oexc : List Net

/-- The source of the term. -/
def Use.src (f : Filter) (g : PTerm) : Use :=
  ⟨f.options, f.options[1]?, g.term.sourceAddress, g.term.sourceAddressExclude, g.term.destinationAddress,
    g.term.destinationAddressExclude⟩

/-- The destination of the term. -/
def Use.dst (f : Filter) (g : PTerm) : Use :=
  ⟨f.options, f.options[3]?, g.term.destinationAddress, g.term.destinationAddressExclude, g.term.sourceAddress,
    g.term.sourceAddressExclude⟩

/-- The sides of the terms that count. -/
inductive Side (fs : List Filter) : Use → Prop
  | src {f : Filter} {g : PTerm} : f ∈ fs → f.here = true → g ∈ f.terms → Live g → Side fs (.src f g)
  | dst {f : Filter} {g : PTerm} : f ∈ fs → f.here = true → g ∈ f.terms → Live g → Side fs (.dst f g)

/-- The address is one of the side, under the token. -/
def Use.Has (u : Use) (token : String) (v : Ver) (x : Nat) : Prop :=
  ∃ n ∈ u.inc, n.parent = token ∧ Mem n v x ∧ ¬ Den u.exc v x

/-- The side can be used with the version: the filter is about it, and both sides of the term have addresses of it or are for any. -/
def Use.Carries (u : Use) (v : Ver) : Prop :=
  About u.opts v ∧ (u.inc = [] ∨ ∃ x, Den u.inc v x ∧ ¬ Den u.exc v x) ∧ (u.oinc = [] ∨ ∃ x, Den u.oinc v x ∧ ¬ Den u.oexc v x)

/-- A token stands for the same addresses wherever it is used. -/
def Steady (fs : List Filter) : Prop :=
  ∀ u w, Side fs u → Side fs w → ∀ token, (∃ v x, u.Has token v x) → ∀ v x, w.Carries v → w.Has token v x →
    About u.opts v ∧ u.Has token v x

/-- A token that is used in several zones stands for the same list of networks in all of them. -/
def Aligned (fs : List Filter) : Prop :=
  ∀ token, (∃ z, ∀ u, Side fs u → (∃ v x, u.Has token v x) → u.zone = z) ∨
    ∃ (l : List Net) (vs : List Ver), ∀ u, Side fs u → (∃ v x, u.Has token v x) →
      u.exc = [] ∧ (u.inc.filter fun n => decide (n.parent = token)) = l ∧ ∀ n ∈ l, n.ver ∈ vs ↔ u.Carries n.ver

/-- Tokens are not empty, and none is the name of another with a number. -/
def Plain (fs : List Filter) : Prop :=
  ∀ u, Side fs u → ∀ n ∈ u.inc, n.parent ≠ "" ∧ ∀ w, Side fs w → ∀ m ∈ w.inc, ∀ i : Nat, n.parent ≠ m.parent ++ "_" ++ toString i

/-- Excluded networks hold or miss each network entirely. -/
def Whole (inc exc : List Net) : Prop :=
  ∀ n ∈ inc, ∀ e ∈ exc, (∀ v x, Mem n v x → Mem e v x) ∨ ∀ v x, Mem n v x → ¬ Mem e v x

/-- Sides with whole networks, of which something is left. -/
structure Neat (inc exc : List Net) : Prop where
  wf : ∀ n ∈ inc, WF n
  wfx : ∀ n ∈ exc, WF n
  whole : Whole inc exc
  left : inc ≠ [] → ∃ v x, Den inc v x ∧ ¬ Den exc v x
  naked : inc = [] → exc = []

/-- No term that counts has the name of another of the filter with a number. -/
def Apart (fs : List Filter) : Prop :=
  ∀ f ∈ fs, f.here = true → ∀ g ∈ f.terms, ∀ g' ∈ f.terms, Live g → Live g' →
    g'.term.name ≠ g.term.name ++ "-1".toList ∧ g'.term.name ≠ g.term.name ++ "-2".toList

/-- Every token of a side that is used with some version has an address of such a version there. -/
def Shown (fs : List Filter) : Prop :=
  ∀ u, Side fs u → (∃ v, u.Carries v) → ∀ token, (∃ v x, u.Has token v x) → ∃ v x, u.Carries v ∧ u.Has token v x

/-- Terms whose rules cannot have the same names. -/
def Unlike (a b : PTerm) : Prop :=
  a.term.name ≠ b.term.name ∧ (∀ s ∈ ["-1", "-2"], a.term.name ≠ b.term.name ++ s.toList ∧ b.term.name ≠ a.term.name ++ s.toList)

end Pan
end Verif.Spec
