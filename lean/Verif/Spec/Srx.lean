import Verif.Spec.Flat
import Verif.Model.Srx

/-!
What an SRX firewall does with a packet that opens a session. The policies for its two zones are tried in order, then the
global ones; the first that matches decides, otherwise the packet is denied. A policy names sets of addresses, which are
looked up in the address book of the zone the packet comes from or goes to, or in the global one, and an application or a
set of applications.
-/

namespace Verif.Spec
namespace Srx
open Verif Verif.Srx Policy Aclgenerator

/-! ### the device -/

/-- Some address of the set is the address. -/
def SetHas (b : Book) (s : String × List String) (v : Ver) (x : Nat) : Prop :=
  ∃ m ∈ s.2, ∃ a ∈ b.addresses, a.1 = m ∧ Flat.Covers (a.2.ver, a.2.addr, a.2.plen) v x

/-- The address is one of those a policy names; `zone` is where the packet comes from or goes to. -/
def AddrHits (o : Output) (zone : String) (names : Option (List String)) (v : Ver) (x : Nat) : Prop :=
  Flat.IfSet names fun l => ∃ name ∈ l, ∃ b ∈ o.books, (b.zone = none ∨ b.zone = some zone) ∧
    ∃ s ∈ b.sets, s.1 = name ∧ SetHas b s v x

/-- The numbers of the protocol names the device knows. -/
def protoNumbers : List (String × Nat) :=
  [("icmp", 1), ("igmp", 2), ("4", 4), ("tcp", 6), ("egp", 8), ("udp", 17), ("rsvp", 46), ("gre", 47), ("esp", 50), ("ah", 51),
   ("icmp6", 58), ("ospf", 89), ("pim", 103), ("112", 112), ("sctp", 132)]

/-- The packet has the protocol. -/
def ProtoIs (s : Proto) (p : Packet) : Prop := ∃ e ∈ protoNumbers, e.1 = s.text ∧ Flat.NumberIs p (e.2 : Int)

/-- The term of an application matches: `icmp-type` and `icmp6-type` are for their protocol. -/
def AppTermHits (p : Packet) (t : AppTerm) : Prop :=
  Flat.IfSet t.proto (fun s => ProtoIs s p) ∧ Flat.IfSet t.sport (Flat.PortIn p p.sport) ∧
  Flat.IfSet t.dport (Flat.PortIn p p.dport) ∧
  Flat.IfSet t.icmp fun k => (p.proto = "icmp" ∧ (p.icmpType, k) ∈ icmpV4) ∨ (p.proto = "icmpv6" ∧ (p.icmpType, k) ∈ icmpV6)

/-- The application of the name matches. -/
def SingleHits (ds : List Def) (p : Packet) (name : Str) : Prop := ∃ ts, Def.app name ts ∈ ds ∧ ∃ t ∈ ts, AppTermHits p t

/-- The application or set of applications of the name matches. -/
def AppHits (ds : List Def) (p : Packet) (name : Str) : Prop :=
  SingleHits ds p name ∨ ∃ ms, Def.set name ms ∈ ds ∧ ∃ m ∈ ms, SingleHits ds p m

/-- The policy matches the packet. -/
structure PolicyHits (o : Output) (p : Packet) (q : SPolicy) : Prop where
  src : AddrHits o p.srcZone q.src p.ver p.src
  dst : AddrHits o p.dstZone q.dst p.ver p.dst
  app : Flat.IfSet q.app fun a => AppHits (defs o.apps) p (a ++ "-app".toList)
  dscp : OneOf q.dscp p.dscp
  dscpExcept : p.dscp ∉ q.dscpExcept
  fromZones : OneOf q.fromZones p.srcZone
  toZones : OneOf q.toZones p.dstZone

/-- What the words after `then` mean. -/
def words : List (String × String) :=
  [("permit", "permit"), ("services-offload", "permit"), ("deny", "deny"), ("reject", "reject")]

/-- The policy matches and says `v`. -/
def Hits (o : Output) (p : Packet) (q : SPolicy) (v : String) : Prop :=
  PolicyHits o p q ∧ ∃ t, q.thens = [t] ∧ (t.action, v) ∈ words

/-- A block of global policies. -/
def Global (a b : String) : Prop := a = "all" ∧ b = "all"

instance : Decidable (Global a b) := inferInstanceAs (Decidable (_ ∧ _))

/-- The policies that are tried, in order. -/
def tried (o : Output) (p : Packet) : List SPolicy :=
  ((o.blocks.filter fun b => decide (¬ Global b.fromZone b.toZone ∧ b.fromZone = p.srcZone ∧ b.toZone = p.dstZone)).flatMap Block.policies) ++
  (o.blocks.filter fun b => decide (Global b.fromZone b.toZone)).flatMap Block.policies

/-- The device does `v` with the packet. -/
def Does (o : Output) (p : Packet) (v : String) : Prop :=
  First (Hits o p) (tried o p) v ∨ ((∀ q ∈ tried o p, ∀ w, ¬ Hits o p q w) ∧ v = "deny")

/-! ### the policy -/

/-- The term is for this platform and not for replies. -/
def Live (g : STerm) : Prop :=
  g.expired = false ∧ g.reply = false ∧ (g.term.platform = [] ∨ "srx" ∈ g.term.platform) ∧ "srx" ∉ g.term.platformExclude ∧
  "established" ∉ g.term.option ∧ "tcp-established" ∉ g.term.option

/-- The filter is for the family: by default for both. -/
def FamilyIs (options : List String) (v : Ver) : Prop :=
  "mixed" ∈ options ∨ (if v = .v4 then "inet" else "inet6") ∈ options ∨ ("inet" ∉ options ∧ "inet6" ∉ options)

/-- Names of actions. -/
def verdicts : List (String × String) := [("accept", "permit"), ("deny", "deny"), ("reject", "reject")]

/-- The term of the filter decides `v`. -/
def Wants (p : Packet) (x : Filter × STerm) (v : String) : Prop :=
  Live x.2 ∧ FamilyIs x.1.options p.ver ∧ Matches x.2.term p ∧ ∃ w, x.2.term.action = [w] ∧ (w, v) ∈ verdicts

/-- The terms that are tried, in order, with their filters. -/
def terms (fs : List Filter) (p : Packet) : List (Filter × STerm) :=
  ((fs.filter fun f => decide (¬ Global f.fromZone f.toZone ∧ f.fromZone = p.srcZone ∧ f.toZone = p.dstZone)).flatMap fun f =>
    f.terms.map fun g => (f, g)) ++
  (fs.filter fun f => decide (Global f.fromZone f.toZone)).flatMap fun f => f.terms.map fun g => (f, g)

/-- The policy says `v`. -/
def Decides (fs : List Filter) (p : Packet) (v : String) : Prop :=
  First (Wants p) (terms fs p) v ∨ ((∀ x ∈ terms fs p, ∀ w, ¬ Wants p x w) ∧ v = "deny")

/-! ### tokens -/

/-- A live term uses the address under the token as one of its source (`inc` without `exc`) or destination addresses.
Excluded addresses give the rest a token of its own, made of the name of the term. -/
def Uses (f : Filter) (g : STerm) (suffix : String) (inc exc : List Net) (token : String) (v : Ver) (x : Nat) : Prop :=
  Live g ∧ FamilyIs f.options v ∧
  ((exc = [] ∧ ∃ n ∈ inc, n.parent = token ∧ Mem n v x) ∨
   (exc ≠ [] ∧ token = String.ofList (g.term.name.map Char.toUpper) ++ suffix ∧
    (if inc = [] then v = .v4 ∧ x < 2 ^ 32 else Den inc v x) ∧ ¬ Den exc v x))

/-- The address is used under the token on one of the sides of a term. -/
inductive Side (fs : List Filter) : (String → Ver → Nat → Prop) → Prop
  | src {f : Filter} {g : STerm} : f ∈ fs → g ∈ f.terms →
      Side fs (Uses f g "_SRC_EXCLUDE" g.term.sourceAddress g.term.sourceAddressExclude)
  | dst {f : Filter} {g : STerm} : f ∈ fs → g ∈ f.terms →
      Side fs (Uses f g "_DST_EXCLUDE" g.term.destinationAddress g.term.destinationAddressExclude)

/-- A token stands for the same addresses wherever it is used. -/
def Coherent (fs : List Filter) : Prop :=
  ∀ U W, Side fs U → Side fs W → ∀ token, (∃ v x, U token v x) → (∃ v x, W token v x) → ∀ v x, U token v x ↔ W token v x

/-! ### text -/

/-- Lines whose blocks are closed. -/
inductive Balanced : List Line → Prop
  | nil : Balanced []
  | stmt {w : List String} {l : List Line} : Balanced l → Balanced (.stmt w :: l)
  | block {w : List String} {body rest : List Line} : Balanced body → Balanced rest → Balanced (.opens w :: body ++ .closes :: rest)

end Srx
end Verif.Spec
