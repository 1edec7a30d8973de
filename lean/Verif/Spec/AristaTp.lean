import Verif.Spec.Flat
import Verif.Spec.Cisco
import Verif.Model.AristaTp

/-!
What an Arista switch does with the generated traffic policies. `no traffic-policy NAME` removes a policy, `traffic-policy NAME` goes
on with it; field sets are shared by all policies, and a field set that is there already is extended. A policy looks at its entries in
order, the first that matches decides; the entries `ipv4-default-all` and `ipv6-default-all` always come last.
-/

namespace Verif.Spec
namespace Eos
open Verif Verif.AristaTp Policy

/-- The protocols the switch has names for. -/
def protoNames : List (String × Nat) :=
  [("ahp", 51), ("icmp", 1), ("icmpv6", 58), ("igmp", 2), ("ospf", 89), ("pim", 103), ("rsvp", 46), ("tcp", 6), ("udp", 17),
   ("vrrp", 112)]

/-- The packet has the protocol, or one of the range. -/
def ProtoIs (p : Packet) : ProtoTok → Prop
  | .word s => ∃ n, (s, n) ∈ protoNames ∧ (p.proto, n) ∈ iana
  | .num n => Flat.NumberIs p n
  | .range a b => ∃ k : Nat, (p.proto, k) ∈ iana ∧ a ≤ k ∧ (k : Int) ≤ b

/-- What the flags say about a packet. -/
def flagNames : List (String × String) := [("established", "tcp-established"), ("initial", "initial"), ("rst", "rst")]

/-- The `protocol` line holds for the packet. Flags go with TCP, ports with TCP and UDP, types with icmp. -/
structure LineHits (p : Packet) (l : ProtoLine) : Prop where
  proto : ∃ t ∈ l.protos, ProtoIs p t
  flagsTcp : l.flags ≠ [] → l.protos = [.word "tcp"]
  flags : ∀ f ∈ l.flags, ∃ o, (f, o) ∈ flagNames ∧ p.hasOption o = true
  ports : l.sport ++ l.dport ≠ [] → ∀ t ∈ l.protos, t = .word "tcp" ∨ t = .word "udp"
  sport : PortMatch l.sport p.sport
  dport : PortMatch l.dport p.dport
  typesIcmp : l.types ++ l.codes ≠ [] → l.protos = [.word "icmp"] ∨ l.protos = [.word "icmpv6"]
  types : l.types = [] ∨ ∃ k ∈ l.types, (p.icmpType, k) ∈ icmpNumbers p.ver
  codes : OneOf l.codes p.icmpCode

/-- The address of the packet in a direction. -/
def addr (d : Dir) (p : Packet) : Nat :=
  match d with
  | .source => p.src
  | .destination => p.dst

/-- The packet is in the prefix list, according to the rest of the configuration. -/
def inList (d : Dir) (p : Packet) (name : String) : Bool :=
  match d with
  | .source => p.inSrcPrefix name
  | .destination => p.inDstPrefix name

/-- The field sets with the name and the family. -/
def called (sets : List FieldSet) (v : Ver) (name : Str) : List FieldSet := sets.filter fun f => f.name == name && f.family == v

/-- The address is in the field set: in one of its prefixes and in none of its exceptions. A field set that is not there belongs to the
rest of the configuration. -/
def InSet (sets : List FieldSet) (d : Dir) (p : Packet) (name : Str) : Prop :=
  (called sets p.ver name ≠ [] ∧ (∃ f ∈ called sets p.ver name, ∃ q ∈ f.pfxs, Flat.Covers q p.ver (addr d p)) ∧
    ∀ f ∈ called sets p.ver name, ∀ q ∈ f.excepts, ¬ Flat.Covers q p.ver (addr d p)) ∨
  (called sets p.ver name = [] ∧ inList d p (String.ofList name) = true)

/-- The condition holds for the packet. -/
def Holds (sets : List FieldSet) (p : Packet) : Cond → Prop
  | .prefixes d l => ∃ q ∈ l, Flat.Covers q p.ver (addr d p)
  | .fieldSet d names => ∃ n ∈ names, InSet sets d p n
  | .proto l => LineHits p l
  | .length l => RangeMatch l p.packetLength
  | .offset l => RangeMatch l p.fragmentOffset
  | .ttl l => RangeMatch l p.ttl
  | .misc s => s = "fragment" ∧ p.hasOption "is-fragment" = true

/-- What the actions do: they drop the packet, or do not say so. -/
def Verdict (acts : List Act) (accept : Bool) : Prop :=
  (accept = false ∧ Act.word (some "drop") ∈ acts) ∨ (accept = true ∧ ∀ s, Act.word s ∉ acts)

/-- The entry is for the family of the packet, matches it and has the verdict. -/
def Does (sets : List FieldSet) (p : Packet) (o : Out) (accept : Bool) : Prop :=
  ∃ name conds acts, o = .entry name p.ver conds acts ∧ (∀ c ∈ conds, Holds sets p c) ∧ Verdict acts accept

/-- The entry is one that always comes last. -/
def isLast : Out → Bool
  | .entry name _ _ _ => name == "ipv4-default-all".toList || name == "ipv6-default-all".toList
  | .verbatim _ => false

/-- The entries in the order they are looked at. -/
def inOrder (os : List Out) : List Out := os.filter (fun o => !isLast o) ++ os.filter isLast

/-- The traffic policy decides about the packet by one of its entries. -/
def Decides (sets : List FieldSet) (os : List Out) (p : Packet) (accept : Bool) : Prop :=
  First (fun o a => Does sets p o a) (inOrder os) accept

/-- The field sets after the blocks have been read. -/
def setsOf (bs : List Block) : List FieldSet := bs.flatMap Block.fieldSets

/-- The entries of a traffic policy after the blocks have been read. -/
def entriesOf (name : Option String) : List Out → List Block → List Out
  | os, [] => os
  | os, b :: bs => entriesOf name (if b.name = name then (if b.removes then [] else os) ++ b.items else os) bs

/-! ### what the policy asks for -/

/-- The filter is about packets of the version: its type is the first option behind the name that is not `field_set`. -/
def About (opts : List String) (v : Ver) : Prop :=
  match (opts.tail.erase "field_set").head? with
  | none => True
  | some t => t = "mixed" ∨ (t = "inet" ∧ v = .v4) ∨ (t = "inet6" ∧ v = .v6)

instance aboutDec (opts : List String) (v : Ver) : Decidable (About opts v) := by
  unfold About
  split <;> infer_instance

/-- The terms for the traffic policy and the version. -/
def termsOf (name : Option String) (v : Ver) (fs : List Filter) : List ATerm :=
  (fs.filter fun f => f.here && f.options.head? == name && decide (About f.options v)).flatMap Filter.terms

/-- The term counts: it is not expired and meant for the platform. -/
def Live (a : ATerm) : Prop :=
  a.expired = false ∧ (a.term.platform = [] ∨ "arista_tp" ∈ a.term.platform) ∧ "arista_tp" ∉ a.term.platformExclude

/-- The term counts, matches the packet and asks to accept it or to drop it. -/
def Wants (a : ATerm) (p : Packet) (accept : Bool) : Prop :=
  Live a ∧ Ios.Means a.term p ∧ ∃ w, a.term.action = [w] ∧ Ios.Permits w accept

/-- The first term that does so decides. -/
def PolicyDecides (ts : List ATerm) (p : Packet) (accept : Bool) : Prop := First (fun a v => Wants a p v) ts accept

/-- Packets as the switch sees them: `ttl` and `hop-limit` are the same field, and there is no protocol 0 in IPv4. -/
structure Packets (p : Packet) : Prop where
  coherent : Coherent p
  hops : p.hopLimit = p.ttl
  zero : p.ver = .v4 → p.proto ≠ "hopopt"

end Eos
end Verif.Spec
