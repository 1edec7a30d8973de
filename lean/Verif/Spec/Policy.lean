import Verif.Model.Policy
import Verif.Spec.Net

/-!
Specification of what a policy term matches, independent of how the code compares terms.
-/

namespace Verif.Spec
open Verif Verif.Policy

/-- `x` lies in one of the ranges. -/
def PMem (l : List (Nat × Nat)) (x : Nat) : Prop := ∃ r ∈ l, r.1 ≤ x ∧ x ≤ r.2

/-- The ranges are non-empty (`low <= high`). -/
def PWF (l : List (Nat × Nat)) : Prop := ∀ r ∈ l, r.1 ≤ r.2

/-- Same set of ports. -/
def SamePorts (l m : List (Nat × Nat)) : Prop := ∀ x, PMem l x ↔ PMem m x

/-- A packet together with everything a policy term can look at. Opaque attributes (prefix lists,
TCP flags and other options, flexible matches) are Boolean functions of the packet. -/
structure Packet where
  ver : Ver := .v4
  src : Nat := 0
  dst : Nat := 0
  proto : String := ""
  sport : Nat := 0
  dport : Nat := 0
  inSrcPrefix : String → Bool := fun _ => false
  inDstPrefix : String → Bool := fun _ => false
  srcTag : String := ""
  dstTag : String := ""
  precedence : String := ""
  hasOption : String → Bool := fun _ => false
  forwardingClass : String := ""
  fragmentOffset : Nat := 0
  hopLimit : Nat := 0
  packetLength : Nat := 0
  icmpType : String := ""
  icmpCode : Nat := 0
  etherType : String := ""
  trafficType : String := ""
  dscp : String := ""
  ttl : Nat := 0
  trafficClass : Nat := 0
  inInterface : String := ""
  outInterface : String := ""
  flexible : String → Bool := fun _ => false
  srcZone : String := ""
  dstZone : String := ""

/-- An include list (empty = any) without an exclude list. -/
def AddrMatch (inc exc : List Net) (v : Ver) (x : Nat) : Prop := (inc = [] ∨ Den inc v x) ∧ ¬ Den exc v x

/-- A list of port ranges, empty = any. -/
def PortMatch (l : List (Nat × Nat)) (x : Nat) : Prop := l = [] ∨ PMem l x

/-- A list of admitted values, empty = any. -/
def OneOf {α : Type} (l : List α) (x : α) : Prop := l = [] ∨ x ∈ l

/-- `'a'` or `'a-b'`, empty = any. -/
def RangeMatch (l : List Nat) (x : Nat) : Prop :=
  match l with
  | [] => True
  | [a] => x = a
  | a :: b :: _ => a ≤ x ∧ x ≤ b

/-- Addresses of a term: the either-direction address matches if source or destination does. -/
def MatchAddrs (t : Term) (p : Packet) : Prop :=
  ((t.address = [] ∧ t.addressExclude = []) ∨
    AddrMatch t.address t.addressExclude p.ver p.src ∨ AddrMatch t.address t.addressExclude p.ver p.dst) ∧
  AddrMatch t.sourceAddress t.sourceAddressExclude p.ver p.src ∧
  AddrMatch t.destinationAddress t.destinationAddressExclude p.ver p.dst

/-- Ports of a term. -/
def MatchPorts (t : Term) (p : Packet) : Prop :=
  (t.port = [] ∨ PMem t.port p.sport ∨ PMem t.port p.dport) ∧
  PortMatch t.sourcePort p.sport ∧ PortMatch t.destinationPort p.dport

/-- Protocol of a term. -/
def MatchProto (t : Term) (p : Packet) : Prop := OneOf t.protocol p.proto ∧ p.proto ∉ t.protocolExcept

/-- Prefix lists and tags of a term. -/
def MatchPrefixes (t : Term) (p : Packet) : Prop :=
  (t.sourcePrefix = [] ∨ ∃ n ∈ t.sourcePrefix, p.inSrcPrefix n = true) ∧
  (∀ n ∈ t.sourcePrefixExcept, p.inSrcPrefix n = false) ∧
  (t.destinationPrefix = [] ∨ ∃ n ∈ t.destinationPrefix, p.inDstPrefix n = true) ∧
  (∀ n ∈ t.destinationPrefixExcept, p.inDstPrefix n = false) ∧
  OneOf t.sourceTag p.srcTag ∧ OneOf t.destinationTag p.dstTag

/-- The remaining match conditions. -/
def MatchMisc (t : Term) (p : Packet) : Prop :=
  OneOf t.precedence p.precedence ∧ (∀ o ∈ t.option, p.hasOption o = true) ∧
  OneOf t.forwardingClass p.forwardingClass ∧ p.forwardingClass ∉ t.forwardingClassExcept ∧
  OneOf t.icmpType p.icmpType ∧ OneOf t.icmpCode p.icmpCode ∧
  OneOf t.sourceZone p.srcZone ∧ OneOf t.destinationZone p.dstZone ∧
  RangeMatch t.fragmentOffset p.fragmentOffset ∧ RangeMatch t.hopLimit p.hopLimit ∧
  RangeMatch t.packetLength p.packetLength

/-- Match conditions that the containment test never looks at. -/
def MatchRest (t : Term) (p : Packet) : Prop :=
  (t.restrictAddressFamily = none ∨ t.restrictAddressFamily = some (if p.ver = .v4 then "inet" else "inet6")) ∧
  OneOf t.etherType p.etherType ∧ OneOf t.trafficType p.trafficType ∧ OneOf t.dscpMatch p.dscp ∧
  p.dscp ∉ t.dscpExcept ∧ (t.ttl = none ∨ t.ttl = some p.ttl) ∧
  (t.trafficClass = none ∨ t.trafficClass = some p.trafficClass) ∧
  (t.sourceInterface = none ∨ t.sourceInterface = some p.inInterface) ∧
  (t.destinationInterface = none ∨ t.destinationInterface = some p.outInterface) ∧
  (∀ f ∈ t.flexibleMatchRange, p.flexible f = true)

/-- The packet matches the (non-verbatim) term. -/
def Matches (t : Term) (p : Packet) : Prop :=
  MatchAddrs t p ∧ MatchPorts t p ∧ MatchProto t p ∧ MatchPrefixes t p ∧ MatchMisc t p ∧ MatchRest t p

/-- A term ends the evaluation of a filter unless its actions include `next`. -/
def Terminal (t : Term) : Prop := "next" ∉ t.action

/-- `u` is the term that decides about packet `p` in the filter `l`: the first terminal term that
matches. -/
def FirstMatch (l : List Term) (p : Packet) (u : Term) : Prop :=
  ∃ a b, l = a ++ u :: b ∧ Matches u p ∧ Terminal u ∧ ∀ s ∈ a, ¬ (Matches s p ∧ Terminal s)

end Verif.Spec
