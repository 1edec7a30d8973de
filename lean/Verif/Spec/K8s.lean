import Verif.Spec.Flat
import Verif.Model.K8s

/-!
What a Kubernetes cluster does with NetworkPolicies that select all pods of a namespace. Objects are applied one after the
other, an object replacing one of the same name. If no policy has the direction of a flow, the flow is allowed; otherwise
it is allowed if a rule of a policy of that direction matches. A rule without port selectors is for all traffic.
-/

namespace Verif.Spec
namespace K8s
open Verif Verif.K8s Policy Aclgenerator

/-- A packet with the direction seen from the pod. -/
structure Flow where
  packet : Packet
  direction : String := "INGRESS"

/-- The address of the other side. -/
def Flow.peer (f : Flow) : Nat := if f.direction = "INGRESS" then f.packet.src else f.packet.dst

/-- The address lies in the block. -/
def PeerHits (b : Peer) (v : Ver) (x : Nat) : Prop :=
  Flat.Covers (b.cidr.ver, b.cidr.addr, b.cidr.plen) v x ∧ ∀ e ∈ b.except, ¬ Flat.Covers (e.ver, e.addr, e.plen) v x

/-- The protocols of port selectors. -/
def selNames : List (String × Nat) := [("TCP", 6), ("UDP", 17), ("SCTP", 132)]

/-- The selector matches the packet. -/
def SelHits (s : PortSel) (p : Packet) : Prop :=
  (∃ k, (s.protocol, k) ∈ selNames ∧ Flat.NumberIs p (k : Int)) ∧ Flat.IfSet s.range fun r => r.1 ≤ p.dport ∧ p.dport ≤ r.2

/-- The rule matches the flow. -/
def RuleHits (r : Rule) (f : Flow) : Prop :=
  (r.ports = [] ∨ ∃ s ∈ r.ports, SelHits s f.packet) ∧ (r.peers = [] ∨ ∃ b ∈ r.peers, PeerHits b f.packet.ver f.peer)

/-- The object is there after all have been applied. -/
def Stays (o : Object) (os : List Object) : Prop := ∃ a b, os = a ++ o :: b ∧ ∀ q ∈ b, q.name ≠ o.name

/-- The cluster lets the flow pass. -/
def Allowed (os : List Object) (f : Flow) : Prop :=
  (∀ o, Stays o os → o.direction ≠ f.direction) ∨
  ∃ o, Stays o os ∧ o.direction = f.direction ∧ ∃ r, o.rule = some r ∧ RuleHits r f

/-- The term counts. -/
def Live (g : PTerm) : Prop :=
  g.expired = false ∧ g.reply = false ∧ (g.term.platform = [] ∨ "k8s" ∈ g.term.platform) ∧
  "k8s" ∉ g.term.platformExclude

/-- The term counts, matches the packet and has the action. -/
def Wants (p : Packet) (g : PTerm) (action : String) : Prop := Live g ∧ Matches g.term p ∧ g.term.action = [action]

/-- The first term that counts and matches accepts. -/
def Accepts (gs : List PTerm) (p : Packet) : Prop := First (Wants p) gs "accept"

/-- The direction a header states. -/
def Direction (options : List String) (d : String) : Prop :=
  d = if "EGRESS" ∈ options then "EGRESS" else "INGRESS"

/-- The name of the object for a term: the name, and a mark for egress. -/
def NameOf (d : String) (name out : Str) : Prop := out = name ++ (if d = "EGRESS" then "-e".toList else [])

/-- A lower-case letter or a digit. -/
def Alnum (c : Char) : Prop := ('a' ≤ c ∧ c ≤ 'z') ∨ ('0' ≤ c ∧ c ≤ '9')

/-- A label of a DNS name. -/
def Label (s : Str) : Prop :=
  (∀ c ∈ s, Alnum c ∨ c = '-') ∧ (∃ c, s.head? = some c ∧ Alnum c) ∧ ∃ c, s.getLast? = some c ∧ Alnum c

/-- A name the cluster takes: labels with dots between. -/
inductive DnsName : Str → Prop
  | one {s} : Label s → DnsName s
  | more {s t} : Label s → DnsName t → DnsName (s ++ '.' :: t)

/-- A block the cluster takes: the exceptions are properly inside. -/
def BlockOk (b : Peer) : Prop :=
  ∀ e ∈ b.except, b.cidr.plen < e.plen ∧ Flat.Covers (b.cidr.ver, b.cidr.addr, b.cidr.plen) e.ver e.addr

/-- A selector the cluster takes. -/
def SelOk (s : PortSel) : Prop :=
  s.protocol ∈ selNames.map Prod.fst ∧ Flat.IfSet s.range fun r => 1 ≤ r.1 ∧ r.1 ≤ r.2 ∧ r.2 ≤ 65535

/-- An object the cluster takes. -/
structure Valid (o : Object) : Prop where
  name : DnsName o.name ∧ o.name.length ≤ 253
  direction : o.direction = "INGRESS" ∨ o.direction = "EGRESS"
  blocks : ∀ r, o.rule = some r → ∀ b ∈ r.peers, BlockOk b
  selectors : ∀ r, o.rule = some r → ∀ s ∈ r.ports, SelOk s

end K8s
end Verif.Spec
