import Verif.Model.Aclcheck
import Verif.Spec.Policy

/-!
Specification of aclcheck: the packets a query describes and the terms to be reported.
-/

namespace Verif.Spec
open Verif Verif.Policy Verif.Aclcheck

/-- The address is one the query describes. -/
def QAddr (q : Option Net) (v : Ver) (x : Nat) : Prop := ∀ n, q = some n → Mem n v x

/-- The port is one the query describes. -/
def QPort (q : Option Int) (x : Nat) : Prop := ∀ i, q = some i → (x : Int) = i

/-- The packet is one the query describes. -/
def Described (q : Query) (p : Packet) : Prop :=
  QAddr q.src p.ver p.src ∧ QAddr q.dst p.ver p.dst ∧ QPort q.sport p.sport ∧ QPort q.dport p.dport ∧
  (q.proto ≠ "any" → p.proto = q.proto)

/-- Query address and term addresses agree: one network of the term holds all addresses of the query. -/
def AddrFits (q : Option Net) (l : List Net) : Prop :=
  ∀ n, q = some n → l = [] ∨ ∃ a ∈ l, ∀ v x, Mem n v x → Mem a v x

/-- Query port and term ports agree. -/
def PortFits (q : Option Int) (l : List (Nat × Nat)) : Prop :=
  ∀ i, q = some i → l = [] ∨ ∃ r ∈ l, (r.1 : Int) ≤ i ∧ i ≤ r.2

/-- The term is to be reported for the query. -/
def Hit (q : Query) (t : Term) : Prop :=
  AddrFits q.src t.sourceAddress ∧ AddrFits q.dst t.destinationAddress ∧
  PortFits q.sport t.sourcePort ∧ PortFits q.dport t.destinationPort ∧
  (q.proto = "any" ∨ OneOf t.protocol q.proto) ∧ q.proto ∉ t.protocolExcept ∧ t.action ≠ []

/-- The term has conditions the query cannot settle: fragments, packet length, connection state. -/
def Uncertain (t : Term) : Prop :=
  "first-fragment" ∈ t.option ∨ t.fragmentOffset ≠ [] ∨ t.packetLength ≠ [] ∨ "established" ∈ t.option ∨
  ("tcp-established" ∈ t.option ∧ "tcp" ∈ t.protocol)

/-- The reported terms of a filter in order and the decisive one: hits are reported up to and including
the first hit that is certain and terminal. -/
inductive Report (q : Query) : List Term → List Term → Option Term → Prop
  | nil : Report q [] [] none
  | skip {t ts rs d} : ¬ Hit q t → Report q ts rs d → Report q (t :: ts) rs d
  | more {t ts rs d} : Hit q t → (Uncertain t ∨ ¬ Terminal t) → Report q ts rs d → Report q (t :: ts) (t :: rs) d
  | stop {t ts} : Hit q t → ¬ Uncertain t → Terminal t → Report q (t :: ts) [t] (some t)

/-- The term uses only what aclcheck looks at: source and destination address, ports and protocols. -/
structure Inspected (t : Term) : Prop where
  addr : t.address = [] ∧ t.addressExclude = [] ∧ t.sourceAddressExclude = [] ∧ t.destinationAddressExclude = []
  port : t.port = []
  pref : ∀ p, MatchPrefixes t p
  misc : ∀ p, MatchMisc t p
  rest : ∀ p, MatchRest t p

end Verif.Spec
