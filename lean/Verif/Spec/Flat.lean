import Verif.Spec.Device
import Verif.Spec.FirstMatch

/-!
What devices with flat lists of rules do: a rule names at most one network per direction, one range of ports per
direction and one protocol, and the first rule that matches acts.
-/

namespace Verif.Spec
namespace Flat
open Verif Policy

/-- The address lies in the network `a/len`. -/
def Covers (n : Ver × Nat × Nat) (v : Ver) (x : Nat) : Prop :=
  v = n.1 ∧ x / 2 ^ (n.1.bits - n.2.2) = n.2.1 / 2 ^ (n.1.bits - n.2.2)

/-- Protocols with ports. -/
def portProtos : List String := ["tcp", "udp", "udplite", "sctp"]

/-- The packet has a port in the range. -/
def PortIn (p : Packet) (x : Nat) (r : Nat × Nat) : Prop := p.proto ∈ portProtos ∧ r.1 ≤ x ∧ x ≤ r.2

/-- The packet has the protocol number. -/
def NumberIs (p : Packet) (n : Int) : Prop := ∃ k : Nat, (p.proto, k) ∈ iana ∧ n = (k : Int)

/-- A condition on a field that need not be there. -/
def IfSet {α : Type} (o : Option α) (P : α → Prop) : Prop := ∀ a, o = some a → P a

/-- The term is not expired, meant for the platform, matches the packet and has the action the device calls `a`. -/
def Wants (platform : String) (names : List (String × String)) (expired : Bool) (t : Term) (p : Packet) (a : String) :
    Prop :=
  (expired = false ∧ (t.platform = [] ∨ platform ∈ t.platform) ∧ platform ∉ t.platformExclude) ∧ Matches t p ∧
  ∃ w, t.action = [w] ∧ (w, a) ∈ names

end Flat
end Verif.Spec
