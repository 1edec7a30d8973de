import Verif.Spec.Policy

/-!
What devices know about packets: protocol and icmp numbers (IANA registries), and the facts about packets that
the names used in policies presuppose.
-/

namespace Verif.Spec
open Verif

/-- IANA protocol numbers of the protocol names policies use. -/
def iana : List (String × Nat) :=
  [("hopopt", 0), ("icmp", 1), ("igmp", 2), ("ggp", 3), ("ipip", 4), ("tcp", 6), ("egp", 8), ("igp", 9),
   ("udp", 17), ("rdp", 27), ("ipv6", 41), ("ipv6-route", 43), ("fragment", 44), ("rsvp", 46), ("gre", 47),
   ("esp", 50), ("ah", 51), ("icmpv6", 58), ("ipv6-nonxt", 59), ("ipv6-opts", 60), ("ospf", 89), ("pim", 103),
   ("vrrp", 112), ("l2tp", 115), ("sctp", 132), ("udplite", 136)]

/-- ICMP (IPv4) type numbers. -/
def icmpV4 : List (String × Nat) :=
  [("echo-reply", 0), ("unreachable", 3), ("source-quench", 4), ("redirect", 5), ("alternate-address", 6),
   ("echo-request", 8), ("router-advertisement", 9), ("router-solicitation", 10), ("time-exceeded", 11),
   ("parameter-problem", 12), ("timestamp-request", 13), ("timestamp-reply", 14), ("information-request", 15),
   ("information-reply", 16), ("mask-request", 17), ("mask-reply", 18), ("conversion-error", 31),
   ("mobile-redirect", 32)]

/-- ICMPv6 type numbers. -/
def icmpV6 : List (String × Nat) :=
  [("destination-unreachable", 1), ("packet-too-big", 2), ("time-exceeded", 3), ("parameter-problem", 4),
   ("echo-request", 128), ("echo-reply", 129), ("multicast-listener-query", 130),
   ("multicast-listener-report", 131), ("multicast-listener-done", 132), ("router-solicit", 133),
   ("router-advertisement", 134), ("neighbor-solicit", 135), ("neighbor-advertisement", 136),
   ("redirect-message", 137), ("router-renumbering", 138), ("icmp-node-information-query", 139),
   ("icmp-node-information-response", 140), ("inverse-neighbor-discovery-solicitation", 141),
   ("inverse-neighbor-discovery-advertisement", 142), ("version-2-multicast-listener-report", 143),
   ("home-agent-address-discovery-request", 144), ("home-agent-address-discovery-reply", 145),
   ("mobile-prefix-solicitation", 146), ("mobile-prefix-advertisement", 147),
   ("certification-path-solicitation", 148), ("certification-path-advertisement", 149),
   ("multicast-router-advertisement", 151), ("multicast-router-solicitation", 152),
   ("multicast-router-termination", 153)]

/-- The type numbers of a family. -/
def icmpNumbers (v : Ver) : List (String × Nat) := if v = .v4 then icmpV4 else icmpV6

/-- A packet of a real network: addresses in range, a protocol with a number, icmp in its family. `established`
and `fragments` are other names of `tcp-established` and `is-fragment`. `tcp-established` does not restrict UDP
(policies use it for TCP and UDP replies alike), and no other protocol has it. -/
structure Coherent (p : Packet) : Prop where
  src : p.src < 2 ^ p.ver.bits
  dst : p.dst < 2 ^ p.ver.bits
  proto : p.proto ∈ iana.map Prod.fst
  icmp4 : p.ver = .v4 → p.proto ≠ "icmpv6"
  icmp6 : p.ver = .v6 → p.proto ≠ "icmp"
  est : p.hasOption "established" = p.hasOption "tcp-established"
  udp : p.proto = "udp" → p.hasOption "tcp-established" = true
  nontcp : p.proto ≠ "tcp" → p.proto ≠ "udp" → p.hasOption "tcp-established" = false
  frag : p.hasOption "fragments" = p.hasOption "is-fragment"

end Verif.Spec
