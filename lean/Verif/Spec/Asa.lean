import Verif.Spec.Flat
import Verif.Model.Asa

/-!
What a Cisco ASA does with access lists. `clear configure access-list` empties a list, `access-list ... extended` appends an
entry to it; the first entry that matches acts. Lines the device does not understand have no effect. Only IPv4 packets are
looked at.
-/

namespace Verif.Spec
namespace Asa
open Verif Verif.Asa Policy
open Verif.Cisco (Tok RTerm)

/-- The protocols the device has names for. -/
def protoNames : List (String × Nat) :=
  [("icmp", 1), ("igmp", 2), ("ipinip", 4), ("tcp", 6), ("igrp", 9), ("udp", 17), ("gre", 47), ("pptp", 47), ("esp", 50),
   ("ipsec", 50), ("ah", 51), ("icmp6", 58), ("eigrp", 88), ("ospf", 89), ("nos", 94), ("pim", 103), ("pcp", 108),
   ("snp", 109), ("sctp", 132)]

/-- TCP ports the device has names for. -/
def tcpNames : List (String × Nat) :=
  [("aol", 5190), ("bgp", 179), ("chargen", 19), ("cifs", 3020), ("citrix-ica", 1494), ("cmd", 514), ("ctiqbe", 2748),
   ("daytime", 13), ("discard", 9), ("domain", 53), ("echo", 7), ("exec", 512), ("finger", 79), ("ftp", 21),
   ("ftp-data", 20), ("gopher", 70), ("h323", 1720), ("hostname", 101), ("http", 80), ("https", 443), ("ident", 113),
   ("imap4", 143), ("irc", 194), ("kerberos", 750), ("klogin", 543), ("kshell", 544), ("ldap", 389), ("ldaps", 636),
   ("login", 513), ("lotusnotes", 1352), ("lpd", 515), ("netbios-ssn", 139), ("nfs", 2049), ("nntp", 119),
   ("pcanywhere-data", 5631), ("pim-auto-rp", 496), ("pop2", 109), ("pop3", 110), ("pptp", 1723), ("rsh", 514),
   ("rtsp", 554), ("sip", 5060), ("smtp", 25), ("sqlnet", 1521), ("ssh", 22), ("sunrpc", 111), ("tacacs", 49),
   ("talk", 517), ("telnet", 23), ("uucp", 540), ("whois", 43), ("www", 80)]

/-- UDP ports the device has names for. -/
def udpNames : List (String × Nat) :=
  [("biff", 512), ("bootpc", 68), ("bootps", 67), ("cifs", 3020), ("discard", 9), ("dnsix", 195), ("domain", 53),
   ("echo", 7), ("http", 80), ("isakmp", 500), ("kerberos", 750), ("mobile-ip", 434), ("nameserver", 42),
   ("netbios-dgm", 138), ("netbios-ns", 137), ("nfs", 2049), ("ntp", 123), ("pcanywhere-status", 5632),
   ("pim-auto-rp", 496), ("radius", 1645), ("radius-acct", 1646), ("rip", 520), ("rtsp", 554), ("secureid-udp", 5510),
   ("sip", 5060), ("snmp", 161), ("snmptrap", 162), ("sunrpc", 111), ("syslog", 514), ("tacacs", 49), ("talk", 517),
   ("tftp", 69), ("time", 37), ("vxlan", 4789), ("who", 513), ("www", 80), ("xdmcp", 177)]

/-- ICMP types the device has names for. -/
def icmpTypeNames : List (String × Nat) :=
  [("echo-reply", 0), ("unreachable", 3), ("source-quench", 4), ("redirect", 5), ("alternate-address", 6), ("echo", 8),
   ("router-advertisement", 9), ("router-solicitation", 10), ("time-exceeded", 11), ("parameter-problem", 12),
   ("timestamp-request", 13), ("timestamp-reply", 14), ("information-request", 15), ("information-reply", 16),
   ("mask-request", 17), ("mask-reply", 18), ("traceroute", 30), ("conversion-error", 31), ("mobile-redirect", 32)]

/-- The number a word or number stands for. -/
def numberOf (names : List (String × Nat)) : Tok → Option Nat
  | .num n => some n.toNat
  | .w s => names.lookup s
  | _ => none

/-- The names of ports with a protocol. -/
def portNames (proto : String) : List (String × Nat) :=
  if proto = "tcp" then tcpNames else if proto = "udp" then udpNames else []

/-- The address is one the entry gives. In a mask the bits that count are set. -/
def InAddr (x : Nat) : Addr → Prop
  | .any => True
  | .host a => x = a
  | .masked a m => ∀ i < 32, m.testBit i = true → x.testBit i = a.testBit i

/-- The port is one the entry gives. -/
def InPorts (proto : String) (x : Nat) : List Tok → Prop
  | [] => True
  | [a] => numberOf (portNames proto) a = some x
  | [a, b] => ∃ i j, numberOf (portNames proto) a = some i ∧ numberOf (portNames proto) b = some j ∧ i ≤ x ∧ x ≤ j
  | _ => False

/-- The entry matches the packet. -/
structure Hits (e : Entry) (p : Packet) : Prop where
  ver : p.ver = .v4
  proto : e.proto = "ip" ∨ ∃ n, (e.proto, n) ∈ protoNames ∧ (p.proto, n) ∈ iana
  src : InAddr p.src e.src
  dst : InAddr p.dst e.dst
  sport : InPorts e.proto p.sport e.sport
  dport : InPorts e.proto p.dport e.dport
  ports : e.sport ++ e.dport ≠ [] → e.proto ∈ ["tcp", "udp", "sctp"]
  icmp : ∀ w, e.icmp = some w → ∃ k, numberOf icmpTypeNames w = some k ∧ (p.icmpType, k) ∈ icmpV4

/-- The list with the name after one more line. -/
def step (name : String) (l : List Entry) : Line → List Entry
  | .clear n => if n = name then [] else l
  | .entry n e => if n = name then l ++ [e] else l
  | _ => l

/-- The list with the name after the lines. -/
def listed (name : String) (ls : List Line) : List Entry := ls.foldl (step name) []

/-- The first entry of the list with the name that matches has the action. Of outputs with verbatim texts, which may be
commands of any kind, nothing is claimed. -/
def Decides (name : String) (ls : List Line) (p : Packet) (a : String) : Prop :=
  (∀ s, Line.verbatim s ∉ ls) ∧
  First (fun e a => Hits e p ∧ e.action = some a ∧ (a = "permit" ∨ a = "deny")) (listed name ls) a

/-- What the device calls the actions. -/
def actionNames : List (String × String) :=
  [("accept", "permit"), ("deny", "deny"), ("reject", "deny"), ("reject-with-tcp-rst", "deny")]

/-- The first term that counts and matches has the action; terms with `next` do not act. -/
def PolicyDecides (ts : List RTerm) (p : Packet) (a : String) : Prop :=
  First (fun r a => Flat.Wants "ciscoasa" actionNames r.expired r.term p a) ts a

/-- The term counts. -/
def Live (r : RTerm) : Prop :=
  r.expired = false ∧ (r.term.platform = [] ∨ "ciscoasa" ∈ r.term.platform) ∧ "ciscoasa" ∉ r.term.platformExclude

/-- Whether a term counts can be decided. -/
instance (r : RTerm) : Decidable (Live r) := by unfold Live; infer_instance

/-- The verbatim texts the terms that count have for the platform. -/
def verbatimIn (ts : List RTerm) : List String :=
  ts.flatMap fun r => if Live r then (r.term.verbatim.filter fun v => v.1 = "ciscoasa").map Prod.snd else []

/-- The verbatim texts of all filters. -/
def verbatimOf (fs : List Filter) : List String := fs.flatMap fun f => verbatimIn f.terms

/-- A line that is a command of the device about one of the lists. -/
def Understood (names : List String) : Line → Prop
  | .clear n => n ∈ names
  | .entry n e => n ∈ names ∧ (e.action = some "permit" ∨ e.action = some "deny") ∧
      (e.proto = "ip" ∨ e.proto ∈ protoNames.map Prod.fst) ∧
      (∀ w ∈ e.sport ++ e.dport, e.proto ∈ ["tcp", "udp", "sctp"] ∧ (numberOf (portNames e.proto) w).isSome = true) ∧
      ∀ w, e.icmp = some w → (numberOf icmpTypeNames w).isSome = true
  | .verbatim _ => True
  | .bare => False

end Asa
end Verif.Spec
