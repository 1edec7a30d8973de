import Verif.Spec.Device
import Verif.Spec.Aclgenerator
import Verif.Model.Cisco

/-!
What a router does with the lines of a Cisco-style access list: a parser for the entries and their meaning.
Nothing here depends on how the generator builds the lines.
-/

namespace Verif.Spec
namespace Ios
open Verif Verif.Cisco

/-- An address in an entry. -/
inductive AddrSpec where
  | any
  | host (v : Ver) (x : Nat)
  | wild (a m : Nat)
  | pfx (v : Ver) (a l : Nat)

/-- Reads an address: `any`, `host A`, `A WILDCARD`, `A/LEN`. -/
def parseAddr : List Tok → Option (AddrSpec × List Tok)
  | .w "any" :: r => some (.any, r)
  | .w "host" :: .ip v a :: r => some (.host v a, r)
  | .ip .v4 a :: .ip .v4 m :: r => some (.wild a m, r)
  | .pfx v a l :: r => some (.pfx v a l, r)
  | _ => none

/-- The addresses of family `v` that an address specification matches. In a wildcard, set bits are ignored. -/
def AddrSpec.Matches (v : Ver) (x : Nat) : AddrSpec → Prop
  | .any => True
  | .host v' a => v' = v ∧ x = a
  | .wild a m => v = .v4 ∧ ∀ i < 32, m.testBit i = false → x.testBit i = a.testBit i
  | .pfx v' a l => v' = v ∧ x / 2 ^ (v.bits - l) = a / 2 ^ (v.bits - l)

/-- Ports of an entry; a port is a number or a name. -/
inductive PortSpec where
  | any
  | eq (p : Tok)
  | range (a b : Tok)

/-- Reads an optional port condition. -/
def parsePort : List Tok → PortSpec × List Tok
  | .w "eq" :: p :: r => (.eq p, r)
  | .w "range" :: a :: b :: r => (.range a b, r)
  | r => (.any, r)

/-- TCP port names. -/
def tcpNames : List (String × Nat) :=
  [("imap", 143), ("kerberos", 88), ("bgp", 179), ("chargen", 19), ("cmd", 514), ("daytime", 13), ("discard", 9),
   ("domain", 53), ("echo", 7), ("exec", 512), ("finger", 79), ("ftp", 21), ("ftp-data", 20), ("gopher", 70),
   ("https", 443), ("ident", 113), ("irc", 194), ("klogin", 543), ("kshell", 544), ("ldap", 389), ("ldaps", 636),
   ("login", 513), ("lpd", 515), ("nfs", 2049), ("nntp", 119), ("pim-auto-rp", 496), ("pop2", 109), ("pop3", 110),
   ("pptp", 1723), ("smtp", 25), ("ssh", 22), ("sunrpc", 111), ("tacacs", 49), ("talk", 517), ("telnet", 23),
   ("uucp", 540), ("whois", 43), ("www", 80)]

/-- UDP port names. -/
def udpNames : List (String × Nat) :=
  [("kerberos", 88), ("radius", 1812), ("radius-acct", 1813), ("biff", 512), ("bootpc", 68), ("bootps", 67),
   ("discard", 9), ("dnsix", 195), ("domain", 53), ("echo", 7), ("isakmp", 500), ("mobile-ip", 434),
   ("nameserver", 42), ("netbios-dgm", 138), ("netbios-ns", 137), ("nfs", 2049), ("ntp", 123),
   ("pim-auto-rp", 496), ("rip", 520), ("snmp", 161), ("snmptrap", 162), ("sunrpc", 111), ("syslog", 514),
   ("tacacs", 49), ("talk", 517), ("tftp", 69), ("time", 37), ("who", 513), ("xdmcp", 177)]

/-- The port a token means for a protocol. -/
def portNumber (proto : Tok) : Tok → Option Nat
  | .num n => some n.toNat
  | .w s => if proto = .w "tcp" then tcpNames.lookup s else if proto = .w "udp" then udpNames.lookup s else none
  | _ => none

/-- The ports a condition matches. -/
def PortSpec.Matches (proto : Tok) (x : Nat) : PortSpec → Prop
  | .any => True
  | .eq p => portNumber proto p = some x
  | .range a b => ∃ i j, portNumber proto a = some i ∧ portNumber proto b = some j ∧ i ≤ x ∧ x ≤ j

/-- The options of an entry that restrict it. -/
structure Opts where
  established : Bool := false
  fragments : Bool := false
  dscp : List String := []

/-- Reads the options up to the end of the line; `log` and `nexthop1` do not restrict. -/
def parseOpts : List Tok → Option Opts
  | [] => some {}
  | .w "established" :: r => (parseOpts r).map fun o => { o with established := true }
  | .w "fragments" :: r => (parseOpts r).map fun o => { o with fragments := true }
  | .w "log" :: r => parseOpts r
  | .w "dscp" :: .w d :: r => (parseOpts r).map fun o => { o with dscp := d :: o.dscp }
  | .w "nexthop1" :: .w _ :: .ip _ _ :: r => parseOpts r
  | _ => none

/-- Reads an optional icmp type and code. -/
def parseIcmp : List Tok → Option Int × Option Int × List Tok
  | .num t :: .num c :: r => (some t, some c, r)
  | .num t :: r => (some t, none, r)
  | r => (none, none, r)

/-- An entry of an extended list. -/
structure Ace where
  permit : Bool
  proto : Tok
  src : AddrSpec
  sport : PortSpec
  dst : AddrSpec
  dport : PortSpec
  itype : Option Int
  icode : Option Int
  opts : Opts

/-- Reads the part of an entry after the action. -/
def parseBody (permit : Bool) : List Tok → Option Ace
  | [] => none
  | proto :: r => do
    let (sa, r) ← parseAddr r
    let (sp, r) := parsePort r
    let (da, r) ← parseAddr r
    let (dp, r) := parsePort r
    let (ty, co, r) := parseIcmp r
    let o ← parseOpts r
    some ⟨permit, proto, sa, sp, da, dp, ty, co, o⟩

/-- Reads an entry. Everything else (`! next ...` is a comment) is no entry. -/
def parseAce : List Tok → Option Ace
  | .w "permit" :: r => parseBody true r
  | .w "deny" :: r => parseBody false r
  | _ => none

/-- The protocol condition of an entry in a list of family `v`. -/
def ProtoMatches (v : Ver) (proto : Tok) (p : Packet) : Prop :=
  match proto with
  | .num n => ∃ k : Nat, (p.proto, k) ∈ iana ∧ n = (k : Int)
  | .w s =>
    ((s = "ip" ∨ s = "ipv4") ∧ v = .v4) ∨ (s = "ipv6" ∧ v = .v6) ∨ (s = "hbh" ∧ p.proto = "hopopt") ∨
    (s = "icmp" ∧ v = .v6 ∧ p.proto = "icmpv6") ∨ p.proto = s
  | _ => False

/-- The packet matches the entry of a list of family `v`. -/
structure Ace.Matches (v : Ver) (a : Ace) (p : Packet) : Prop where
  ver : p.ver = v
  proto : ProtoMatches v a.proto p
  src : a.src.Matches v p.src
  dst : a.dst.Matches v p.dst
  sport : a.sport.Matches a.proto p.sport
  dport : a.dport.Matches a.proto p.dport
  itype : ∀ t, a.itype = some t → ∃ k : Nat, (p.icmpType, k) ∈ icmpNumbers v ∧ t = (k : Int)
  icode : ∀ c, a.icode = some c → c = (p.icmpCode : Int)
  est : a.opts.established = true → p.hasOption "tcp-established" = true
  frag : a.opts.fragments = true → p.hasOption "is-fragment" = true
  dscp : ∀ d ∈ a.opts.dscp, p.dscp = d

/-- The line is an entry with the action (`true` = permit) that matches the packet. -/
def LineMatches (v : Ver) (l : Line) (permit : Bool) (p : Packet) : Prop :=
  ∃ toks a, l = .ace toks ∧ parseAce toks = some a ∧ a.permit = permit ∧ a.Matches v p

/-- The first matching entry of the list has the action. -/
def Decides (v : Ver) (ls : List Line) (p : Packet) (permit : Bool) : Prop :=
  ∃ pre l post, ls = pre ++ l :: post ∧ LineMatches v l permit p ∧ ∀ m ∈ pre, ∀ b, ¬ LineMatches v m b p

/-- The meaning of a policy action on a router: `reject` is a plain deny. -/
def Permits (action : String) (permit : Bool) : Prop :=
  (action = "accept" ∧ permit = true) ∨
  ((action = "deny" ∨ action = "reject" ∨ action = "reject-with-tcp-rst") ∧ permit = false)

/-- What a term asks of a stateless device: with `established`, replies go to the high ports. -/
def Means (t : Policy.Term) (p : Packet) : Prop :=
  ("established" ∉ t.option ∧ Matches t p) ∨
  ("established" ∈ t.option ∧ Matches { t with destinationPort := t.destinationPort ++ [(1024, 65535)] } p)

/-- The term counts: it is not expired and meant for the platform. -/
def Live (platform : String) (r : RTerm) : Prop :=
  r.expired = false ∧ (r.term.platform = [] ∨ platform ∈ r.term.platform) ∧ platform ∉ r.term.platformExclude

/-- The first live term that matches the packet and does not pass it on has the action. -/
def PolicyDecides (platform : String) (ts : List RTerm) (p : Packet) (permit : Bool) : Prop :=
  ∃ pre r post a, ts = pre ++ r :: post ∧ Live platform r ∧ Means r.term p ∧ r.term.action = [a] ∧ Permits a permit ∧
    ∀ s ∈ pre, ¬ (Live platform s ∧ Means s.term p ∧ s.term.action ≠ ["next"])

end Ios
end Verif.Spec
