import Verif.Spec.Device
import Verif.Spec.Aclgenerator
import Verif.Spec.Cisco
import Verif.Model.Iptables

/-!
What a Linux host does with the lines of an iptables rule set: a reader for rules and the traversal of chains.
Nothing here depends on how the generator builds the lines.
-/

namespace Verif.Spec
namespace Nf
open Verif Verif.Iptables Verif.Policy

/-- A match of a rule. -/
inductive Match where
  | proto (s : String)
  | src (v : Ver) (a l : Nat)
  | dst (v : Ver) (a l : Nat)
  | sports (l : List PortRange)
  | dports (l : List PortRange)
  | icmp (t : Nat) (c : Option Nat)
  | icmp6 (t : Nat) (c : Option Nat)
  | state (l : List String)
  | length (l : List Nat)
  | u32 (s : String)
  | u32Range (s : String) (l : List Nat)
  | flags (mask set : List String)
  | syn
  | inIface (s : String)
  | outIface (s : String)
  | srcSet (n : Str)
  | dstSet (n : Str)
deriving DecidableEq

/-- What a rule does with the packets it matches. -/
inductive Target where
  | accept
  | drop
  | reject
  | ret
  | log
  | jump (c : Str)
deriving DecidableEq

/-- Reads the part of a rule that begins with `-j`. -/
def readTarget : List Arg → Option Target
  | [.w "ACCEPT"] => some .accept
  | [.w "DROP"] => some .drop
  | [.w "REJECT", .w "--reject-with", .w _] => some .reject
  | [.w "RETURN"] => some .ret
  | [.w "LOG", .w "--log-prefix", .name _] => some .log
  | [.name c] => some (.jump c)
  | _ => none

/-- The ports of a list as the multiport match counts them: a range counts twice. -/
def portCount (l : List PortRange) : Nat := (l.map fun r => if r.1 = r.2 then 1 else 2).sum

/-- Reads a match with one argument. -/
def readOne : String → Arg → Option Match
  | "-p", .w s => some (.proto s)
  | "-s", .pfx v a l => some (.src v a l)
  | "-d", .pfx v a l => some (.dst v a l)
  | "--sport", .ports [r] => some (.sports [r])
  | "--dport", .ports [r] => some (.dports [r])
  | "--icmp-type", .icmp t c => some (.icmp t c)
  | "-i", .w s => some (.inIface s)
  | "-o", .w s => some (.outIface s)
  | _, _ => none

/-- Reads a match of an extension: module, option, argument. A multiport match takes at most 15 ports. -/
def readExt : String → String → Arg → Option Match
  | "multiport", "--sports", .ports l => if portCount l ≤ 15 then some (.sports l) else none
  | "multiport", "--dports", .ports l => if portCount l ≤ 15 then some (.dports l) else none
  | "icmp6", "--icmpv6-type", .icmp t c => some (.icmp6 t c)
  | "state", "--state", .list l => some (.state l)
  | "length", "--length", .span "" l => some (.length l)
  | "u32", "--u32", .w s => some (.u32 s)
  | "u32", "--u32", .span s l => some (.u32Range s l)
  | _, _, _ => none

/-- Reads a match with a name and a direction. -/
def readSet : String → String → Str → String → Option Match
  | "set", "--match-set", n, "src" => some (.srcSet n)
  | "set", "--match-set", n, "dst" => some (.dstSet n)
  | _, _, _, _ => none

/-- Adds a match in front. -/
def add (m : Option Match) (r : Option (List Match × Target)) : Option (List Match × Target) := do
  let m ← m
  let r ← r
  some (m :: r.1, r.2)

/-- Reads a rule; `none` if it is not one. -/
def parse : List Arg → Option (List Match × Target)
  | .w k :: rest =>
    if k = "-j" then (readTarget rest).map fun t => ([], t)
    else if k = "--syn" then add (some .syn) (parse rest)
    else if k = "-m" then
      match rest with
      | .w a :: .w b :: .name n :: .w d :: r => add (readSet a b n d) (parse r)
      | .w a :: .w b :: x :: r => add (readExt a b x) (parse r)
      | _ => none
    else if k = "--tcp-flags" then
      match rest with
      | .list m :: .list s :: r => add (some (.flags m s)) (parse r)
      | _ => none
    else
      match rest with
      | x :: r => add (readOne k x) (parse r)
      | [] => none
  | _ => none

/-- The TCP flags with the options that stand for them in policies. -/
def tcpFlags : List (String × String) :=
  [("SYN", "syn"), ("ACK", "ack"), ("FIN", "fin"), ("RST", "rst"), ("URG", "urg"), ("PSH", "psh")]

/-- What the rules are evaluated against besides the packet: the connection state, the contents of the sets. -/
structure Host where
  state : String
  sets : Str → Option (List Net) := fun _ => none

/-- The packet satisfies the match. In IPv6 the `u32` tests of IPv4 fragments read the next header and the hop limit;
the test of byte 6 reads the next header in IPv6 and is not used in IPv4. -/
def Match.Holds (e : Host) (p : Packet) : Match → Prop
  | .proto s => s = "all" ∨ s = "0" ∨ s = p.proto ∨ (s = "ipv6-icmp" ∧ p.proto = "icmpv6") ∨
      ∃ k, (p.proto, k) ∈ iana ∧ s = toString k
  | .src v a l => p.ver = v ∧ p.src / 2 ^ (v.bits - l) = a / 2 ^ (v.bits - l)
  | .dst v a l => p.ver = v ∧ p.dst / 2 ^ (v.bits - l) = a / 2 ^ (v.bits - l)
  | .sports l => PMem l p.sport
  | .dports l => PMem l p.dport
  | .icmp t c => p.proto = "icmp" ∧ (p.icmpType, t) ∈ icmpV4 ∧ ∀ k, c = some k → p.icmpCode = k
  | .icmp6 t c => p.proto = "icmpv6" ∧ (p.icmpType, t) ∈ icmpV6 ∧ ∀ k, c = some k → p.icmpCode = k
  | .state l => e.state ∈ l
  | .length l => RangeMatch l p.packetLength
  | .u32 s =>
    if s = "4&0x3FFF=0x2000" then
      (p.ver = .v4 ∧ p.hasOption "first-fragment" = true) ∨
      (p.ver = .v6 ∧ p.hopLimit = 0 ∧ ∃ k, (p.proto, k) ∈ iana ∧ k % 64 = 32)
    else if s = "0x3&0xff=0x0" then p.ver = .v6 ∧ p.proto = "hopopt"
    else if s = "0x3&0xff=0x2c" then p.ver = .v6 ∧ p.proto = "fragment"
    else False
  | .u32Range s l =>
    s = "4&0x1FFF=" ∧
    ((p.ver = .v4 ∧ RangeMatch l p.fragmentOffset) ∨
     (p.ver = .v6 ∧ ∃ k, (p.proto, k) ∈ iana ∧ RangeMatch l (k % 32 * 256 + p.hopLimit)))
  | .flags m s => p.proto = "tcp" ∧ ∀ f ∈ tcpFlags, f.1 ∈ m ∨ "ALL" ∈ m →
      (p.hasOption f.2 = true ↔ f.1 ∈ s ∨ "ALL" ∈ s)
  | .syn => p.proto = "tcp" ∧ p.hasOption "syn" = true ∧ p.hasOption "rst" = false ∧ p.hasOption "ack" = false ∧
      p.hasOption "fin" = false
  | .inIface s => p.inInterface = s
  | .outIface s => p.outInterface = s
  | .srcSet n => ∃ l, e.sets n = some l ∧ Den l p.ver p.src
  | .dstSet n => ∃ l, e.sets n = some l ∧ Den l p.ver p.dst

/-- The packet satisfies all matches of the rule. -/
def All (e : Host) (p : Packet) (ms : List Match) : Prop := ∀ m ∈ ms, m.Holds e p

/-- What happens to a packet. -/
inductive Verdict where
  | accept
  | drop
  | reject
deriving DecidableEq

/-- The verdict of a target, if it has one. -/
def Target.verdict : Target → Option Verdict
  | .accept => some .accept
  | .drop => some .drop
  | .reject => some .reject
  | _ => none

/-- The traversal of the rules of a chain: a verdict, or `none` if the end or `RETURN` is reached. `chains` has the
rules of the chains that can be jumped to. -/
inductive Walk (chains : Str → List (List Arg)) (e : Host) (p : Packet) : List (List Arg) → Option Verdict → Prop
  | done : Walk chains e p [] none
  | skip {r rs ms t v} : parse r = some (ms, t) → ¬ All e p ms → Walk chains e p rs v → Walk chains e p (r :: rs) v
  | hit {r rs ms t v} : parse r = some (ms, t) → All e p ms → t.verdict = some v → Walk chains e p (r :: rs) (some v)
  | ret {r rs ms} : parse r = some (ms, .ret) → All e p ms → Walk chains e p (r :: rs) none
  | log {r rs ms v} : parse r = some (ms, .log) → All e p ms → Walk chains e p rs v → Walk chains e p (r :: rs) v
  | call {r rs ms c v} : parse r = some (ms, .jump c) → All e p ms → Walk chains e p (chains c) (some v) →
      Walk chains e p (r :: rs) (some v)
  | back {r rs ms c v} : parse r = some (ms, .jump c) → All e p ms → Walk chains e p (chains c) none →
      Walk chains e p rs v → Walk chains e p (r :: rs) v

/-- The rules appended to a chain. -/
def rulesOf (ls : List Line) (c : Str) : List (List Arg) :=
  ls.filterMap fun l => match l with
    | .rule d args => if d = c then some args else none
    | _ => none

/-- The chains created, in order. Creating a chain twice fails. -/
def created (ls : List Line) : List Str :=
  ls.filterMap fun l => match l with
    | .newChain c => some c
    | _ => none

/-- The chains that exist from the start. -/
def builtin : List Str := ["INPUT".toList, "OUTPUT".toList, "FORWARD".toList]

/-- The flags of the packet and its connection state fit together and with the options named in policies. With
connection tracking, `established` means an established or related connection; without, the flags tell for TCP and
nothing can be told for UDP. -/
structure Sound (track : Bool) (e : Host) (p : Packet) : Prop where
  src : p.src < 2 ^ p.ver.bits
  dst : p.dst < 2 ^ p.ver.bits
  proto : p.proto ∈ iana.map Prod.fst
  icmp4 : p.ver = .v4 → p.proto ≠ "icmpv6"
  icmp6 : p.ver = .v6 → p.proto ≠ "icmp"
  state : e.state ∈ ["NEW", "ESTABLISHED", "RELATED"]
  est : track = true → (p.hasOption "established" = true ↔ e.state ∈ ["ESTABLISHED", "RELATED"])
  tcpEst : track = true → p.proto = "tcp" → p.hasOption "tcp-established" = p.hasOption "established"
  tcp : track = false → p.proto = "tcp" → ∀ o ∈ ["established", "tcp-established"],
    (p.hasOption o = true ↔ p.hasOption "ack" = true ∨
      (p.hasOption "rst" = true ∧ p.hasOption "syn" = false ∧ p.hasOption "fin" = false))
  udp : track = false → p.proto = "udp" → p.hasOption "established" = true
  initial : ∀ o ∈ ["initial", "tcp-initial"], p.proto = "tcp" → (p.hasOption o = true ↔
    p.hasOption "syn" = true ∧ p.hasOption "rst" = false ∧ p.hasOption "ack" = false ∧ p.hasOption "fin" = false)
  all : p.hasOption "all" = true ↔ ∀ f ∈ tcpFlags, p.hasOption f.2 = true
  none : p.hasOption "none" = true ↔ ∀ f ∈ tcpFlags, p.hasOption f.2 = false
  sample : p.hasOption "sample" = true

/-- The verdict an action of a term asks for; `next` asks for none. -/
def Asks : String → Option Verdict → Prop
  | "accept", v => v = some .accept
  | "deny", v => v = some .drop
  | "reject", v => v = some .reject
  | "reject-with-tcp-rst", v => v = some .reject
  | "next", v => v = none
  | _, _ => False

/-- Not all of the addresses are excluded; no addresses stand for all of the family. -/
def SomeLeft (af : Ver) (inc exc : List Net) : Prop :=
  exc ≠ [] → ∃ v x, ((inc = [] ∧ v = af ∧ x < 2 ^ af.bits) ∨ Den inc v x) ∧ ¬ Den exc v x

/-- What a term asks of the host: without connection tracking, replies go to the high ports. -/
def Wants (track : Bool) (t : Policy.Term) (p : Packet) : Prop :=
  (track = true ∧ Matches t p) ∨ (track = false ∧ Ios.Means t p)

/-- The term counts: it is not expired and meant for the platform. -/
def Live (platform : String) (r : ITerm) : Prop :=
  r.expired = false ∧ (r.term.platform = [] ∨ platform ∈ r.term.platform) ∧ platform ∉ r.term.platformExclude

/-- The term decides about the packet. -/
def Settles (platform : String) (track : Bool) (p : Packet) (r : ITerm) : Prop :=
  Live platform r ∧ Wants track r.term p ∧ r.term.action ≠ ["next"]

/-- The outcome of a filter: what the first term that decides asks for, or nothing if none does. -/
def Decides (platform : String) (track : Bool) (ts : List ITerm) (p : Packet) (v : Option Verdict) : Prop :=
  (∃ pre r post a, ts = pre ++ r :: post ∧ Settles platform track p r ∧ r.term.action = [a] ∧ Asks a v ∧
    ∀ s ∈ pre, ¬ Settles platform track p s) ∨
  (v = none ∧ ∀ s ∈ ts, ¬ Settles platform track p s)

end Nf
end Verif.Spec
