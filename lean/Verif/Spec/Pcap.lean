import Verif.Spec.Device
import Verif.Model.Pcap

/-!
What a capture program does with a pcap filter expression: a reader for expressions and their meaning.
Nothing here depends on how the generator builds the expressions.
-/

namespace Verif.Spec
namespace Bpf
open Verif Verif.Pcap Verif.Policy

/-- An expression. -/
inductive Expr where
  | prim (p : Prim)
  | neg (e : Expr)
  | and (a b : Expr)
  | or (a b : Expr)
deriving DecidableEq

/-- Where an operand is expected: what precedes it on this level (an expression and an operator, `true` = and), and
whether an odd number of `not` precedes it. -/
structure Hole where
  left : Option (Bool × Expr) := none
  neg : Bool := false

/-- Puts the operand in. `not` binds the operand, `and` and `or` have equal precedence and associate to the left. -/
def Hole.fill (h : Hole) (e : Expr) : Expr :=
  let e := if h.neg then .neg e else e
  match h.left with
  | none => e
  | some (true, a) => .and a e
  | some (false, a) => .or a e

/-- The reader: an operand is expected, or an expression is complete; with the holes of the open parentheses. -/
inductive State where
  | want (stack : List Hole) (h : Hole)
  | have (stack : List Hole) (e : Expr)

/-- Reads a token. -/
def step : State → Tok → Option State
  | .want s h, .prim p => some (.have s (h.fill (.prim p)))
  | .want s h, .not => some (.want s { h with neg := !h.neg })
  | .want s h, .lp => some (.want (h :: s) {})
  | .have s e, .and => some (.want s { left := some (true, e) })
  | .have s e, .or => some (.want s { left := some (false, e) })
  | .have (h :: s) e, .rp => some (.have s (h.fill e))
  | _, _ => none

/-- Reads tokens. -/
def run : State → List Tok → Option State
  | s, [] => some s
  | s, t :: ts => (step s t).bind fun s => run s ts

/-- Reads an expression; `none` is a syntax error. -/
def parse (ts : List Tok) : Option Expr :=
  match run (.want [] {}) ts with
  | some (.have [] e) => some e
  | _ => none

/-- The protocols named by a `proto` primitive. -/
def protoNames : List (String × String) :=
  [("proto \\ah", "ah"), ("proto \\esp", "esp"), ("proto \\icmp", "icmp"), ("proto \\igmp", "igmp"), ("proto \\pim", "pim"),
   ("proto \\tcp", "tcp"), ("proto \\udp", "udp"), ("proto 112", "vrrp")]

/-- The bits of the TCP flags byte that a term of a mask stands for, as the options of policies. -/
def maskBits (s : String) : List String :=
  if s = "(tcp-syn|tcp-ack|tcp-fin|tcp-rst|tcp-urg|tcp-push)" then ["syn", "ack", "fin", "rst", "urg", "psh"]
  else if s = "tcp-syn" then ["syn"]
  else if s = "tcp-ack" then ["ack"]
  else if s = "tcp-fin" then ["fin"]
  else if s = "tcp-rst" then ["rst"]
  else if s = "tcp-urg" then ["urg"]
  else if s = "tcp-push" then ["psh"]
  else []

/-- The packet satisfies the primitive. `loc` are the addresses put in for `localhost`. `tcp[...]` and `icmp[...]`
look into IPv4 packets only. -/
def PrimHolds (loc : Ver → Nat → Prop) (p : Packet) : Prim → Prop
  | .dstNet v a l => p.ver = v ∧ p.dst / 2 ^ (v.bits - l) = a / 2 ^ (v.bits - l)
  | .localhost d => (d = "src" ∧ loc p.ver p.src) ∨ (d = "dst" ∧ loc p.ver p.dst)
  | .proto s => (s, p.proto) ∈ protoNames ∨ (s = "icmp6" ∧ p.ver = .v6 ∧ p.proto = "icmpv6") ∨
      (s = "ip6 protochain 0" ∧ p.ver = .v6 ∧ p.proto = "hopopt")
  | .port d n => p.proto ∈ ["tcp", "udp", "sctp"] ∧ ((d = "src" ∧ p.sport = n) ∨ (d = "dst" ∧ p.dport = n))
  | .portRange d a b => p.proto ∈ ["tcp", "udp", "sctp"] ∧
      ((d = "src" ∧ a ≤ p.sport ∧ p.sport ≤ b) ∨ (d = "dst" ∧ a ≤ p.dport ∧ p.dport ≤ b))
  | .icmpType n => p.ver = .v4 ∧ p.proto = "icmp" ∧ (p.icmpType, n) ∈ icmpV4
  | .icmpCode n => p.ver = .v4 ∧ p.proto = "icmp" ∧ p.icmpCode = n
  | .tcpFlags check set => p.ver = .v4 ∧ p.proto = "tcp" ∧ ∀ f ∈ ["syn", "ack", "fin", "rst", "urg", "psh"],
      ((p.hasOption f = true ∧ f ∈ check.flatMap maskBits) ↔ f ∈ set.flatMap maskBits)

/-- The packet satisfies the expression. -/
def Expr.Holds (loc : Ver → Nat → Prop) (p : Packet) : Expr → Prop
  | .prim q => PrimHolds loc p q
  | .neg e => ¬ e.Holds loc p
  | .and a b => a.Holds loc p ∧ b.Holds loc p
  | .or a b => a.Holds loc p ∨ b.Holds loc p

/-- The capture has the packet. Without an expression all packets are captured. -/
def Selects (loc : Ver → Nat → Prop) (ts : List Tok) (p : Packet) : Prop :=
  ts = [] ∨ ∃ e, parse ts = some e ∧ e.Holds loc p

/-- A packet of a real network: a protocol with a number, icmp in its family; the flag options are about the flags. An
established TCP connection shows in ACK or RST, and other protocols have none but UDP. -/
structure Sound (p : Packet) : Prop where
  proto : p.proto ∈ iana.map Prod.fst
  icmp4 : p.ver = .v4 → p.proto ≠ "icmpv6"
  icmp6 : p.ver = .v6 → p.proto ≠ "icmp"
  all : p.hasOption "all" = true ↔ ∀ f ∈ ["syn", "ack", "fin", "rst", "urg", "psh"], p.hasOption f = true
  none : p.hasOption "none" = true ↔ ∀ f ∈ ["syn", "ack", "fin", "rst", "urg", "psh"], p.hasOption f = false
  est : p.proto = "tcp" → ∀ o ∈ ["established", "tcp-established"],
    (p.hasOption o = true ↔ p.hasOption "ack" = true ∨ p.hasOption "rst" = true)

/-- The packet is one the filter of the family is for. -/
def OfFamily (af : String) (p : Packet) : Prop := (af = "inet" → p.ver = .v4) ∧ (af = "inet6" → p.ver = .v6)

/-- The term counts: it is not expired, meant for the platform and does not pass packets on. -/
def Counts (r : PTerm) : Prop :=
  r.expired = false ∧ (r.term.platform = [] ∨ "pcap" ∈ r.term.platform) ∧ "pcap" ∉ r.term.platformExclude ∧
  r.term.action ≠ ["next"]

/-- The first term that counts and matches has one of the actions. -/
def Decides (actions : List String) (ts : List PTerm) (p : Packet) : Prop :=
  ∃ pre r post a, ts = pre ++ r :: post ∧ Counts r ∧ Matches r.term p ∧ r.term.action = [a] ∧ a ∈ actions ∧
    ∀ s ∈ pre, ¬ (Counts s ∧ Matches s.term p)

end Bpf
end Verif.Spec
