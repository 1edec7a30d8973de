import Verif.Spec.Flat
import Verif.Model.Nftables

/-!
What nftables does with a rule set. The rules of a chain are those of all blocks with its name in the table. A packet
that reaches a hook runs through the base chains of the hook, of all tables of its family. A rule that matches ends the
run of a base chain; at its end the policy of the base chain decides. The packet passes if every base chain accepts it.
-/

namespace Verif.Spec
namespace Nftables
open Verif Verif.Nftables Policy Aclgenerator

/-- A packet with the state of its connection. -/
structure Flow where
  packet : Packet
  state : String := "new"

/-- Numbers of the protocol names nftables knows (names of `/etc/protocols`, and `icmpv6`). -/
def protoNumbers : List (String × Nat) :=
  [("hopopt", 0), ("icmp", 1), ("igmp", 2), ("ggp", 3), ("tcp", 6), ("egp", 8), ("igp", 9),
   ("udp", 17), ("rdp", 27), ("ipv6", 41), ("ipv6-route", 43), ("rsvp", 46), ("gre", 47),
   ("esp", 50), ("ah", 51), ("icmpv6", 58), ("ipv6-nonxt", 59), ("ipv6-opts", 60), ("ospf", 89), ("ipip", 94), ("pim", 103),
   ("vrrp", 112), ("l2tp", 115), ("sctp", 132), ("udplite", 136)]

/-- Numbers of the names of `icmp type` and `icmpv6 type`. -/
def typeNames (v : Ver) : List (String × Nat) :=
  if v = .v4 then
    [("echo-reply", 0), ("destination-unreachable", 3), ("source-quench", 4), ("redirect", 5), ("echo-request", 8),
     ("router-advertisement", 9), ("router-solicitation", 10), ("time-exceeded", 11), ("parameter-problem", 12),
     ("timestamp-request", 13), ("timestamp-reply", 14), ("info-request", 15), ("info-reply", 16),
     ("address-mask-request", 17), ("address-mask-reply", 18)]
  else
    [("destination-unreachable", 1), ("packet-too-big", 2), ("time-exceeded", 3), ("parameter-problem", 4),
     ("echo-request", 128), ("echo-reply", 129), ("mld-listener-query", 130), ("mld-listener-report", 131),
     ("mld-listener-done", 132), ("nd-router-solicit", 133), ("nd-router-advert", 134), ("nd-neighbor-solicit", 135),
     ("nd-neighbor-advert", 136), ("nd-redirect", 137), ("router-renumbering", 138), ("ind-neighbor-solicit", 141),
     ("ind-neighbor-advert", 142), ("mld2-listener-report", 143)]

/-- The word, a name or a number, stands for the type. -/
def TypeIs (v : Ver) (s : String) (k : Nat) : Prop := (s, k) ∈ typeNames v ∨ s = toString k

/-- The packet has the protocol. -/
def ProtoIs (s : String) (p : Packet) : Prop := ∃ e ∈ protoNumbers, e.1 = s ∧ Flat.NumberIs p (e.2 : Int)

/-- A set of networks, not written if empty. -/
def InSet (l : List Net) (v : Ver) (x : Nat) : Prop := l = [] ∨ ∃ n ∈ l, Flat.Covers (n.ver, n.addr, n.plen) v x

/-- The addresses match the packet. -/
def AddrsHit (a : Addrs) (p : Packet) : Prop := p.ver = a.ver ∧ InSet a.src p.ver p.src ∧ InSet a.dst p.ver p.dst

/-- The statement matches the packet. `ip protocol` is for IPv4 packets, `meta l4proto` and ports are for both families. -/
def StmtHits (s : Stmt) (p : Packet) : Prop :=
  match s with
  | .icmp v types => p.ver = v ∧ Flat.NumberIs p (if v = .v4 then 1 else 58) ∧
      ∃ s ∈ types, ∃ e ∈ icmpNumbers v, e.1 = p.icmpType ∧ TypeIs v s e.2
  | .protos v l => (v = .v4 → p.ver = .v4) ∧ ∃ s ∈ l, ProtoIs s p
  | .ports s src dst => ProtoIs s p ∧ PortMatch src p.sport ∧ PortMatch dst p.dport

/-- The rule matches the packet. -/
def RuleHits (r : Rule) (f : Flow) : Prop :=
  Flat.IfSet r.iface (fun i => (if i.1 then f.packet.inInterface else f.packet.outInterface) = i.2) ∧
  Flat.IfSet r.addrs (AddrsHit · f.packet) ∧ Flat.IfSet r.stmt (StmtHits · f.packet) ∧ (r.new = true → f.state = "new")

/-- The items of the chain. -/
def Body (t : Table) (n : Str) : List Item := t.chains.flatMap fun c => if c.name = n then c.items else []

/-- The state is one of a connection that has been let pass. -/
def Known (f : Flow) : Prop := f.state = "established" ∨ f.state = "related"

/-- A run through the items ends with the verdict, or at the end of the chain. -/
inductive Run (t : Table) (f : Flow) : List Item → Option String → Prop
  | done : Run t f [] none
  | remark {x l o} : Run t f l o → Run t f (.remark x :: l) o
  | known {x l} : Known f → Run t f (.known x :: l) (some "accept")
  | fresh {x l o} : ¬ Known f → Run t f l o → Run t f (.known x :: l) o
  | hit {r l} : RuleHits r f → Run t f (.rule r :: l) (some r.verdict)
  | miss {r l o} : ¬ RuleHits r f → Run t f l o → Run t f (.rule r :: l) o
  | jump {n l v} : Run t f (Body t n) (some v) → Run t f (.jump n :: l) (some v)
  | back {n l o} : Run t f (Body t n) none → Run t f l o → Run t f (.jump n :: l) o

/-- The table sees packets of the family. -/
def Sees (family : String) (v : Ver) : Prop :=
  (family = "ip" ∧ v = .v4) ∨ (family = "ip6" ∧ v = .v6) ∨ family = "inet" ∨ family = "bridge"

/-- All base chains of the hook accept the packet. -/
def Passes (ts : List Table) (hook : String) (f : Flow) : Prop :=
  ∀ t ∈ ts, Sees t.family f.packet.ver → ∀ c ∈ t.chains, ∀ prio policy, c.base = some (hook, prio, policy) →
    Run t f (Body t c.name) (some "accept") ∨ (Run t f (Body t c.name) none ∧ policy = "accept")

/-- The term counts: nftables keeps track of connections, and terms for replies are not needed. -/
def Live (g : NTerm) : Prop :=
  g.expired = false ∧ g.reply = false ∧ "established" ∉ g.term.option ∧ "tcp-established" ∉ g.term.option ∧
  (g.term.platform = [] ∨ "nftables" ∈ g.term.platform) ∧ "nftables" ∉ g.term.platformExclude

/-- The verdicts for actions. -/
def verdicts : List (String × String) := [("accept", "accept"), ("deny", "drop"), ("reject", "reject")]

/-- The term counts, matches the packet and has the action called `v`. A term accepts only new connections, unless it has
ICMP types. -/
def Wants (f : Flow) (g : NTerm) (v : String) : Prop :=
  Live g ∧ Matches g.term f.packet ∧ (∃ w, g.term.action = [w] ∧ (w, v) ∈ verdicts) ∧
  (v = "accept" → f.state = "new" ∨ g.term.icmpType ≠ [])

/-- The family a header states, as nftables calls it. -/
def Family (options : List String) (af : String) : Prop :=
  (options.head? = some "inet" ∧ af = "ip") ∨ (options.head? = some "inet6" ∧ af = "ip6") ∨
  (options.head? = some "mixed" ∧ af = "inet")

/-- The hook a header states, in any case of letters. -/
def Hook (options : List String) (hook : String) : Prop :=
  ∃ a k l, options = a :: k :: l ∧ k.toList.map Char.toLower = hook.toList

/-- The default a header states. -/
def Default (options : List String) (v : String) : Prop := v = if "ACCEPT" ∈ options then "accept" else "drop"

/-- A number in decimal digits. -/
def Numeric (s : String) : Prop := s.toList ≠ [] ∧ ∀ c ∈ s.toList, c.isDigit = true

/-- The priority a header states: its only number, or 0. -/
def Priority (options : List String) (prio : String) : Prop :=
  (∀ o ∈ options, Numeric o → prio = o) ∧ ((∃ o ∈ options, Numeric o) ∨ prio = "0")

/-- The filter says so about the packet: by the first term that wants something, or by its default. -/
def Decides (x : Filter) (f : Flow) (v : String) : Prop :=
  First (Wants f) x.terms v ∨ ((∀ g ∈ x.terms, ∀ w, ¬ Wants f g w) ∧ Default x.options v)

/-- A word that may be the name for the base chain. -/
def BaseOf (options : List String) (b : String) : Prop :=
  b = "root" ∨ ∃ pre post, options.erase "noverbose" = pre ++ "base-chain-name" :: b :: post

/-- The header asks for a table of another family. -/
def Overridden (options : List String) : Prop := "address-family-override" ∈ options

/-- Names are not used twice: names for base chains do not end in a digit, no term is named like a base chain, and the
terms of two filters that may be in the same table have different names. -/
structure Distinct (fs : List Filter) : Prop where
  bases : ∀ f ∈ fs, ∀ b, BaseOf f.options b → ∀ c, b.toList.getLast? = some c → c.isDigit = false
  terms : ∀ f ∈ fs, ∀ g ∈ f.terms, ∀ f' ∈ fs, ∀ b, BaseOf f'.options b → ∀ n : Nat,
    g.term.name ≠ b.toList ++ (toString n).toList
  filters : fs.Pairwise fun f f' => (f.options.head? = f'.options.head? ∨ (Overridden f.options ∧ Overridden f'.options)) →
    ∀ g ∈ f.terms, ∀ g' ∈ f'.terms, g.term.name ≠ g'.term.name

/-- A quoted comment nftables takes: at most 128 characters with the quotes, no quotes or line ends within. -/
def CommentOk (c : Str) : Prop := ∃ body, c = '"' :: (body ++ ['"']) ∧ body.length ≤ 126 ∧ '"' ∉ body ∧ '\n' ∉ body

end Nftables
end Verif.Spec
