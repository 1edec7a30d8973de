import Verif.Spec.Cisco
import Verif.Model.Juniper

/-!
What a Junos device does with the statements of a firewall filter. Nothing here depends on how the generator
builds the statements.
-/

namespace Verif.Spec
namespace Junos
open Verif Verif.Juniper Verif.Summarizer

/-! ### braces and indentation -/

/-- The line opens a block. -/
def Opens (l : Str) : Prop := ∃ r, l = r ++ [' ', '{']

/-- The line closes a block. -/
def Closes (l : Str) : Prop := ∃ r, l = r ++ ['}']

/-- The line begins a comment that it does not end. -/
def BeginsComment (l : Str) : Prop := ['/', '*'] <:+: l ∧ ¬ ['*', '/'] <:+: l

/-- The line ends a comment that it did not begin. -/
def EndsComment (l : Str) : Prop := ['*', '/'] <:+: l ∧ ¬ ['/', '*'] <:+: l

open Classical in
/-- Blocks opened minus blocks closed by the lines. -/
noncomputable def depth (ls : List Str) : Int :=
  (ls.map fun l => (if Opens l then 1 else 0) - (if Closes l then 1 else 0 : Int)).sum

open Classical in
/-- Comments begun minus comments ended by the lines. -/
noncomputable def comments (ls : List Str) : Int :=
  (ls.map fun l => (if BeginsComment l then 1 else 0) - (if EndsComment l then 1 else 0 : Int)).sum

/-- The lines that are not verbatim (the flag is set on verbatim lines). -/
def plain (ls : List (Bool × Str)) : List Str := (ls.filter fun l => !l.1).map Prod.snd

/-! ### conditions -/

/-- A dotted quad as a number. -/
def quadValue : MaskText → Nat
  | .quad a b c d => ((a * 256 + b) * 256 + c) * 256 + d
  | .plen n => n

/-- The address `x` of family `v` is in the prefix, or agrees on the bits set in the mask. -/
def ItemMatches (v : Ver) (x : Nat) : Tok → Prop
  | .pfx v' a l => v' = v ∧ x / 2 ^ (v.bits - l) = a / 2 ^ (v.bits - l)
  | .masked a (.plen l) => v = .v4 ∧ x / 2 ^ (32 - l) = quadValue a / 2 ^ (32 - l)
  | .masked a m => v = .v4 ∧ ∀ i < 32, (quadValue m).testBit i = true → x.testBit i = (quadValue a).testBit i
  | _ => False

/-- How specific the item is. -/
def itemLength : Tok → Nat
  | .pfx _ _ l => l
  | .masked _ (.plen l) => l
  | .masked _ m => ((List.range 32).filter fun i => (quadValue m).testBit i).length
  | _ => 0

/-- An address block: the most specific item containing the address decides, `except` wins ties, other addresses do
not match. -/
def AddrLines (ls : List (List Tok)) (v : Ver) (x : Nat) : Prop :=
  ∃ t, [t] ∈ ls ∧ ItemMatches v x t ∧ ∀ e, [e, Tok.w "except"] ∈ ls → ItemMatches v x e → itemLength e < itemLength t

/-- A prefix-list block: in one of the lists and in none of the exceptions. -/
def PrefixLines (ls : List (List Tok)) (f : String → Bool) : Prop :=
  (∃ n, [Tok.w n] ∈ ls ∧ f n = true) ∧ ∀ n, [Tok.w n, Tok.w "except"] ∈ ls → f n = false

/-- The values of a condition: one, or a list in brackets. -/
def values : List Tok → List Tok
  | .w "[" :: r => if r.getLast? = some (.w "]") then r.dropLast else .w "[" :: r
  | r => r

/-- A number is one of the numbers or lies in one of the ranges. -/
def NumIn (l : List Tok) (x : Nat) : Prop := Tok.num x ∈ l ∨ ∃ a b, Tok.range a b ∈ l ∧ a ≤ x ∧ x ≤ b

/-- The protocol is one of those named (or numbered). -/
def ProtoIn (l : List Tok) (proto : String) : Prop :=
  ∃ s, Tok.w s ∈ l ∧ (s = proto ∨ (s = "icmp6" ∧ proto = "icmpv6") ∨ (s = "hop-by-hop" ∧ proto = "hopopt") ∨
    ∃ k : Nat, (proto, k) ∈ iana ∧ s = toString k)

/-- A condition without block, with its values. A word that is not the name of a field is a flag of the packet. -/
def LeafMatches (p : Packet) (hd : String) (l : List Tok) : Prop :=
  if hd = "forwarding-class" then Tok.w p.forwardingClass ∈ l
  else if hd = "forwarding-class-except" then Tok.w p.forwardingClass ∉ l
  else if hd = "ttl" then NumIn l p.ttl
  else if hd = "port" then NumIn l p.sport ∨ NumIn l p.dport
  else if hd = "source-port" then NumIn l p.sport
  else if hd = "destination-port" then NumIn l p.dport
  else if hd = "packet-length" then NumIn l p.packetLength
  else if hd = "fragment-offset" then NumIn l p.fragmentOffset
  else if hd = "icmp-type" then ∃ k : Nat, (p.icmpType, k) ∈ icmpNumbers p.ver ∧ NumIn l k
  else if hd = "icmp-code" then NumIn l p.icmpCode
  else if hd = "ether-type" then Tok.w p.etherType ∈ l
  else if hd = "protocol" then p.ver = .v4 ∧ ProtoIn l p.proto
  else if hd = "protocol-except" then p.ver = .v4 ∧ ¬ ProtoIn l p.proto
  else if hd = "next-header" then p.ver = .v6 ∧ ProtoIn l p.proto
  else if hd = "next-header-except" then p.ver = .v6 ∧ ¬ ProtoIn l p.proto
  else if hd = "traffic-type" then Tok.w p.trafficType ∈ l
  else if hd = "precedence" then Tok.w p.precedence ∈ l
  else if hd = "dscp" then p.ver = .v4 ∧ Tok.w p.dscp ∈ l
  else if hd = "dscp-except" then p.ver = .v4 ∧ Tok.w p.dscp ∉ l
  else if hd = "traffic-class" then p.ver = .v6 ∧ Tok.w p.dscp ∈ l
  else if hd = "traffic-class-except" then p.ver = .v6 ∧ Tok.w p.dscp ∉ l
  else if hd = "hop-limit" then NumIn l p.hopLimit
  else if hd = "tcp-flags" then l = [Tok.w "\"rst\""] ∧ p.hasOption "rst" = true
  else l = [] ∧ p.hasOption hd = true

/-- The packet satisfies the condition. -/
def CondMatches (p : Packet) : Cond → Prop
  | .block hd ls =>
    if hd = "address" then AddrLines ls p.ver p.src ∨ AddrLines ls p.ver p.dst
    else if hd = "source-address" then AddrLines ls p.ver p.src
    else if hd = "destination-address" then AddrLines ls p.ver p.dst
    else if hd = "source-prefix-list" then PrefixLines ls p.inSrcPrefix
    else if hd = "destination-prefix-list" then PrefixLines ls p.inDstPrefix
    else if hd = "flexible-match-range" then ∀ s, [Tok.w s] ∈ ls → p.flexible s = true
    else False
  | .leaf (.w hd :: l) => LeafMatches p hd (values l)
  | .leaf _ => False

/-- All conditions of the `from` clause hold; without one, every packet matches. -/
def FromMatches (p : Packet) (conds : Option (List Cond)) : Prop := ∀ l, conds = some l → ∀ c ∈ l, CondMatches p c

/-- What a term does with a packet it matches. -/
inductive Verdict where
  | accept | discard | next
deriving DecidableEq

/-- `discard` and `reject` drop the packet, `next term` goes on, everything else accepts. -/
def verdict (acts : Option (Bool × List (List Tok))) : Verdict :=
  match acts with
  | none => .accept
  | some (_, l) =>
    if [Tok.w "discard"] ∈ l ∨ [Tok.w "reject"] ∈ l ∨ [Tok.w "reject tcp-reset"] ∈ l then .discard
    else if [Tok.w "next term"] ∈ l then .next else .accept

/-- The printed term is active, matches the packet and has the verdict. -/
def Acts (p : Packet) (o : Out) (d : Verdict) : Prop :=
  ∃ name conds acts, o = .term false name (.normal conds acts) ∧ FromMatches p conds ∧ verdict acts = d

/-- A filter (of the family of the packet) accepts (`true`) or drops the packet by one of its terms. -/
def Decides (os : List Out) (p : Packet) (accept : Bool) : Prop :=
  ∃ pre o post, os = pre ++ o :: post ∧ Acts p o (if accept then .accept else .discard) ∧
    ∀ q ∈ pre, ∀ d, d ≠ .next → ¬ Acts p q d

/-! ### what the policy asks for -/

/-- The options that are conditions. -/
def conditions (t : Policy.Term) : Policy.Term :=
  { t with option := t.option.filter fun o => o ≠ "sample" ∧ o ≠ "inactive" }

/-- What a term asks of a device: `sample` and `inactive` are no conditions; with `established`, replies go to the
high ports. -/
def Means (t : Policy.Term) (p : Packet) : Prop := Ios.Means (conditions t) p

/-- The verdict a policy action asks for. -/
def Asks (action : String) (d : Verdict) : Prop :=
  (action = "accept" ∧ d = .accept) ∨ (action = "next" ∧ d = .next) ∨
  ((action = "deny" ∨ action = "reject" ∨ action = "reject-with-tcp-rst") ∧ d = .discard)

/-- The term counts: not expired, not switched off, and meant for the platform. -/
def Live (platform : String) (j : JTerm) : Prop :=
  j.expired = false ∧ "inactive" ∉ j.term.option ∧ j.inactive = false ∧
  (j.term.platform = [] ∨ platform ∈ j.term.platform) ∧ platform ∉ j.term.platformExclude

/-- The first live term that matches the packet and does not pass it on asks to accept or to drop it. -/
def PolicyDecides (platform : String) (ts : List JTerm) (p : Packet) (accept : Bool) : Prop :=
  ∃ pre j post a, ts = pre ++ j :: post ∧ Live platform j ∧ Means j.term p ∧ j.term.action = [a] ∧
    Asks a (if accept then .accept else .discard) ∧
    ∀ s ∈ pre, ¬ (Live platform s ∧ Means s.term p ∧ s.term.action ≠ ["next"])

/-- Packets as Junos sees them: `initial` and `tcp-initial` are the same flag. -/
structure Packets (p : Packet) : Prop where
  coherent : Coherent p
  initial : p.hasOption "initial" = p.hasOption "tcp-initial"

end Junos
end Verif.Spec
