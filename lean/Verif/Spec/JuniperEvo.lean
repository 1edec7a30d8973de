import Verif.Spec.Juniper

/-!
What a Junos EVO device does with the statements of a filter, and what the documentation of the generator
(doc/generators/juniperevo.md, "IPv6 Protocol Match") says about them. Nothing here depends on how the generator builds
the statements.
-/

namespace Verif.Spec
namespace Evo
open Verif Verif.Juniper Verif.Summarizer

/-! ### conditions

The protocol of a packet is that of its payload. The number in its IPv6 header is that of the first extension header
(`first` below), or that of the payload if the packet has no extension header. -/

/-- A condition without block, with its values. `payload-protocol` looks behind the extension headers, `next-header`
does not. -/
def LeafMatches (first : String) (p : Packet) (hd : String) (l : List Tok) : Prop :=
  if hd = "payload-protocol" then p.ver = .v6 ∧ Junos.ProtoIn l p.proto
  else if hd = "payload-protocol-except" then p.ver = .v6 ∧ ¬ Junos.ProtoIn l p.proto
  else if hd = "next-header" then p.ver = .v6 ∧ Junos.ProtoIn l first
  else if hd = "next-header-except" then p.ver = .v6 ∧ ¬ Junos.ProtoIn l first
  else Junos.LeafMatches p hd l

/-- The packet satisfies the condition. -/
def CondMatches (first : String) (p : Packet) : Cond → Prop
  | .leaf (.w hd :: l) => LeafMatches first p hd (Junos.values l)
  | c => Junos.CondMatches p c

/-- All conditions of the `from` clause hold. -/
def FromMatches (first : String) (p : Packet) (conds : Option (List Cond)) : Prop :=
  ∀ l, conds = some l → ∀ c ∈ l, CondMatches first p c

/-- The printed term is active, matches the packet and has the verdict. -/
def Acts (first : String) (p : Packet) (o : Out) (d : Junos.Verdict) : Prop :=
  ∃ name conds acts, o = .term false name (.normal conds acts) ∧ FromMatches first p conds ∧ Junos.verdict acts = d

/-- A filter (of the family of the packet) accepts (`true`) or drops the packet by one of its terms. -/
def Decides (first : String) (os : List Out) (p : Packet) (accept : Bool) : Prop :=
  ∃ pre o post, os = pre ++ o :: post ∧ Acts first p o (if accept then .accept else .discard) ∧
    ∀ q ∈ pre, ∀ d, d ≠ .next → ¬ Acts first p q d

/-! ### headers -/

/-- The words after the name of the filter. -/
def words (opts : List String) : List String := opts.tail

/-- The filter is for packets that come in from a physical interface: `ingress`, and not (only) `loopback`. -/
def IngressPhysical (opts : List String) : Prop :=
  "ingress" ∈ words opts ∧ ("physical" ∈ words opts ∨ "loopback" ∉ words opts)

/-- The term names `hopopt` or `fragment` among its protocols or excluded protocols. -/
def NamesExtension (t : Policy.Term) : Prop := ∃ s ∈ t.protocol ++ t.protocolExcept, s = "hopopt" ∨ s = "fragment"

/-! ### the documentation -/

/-- The names of the extension headers, in the policy and on the device. -/
def extensionHeaders : List String := ["hopopt", "hop-by-hop", "fragment", "ipv6-route"]

/-- A protocol condition as documented for the ingress of physical interfaces: `next-header` with extension headers,
`payload-protocol` with others. -/
def DocPhysical (hd : String) (l : List Tok) : Prop :=
  if hd = "next-header" ∨ hd = "next-header-except" then ∀ t ∈ l, ∃ s ∈ extensionHeaders, t = .w s
  else ∀ s ∈ extensionHeaders, Tok.w s ∉ l

/-- A protocol condition as documented otherwise: always `payload-protocol`, and extension headers by number. -/
def DocOther (hd : String) (l : List Tok) : Prop :=
  hd ≠ "next-header" ∧ hd ≠ "next-header-except" ∧ ∀ s ∈ extensionHeaders, Tok.w s ∉ l

/-- A protocol condition among printed terms: its keyword and values. -/
def ProtocolCond (os : List Out) (hd : String) (l : List Tok) : Prop :=
  hd ∈ ["next-header", "next-header-except", "payload-protocol", "payload-protocol-except"] ∧
  ∃ i name cs acts x r, .term i name (.normal (some cs) acts) ∈ os ∧ Cond.leaf (.w hd :: x :: r) ∈ cs ∧
    l = Junos.values (x :: r)

end Evo
end Verif.Spec
