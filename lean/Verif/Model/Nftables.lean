import Verif.Model.Attrs

/-!
Model of capirca/lib/nftables.py.

The lines of rules are modelled by their parts: equal lines are equal parts. Log messages are left out.
-/

namespace Verif
namespace Nftables
open Policy Aclgenerator Nacaddr

/-- A policy term with the attributes the model of `policy.Term` leaves out; capirca/lib/nftables.py:721-773. `expired`:
`expiration` is set and not after the current date. `reply`: `stateless_reply`. -/
structure NTerm where
  term : Term
  expired : Bool := false
  reply : Bool := false
  counter : Bool := false
  comment : List Str := []

/-- A statement about protocols: `icmp type` or `icmpv6 type`, `ip protocol` or `meta l4proto`, or a protocol with ports;
capirca/lib/nftables.py:225-327. -/
inductive Stmt
  | icmp (v : Ver) (types : List String)
  | protos (v : Ver) (l : List String)
  | ports (proto : String) (src dst : List PortRange)
deriving DecidableEq, Repr

/-- A statement about addresses; an empty list is not written; capirca/lib/nftables.py:427-474. -/
structure Addrs where
  ver : Ver
  src : List Net
  dst : List Net
deriving DecidableEq, Repr

/-- The line of a rule; capirca/lib/nftables.py:374-425. `iface`: `iifname` or `oifname`. `new`: `ct state new`. -/
structure Rule where
  iface : Option (Bool × String) := none
  addrs : Option Addrs := none
  stmt : Option Stmt := none
  new : Bool := false
  log : Option Str := none
  counter : Bool := false
  verdict : String
  comment : Option Str := none
deriving DecidableEq, Repr

/-- `ICMP_TYPE_REMAP[4]`; capirca/lib/nftables.py:173-183. -/
def remap4 : List (String × String) :=
  [("unreachable", "destination-unreachable"), ("information-request", "info-request"), ("information-reply", "info-reply"),
   ("mask-request", "address-mask-request"), ("mask-reply", "address-mask-reply"), ("alternate-address", "6"),
   ("conversion-error", "31"), ("mobile-redirect", "32")]

/-- `ICMP_TYPE_REMAP[6]`; capirca/lib/nftables.py:149-172. -/
def remap6 : List (String × String) :=
  [("multicast-listener-query", "mld-listener-query"), ("multicast-listener-report", "mld-listener-report"),
   ("multicast-listener-done", "mld-listener-done"), ("router-solicit", "nd-router-solicit"),
   ("router-advertisement", "nd-router-advert"), ("neighbor-solicit", "nd-neighbor-solicit"),
   ("neighbor-advertisement", "nd-neighbor-advert"), ("redirect-message", "nd-redirect"),
   ("inverse-neighbor-discovery-solicitation", "ind-neighbor-solicit"),
   ("inverse-neighbor-discovery-advertisement", "ind-neighbor-advert"),
   ("version-2-multicast-listener-report", "mld2-listener-report"), ("icmp-node-information-query", "139"),
   ("icmp-node-information-response", "140"), ("home-agent-address-discovery-request", "144"),
   ("home-agent-address-discovery-reply", "145"), ("mobile-prefix-solicitation", "146"), ("mobile-prefix-advertisement", "147"),
   ("certification-path-solicitation", "148"), ("certification-path-advertisement", "149"),
   ("multicast-router-advertisement", "151"), ("multicast-router-solicitation", "152"), ("multicast-router-termination", "153")]

/-- `MapICMPtypes`. The loop replaces the first element equal to the one it looks at; earlier equal ones have been replaced,
so that it is the element itself; capirca/lib/nftables.py:186-199. -/
def mapTypes (v : Ver) (l : List String) : List String :=
  l.map fun s => ((if v = .v4 then remap4 else remap6).lookup s).getD s

/-- The protocol that has ICMP types in the family; capirca/lib/nftables.py:274, 298. -/
def ownIcmp (v : Ver) : String := if v = .v4 then "icmp" else "icmpv6"

/-- The protocol that does not belong to the family; capirca/lib/nftables.py:281, 305. -/
def otherIcmp (v : Ver) : String := if v = .v4 then "icmpv6" else "icmp"

/-- The statements for the protocols that are left; capirca/lib/nftables.py:284-294, 308-325. -/
def protoStmts (v : Ver) (l : List String) (src dst : List PortRange) : List Stmt :=
  if l.isEmpty then []
  else if 1 < l.length && !(!src.isEmpty && !dst.isEmpty) then [.protos v l]
  else l.map fun s => if !src.isEmpty || !dst.isEmpty then .ports s src dst else .protos v [s]

/-- `PortsAndProtocols`, the types being mapped already; capirca/lib/nftables.py:261-327. -/
def statements (v : Ver) (t : Term) (types : List String) : List Stmt :=
  if !types.isEmpty && t.protocol.contains (ownIcmp v) then
    .icmp v types :: protoStmts v ((t.protocol.erase (ownIcmp v)).erase (otherIcmp v)) t.sourcePort t.destinationPort
  else protoStmts v (t.protocol.erase (otherIcmp v)) t.sourcePort t.destinationPort

/-- `_AddrStatement`: no statement or one; capirca/lib/nftables.py:427-474, 546-561. -/
def addrStatement (v : Ver) (src dst : List Net) : Option Addrs :=
  let s := src.filter fun n => n.ver == v
  let d := dst.filter fun n => n.ver == v
  if !src.isEmpty && !dst.isEmpty then
    if !s.isEmpty && !d.isEmpty then some ⟨v, s, d⟩ else none
  else if !src.isEmpty then
    if !s.isEmpty then some ⟨v, s, []⟩ else none
  else if !dst.isEmpty then
    if !d.isEmpty then some ⟨v, [], d⟩ else none
  else none

/-- The statement is written with the addresses; capirca/lib/nftables.py:400-408. -/
def goes (a : Addrs) (s : Stmt) : Bool :=
  let four := match s with | .icmp .v4 _ => true | _ => false
  let six := match s with | .icmp .v6 _ => true | _ => false
  if four || a.ver == .v4 then a.ver == .v4
  else if six || a.ver == .v6 then a.ver == .v6
  else false

/-- Interface and comment, which only the first line gets; capirca/lib/nftables.py:418-424. -/
def decorate (iface : Option (Bool × String)) (comment : Option Str) : List Rule → Except Err (List Rule)
  | [] => if iface.isSome || comment.isSome then .error .indexError else .ok []
  | r :: rs => .ok ({ r with iface := iface, comment := comment } :: rs)

/-- `GroupExpressions`; `r` is a rule with options and verdict; capirca/lib/nftables.py:395-425. -/
def group (iface : Option (Bool × String)) (comment : Option Str) (a : Option Addrs) (ss : List Stmt) (r : Rule) :
    Except Err (List Rule) :=
  decorate iface comment <| match a with
    | some a => if ss.isEmpty then [{ r with addrs := some a }]
      else (ss.filter (goes a)).map fun s => { r with addrs := some a, stmt := some s }
    | none => if ss.isEmpty then [r] else ss.map fun s => { r with stmt := some s }

/-- The term is skipped in the family; capirca/lib/nftables.py:530-534. -/
def skipped (v : Ver) (protocol : List String) : Bool :=
  (v == .v6 && protocol.contains "icmp") || (v == .v4 && protocol.contains "icmpv6") || protocol.contains "icmp6"

/-- The loop over families; `types` are the types of the term, which are changed in place;
capirca/lib/nftables.py:511-540. -/
def famLoop (iface : Option (Bool × String)) (comment : Option Str) (t : Term) (r : Rule) :
    List Ver → List String → Except Err (List Rule)
  | [], _ => .ok []
  | v :: vs, types =>
    let a := addrStatement v t.sourceAddress t.destinationAddress
    if a.isNone && (!t.sourceAddress.isEmpty || !t.destinationAddress.isEmpty) then famLoop iface comment t r vs types
    else if skipped v t.protocol then famLoop iface comment t r vs (mapTypes v types)
    else do
      let rs ← group iface comment a (statements v t (mapTypes v types)) r
      let q ← famLoop iface comment t r vs (mapTypes v types)
      .ok (rs ++ q)

/-- `_ACTIONS`; capirca/lib/nftables.py:110-113. -/
def actions : List (String × String) := [("accept", "accept"), ("deny", "drop"), ("reject", "reject")]

/-- `_ACTIONS[self.term.action[0]]`; capirca/lib/nftables.py:509. -/
def verdict : List String → Except Err String
  | [] => .error .indexError
  | a :: _ => match actions.lookup a with
    | some v => .ok v
    | none => .error .keyError

/-- `iifname` or `oifname`; capirca/lib/nftables.py:499-505. -/
def interface (t : Term) : Option (Bool × String) :=
  match t.sourceInterface, t.destinationInterface with
  | some i, _ => some (true, i)
  | none, some i => some (false, i)
  | none, none => none

/-- `_OptionsHandler`: a rule with options and verdict; capirca/lib/nftables.py:343-372. -/
def plainRule (g : NTerm) (verdict : String) : Rule :=
  { new := !g.term.action.contains "deny" && !g.term.action.contains "reject" && g.term.icmpType.isEmpty
    log := if !g.term.logging.isEmpty && !g.term.logging.contains "disable" then some g.term.name else none
    counter := g.counter
    verdict := verdict }

/-- The families of a table; capirca/lib/nftables.py:511-512. -/
def families (af : String) : List Ver := if af = "inet" then [.v4, .v6] else if af = "ip" then [.v4] else [.v6]

/-- `RulesetGenerator`; capirca/lib/nftables.py:476-544. -/
def ruleset (af : String) (verbose : Bool) (g : NTerm) : Except Err (List Rule) := do
  let v ← verdict g.term.action
  let rs ← famLoop (interface g.term) (if verbose then some (truncateWords (.inl g.comment) 126) else none) g.term
    (plainRule g v) (families af) g.term.icmpType
  .ok rs.eraseDups

/-- The exclusions, one after the other; capirca/lib/nftables.py:766-772. -/
def removeAll (l : List Net) : List Net → Except Err (List Net)
  | [] => .ok l
  | e :: es => do
    let r ← removeAddressFromList l e
    removeAll r es

/-- The term without the excluded addresses; capirca/lib/nftables.py:766-772. -/
def withoutExcluded (t : Term) : Except Err Term := do
  let s ← removeAll t.sourceAddress t.sourceAddressExclude
  let d ← removeAll t.destinationAddress t.destinationAddressExclude
  .ok { t with sourceAddress := s, destinationAddress := d }

/-- The term is for other platforms; capirca/lib/nftables.py:758-764. -/
def elsewhere (t : Term) : Bool :=
  (!t.platform.isEmpty && !t.platform.contains "nftables") ||
  (!t.platformExclude.isEmpty && t.platformExclude.contains "nftables")

/-- The term is not rendered; capirca/lib/nftables.py:731-764. -/
def dropped (g : NTerm) : Bool :=
  g.reply || g.term.option.contains "established" || g.term.option.contains "tcp-established" || g.expired || elsewhere g.term

/-- The terms of a filter, `names` being the names so far; capirca/lib/nftables.py:719-777. -/
def termsLoop (af : String) (verbose : Bool) : List Str → List NTerm → Except Err (List (Str × List Rule))
  | _, [] => .ok []
  | names, g :: gs =>
    if names.contains g.term.name then .error (.raised "TermError")
    else if g.term.sourceInterface.isSome && g.term.destinationInterface.isSome then .error (.raised "TermError")
    else if dropped g then termsLoop af verbose (g.term.name :: names) gs
    else do
      let t ← withoutExcluded g.term
      let rs ← ruleset af verbose { g with term := t }
      let q ← termsLoop af verbose (g.term.name :: names) gs
      .ok ((g.term.name, rs) :: q)

/-- What a header says; capirca/lib/nftables.py:784-898. -/
structure Header where
  family : String
  hook : String
  priority : String
  default : String
  verbose : Bool
  base : String := "root"
  table : String := "filtering_policies"
  regular : Bool := false
  override : Option String := none
deriving DecidableEq, Repr

/-- `str.isdigit` for ASCII; capirca/lib/nftables.py:833. -/
def isNumber (s : String) : Bool := !s.toList.isEmpty && s.toList.all Char.isDigit

/-- `str.lower` for ASCII; capirca/lib/nftables.py:823. -/
def lower (s : String) : String := String.ofList (s.toList.map Char.toLower)

/-- The options with arguments; capirca/lib/nftables.py:852-886. -/
def optLoop : List String → Header → Except Err Header
  | [], h => .ok h
  | "base-chain-name" :: [], _ => .error (.raised "HeaderError")
  | "base-chain-name" :: x :: l, h => optLoop l { h with base := x }
  | "table-name" :: [], _ => .error (.raised "HeaderError")
  | "table-name" :: x :: l, h => optLoop l { h with table := x }
  | "address-family-override" :: [], _ => .error (.raised "HeaderError")
  | "address-family-override" :: x :: l, h =>
    if x = "bridge" then optLoop l { h with override := some x } else .error (.raised "HeaderError")
  | "as-regular-chain" :: l, h => optLoop l { h with regular := true }
  | _ :: l, h => optLoop l h

/-- `NF_TABLE_AF_MAP`; capirca/lib/nftables.py:629. -/
def tableFamilies : List (String × String) := [("inet", "ip"), ("inet6", "ip6"), ("mixed", "inet")]

/-- The priority; capirca/lib/nftables.py:829-842. -/
def priorityOf (options : List String) : Except Err String :=
  match options.filter isNumber with
  | [] => .ok "0"
  | [n] => .ok n
  | _ => .error (.raised "HeaderError")

/-- `_ProcessHeader`; capirca/lib/nftables.py:807-898. -/
def processHeader (options : List String) : Except Err Header :=
  match options with
  | a :: k :: _ =>
    match tableFamilies.lookup a with
    | none => .error (.raised "HeaderError")
    | some af =>
      if ["forward", "input", "output"].contains (lower k) then do
        let p ← priorityOf options
        optLoop (options.erase "noverbose")
          { family := af, hook := lower k, priority := p, default := if options.contains "ACCEPT" then "accept" else "drop"
            verbose := !options.contains "noverbose" }
      else .error (.raised "HeaderError")
  | _ => .error (.raised "HeaderError")

/-- A filter of the platform: options, comment, terms; capirca/lib/nftables.py:700-721. -/
structure Filter where
  options : List String := []
  comment : List Str := []
  terms : List NTerm := []

/-- An element of `nftables_policies`; capirca/lib/nftables.py:779-782. `base` has its number. -/
structure Chains where
  base : Str
  header : Header
  comment : List Str
  children : List (Str × List Rule)
deriving DecidableEq, Repr

/-- `_TranslatePolicy` for the filters of the platform, with the counter; capirca/lib/nftables.py:694-782. -/
def translate : Nat → List Filter → Except Err (List Chains)
  | _, [] => .ok []
  | n, f :: fs => do
    let h ← processHeader f.options
    let cs ← termsLoop h.family h.verbose [] f.terms
    let q ← translate (n + 1) fs
    .ok (⟨h.base.toList ++ (toString n).toList, h, f.comment, cs⟩ :: q)

/-- `d[k] = f(d.get(k, new))`: a new key comes last; capirca/lib/nftables.py:932-941. -/
def change {κ β : Type} [DecidableEq κ] (new : β) (f : β → β) (k : κ) : List (κ × β) → List (κ × β)
  | [] => [(k, f new)]
  | e :: es => if e.1 = k then (k, f e.2) :: es else e :: change new f k es

/-- The configuration: tables, families, base chains; capirca/lib/nftables.py:912-942. -/
abbrev Config := List (String × List (String × List (Str × Chains)))

/-- One step of `_ConfigurationDictionary`; capirca/lib/nftables.py:926-941. -/
def addChains (c : Config) (x : Chains) : Config :=
  change [] (change [] (change x (fun _ => x) x.base) (x.header.override.getD x.header.family)) x.header.table c

/-- `_ConfigurationDictionary`; capirca/lib/nftables.py:900-942. -/
def configuration (l : List Chains) : Config := l.foldl addChains []

/-- A line of a chain; capirca/lib/nftables.py:957-989. -/
inductive Item
  | remark (text : Str)
  | known (comment : Option Str)
  | jump (chain : Str)
  | rule (r : Rule)
deriving DecidableEq, Repr

/-- A chain; `base` has hook, priority and policy; capirca/lib/nftables.py:55-73, 963-989. -/
structure Chain where
  name : Str
  base : Option (String × String × String) := none
  items : List Item
deriving DecidableEq, Repr

/-- A table of the output; capirca/lib/nftables.py:948-990. -/
structure Table where
  family : String
  name : String
  chains : List Chain
deriving DecidableEq, Repr

/-- The comment of the header, unless it is not to be printed; capirca/lib/nftables.py:926-929. -/
def headerComment (x : Chains) : List Str := if x.header.verbose then x.comment else []

/-- The base chain; capirca/lib/nftables.py:963-989. -/
def baseChain (x : Chains) : Chain where
  name := x.base
  base := if x.header.regular then none else some (x.header.hook, x.header.priority, x.header.default)
  items :=
    (if (headerComment x).isEmpty then [] else [.remark (joinBlank (headerComment x))]) ++
    .known (if (headerComment x).isEmpty then none else some (truncateWords (.inl (headerComment x)) 126)) ::
    x.children.map fun c => .jump c.1

/-- The chains of a filter: first those of the terms; capirca/lib/nftables.py:958-989. -/
def chainsOf (x : Chains) : List Chain :=
  (x.children.map fun c => { name := c.1, items := c.2.map .rule }) ++ [baseChain x]

/-- `__str__`; capirca/lib/nftables.py:944-990. -/
def render (c : Config) : List Table :=
  c.flatMap fun t => t.2.map fun a => ⟨a.1, t.1, a.2.flatMap fun e => chainsOf e.2⟩

/-- The output for the filters of the platform; capirca/lib/nftables.py:681-990. -/
def output (fs : List Filter) : Except Err (List Table) := do
  let l ← translate 0 fs
  .ok (render (configuration l))

/-- `_BuildTokens`; capirca/lib/nftables.py:631-679. -/
def tables : Tables where
  platform := "nftables"
  tokens := ["action", "comment", "destination_address", "destination_address_exclude", "destination_port", "expiration",
    "icmp_type", "name", "option", "protocol", "platform", "platform_exclude", "source_interface", "source_address",
    "source_address_exclude", "source_port", "destination_interface", "translated", "stateless_reply"]
  subTokens := [("option", ["established", "tcp-established"]), ("action", ["accept", "deny", "reject"]),
    ("icmp_type", (icmp4 ++ icmp6).map Prod.fst)]
  warnOnly := warnIfUnsupported

end Nftables
end Verif
