import Verif.Model.CloudArmor
import Verif.Model.Attrs

/-!
Model of capirca/lib/gce.py and of the parts of capirca/lib/gcp.py it uses.

The printed JSON is modelled by its values. Keys with an empty list are keys that are not set. Log messages are left out.
-/

namespace Verif
namespace Gce
open Policy Aclgenerator

/-- A policy term with the attributes the model of `policy.Term` leaves out; capirca/lib/gce.py:48-67, 189-418, 527-551.
`expired`: `expiration` is set and not after the current date. `reply`: `stateless_reply`. `extra`: one of the texts
`loss_priority`, `policer`, `qos` is set, which only `IsDefaultDeny` looks at. `priority` is a text in the code
(capirca/lib/policy.py:2415-2417), here its number. -/
structure GTerm where
  term : Term
  expired : Bool := false
  reply : Bool := false
  priority : Option Nat := none
  owner : Option Str := none
  comment : List Str := []
  srcAccounts : List String := []
  dstAccounts : List String := []
  extra : Bool := false

/-- An element of `allowed` or `denied`; capirca/lib/gce.py:362-377. -/
structure Entry where
  proto : Proto
  ports : List PortRange
deriving DecidableEq, Repr

/-- A firewall rule; capirca/lib/gce.py:209-411. `action` is the key of the entries. -/
structure Rule where
  name : Str
  description : Str
  direction : String
  network : Option String
  sourceTags : List String
  targetTags : List String
  sourceAccounts : List String
  targetAccounts : List String
  priority : Option Nat
  logging : Bool
  action : String
  entries : List Entry
  sourceRanges : List Net
  destinationRanges : List Net
deriving DecidableEq, Repr

/-- `IsDefaultDeny`; capirca/lib/gce.py:48-67. Of the attributes of the model only `ttl` and `traffic_class` are neither
lists nor texts. -/
def isDefaultDeny (g : GTerm) : Bool :=
  g.term.action.contains "deny" &&
  (attrsOf g.term).all (fun a =>
    ["flattened", "action", "name", "logging", "ttl", "traffic_class"].contains a.1 || !a.2.truthy) &&
  g.priority.isNone && g.owner.isNone && g.srcAccounts.isEmpty && g.dstAccounts.isEmpty && !g.extra

/-- `TagsPresent`; capirca/lib/gce.py:75-84. -/
def tagsPresent (l : List String) : Bool := l.any fun s => s != ""

/-- `_ALLOW_PROTO_NAME`; capirca/lib/gce.py:111-114. -/
def allowProtoName : List String := ["tcp", "udp", "icmp", "esp", "ah", "ipip", "sctp", "all"]

/-- `ProtocolNameToNumber` with `ALWAYS_PROTO_NUM` for one protocol; capirca/lib/gce.py:117,
capirca/lib/aclgenerator.py:522-543. -/
def protoNumber : Proto → Proto
  | .str s =>
    if allowProtoName.contains s then .str s
    else
      match protoMap.lookup s with
      | some n => .num n
      | none => .str s
  | p => p

/-- The protocol part of `Term.__init__`; capirca/lib/aclgenerator.py:121-133. -/
def protocols (ps : List Proto) : Except Err (List Proto) :=
  if ps.any fun p => !p.known && !(protoMap.map fun e => toString e.2).contains p.text then
    .error (.raised "UnsupportedFilterError")
  else .ok (ps.map protoNumber)

/-- `_validateDirection` and the checks of `Term.__init__` before flattening; capirca/lib/gce.py:129-143, 165-187. All of
them raise the same error. -/
def refused (dir : String) (t : Term) : Bool :=
  (dir == "INGRESS" && ((t.sourceAddress.isEmpty && t.sourceTag.isEmpty) || !t.destinationAddress.isEmpty)) ||
  (dir == "EGRESS" && (!t.sourceAddress.isEmpty || t.destinationAddress.isEmpty || tagsPresent t.destinationTag)) ||
  (!t.sourceAddressExclude.isEmpty && t.sourceAddress.isEmpty) || !t.sourcePort.isEmpty

/-- The condition for flattening; capirca/lib/gce.py:144-146. -/
def excludes (t : Term) : Bool :=
  (!t.sourceAddressExclude.isEmpty && !t.sourceAddress.isEmpty) ||
  (!t.destinationAddressExclude.isEmpty && !t.destinationAddress.isEmpty)

/-- The checks after flattening; capirca/lib/gce.py:148-158. -/
def checkLeft (dir : String) (t : Term) : Except Err Term :=
  if (t.sourceAddress.isEmpty && dir == "INGRESS") || (t.destinationAddress.isEmpty && dir == "EGRESS") then
    .error (.raised "GceFirewallError")
  else .ok t

/-- The flattening of `Term.__init__`; capirca/lib/gce.py:144-158. -/
def flatten (dir : String) (t : Term) : Except Err Term :=
  if excludes t then do
    let t' ← flattenAll t
    checkLeft dir t'
  else .ok t

/-- `Term.__init__`: the term as it is left behind and its protocols; capirca/lib/gce.py:119-158. -/
def newTerm (dir : String) (t : Term) (ps : List Proto) : Except Err (Term × List Proto) := do
  let ps' ← protocols ps
  if refused dir t then .error (.raised "GceFirewallError")
  else do
    let t' ← flatten dir t
    .ok (t', ps')

/-- `FilterIPv4InIPv6FormatAddrs` for one address: it is dropped; capirca/lib/gcp.py:180-189. -/
def embedded (n : Net) : Bool :=
  n.ver == .v6 && (n.addr / 2 ^ 32 == 0xffff || n.addr / 2 ^ 112 == 0x2002 || (n.addr / 2 ^ 32 == 0 && n.addr != 0))

/-- The order of `ipaddress.get_mixed_type_key` among networks of one family; capirca/lib/gce.py:290-295. -/
def netLe (a b : Net) : Bool := decide (a.addr < b.addr) || (a.addr == b.addr && decide (a.plen ≤ b.plen))

/-- `saddrs`, `daddrs`; capirca/lib/gce.py:290-296. -/
def addresses (v : Ver) (l : List Net) : List Net :=
  (isort netLe (getAddressOfVersion l (some v))).filter fun n => !embedded n

/-- `proto_num`, `none` for a text; capirca/lib/gce.py:332-335. -/
def protoNum : Proto → Option Int
  | .str s => if allowProtoName.contains s then protoMap.lookup s else none
  | .num n => some n

/-- The protocol is not rendered in the family; capirca/lib/gce.py:336-350. -/
def dropped (v : Ver) (p : Proto) : Bool :=
  (protoNum p == some 1 && v == .v6) || (protoNum p == some 58 && v == .v4) || (protoNum p == some 2 && v == .v6)

/-- `filtered_protocols`; capirca/lib/gce.py:314-351. -/
def filteredProtocols (v : Ver) (ps : List Proto) : List Proto :=
  if ps.isEmpty then [.str "all"] else ps.filter fun p => !dropped v p

/-- What the rules of a filter have in common; capirca/lib/gce.py:478-503, 567. -/
structure Ctx where
  direction : String
  network : String
  mixed : Bool

/-- `s.split('/')[-1]`; capirca/lib/gce.py:217. -/
def lastPart (s : String) : Str := (s.toList.reverse.takeWhile fun c => c != '/').reverse

/-- `term_dict['name']`; capirca/lib/gce.py:211, 214-224, capirca/lib/gcp.py:156-166. -/
def ruleName (c : Ctx) (v : Ver) (name : Str) : Str :=
  (if c.network = "" then name else lastPart c.network ++ '-' :: name) ++
  (if c.mixed && v == .v6 then "-v6".toList else [])

/-- `term_dict['sourceTags']`; capirca/lib/gce.py:243-249. -/
def sourceTags (dir : String) (t : Term) : List String :=
  if dir = "INGRESS" then t.sourceTag.filter fun s => s != "" else []

/-- `term_dict['targetTags']`; capirca/lib/gce.py:243-255. -/
def targetTags (dir : String) (t : Term) : List String :=
  if dir = "EGRESS" then t.sourceTag.filter fun s => s != ""
  else if dir = "INGRESS" then t.destinationTag.filter fun s => s != ""
  else []

/-- The checks of `ConvertToDict` on numbers of tags and accounts, and on tags beside accounts;
capirca/lib/gce.py:227-241, 256-267. All of them raise the same error. -/
def tooMany (dir : String) (g : GTerm) (t : Term) : Bool :=
  decide (30 < t.sourceTag.length) || decide (70 < t.destinationTag.length) || decide (10 < g.srcAccounts.length) ||
  decide (10 < g.dstAccounts.length) ||
  ((!g.srcAccounts.isEmpty || !g.dstAccounts.isEmpty) && (!(sourceTags dir t).isEmpty || !(targetTags dir t).isEmpty))

/-- `ACTION_MAP`; capirca/lib/gce.py:90-91. -/
def actionMap : List (String × String) := [("accept", "allowed"), ("deny", "denied")]

/-- `self.ACTION_MAP[self.term.action[0]]`; capirca/lib/gce.py:379. -/
def actionOf (t : Term) : Except Err String :=
  match t.action with
  | [] => .error .indexError
  | a :: _ =>
    match actionMap.lookup a with
    | some s => .ok s
    | none => .error .keyError

/-- The rules of the chunks, numbered from `i + 1`; capirca/lib/gce.py:394-399, 404-409. -/
def numbered (put : List Net → Rule → Rule) (many : Bool) (r : Rule) : Nat → List (List Net) → List Rule
  | _, [] => []
  | i, ch :: cs =>
    put ch { r with name := if many then r.name ++ '-' :: (toString (i + 1)).toList else r.name } ::
      numbered put many r (i + 1) cs

/-- `rule['sourceRanges'] = …`; capirca/lib/gce.py:398. -/
def putSource (l : List Net) (r : Rule) : Rule := { r with sourceRanges := l }

/-- `rule['destinationRanges'] = …`; capirca/lib/gce.py:408. -/
def putDestination (l : List Net) (r : Rule) : Rule := { r with destinationRanges := l }

/-- `rules`; capirca/lib/gce.py:390-411. -/
def split (sa da : List Net) (r : Rule) : List Rule :=
  if !sa.isEmpty then numbered putSource (decide (1 < (CloudArmor.chunks 256 sa).length)) r 0 (CloudArmor.chunks 256 sa)
  else if !da.isEmpty then
    numbered putDestination (decide (1 < (CloudArmor.chunks 256 da).length)) r 0 (CloudArmor.chunks 256 da)
  else [r]

/-- The check of the lengths of the names; capirca/lib/gce.py:414-418. -/
def checkNames (rs : List Rule) : Except Err (List Rule) :=
  if rs.any fun r => decide (63 < r.name.length) then .error (.raised "GceFirewallError") else .ok rs

/-- `proto_dict` with its entries; capirca/lib/gce.py:322-386. -/
def protoDict (c : Ctx) (v : Ver) (g : GTerm) (t : Term) (name desc : Str) (ps : List Proto) (action : String) : Rule where
  name := ruleName c v name
  description := desc
  direction := c.direction
  network := if c.network = "" then none else some c.network
  sourceTags := sourceTags c.direction t
  targetTags := targetTags c.direction t
  sourceAccounts := g.srcAccounts
  targetAccounts := g.dstAccounts
  priority := g.priority
  logging := !t.logging.isEmpty
  action := action
  entries := ps.map fun p => ⟨p, t.destinationPort⟩
  sourceRanges := []
  destinationRanges := []

/-- The part of `ConvertToDict` after the choice of addresses and protocols; capirca/lib/gce.py:355-418. -/
def convertRest (c : Ctx) (v : Ver) (g : GTerm) (t : Term) (name desc : Str) (ps : List Proto) : Except Err (List Rule) :=
  if 256 < t.destinationPort.length then .error (.raised "GceFirewallError")
  else do
    let action ← actionOf t
    checkNames (split (addresses v t.sourceAddress) (addresses v t.destinationAddress)
      (protoDict c v g t name desc ps action))

/-- The rules of an inet6 pass of a mixed filter are left to the inet pass; capirca/lib/gce.py:285-288. -/
def leftToInet (c : Ctx) (v : Ver) (t : Term) : Bool :=
  c.mixed && v == .v6 && t.sourceAddress.isEmpty && t.destinationAddress.isEmpty &&
  (!(sourceTags c.direction t).isEmpty || !(targetTags c.direction t).isEmpty)

/-- `ConvertToDict` of a term with the given protocols and description; capirca/lib/gce.py:189-418. -/
def convert (c : Ctx) (v : Ver) (g : GTerm) (t : Term) (name desc : Str) (ps : List Proto) : Except Err (List Rule) :=
  if tooMany c.direction g t then .error (.raised "GceFirewallError")
  else if leftToInet c v t then .ok []
  else if (!t.sourceAddress.isEmpty && (addresses v t.sourceAddress).isEmpty) ||
      (!t.destinationAddress.isEmpty && (addresses v t.destinationAddress).isEmpty) then .ok []
  else if (filteredProtocols v ps).isEmpty then .ok []
  else convertRest c v g t name desc (filteredProtocols v ps)

/-- `self.term.comment` after the line of the owner; capirca/lib/gce.py:202-203. -/
def withOwner (g : GTerm) (comment : List Str) : List Str :=
  match g.owner with
  | none => comment
  | some o => comment ++ ["Owner: ".toList ++ o]

/-- `description`; capirca/lib/gce.py:204-208, capirca/lib/gcp.py:141-153. -/
def describe (comment : List Str) : Str := (joinBlank comment).take 2047

/-- `GetAttributeCount`; capirca/lib/gce.py:598-634. -/
def attributeCount (r : Rule) : Nat :=
  (if r.destinationRanges.isEmpty then r.sourceRanges.length else r.destinationRanges.length) +
  (r.entries.map fun e => e.ports.length + 1).sum + (r.sourceTags.length + r.targetTags.length) +
  (r.sourceAccounts.length + r.targetAccounts.length)

/-- The sum of the attribute counts, with the check; capirca/lib/gce.py:572-583. -/
def addCounts (limit : Nat) : Nat → List Rule → Except Err Nat
  | n, [] => .ok n
  | n, r :: rs =>
    if limit ≠ 0 ∧ limit < n + attributeCount r then .error (.raised "ExceededAttributeCountError")
    else addCounts limit (n + attributeCount r) rs

/-- What the terms of a filter leave behind: the comment (of the term), the attribute count, the rules. -/
structure Out where
  comment : List Str
  count : Nat
  rules : List Rule

/-- A term in the families of the filter; capirca/lib/gce.py:571-583. -/
def famLoop (c : Ctx) (limit : Nat) (g : GTerm) (name : Str) : List Ver → Term → List Proto → List Str → Nat → Except Err Out
  | [], _, _, comment, n => .ok ⟨comment, n, []⟩
  | v :: vs, t, ps, comment, n => do
    let q ← newTerm c.direction t ps
    let rs ← convert c v g q.1 name (describe (withOwner g comment)) q.2
    let m ← addCounts limit n rs
    let o ← famLoop c limit g name vs q.1 q.2 (withOwner g comment) m
    .ok ⟨o.comment, o.count, rs ++ o.rules⟩

/-- `FixTermLength(term.name)`, for egress after `-e` has been added; capirca/lib/gce.py:536-538, 433. -/
def fixName (dir : String) (name : Str) : Except Err Str :=
  fixTermLength abbreviations 53 (if dir = "EGRESS" then name ++ "-e".toList else name) false false

/-- The term is for other platforms; capirca/lib/gce.py:557-562. -/
def elsewhere (t : Term) : Bool :=
  (!t.platform.isEmpty && !t.platform.contains "gce") || (!t.platformExclude.isEmpty && t.platformExclude.contains "gce")

/-- One term with its name; the first argument is the comment of the header, which a term without comment shares. The
result has the comment of the header as it is left behind; capirca/lib/gce.py:534-535, 543-583. -/
def oneTerm (c : Ctx) (limit : Nat) (vs : List Ver) (header : List Str) (n : Nat) (g : GTerm) (name : Str) : Except Err Out :=
  if g.expired then .ok ⟨header, n, []⟩
  else if !g.term.option.isEmpty then .error (.raised "GceFirewallError")
  else if elsewhere g.term then .ok ⟨header, n, []⟩
  else do
    let o ← famLoop c limit g name vs g.term (g.term.protocol.map .str) (if g.comment.isEmpty then header else g.comment) n
    .ok ⟨if g.comment.isEmpty then o.comment else header, o.count, o.rules⟩

/-- The terms of a filter, `names` being the names so far; capirca/lib/gce.py:527-583. -/
def termsLoop (c : Ctx) (limit : Nat) (vs : List Ver) : List Str → List Str → Nat → List GTerm → Except Err Out
  | _, header, n, [] => .ok ⟨header, n, []⟩
  | names, header, n, g :: gs =>
    if g.reply then termsLoop c limit vs names header n gs
    else do
      let name ← fixName c.direction g.term.name
      if names.contains name then .error (.raised "GceFirewallError")
      else do
        let o ← oneTerm c limit vs header n g name
        let q ← termsLoop c limit vs (name :: names) o.comment o.count gs
        .ok ⟨q.comment, q.count, o.rules ++ q.rules⟩

/-- A filter: options of the header for the platform, its comment, its terms, and the order in which the set `_SUPPORTED_AF`
is run through; capirca/lib/gce.py:471-490. -/
structure Filter where
  options : List String := []
  order : List String := ["inet", "inet6", "mixed"]
  comment : List Str := []
  terms : List GTerm := []

/-- One of the options that are looked up by name: its value and the options left; capirca/lib/gce.py:481-490. -/
def pick (q : String × List String) (s : String) : String × List String := if q.2.contains s then (s, q.2.erase s) else q

/-- `int(opt)`, here for digits only; capirca/lib/gce.py:494. -/
def natOf (s : String) : Option Nat :=
  if !s.toList.isEmpty && s.toList.all Char.isDigit then
    some (s.toList.foldl (fun n c => 10 * n + (c.toNat - '0'.toNat)) 0)
  else none

/-- `max_attribute_count` and the options left; capirca/lib/gce.py:492-500. -/
def pickLimit (limit : Nat) (o : List String) : Nat × List String :=
  match o.find? fun s => (natOf s).isSome with
  | none => (limit, o)
  | some s => ((natOf s).getD 0, o.erase s)

/-- The direction, the family, the limit and the network of a header; capirca/lib/gce.py:478-505. -/
structure Head where
  direction : String
  family : String
  limit : Nat
  network : String
deriving DecidableEq, Repr

/-- Reading the options; capirca/lib/gce.py:478-505. -/
def head (limit : Nat) (f : Filter) : Head :=
  let d := ["INGRESS", "EGRESS"].foldl pick ("INGRESS", f.options)
  let a := f.order.foldl pick ("inet", d.2)
  let m := pickLimit limit a.2
  ⟨d.1, a.1, m.1, m.2.head?.getD ""⟩

/-- `term_address_families`; capirca/lib/gce.py:566-570. -/
def families (af : String) : List Ver :=
  if af = "mixed" then [.v4, .v6] else if af = "inet6" then [.v6] else [.v4]

/-- `_ANY_IP`; capirca/lib/gce.py:427-430. -/
def anyIp (v : Ver) : Net := { ver := v, addr := 0, plen := 0 }

/-- The attributes a default deny is given; capirca/lib/gce.py:508-525. -/
def asDefault (dir af : String) (g : GTerm) : GTerm :=
  { g with
    priority := some 65534
    term := if dir = "EGRESS" then
        { g.term with protocol := ["all"], destinationAddress := (families af).map anyIp }
      else { g.term with protocol := ["all"], sourceAddress := (families af).map anyIp } }

/-- The terms of a filter after the default deny at the end has been completed; capirca/lib/gce.py:508-525. -/
def prepare (dir af : String) : List GTerm → List GTerm
  | [] => []
  | [g] => [if isDefaultDeny g then asDefault dir af g else g]
  | g :: h :: gs => g :: prepare dir af (h :: gs)

/-- `_TranslatePolicy` for the filters of the platform; capirca/lib/gce.py:462-583. -/
def filtersLoop : Nat → Nat → List Filter → Except Err (List Rule)
  | _, _, [] => .ok []
  | limit, n, f :: fs =>
    if f.terms.isEmpty then .error .indexError
    else do
      let h := head limit f
      let o ← termsLoop ⟨h.direction, h.network, h.family == "mixed"⟩ h.limit (families h.family) [] f.comment n
        (prepare h.direction h.family f.terms)
      let rs ← filtersLoop h.limit o.count fs
      .ok (o.rules ++ rs)

/-- `self.gce_policies`; capirca/lib/gce.py:462-587. -/
def translate (fs : List Filter) : Except Err (List Rule) := filtersLoop 0 0 fs

/-- `_BuildTokens`; capirca/lib/gce.py:440-460. -/
def tables : Tables where
  platform := "gce"
  tokens := ((baseTables "gce").tokens ++ ["destination_tag", "expiration", "owner", "priority", "source_tag",
    "source_service_accounts", "target_service_accounts"]).filter fun s => !["icmp_type", "verbatim"].contains s
  subTokens := [("action", ["accept", "deny"])]
  warnOnly := warnIfUnsupported

end Gce
end Verif
