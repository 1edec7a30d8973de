import Verif.Model.Srx

/-!
Model of capirca/lib/paloaltofw.py.

Rules, services, applications and addresses are values instead of XML. Descriptions, tags and log messages are left out. The members
of sets and dictionaries that the code sorts, or runs through in no fixed order, stay in the order in which they come; no other part of
the output depends on it.
-/

namespace Verif
namespace Pan
open Policy Aclgenerator Nacaddr
open Srx (Zones upsert removeAll)

/-- A policy term with the attributes that only this generator knows; `expired`: `expiration` is set and not after the current date,
`reply`: `stateless_reply`, `apps`: `pan_application`; capirca/lib/paloaltofw.py:443-509. -/
structure PTerm where
  term : Term
  expired : Bool := false
  reply : Bool := false
  apps : List String := []

/-- A filter: is its header for the platform, and with which options; capirca/lib/paloaltofw.py:387-393. -/
structure Filter where
  here : Bool := true
  options : List String := []
  terms : List PTerm := []

/-! ### headers -/

/-- What the options of a header say; capirca/lib/paloaltofw.py:395-431. -/
structure Header where
  fromZone : String
  toZone : String
  af : String
  noObj : Bool
  unique : Bool
deriving DecidableEq, Repr

/-- The options after the zones; capirca/lib/paloaltofw.py:405-431. -/
def headerOf (a b : String) (rest : List String) : Except Err Header :=
  let af := rest.headD "inet"
  if !["inet", "inet6", "mixed"].contains af then .error (.raised "UnsupportedHeaderError")
  else if (match rest[1]? with | some o => !["addr-obj", "no-addr-obj"].contains o | none => false) then
    .error (.raised "UnsupportedHeaderError")
  else .ok ⟨a, b, af, rest[1]? == some "no-addr-obj", rest[2]? == some "unique-term-prefixes"⟩

/-- The options of a header; capirca/lib/paloaltofw.py:395-431. -/
def parseHeader : List String → Except Err Header
  | f :: a :: t :: b :: rest =>
    if f ≠ "from-zone" ∨ t ≠ "to-zone" then .error (.raised "UnsupportedFilterError") else headerOf a b rest
  | _ => .error (.raised "UnsupportedFilterError")

/-! ### terms -/

/-- The term is left out before its name is looked at; capirca/lib/paloaltofw.py:444-471. -/
def skipped (g : PTerm) : Bool :=
  g.reply || g.term.option.contains "established" || g.term.option.contains "tcp-established" ||
  (!g.term.platform.isEmpty && !g.term.platform.contains "paloalto") ||
  (!g.term.platformExclude.isEmpty && g.term.platformExclude.contains "paloalto")

/-- `_ABBREVIATION_TABLE`; capirca/lib/paloaltofw.py:276-311. -/
def abbreviations : List (Str × Str) :=
  [("experiment", "EXP"), ("wifi-radius", "W-R"), ("customer", "CUST"), ("server", "SRV"), ("global", "GBL"), ("google", "GOOG"),
   ("service", "SVC"), ("router", "RTR"), ("internal", "INT"), ("external", "EXT"), ("transit", "TRNS"), ("management", "MGMT"),
   ("established", "EST"), ("unreachable", "UNR"), ("fragment", "FRAG"), ("accept", "ACC"), ("discard", "DISC"), ("reject", "REJ"),
   ("replies", "RPLS"), ("reply", "RPL"), ("request", "REQ"), ("inverse", "INV"), ("neighbor", "NBR"), ("discovery", "DSCVR"),
   ("advertisement", "ADV"), ("solicitation", "SOL"), ("multicast", "MCAST"), ("certification", "CERT"), ("listener", "LSNR"),
   ("address", "ADDR")].map fun e => (e.1.toList, e.2.toList)

/-- The name of a term, before its length is looked at. `hex` stands for `HexDigest` with 24 characters;
capirca/lib/paloaltofw.py:473-479. -/
def longName (hex : String → Str) (h : Header) (name : Str) : Str :=
  if h.unique then hex (h.fromZone ++ h.toZone) ++ '-' :: name else name

/-- The entries `flows` for one version; capirca/lib/paloaltofw.py:539-555. -/
def flowsFor (src dst : List Net) (v : Ver) : List String :=
  let n := if v = .v4 then "4" else "6"
  let s := src.any fun a => a.ver == v
  let d := dst.any fun a => a.ver == v
  if src.isEmpty && dst.isEmpty then ["ip" ++ n ++ "-ip" ++ n]
  else if (!s && !src.isEmpty) && (!d && !dst.isEmpty) then []
  else if (s || src.isEmpty) && (d || dst.isEmpty) then ["ip" ++ n ++ "-ip" ++ n]
  else if (s || src.isEmpty) && !d then ["ip" ++ n ++ "-src-only", "ip" ++ n ++ "-only"]
  else if !s && (d || dst.isEmpty) then ["ip" ++ n ++ "-dst-only", "ip" ++ n ++ "-only"]
  else []

/-- `flows`; capirca/lib/paloaltofw.py:525-555. -/
def flowsOf (src dst : List Net) : List String := flowsFor src dst .v4 ++ flowsFor src dst .v6

/-- `exclude_address_family`, or `none` if the term is left out; capirca/lib/paloaltofw.py:557-622. -/
def route (af : String) (protocol flows : List String) : Option (List Ver) :=
  if af = "inet" then
    if protocol.contains "icmpv6" then none else if !flows.contains "ip4-ip4" then none else some [.v6]
  else if af = "inet6" then
    if protocol.contains "icmp" then none else if !flows.contains "ip6-ip6" then none else some [.v4]
  else if flows.contains "ip4-ip4" && !flows.contains "ip6-ip6" then
    if protocol.contains "icmpv6" then none else some [.v6]
  else if flows.contains "ip6-ip6" && !flows.contains "ip4-ip4" then
    if protocol.contains "icmp" then none else some [.v4]
  else if flows.contains "ip4-ip4" && flows.contains "ip6-ip6" then some []
  else if flows.contains "ip4-only" && flows.contains "ip6-only" then none
  else if flows.contains "ip4-ip4" then some [.v6] else some [.v4]

/-- Large IPv6 networks are replaced by subnets; capirca/lib/paloaltofw.py:624-648. -/
def subnets3 (n : Net) : List Net :=
  if n.ver = .v6 ∧ 0 < n.plen ∧ n.plen < 3 then
    (List.range (2 ^ (3 - n.plen))).map fun i => { ver := .v6, addr := n.addr + i * 2 ^ 125, plen := 3, parent := n.parent }
  else [n]

/-- The networks of a group after one more; capirca/lib/paloaltofw.py:799-804. -/
def enterNet (l : List Net) (a : Net) : List Net := if l.any fun x => a.eqv x then l else l ++ [a]

/-- `_BuildAddressBook`; capirca/lib/paloaltofw.py:785-804. The name of the network number `i` of a group is `addressName` of the group
and `i`. -/
def enter (b : Zones) (zone : String) (a : Net) : Zones := upsert zone [] (upsert a.parent [] fun l => enterNet l a) b

/-- The networks of a side are entered, except those of excluded families; capirca/lib/paloaltofw.py:650-658. -/
def enterAll (b : Zones) (zone : String) (ex : List Ver) (l : List Net) : Zones :=
  (l.filter fun a => !ex.contains a.ver).foldl (fun b a => enter b zone a) b

/-- A custom application; `v6`: `ident-by-icmp6-type` instead of `ident-by-icmp-type`; capirca/lib/paloaltofw.py:727-739. -/
structure IcmpApp where
  name : String
  v6 : Bool
  type : Nat
deriving DecidableEq, Repr

/-- The name of a custom application; capirca/lib/paloaltofw.py:699-725. -/
def appName (v6 : Bool) (type : String) : Except Err String := do
  let s := (if v6 then "icmp6-" else "icmp-").toList ++ type.toList
  let r ← if s.length > 31 then fixTermLength abbreviations 31 s true true else .ok s
  .ok (String.ofList r)

/-- The loop over the types of a term: `apps` are those of the term; capirca/lib/paloaltofw.py:697-747. -/
def icmpLoop (v6 : Bool) : List IcmpApp → List String → List String → Except Err (List IcmpApp × List String)
  | refs, apps, [] => .ok (refs, apps)
  | refs, apps, t :: ts => do
    let name ← appName v6 t
    match (if v6 then icmpTypes6 else icmpTypes4).lookup t with
    | none => .error (.raised "PaloAltoFWBadIcmpTypeError")
    | some k =>
      icmpLoop v6 (if refs.any fun r => r.name == name then refs else refs ++ [⟨name, v6, k⟩])
        (if apps.contains name then apps else apps ++ [name]) ts

/-- One pass of the loop over `icmp` and `icmpv6`; capirca/lib/paloaltofw.py:667-747. -/
def icmpStep (h : Header) (t : Term) (flows : List String) (v6 : Bool) (refs : List IcmpApp) (apps : List String) :
    Except Err (List IcmpApp × List String) :=
  if !t.protocol.contains (if v6 then "icmpv6" else "icmp") then .ok (refs, apps)
  else if !flows.contains (if v6 then "ip6-ip6" else "ip4-ip4") then .ok (refs, apps)
  else if h.af = (if v6 then "inet" else "inet6") then .ok (refs, apps)
  else if t.icmpType.isEmpty then .ok (refs, apps ++ [if v6 then "ipv6-icmp" else "icmp"])
  else icmpLoop v6 refs apps t.icmpType

/-- `_SUPPORTED_PROTO_NAMES`; capirca/lib/paloaltofw.py:260-270. -/
def protoNames : List String := ["tcp", "udp", "icmp", "icmpv6", "sctp", "igmp", "gre", "ah", "esp"]

/-- The checks of protocols and types; capirca/lib/paloaltofw.py:660-665, 749-765. -/
def protoCheck (t : Term) : Except Err Unit :=
  if !t.icmpType.isEmpty && !t.protocol.contains "icmp" && !t.protocol.contains "icmpv6" then .error (.raised "UnsupportedFilterError")
  else if t.protocol.any fun p => !protoNames.contains p then .error (.raised "PaloAltoFWUnsupportedProtocolError")
  else if !t.icmpType.isEmpty && t.protocol ≠ ["icmp"] && t.protocol ≠ ["icmpv6"] then .error (.raised "UnsupportedFilterError")
  else .ok ()

/-- A term of `new_terms`; `src`, `dst` and `apps` are its addresses and applications by then; capirca/lib/paloaltofw.py:767. -/
structure Kept where
  name : Str
  term : Term
  src : List Net
  dst : List Net
  apps : List String

/-- What the terms leave behind; capirca/lib/paloaltofw.py:315-328. -/
structure State where
  books : Zones := []
  refs : List IcmpApp := []

/-- A term once its addresses are known; capirca/lib/paloaltofw.py:519-767. -/
def finish (h : Header) (st : State) (g : PTerm) (name : Str) (src dst : List Net) : Except Err (State × Option Kept) :=
  match route h.af g.term.protocol (flowsOf src dst) with
  | none => .ok (st, none)
  | some ex => do
    let s := src.flatMap subnets3
    let d := dst.flatMap subnets3
    let x ← icmpStep h g.term (flowsOf src dst) false st.refs g.apps
    let y ← icmpStep h g.term (flowsOf src dst) true x.1 x.2
    let _ ← protoCheck g.term
    .ok (⟨enterAll (enterAll st.books h.fromZone ex s) h.toZone ex d, y.1⟩, some ⟨name, g.term, s, d, y.2⟩)

/-- A term that is rendered; capirca/lib/paloaltofw.py:511-767. -/
def step (h : Header) (st : State) (g : PTerm) (name : Str) : Except Err (State × Option Kept) := do
  let src ← removeAll g.term.sourceAddress g.term.sourceAddressExclude
  let dst ← removeAll g.term.destinationAddress g.term.destinationAddressExclude
  finish h st g name src dst

/-- Are there protocols besides tcp and udp? capirca/lib/paloaltofw.py:204-205, 485-486. -/
def others (t : Term) : List String := (t.protocol.filter fun p => p ≠ "tcp" ∧ p ≠ "udp").eraseDups

/-- tcp and udp, if they are protocols of the term; capirca/lib/paloaltofw.py:204, 485. -/
def services (t : Term) : List String := (t.protocol.filter fun p => p = "tcp" ∨ p = "udp").eraseDups

/-- The terms of a filter; `names` are the names so far; capirca/lib/paloaltofw.py:440-767. -/
def termsLoop (hex : String → Str) (h : Header) : List Str → State → List PTerm → Except Err (State × List Kept)
  | _, st, [] => .ok (st, [])
  | names, st, g :: gs =>
    if skipped g then termsLoop hex h names st gs
    else do
      let name ← fixTermLength abbreviations 63 (longName hex h g.term.name) false false
      if names.contains name then .error (.raised "PaloAltoFWDuplicateTermError")
      else if !(others g.term).isEmpty && !g.apps.isEmpty then .error (.raised "UnsupportedFilterError")
      else if g.expired then termsLoop hex h (name :: names) st gs
      else do
        let x ← step h st g name
        let q ← termsLoop hex h (name :: names) x.1 gs
        .ok (q.1, x.2.toList ++ q.2)

/-! ### rules -/

/-- An entry of `ServiceMap`; the ports are ranges instead of texts; capirca/lib/paloaltofw.py:68-95. -/
structure Service where
  name : Str
  sport : List PortRange
  dport : List PortRange
  proto : String
deriving DecidableEq, Repr

/-- `get_service_name`: the name and the entries afterwards; capirca/lib/paloaltofw.py:74-95. -/
def serviceName (svcs : List Service) (pre term : Str) (sp dp : List PortRange) (proto : String) : Except Err (Str × List Service) :=
  match svcs.find? fun s => decide (s.sport = sp ∧ s.dport = dp ∧ s.proto = proto) with
  | some s => .ok (s.name, svcs)
  | none =>
    let name := pre ++ term ++ '-' :: proto.toList
    if name.length > 63 then .error (.raised "PaloAltoFWNameTooLongError")
    else if svcs.any fun s => s.name == name then .error (.raised "PaloAltoFWDuplicateServiceError")
    else .ok (name, svcs ++ [⟨name, sp, dp, proto⟩])

/-- The services of a rule, one for each protocol; capirca/lib/paloaltofw.py:195-200, 216-221. -/
def serviceLoop (pre term : Str) (sp dp : List PortRange) : List Service → List Str → List String → Except Err (List Str × List Service)
  | svcs, acc, [] => .ok (acc, svcs)
  | svcs, acc, p :: ps => do
    let x ← serviceName svcs pre term sp dp p
    serviceLoop pre term sp dp x.2 (if acc.contains x.1 then acc else acc ++ [x.1]) ps

/-- `options` of a rule; capirca/lib/paloaltofw.py:122-236. -/
structure Options where
  source : List String
  destination : List String
  apps : List String
  services : List Str
  action : String
  logs : List String
deriving DecidableEq, Repr

/-- `ACTIONS`; capirca/lib/paloaltofw.py:133-138. -/
def actions : List (String × String) :=
  [("accept", "allow"), ("deny", "deny"), ("reject", "reset-client"), ("reject-with-tcp-rst", "reset-client")]

/-- What is logged; capirca/lib/paloaltofw.py:156-165. -/
def logsOf (logging : List String) : List String :=
  if logging.contains "disable" then ["disable"]
  else logging.flatMap fun s =>
    if s = "log-both" then ["log-start", "log-end"]
    else if ["True", "true", "syslog", "local"].contains s then ["log-end"] else []

/-- Applications for protocols; capirca/lib/paloaltofw.py:223-234. -/
def protoApps (apps : List String) (protocol : List String) : List String :=
  protocol.foldl (fun apps p =>
    if ["igmp", "sctp", "gre"].contains p && !apps.contains p then apps ++ [p]
    else if ["ah", "esp"].contains p then if apps.contains ("ipsec-" ++ p) then apps else apps ++ ["ipsec-" ++ p]
    else apps) apps

/-- The tokens of a side. The code sorts them; capirca/lib/paloaltofw.py:167-185. -/
def tokensOf (l : List Net) : List String := (l.map Net.parent).eraseDups

/-- The rest of the options once the services are known; capirca/lib/paloaltofw.py:151-191, 223-236. -/
def optionsOf (k : Kept) (protocol : List String) (apps : List String) (svcs : List Str) : Except Err Options :=
  match k.term.action with
  | [] => .error .keyError
  | a :: _ =>
    match actions.lookup a with
    | none => .error .keyError
    | some act => .ok ⟨tokensOf k.src, tokensOf k.dst, protoApps apps protocol, svcs, act, logsOf k.term.logging⟩

/-- All ports; capirca/lib/paloaltofw.py:194, 217. -/
def allPorts : List PortRange := [(0, 65535)]

/-- `Rule.__init__` after the zones are checked: the options of one or two rules; capirca/lib/paloaltofw.py:112-236. The loop runs at
most twice, since the second term has neither ports nor tcp nor udp. -/
def ruleOptions (svcs : List Service) (k : Kept) : Except Err (List Options × List Service) :=
  if !k.term.sourcePort.isEmpty || !k.term.destinationPort.isEmpty then do
    let x ← serviceLoop "service-".toList k.name k.term.sourcePort
      (if k.term.destinationPort.isEmpty then allPorts else k.term.destinationPort) svcs [] k.term.protocol
    let o ← optionsOf k k.term.protocol k.apps x.1
    .ok ([o], x.2)
  else if (services k.term).isEmpty then do
    let o ← optionsOf k k.term.protocol k.apps []
    .ok ([o], svcs)
  else if (others k.term).isEmpty then do
    let x ← serviceLoop [] "any".toList [] allPorts svcs [] k.term.protocol
    let o ← optionsOf k k.term.protocol k.apps x.1
    .ok ([o], x.2)
  else do
    let x ← serviceLoop [] "any".toList [] allPorts svcs [] (services k.term)
    let o ← optionsOf k (services k.term) [] x.1
    let o' ← optionsOf k (others k.term) k.apps []
    .ok ([o, o'], x.2)

/-- The checks of the zones; capirca/lib/paloaltofw.py:101-114. -/
def zonesOk (h : Header) : Except Err Unit :=
  if h.fromZone = "" ∨ h.toZone = "" then .error (.raised "PaloAltoFWOptionError")
  else if h.fromZone.length > 31 ∨ h.toZone.length > 31 then .error (.raised "PaloAltoFWNameTooLongError")
  else .ok ()

/-- `ruleset[name] = v`; capirca/lib/paloaltofw.py:776-781. -/
def put {β : Type} (k : Str) (v : β) : List (Str × β) → List (Str × β)
  | [] => [(k, v)]
  | e :: es => if e.1 = k then (k, v) :: es else e :: put k v es

/-- The rules of a term are put into the ruleset, under names of their own if there are two; capirca/lib/paloaltofw.py:774-781. -/
def putRules (name : Str) (rs : List (Str × Options)) : List Options → Except Err (List (Str × Options))
  | [] => .error .indexError
  | [o] => .ok (put name o rs)
  | os => do
    let names ← listM (fun i => fixTermLength abbreviations 63 (name ++ '-' :: (toString (i + 1)).toList) false false)
      (List.range os.length)
    .ok ((names.zip os).foldl (fun rs e => put e.1 e.2 rs) rs)

/-- The ruleset of a filter; capirca/lib/paloaltofw.py:769-781. -/
def rulesLoop (h : Header) : List Service → List (Str × Options) → List Kept → Except Err (List (Str × Options) × List Service)
  | svcs, rs, [] => .ok (rs, svcs)
  | svcs, rs, k :: ks => do
    let _ ← zonesOk h
    let x ← ruleOptions svcs k
    let rs ← putRules k.name rs x.1
    rulesLoop h x.2 rs ks

/-! ### the policy -/

/-- What is kept of all filters; capirca/lib/paloaltofw.py:315-328, 783. -/
structure Made where
  state : State
  services : List Service
  rulesets : List (Header × List (Str × Options))

/-- `_TranslatePolicy`; capirca/lib/paloaltofw.py:368-783. -/
def filtersLoop (hex : String → Str) : Option Bool → State → List Service → List Filter → Except Err Made
  | _, st, svcs, [] => .ok ⟨st, svcs, []⟩
  | mode, st, svcs, f :: fs =>
    if !f.here then filtersLoop hex mode st svcs fs
    else do
      let h ← parseHeader f.options
      if mode.getD h.noObj ≠ h.noObj then .error (.raised "UnsupportedHeaderError")
      else do
        let x ← termsLoop hex h [] st f.terms
        let y ← rulesLoop h svcs [] x.2
        let q ← filtersLoop hex (some h.noObj) x.1 y.2 fs
        .ok { q with rulesets := (h, y.1) :: q.rulesets }

/-! ### output -/

/-- The name of an address; capirca/lib/paloaltofw.py:801-802. -/
def addressName (token : String) (i : Nat) : String := token ++ "_" ++ toString i

/-- `address_book_names_dict`; capirca/lib/paloaltofw.py:857-866. -/
def namesDict (b : Zones) : List (String × Net) :=
  (b.flatMap fun z => z.2.flatMap fun e => e.2.zipIdx.map fun n => (addressName e.1 n.2, n.1)).foldl
    (fun d e => upsert e.1 e.2 (fun old => if old.supernetOf e.2 then old else e.2) d) []

/-- `address_book_groups_dict`; capirca/lib/paloaltofw.py:868-877. -/
def groupsDict (b : Zones) : List (String × List String) :=
  (b.flatMap fun z => z.2).foldl
    (fun d e => upsert e.1 [] (fun _ => (List.range e.2.length).map (addressName e.1)) d) []

/-- A member of the source or destination of a rule: all addresses, all of IPv4, a group, or a network. -/
inductive Member
  | any
  | anyIpv4
  | group (name : String)
  | net (n : Net)
deriving DecidableEq, Repr

/-- The service of a rule; capirca/lib/paloaltofw.py:1008-1021. -/
inductive ServiceField
  | any
  | appDefault
  | names (l : List Str)
deriving DecidableEq, Repr

/-- A rule of the output: no applications stand for `any`; `negate` is `negate-source` and `negate-destination`. The rule type, which
follows from the zones, is left out; capirca/lib/paloaltofw.py:934-1064. -/
structure PRule where
  name : Str
  fromZone : String
  toZone : String
  src : List Member
  dst : List Member
  negate : Bool
  service : ServiceField
  apps : List String
  action : String
  logStart : Option Bool
  logEnd : Option Bool
deriving DecidableEq, Repr

/-- The output; `anyIpv4`: the object of that name is there; capirca/lib/paloaltofw.py:842-1107. -/
structure Output where
  refs : List IcmpApp
  services : List Service
  rules : List PRule
  groups : List (String × List String)
  addresses : List (String × Net)
  anyIpv4 : Bool

/-- The members for a token; capirca/lib/paloaltofw.py:965-973, 995-1003. -/
def membersFor (noObj : Bool) (b : Zones) (token : String) : Except Err (List Member) :=
  if noObj then
    match (groupsDict b).lookup token with
    | none => .error .keyError
    | some names => listM (fun n => match (namesDict b).lookup n with
        | none => .error .keyError
        | some a => .ok (.net a)) names
  else .ok [.group token]

/-- The members of a side: `other` are the tokens of the other side; capirca/lib/paloaltofw.py:951-1008. -/
def sideMembers (noObj : Bool) (b : Zones) (af : String) (tokens other : List String) : Except Err (List Member) :=
  if tokens.isEmpty then
    .ok [if other.isEmpty && af ≠ "mixed" then .anyIpv4 else .any]
  else do
    let l ← listM (membersFor noObj b) tokens
    if l.flatten.length > 65535 then .error (.raised "UnsupportedFilterError") else .ok l.flatten

/-- The service of a rule; capirca/lib/paloaltofw.py:1010-1021. -/
def serviceField (o : Options) : ServiceField :=
  if o.services.isEmpty then if o.apps.isEmpty then .any else .appDefault else .names o.services

/-- The log settings; capirca/lib/paloaltofw.py:1053-1064. -/
def logFlag (which : String) (logs : List String) : Option Bool :=
  if logs.contains which then some true else if logs.contains "disable" then some false else none

/-- One rule of the output; capirca/lib/paloaltofw.py:934-1064. -/
def ruleOf (h : Header) (b : Zones) (e : Str × Options) : Except Err PRule := do
  let s ← sideMembers h.noObj b h.af e.2.source e.2.destination
  let d ← sideMembers h.noObj b h.af e.2.destination e.2.source
  .ok {
    name := e.1, fromZone := h.fromZone, toZone := h.toZone, src := s, dst := d
    negate := e.2.source.isEmpty && e.2.destination.isEmpty && h.af == "inet6"
    service := serviceField e.2, apps := e.2.apps, action := e.2.action
    logStart := logFlag "log-start" e.2.logs, logEnd := logFlag "log-end" e.2.logs }

/-- The rules of all filters; capirca/lib/paloaltofw.py:911-1064. -/
def rulesOf (m : Made) : Except Err (List PRule) := do
  let l ← listM (fun x => listM (ruleOf x.1 m.state.books) x.2) m.rulesets
  .ok l.flatten

/-- The generator: `_TranslatePolicy` and `__str__`. Without a filter of the platform `no_addr_obj` is not set;
capirca/lib/paloaltofw.py:368-783, 842-1107. -/
def translate (hex : String → Str) (fs : List Filter) : Except Err Output := do
  let m ← filtersLoop hex none {} [] fs
  let rules ← rulesOf m
  match m.rulesets.getLast? with
  | none => .error (.raised "UnboundLocalError")
  | some (h, _) => .ok {
      refs := m.state.refs, services := m.services, rules := rules
      groups := if h.noObj then [] else groupsDict m.state.books
      addresses := if h.noObj then [] else namesDict m.state.books
      anyIpv4 := rules.any fun r => r.src.contains .anyIpv4 }

/-- The keywords of the platform; capirca/lib/paloaltofw.py:330-366. -/
def tables : Tables where
  platform := "paloalto"
  tokens := ["action", "comment", "destination_address", "destination_address_exclude", "destination_port", "expiration", "icmp_type",
    "logging", "name", "option", "owner", "platform", "platform_exclude", "protocol", "source_address", "source_address_exclude",
    "source_port", "stateless_reply", "timeout", "pan_application", "translated"]
  subTokens := [("action", ["accept", "deny", "reject", "reject-with-tcp-rst"]), ("icmp_type", (icmp4 ++ icmp6).map Prod.fst),
    ("option", ["established", "tcp-established"])]
  warnOnly := warnIfUnsupported

end Pan
end Verif
