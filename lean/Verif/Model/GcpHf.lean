import Verif.Model.Gce

/-!
Model of capirca/lib/gcp_hf.py and of the parts of capirca/lib/gcp.py it uses.

The printed JSON is modelled by its values. Keys with an empty list are keys that are not set. Log messages are left out.
-/

namespace Verif
namespace GcpHf
open Policy Aclgenerator
open Gce (Entry embedded anyIp families pick natOf allowProtoName)

/-- A policy term with the attributes the model of `policy.Term` leaves out; capirca/lib/gcp_hf.py:89-143, 145-359, 524-553.
`reply`: `stateless_reply`. `extra`: a list or text is set that the model has no field for, which only `IsDefaultDeny` looks
at. -/
structure HTerm where
  term : Term
  reply : Bool := false
  targets : List (Str × Str) := []
  comment : List Str := []
  extra : Bool := false

/-- A rule; capirca/lib/gcp_hf.py:168-359. `intel` are the threat intelligence lists of the side the direction looks at. -/
structure Rule where
  action : String
  direction : String
  priority : Nat
  targets : List (Str × Str) := []
  logging : Bool := false
  description : Str := []
  entries : List Entry := []
  sourceIntel : List String := []
  destinationIntel : List String := []
  sourceRanges : List Net := []
  destinationRanges : List Net := []
deriving DecidableEq, Repr

/-- `[a-z]`, `[a-z0-9]`, `[a-z0-9-]` of regular expressions; capirca/lib/gcp.py:119, 138, capirca/lib/gcp_hf.py:493. -/
def lowerLetter (c : Char) : Bool := decide ('a' ≤ c) && decide (c ≤ 'z')

/-- capirca/lib/gcp.py:119, 138, capirca/lib/gcp_hf.py:493. -/
def letterOrDigit (c : Char) : Bool := lowerLetter c || c.isDigit

/-- The last character is a letter or digit, those before are letters, digits and hyphens; capirca/lib/gcp.py:119, 138,
capirca/lib/gcp_hf.py:493. A line break at the end, which `$` lets pass, is left out. -/
def tailOk : Str → Bool
  | [] => false
  | [c] => letterOrDigit c
  | c :: cs => (letterOrDigit c || c == '-') && tailOk cs

/-- `IsProjectIDValid`; capirca/lib/gcp.py:101-119. -/
def projectValid : Str → Bool
  | [] => false
  | c :: cs => decide (6 ≤ (c :: cs).length) && decide ((c :: cs).length ≤ 30) && lowerLetter c && tailOk cs

/-- `^[a-z]([-a-z0-9]*[a-z0-9])?$` and `^[a-z]$|^[a-z][a-z0-9-]*[a-z0-9]$`; capirca/lib/gcp.py:138,
capirca/lib/gcp_hf.py:493. -/
def labelValid : Str → Bool
  | [] => false
  | c :: cs => lowerLetter c && (cs.isEmpty || tailOk cs)

/-- `IsVPCNameValid`; capirca/lib/gcp.py:122-138. -/
def vpcValid (s : Str) : Bool := decide (1 ≤ s.length) && decide (s.length ≤ 63) && labelValid s

/-- `_THREAT_INTELLIGENCE_LIST_NAME`; capirca/lib/gcp_hf.py:62-70. -/
def intelNames : List String :=
  ["iplist-tor-exit-nodes", "iplist-known-malicious-ips", "iplist-search-engines-crawlers", "iplist-public-clouds",
   "iplist-public-clouds-aws", "iplist-public-clouds-azure", "iplist-public-clouds-gcp"]

/-- `_ValidateTerm`; capirca/lib/gcp_hf.py:89-143. All of the checks raise the same error. -/
def refused (g : HTerm) : Bool :=
  !g.term.destinationTag.isEmpty || !g.term.sourceTag.isEmpty || decide (256 < g.targets.length) ||
  (g.targets.any fun x => !projectValid x.1 || !vpcValid x.2) || !g.term.sourcePort.isEmpty || !g.term.option.isEmpty ||
  decide (256 < g.term.destinationPort.length) || (g.term.sourcePrefix.any fun s => !intelNames.contains s) ||
  (g.term.destinationPrefix.any fun s => !intelNames.contains s)

/-- `ACTION_MAP.get(action[0], action[0])`; capirca/lib/gcp_hf.py:49, 169. -/
def actionOf (t : Term) : Except Err String :=
  match t.action with
  | [] => .error .indexError
  | a :: _ => .ok ((([("accept", "allow"), ("next", "goto_next")] : List (String × String)).lookup a).getD a)

/-- `_GetLoggingSetting`; capirca/lib/gcp.py:50-56. -/
def logged (t : Term) : Bool := t.logging.contains "true" || t.logging.contains "True"

/-- `term_dict['description']`; capirca/lib/gcp_hf.py:191-197, capirca/lib/gcp.py:141-166. -/
def describe (v6 : Bool) (name : Str) (comment : List Str) : Str :=
  ((if v6 then name ++ "-v6".toList else name) ++ ": ".toList ++ joinBlank comment).take 64

/-- The protocol is not rendered in the family; capirca/lib/gcp_hf.py:203-217. -/
def dropped (v : Ver) (p : Proto) : Bool :=
  (p == .str "icmp" && v == .v6) || (p == .str "icmpv6" && v == .v4) || (p == .str "igmp" && v == .v6)

/-- One of the `protocols_and_ports`; capirca/lib/gcp_hf.py:231-242. A number (of `ipip`) has no entry in `PROTO_MAP`. -/
def entryOf (ports : List PortRange) : Proto → Except Err Entry
  | .str s =>
    if allowProtoName.contains s then .ok ⟨.str s, ports⟩
    else
      match protoMap.lookup s with
      | some n => .ok ⟨.num n, ports⟩
      | none => .error .keyError
  | .num _ => .error .keyError

/-- `protocols_and_ports`; capirca/lib/gcp_hf.py:225-242. -/
def entriesOf (t : Term) (v : Ver) (ps : List Proto) : Except Err (List Entry) :=
  if ps.isEmpty then .ok [⟨.str "all", []⟩]
  else listM (entryOf t.destinationPort) (ps.filter fun p => !dropped v p)

/-- The rules of the chunks, numbered from the given priority; capirca/lib/gcp_hf.py:298-311, 345-358. -/
def numbered (put : List Net → Rule → Rule) (r : Rule) : Nat → List (List Net) → List Rule
  | _, [] => []
  | i, ch :: cs => put ch { r with priority := i } :: numbered put r (i + 1) cs

/-- `FilterIPv4InIPv6FormatAddrs(GetAddressOfVersion(…))`; capirca/lib/gcp_hf.py:269-270, 316-317,
capirca/lib/gcp.py:169-191. -/
def addresses (v : Ver) (l : List Net) : List Net := (getAddressOfVersion l (some v)).filter fun n => !embedded n

/-- The rules of one direction, from the addresses and lists of the side it looks at; capirca/lib/gcp_hf.py:261-311,
312-358. `v6`: the inet6 pass of a mixed filter. -/
def sideRules (put : List Net → Rule → Rule) (v6 : Bool) (v : Ver) (l : List Net) (intel : List String) (r : Rule) :
    List Rule :=
  if !l.isEmpty && (addresses v l).isEmpty then []
  else if (addresses v l).isEmpty && !intel.isEmpty then (if v6 then [] else [r])
  else numbered put r r.priority
    (CloudArmor.chunks 256 (if (addresses v l).isEmpty then [anyIp v] else addresses v l))

/-- `term_dict` before the addresses; capirca/lib/gcp_hf.py:168-254. -/
def draft (dir : String) (v6 : Bool) (prio : Nat) (g : HTerm) (name : Str) (action : String) (es : List Entry) : Rule where
  action := action
  direction := dir
  priority := prio
  targets := g.targets
  logging := logged g.term
  description := describe v6 name g.comment
  entries := es

/-- The rules from the draft; capirca/lib/gcp_hf.py:261-359. -/
def bothSides (dir : String) (v6 : Bool) (v : Ver) (t : Term) (r : Rule) : List Rule :=
  if dir = "EGRESS" then
    sideRules (fun l r => { r with destinationRanges := l }) v6 v t.destinationAddress t.destinationPrefix
      { r with destinationIntel := t.destinationPrefix }
  else
    sideRules (fun l r => { r with sourceRanges := l }) v6 v t.sourceAddress t.sourcePrefix
      { r with sourceIntel := t.sourcePrefix }

/-- `ConvertToDict`; capirca/lib/gcp_hf.py:145-359. -/
def convert (dir : String) (v6 : Bool) (v : Ver) (prio : Nat) (g : HTerm) (name : Str) (ps : List Proto) :
    Except Err (List Rule) := do
  let action ← actionOf g.term
  if !ps.isEmpty && (ps.filter fun p => !dropped v p).isEmpty then .ok []
  else do
    let es ← entriesOf g.term v ps
    .ok (bothSides dir v6 v g.term (draft dir v6 prio g name action es))

/-- `GetRuleTupleCount`; capirca/lib/gcp_hf.py:583-630. The lists of threat intelligence are looked for where they are not in
the beta version. -/
def tupleCount (api : String) (r : Rule) : Nat :=
  (r.destinationRanges.length + r.sourceRanges.length) + (r.entries.map fun e => e.ports.length + 1).sum + r.targets.length +
  (if api = "ga" then r.sourceIntel.length + r.destinationIntel.length else 0)

/-- The rules so far, the number of the next one and the cost; capirca/lib/gcp_hf.py:418-427. -/
structure State where
  rules : List Rule := []
  counter : Nat := 1
  cost : Nat := 0

/-- What the terms of a filter have in common; capirca/lib/gcp_hf.py:437-523. -/
structure Ctx where
  direction : String
  family : String
  api : String

/-- Rules added to the policy; capirca/lib/gcp_hf.py:564-569. -/
def addRules (api : String) (s : State) (rs : List Rule) : State where
  rules := s.rules ++ rs
  counter := s.counter + rs.length
  cost := s.cost + (rs.map (tupleCount api)).sum

/-- A term in the families of the filter; capirca/lib/gcp_hf.py:557-569. -/
def famLoop (c : Ctx) (g : HTerm) (name : Str) : List Ver → List Proto → State → Except Err State
  | [], _, s => .ok s
  | v :: vs, ps, s => do
    let ps' ← termProtocols ps
    if refused g then .error (.raised "TermError")
    else do
      let rs ← convert c.direction (c.family == "mixed" && v == .v6) v s.counter g name ps'
      famLoop c g name vs ps' (addRules c.api s rs)

/-- `IsDefaultDeny`; capirca/lib/gcp.py:75-98. Of the attributes of the model only `ttl` and `traffic_class` are neither
lists nor texts. -/
def isDefaultDeny (g : HTerm) : Bool :=
  g.term.action.contains "deny" &&
  (attrsOf g.term).all (fun a =>
    ["flattened", "action", "name", "logging", "ttl", "traffic_class"].contains a.1 || !a.2.truthy) &&
  g.targets.isEmpty && !g.extra

/-- The addresses of a default deny; capirca/lib/gcp_hf.py:528-544. -/
def prepare (c : Ctx) (g : HTerm) : HTerm :=
  if isDefaultDeny g then
    { g with
      term := if c.direction = "EGRESS" then { g.term with destinationAddress := (families c.family).map anyIp }
        else { g.term with sourceAddress := (families c.family).map anyIp } }
  else g

/-- The term is for other platforms; capirca/lib/gcp_hf.py:549-554. -/
def elsewhere (t : Term) : Bool :=
  (!t.platform.isEmpty && !t.platform.contains "gcp_hf") ||
  (!t.platformExclude.isEmpty && t.platformExclude.contains "gcp_hf")

/-- One term; capirca/lib/gcp_hf.py:525-569. -/
def oneTerm (c : Ctx) (g : HTerm) (s : State) : Except Err State :=
  if g.reply then .ok s
  else do
    let name ← fixTermLength abbreviations 62 g.term.name false false
    if elsewhere (prepare c g).term then .ok s
    else famLoop c (prepare c g) name (families c.family) ((prepare c g).term.protocol.map .str) s

/-- The terms of a filter; capirca/lib/gcp_hf.py:524-569. -/
def termsLoop (c : Ctx) : List HTerm → State → Except Err State
  | [], s => .ok s
  | g :: gs, s => do
    let s' ← oneTerm c g s
    termsLoop c gs s'

/-- A filter: options of the header for the platform, terms, and the orders in which the sets `_SUPPORTED_AF` and
`_SUPPORTED_API_VERSION` are run through; capirca/lib/gcp_hf.py:428-457. -/
structure Filter where
  options : List String := []
  families : List String := ["inet", "inet6", "mixed"]
  versions : List String := ["ga", "beta"]
  terms : List HTerm := []

/-- What a header says; capirca/lib/gcp_hf.py:437-511. -/
structure Head where
  direction : String
  family : String
  api : String
  cost : Nat
  name : String
deriving DecidableEq, Repr

/-- `api_version` and the options left; capirca/lib/gcp_hf.py:451-457. -/
def pickApi (versions : List String) (o : List String) : String × List String :=
  match versions.find? fun s => o.contains s with
  | none => ("ga", o)
  | some s => (s, o.erase s)

/-- `max_cost` and the options left; capirca/lib/gcp_hf.py:459-467. Numbers are made of digits. -/
def pickCost (o : List String) : Nat × List String :=
  match o.find? fun s => (natOf s).isSome with
  | none => (100, o)
  | some s => ((natOf s).getD 0, o.erase s)

/-- The name of the policy and the options after it; capirca/lib/gcp_hf.py:469-511. All of the checks raise the same
error. The code looks for options that are left over (507-511) only after it has compared the names of the headers
(`putName`): a header that is refused for both reasons is refused with another error there. -/
def checkHead (dir af api : String) (cost : Nat) (o : List String) : Except Err Head :=
  match o with
  | [] => .error (.raised "HeaderError")
  | name :: rest =>
    if decide (65536 < cost) || decide (63 < name.toList.length) || !labelValid name.toList || !rest.isEmpty then
      .error (.raised "HeaderError")
    else .ok ⟨dir, af, api, cost, name⟩

/-- Reading the options; capirca/lib/gcp_hf.py:437-511. -/
def head (f : Filter) : Except Err Head :=
  let d := ["INGRESS", "EGRESS"].foldl pick ("INGRESS", f.options)
  let a := f.families.foldl pick ("inet", d.2)
  let v := pickApi f.versions a.2
  let m := pickCost v.2
  checkHead d.1 a.1 v.1 m.1 m.2

/-- The policy; capirca/lib/gcp_hf.py:418-427, 481, 505, 513-514. `displayName` is the key of the beta version, `shortName`
that of the other. -/
structure Out where
  displayName : Option String := none
  shortName : Option String := none
  firewall : Bool := false
  rules : List Rule := []
deriving DecidableEq, Repr

/-- The names and the type; capirca/lib/gcp_hf.py:499-505, 513-514. -/
def putName (h : Head) (p : Out) : Except Err Out :=
  if h.api = "beta" then
    if p.displayName.isSome && p.displayName != some h.name then .error (.raised "DifferentPolicyNameError")
    else .ok { p with displayName := some h.name, firewall := true }
  else if p.shortName.isSome && p.shortName != some h.name then .error (.raised "DifferentPolicyNameError")
  else .ok { p with shortName := some h.name }

/-- The filters of the platform: the maximum cost so far, the policy without rules and the rules;
capirca/lib/gcp_hf.py:428-569. -/
def filtersLoop : Option Nat → Out → State → List Filter → Except Err (Option Nat × Out × State)
  | m, p, s, [] => .ok (m, p, s)
  | m, p, s, f :: fs => do
    let h ← head f
    if m.isSome && m != some h.cost then .error (.raised "HeaderError")
    else do
      let p' ← putName h p
      let s' ← termsLoop ⟨h.direction, h.family, h.api⟩ f.terms s
      filtersLoop (some h.cost) p' s' fs

/-- The check of the cost and the policy; capirca/lib/gcp_hf.py:571-582. -/
def finish (x : Option Nat × Out × State) : Except Err Out :=
  if x.1.getD 100 < x.2.2.cost then .error (.raised "ExceededCostError") else .ok { x.2.1 with rules := x.2.2.rules }

/-- `self.policies`, for a policy with filters of the platform; capirca/lib/gcp_hf.py:400-582. -/
def translate (fs : List Filter) : Except Err Out := do
  let x ← filtersLoop none {} {} fs
  finish x

/-- `_BuildTokens`; capirca/lib/gcp_hf.py:379-398. -/
def tables : Tables where
  platform := "gcp_hf"
  tokens := ((baseTables "gcp_hf").tokens ++ ["destination_tag", "expiration", "source_tag", "translated", "target_resources",
    "logging", "source_prefix", "destination_prefix"]).filter fun s =>
      !["destination_address_exclude", "expiration", "icmp_type", "source_address_exclude", "verbatim"].contains s
  subTokens := [("action", ["accept", "deny", "next"])]
  warnOnly := warnIfUnsupported

end GcpHf
end Verif
