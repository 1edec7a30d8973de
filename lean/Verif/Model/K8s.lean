import Verif.Model.Attrs

/-!
Model of capirca/lib/k8s.py.

The printed YAML is modelled by its values. Log messages and counters of rules are left out.
-/

namespace Verif
namespace K8s
open Policy Aclgenerator

/-- A policy term with the attributes the model of `policy.Term` leaves out; capirca/lib/k8s.py:43-66, 309-351.
`expired`: `expiration` is set and not after the current date. `reply`: `stateless_reply`. `extra`: one of the texts
`loss_priority`, `policer`, `qos` is set, which only `IsDefaultDeny` looks at. -/
structure PTerm where
  term : Term
  expired : Bool := false
  reply : Bool := false
  owner : Option Str := none
  comment : List Str := []
  extra : Bool := false

/-- An `ipBlock`; capirca/lib/k8s.py:202-224. -/
structure Peer where
  cidr : Net
  except : List Net
deriving DecidableEq, Repr

/-- A port selector, `port` and `endPort` as a range; capirca/lib/k8s.py:226-249. -/
structure PortSel where
  protocol : String
  range : Option PortRange
deriving DecidableEq, Repr

/-- The rule of a NetworkPolicy; capirca/lib/k8s.py:251-254. The key of the peers, `from` or `to`, follows from the
direction of the policy. -/
structure Rule where
  ports : List PortSel
  peers : List Peer
deriving DecidableEq, Repr

/-- A NetworkPolicy; capirca/lib/k8s.py:178-200, 251-256. `direction` stands for `policyTypes` and the key of the rule. -/
structure Object where
  name : Str
  comment : Option Str
  owner : Option Str
  direction : String
  rule : Option Rule
deriving DecidableEq, Repr

/-- `IsDefaultDeny`; capirca/lib/k8s.py:43-66. Of the attributes of the model only `ttl` and `traffic_class` are neither
lists nor texts. -/
def isDefaultDeny (g : PTerm) : Bool :=
  g.term.action.contains "deny" &&
  (attrsOf g.term).all (fun a =>
    ["flattened", "action", "name", "logging", "ttl", "traffic_class"].contains a.1 || !a.2.truthy) &&
  g.owner.isNone && !g.extra

/-- `PROTO_MAP` of the platform; capirca/lib/k8s.py:89-94. -/
def protoNames : List String := ["tcp", "udp", "sctp", "all"]

/-- The protocol check of `Term.__init__`: names are those of the platform, numbers those of all platforms. `ipip`, the only
name that is turned into a number, does not pass; capirca/lib/aclgenerator.py:121-132, capirca/lib/k8s.py:97. -/
def unknownProtocol (s : String) : Bool := !protoNames.contains s && !(protoMap.map fun e => toString e.2).contains s

/-- `_validateDirection` and the check for source ports. All of them raise the same error; capirca/lib/k8s.py:107-111, 139-156. -/
def refused (dir : String) (t : Term) : Bool :=
  (dir == "INGRESS" && (t.sourceAddress.isEmpty || !t.destinationAddress.isEmpty)) ||
  (dir == "EGRESS" && (!t.sourceAddress.isEmpty || t.destinationAddress.isEmpty)) || !t.sourcePort.isEmpty

/-- The condition for flattening; capirca/lib/k8s.py:115-117. -/
def excludes (t : Term) : Bool :=
  (!t.sourceAddressExclude.isEmpty && !t.sourceAddress.isEmpty) ||
  (!t.destinationAddressExclude.isEmpty && !t.destinationAddress.isEmpty)

/-- Whether addresses are left after the exclusions. `FlattenAll(mutate=False)` sets the same `flattened_*` attributes as
`FlattenAll()`; capirca/lib/k8s.py:115-133. -/
def left (dir : String) (t : Term) : Except Err Bool :=
  if excludes t then do
    let t' ← flattenAll t
    .ok (!((t'.flattenedSaddr.getD []).isEmpty && dir == "INGRESS") &&
      !((t'.flattenedDaddr.getD []).isEmpty && dir == "EGRESS"))
  else .ok true

/-- `Term.__init__`: whether there is a term to render; capirca/lib/k8s.py:96-133. -/
def newTerm (dir : String) (g : PTerm) : Except Err Bool :=
  if g.term.protocol.any unknownProtocol then .error (.raised "UnsupportedFilterError")
  else if g.term.action.contains "deny" then
    if isDefaultDeny g then .ok true else .error (.raised "K8sNetworkPolicyError")
  else if refused dir g.term then .error (.raised "K8sNetworkPolicyError")
  else left dir g.term

/-- `[a-z0-9]`; capirca/lib/k8s.py:84. -/
def lowerOrDigit (c : Char) : Bool := c.isLower || c.isDigit

/-- `_TERM_NAME_RE.match`, for names without line breaks; capirca/lib/k8s.py:84, 173. -/
def nameOk (s : Str) : Bool :=
  decide (2 ≤ s.length) && decide (s.length ≤ 253) && (s.head?.map lowerOrDigit).getD false &&
  (s.getLast?.map lowerOrDigit).getD false && s.all fun c => lowerOrDigit c || c == '-' || c == '.'

/-- `str.upper` for ASCII; capirca/lib/k8s.py:242, 248. -/
def upper (s : String) : String := String.ofList (s.toList.map Char.toUpper)

/-- `port_selectors`; capirca/lib/k8s.py:226-249. -/
def portSelectors (protos : List String) (ports : List PortRange) : List PortSel :=
  protos.flatMap fun s => if ports.isEmpty then [⟨upper s, none⟩] else ports.map fun r => ⟨upper s, some r⟩

/-- `peer_selectors`: all exclusions in every block; capirca/lib/k8s.py:202-224. -/
def peerSelectors (inc exc : List Net) : List Peer := inc.map fun n => ⟨n, exc⟩

/-- The rule of a term; capirca/lib/k8s.py:197-254. -/
def ruleOf (dir : String) (t : Term) : Option Rule :=
  if t.action.contains "deny" then none
  else some ⟨portSelectors t.protocol t.destinationPort,
    if dir = "INGRESS" then peerSelectors t.sourceAddress t.sourceAddressExclude
    else peerSelectors t.destinationAddress t.destinationAddressExclude⟩

/-- `ConvertToDict` of a term with its name and comment; capirca/lib/k8s.py:158-256. -/
def convert (dir : String) (g : PTerm) (name : Str) (comment : List Str) : Except Err Object :=
  if nameOk name then
    .ok { name := name
          comment := if comment.isEmpty then none else some (joinBlank comment)
          owner := g.owner
          direction := dir
          rule := ruleOf dir g.term }
  else .error (.raised "K8sNetworkPolicyError")

/-- The term is for other platforms; capirca/lib/k8s.py:340-346. -/
def elsewhere (t : Term) : Bool :=
  (!t.platform.isEmpty && !t.platform.contains "k8s") || (!t.platformExclude.isEmpty && t.platformExclude.contains "k8s")

/-- One term with its name; capirca/lib/k8s.py:316-317, 325-351. -/
def oneTerm (dir : String) (header : List Str) (g : PTerm) (name : Str) : Except Err (List Object) :=
  if g.expired then .ok []
  else if !g.term.option.isEmpty then .error (.raised "K8sNetworkPolicyError")
  else if elsewhere g.term then .ok []
  else do
    let b ← newTerm dir g
    if b then do
      let o ← convert dir g name (if g.comment.isEmpty then header else g.comment)
      .ok [o]
    else .ok []

/-- `FixTermLength(term.name)`, for egress after `-e` has been added; capirca/lib/k8s.py:318-320,
capirca/lib/aclgenerator.py:267. -/
def fixName (dir : String) (name : Str) : Except Err Str :=
  fixTermLength abbreviations 62 (if dir = "EGRESS" then name ++ "-e".toList else name) false false

/-- The terms of a filter, `names` being the names so far; capirca/lib/k8s.py:309-351. -/
def termsLoop (dir : String) (header : List Str) : List Str → List PTerm → Except Err (List Object)
  | _, [] => .ok []
  | names, g :: gs =>
    if g.reply then termsLoop dir header names gs
    else do
      let name ← fixName dir g.term.name
      if names.contains name then .error (.raised "K8sNetworkPolicyError")
      else do
        let a ← oneTerm dir header g name
        let q ← termsLoop dir header (name :: names) gs
        .ok (a ++ q)

/-- A filter of the platform: options, comment, terms; capirca/lib/k8s.py:295-310. -/
structure Filter where
  options : List String := []
  comment : List Str := []
  terms : List PTerm := []

/-- `direction`; capirca/lib/k8s.py:302-307. -/
def directionOf (options : List String) : String :=
  ["INGRESS", "EGRESS"].foldl (fun d i => if options.contains i then i else d) "INGRESS"

/-- `self.network_policies`, for the filters of the platform. Without any the code fails at the log message;
capirca/lib/k8s.py:288-354. -/
def translate : List Filter → Except Err (List Object)
  | [] => .ok []
  | f :: fs => do
    let a ← termsLoop (directionOf f.options) f.comment [] f.terms
    let q ← translate fs
    .ok (a ++ q)

/-- `_BuildTokens`; capirca/lib/k8s.py:270-286. The word `source-port` that is taken away is not a token. -/
def tables : Tables where
  platform := "k8s"
  tokens := ((baseTables "k8s").tokens ++ ["expiration", "owner"]).filter fun s =>
    !["icmp_type", "source-port", "verbatim"].contains s
  subTokens := [("action", ["accept", "deny"])]
  warnOnly := warnIfUnsupported

end K8s
end Verif
