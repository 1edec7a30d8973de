import Verif.Model.Gce

/-!
Model of capirca/lib/gce_vpc_tf.py. What the code has in common with capirca/lib/gce.py, line by line, is taken from its model.

The printed JSON is modelled by its values. Keys with an empty list are keys that are not set. Log messages are left out.
-/

namespace Verif
namespace Tf
open Policy Aclgenerator
open Gce (GTerm Rule Ctx Filter)

/-- `_validateDirection` and the checks of `Term.__init__` before flattening; capirca/lib/gce_vpc_tf.py:124-139, 163-187. All of
them raise the same error. -/
def refused (dir : String) (t : Term) : Bool :=
  (dir == "INGRESS" && ((t.sourceAddress.isEmpty && t.sourceTag.isEmpty) || !t.destinationAddress.isEmpty)) ||
  (dir == "EGRESS" && (!t.sourceAddress.isEmpty || t.destinationAddress.isEmpty || !t.destinationTag.isEmpty)) ||
  (!t.sourceAddressExclude.isEmpty && t.sourceAddress.isEmpty) || !t.sourcePort.isEmpty

/-- The checks after flattening; capirca/lib/gce_vpc_tf.py:144-154. -/
def checkLeft (dir : String) (t : Term) : Except Err Term :=
  if (t.sourceAddress.isEmpty && dir == "INGRESS") || (t.destinationAddress.isEmpty && dir == "EGRESS") then
    .error (.raised "TerraformFirewallError")
  else .ok t

/-- The flattening of `Term.__init__`; capirca/lib/gce_vpc_tf.py:140-154. -/
def flatten (dir : String) (t : Term) : Except Err Term :=
  if Gce.excludes t then do
    let t' ← flattenAll t
    checkLeft dir t'
  else .ok t

/-- `Term.__init__`: the term as it is left behind and its protocols; capirca/lib/gce_vpc_tf.py:115-154. -/
def newTerm (dir : String) (t : Term) (ps : List Proto) : Except Err (Term × List Proto) := do
  let ps' ← Gce.protocols ps
  if refused dir t then .error (.raised "TerraformFirewallError")
  else do
    let t' ← flatten dir t
    .ok (t', ps')

/-- `term_dict['source_tags']`; capirca/lib/gce_vpc_tf.py:240-242. -/
def sourceTags (dir : String) (t : Term) : List String := if dir = "INGRESS" then t.sourceTag else []

/-- `term_dict['target_tags']`; capirca/lib/gce_vpc_tf.py:240-246. -/
def targetTags (dir : String) (t : Term) : List String :=
  if dir = "EGRESS" then t.sourceTag else if dir = "INGRESS" then t.destinationTag else []

/-- The checks of `ConvertToDict` on numbers of tags and accounts, and on tags beside accounts;
capirca/lib/gce_vpc_tf.py:223-238, 247-258. All of them raise the same error. -/
def tooMany (dir : String) (g : GTerm) (t : Term) : Bool :=
  decide (30 < t.sourceTag.length) || decide (70 < t.destinationTag.length) || decide (10 < g.srcAccounts.length) ||
  decide (10 < g.dstAccounts.length) ||
  ((!g.srcAccounts.isEmpty || !g.dstAccounts.isEmpty) && (!(sourceTags dir t).isEmpty || !(targetTags dir t).isEmpty))

/-- `ACTION_MAP`; capirca/lib/gce_vpc_tf.py:81. -/
def actionMap : List (String × String) := [("accept", "allow"), ("deny", "deny")]

/-- `self.ACTION_MAP[self.term.action[0]]`; capirca/lib/gce_vpc_tf.py:367. -/
def actionOf (t : Term) : Except Err String :=
  match t.action with
  | [] => .error .indexError
  | a :: _ =>
    match actionMap.lookup a with
    | some s => .ok s
    | none => .error .keyError

/-- `proto_dict` with its entries; capirca/lib/gce_vpc_tf.py:204-262, 312-374. The keys that are the same in gce.py, and the logging,
are taken from there. `k` is `priority_index`. -/
def protoDict (c : Ctx) (v : Ver) (g : GTerm) (t : Term) (name desc : Str) (k : Nat) (ps : List Proto) (action : String) : Rule :=
  { Gce.protoDict c v g t name desc ps action with
    sourceTags := sourceTags c.direction t
    targetTags := targetTags c.direction t
    priority := some (g.priority.getD k) }

/-- The rules of the chunks, numbered from `i + 1`, with the priorities from `k` on, whatever that of the term is;
capirca/lib/gce_vpc_tf.py:383-392, 398-407. -/
def numbered (put : List Net → Rule → Rule) (many : Bool) (r : Rule) : Nat → Nat → List (List Net) → List Rule
  | _, _, [] => []
  | i, k, ch :: cs =>
    put ch { r with
      name := if many then r.name ++ '-' :: (toString (i + 1)).toList else r.name
      priority := some k } ::
      numbered put many r (i + 1) (k + 1) cs

/-- `rules`; capirca/lib/gce_vpc_tf.py:376-409. -/
def split (sa da : List Net) (k : Nat) (r : Rule) : List Rule :=
  if !sa.isEmpty then
    numbered Gce.putSource (decide (1 < (CloudArmor.chunks 256 sa).length)) r 0 k (CloudArmor.chunks 256 sa)
  else if !da.isEmpty then
    numbered Gce.putDestination (decide (1 < (CloudArmor.chunks 256 da).length)) r 0 k (CloudArmor.chunks 256 da)
  else [r]

/-- The check of the lengths of the names; capirca/lib/gce_vpc_tf.py:411-415. The dictionary by names made of the rules afterwards
keeps all of them in order, since the names of the rules of one term differ. -/
def checkNames (rs : List Rule) : Except Err (List Rule) :=
  if rs.any fun r => decide (63 < r.name.length) then .error (.raised "TerraformFirewallError") else .ok rs

/-- The part of `ConvertToDict` after the choice of addresses and protocols; capirca/lib/gce_vpc_tf.py:344-425. -/
def convertRest (c : Ctx) (v : Ver) (g : GTerm) (t : Term) (name desc : Str) (k : Nat) (ps : List Proto) : Except Err (List Rule) :=
  if 256 < t.destinationPort.length then .error (.raised "TerraformFirewallError")
  else do
    let action ← actionOf t
    checkNames (split (Gce.addresses v t.sourceAddress) (Gce.addresses v t.destinationAddress) k
      (protoDict c v g t name desc k ps action))

/-- The rules of an inet6 pass of a mixed filter are left to the inet pass; capirca/lib/gce_vpc_tf.py:275-278. -/
def leftToInet (c : Ctx) (v : Ver) (t : Term) : Bool :=
  c.mixed && v == .v6 && t.sourceAddress.isEmpty && t.destinationAddress.isEmpty &&
  (!(sourceTags c.direction t).isEmpty || !(targetTags c.direction t).isEmpty)

/-- `ConvertToDict` of a term with the given protocols and description; capirca/lib/gce_vpc_tf.py:187-425. The checks of a protocol
and of tags beside accounts are made in another order; all of them raise the same error. -/
def convert (c : Ctx) (v : Ver) (g : GTerm) (t : Term) (name desc : Str) (k : Nat) (ps : List Proto) : Except Err (List Rule) :=
  if tooMany c.direction g t then .error (.raised "TerraformFirewallError")
  else if leftToInet c v t then .ok []
  else if (!t.sourceAddress.isEmpty && (Gce.addresses v t.sourceAddress).isEmpty) ||
      (!t.destinationAddress.isEmpty && (Gce.addresses v t.destinationAddress).isEmpty) then .ok []
  else if (Gce.filteredProtocols v ps).isEmpty then .ok []
  else convertRest c v g t name desc k (Gce.filteredProtocols v ps)

/-- The sum of the attribute counts of the rules of a term, with the check; capirca/lib/gce_vpc_tf.py:589-599, 618-654. A term without
rules is not checked. `GetAttributeCount` is that of gce.py. -/
def addCounts (limit n : Nat) (rs : List Rule) : Except Err Nat :=
  let m := n + (rs.map Gce.attributeCount).sum
  if rs ≠ [] ∧ limit ≠ 0 ∧ limit < m then .error (.raised "ExceededAttributeCountError") else .ok m

/-- What the terms of a filter leave behind: the comment (of the term), the attribute count, `priority_counter`, the rules. -/
structure Out where
  comment : List Str
  count : Nat
  prio : Nat
  rules : List Rule

/-- A term in the families of the filter; capirca/lib/gce_vpc_tf.py:580-602. -/
def famLoop (c : Ctx) (limit : Nat) (g : GTerm) (name : Str) :
    List Ver → Term → List Proto → List Str → Nat → Nat → Except Err Out
  | [], _, _, comment, n, k => .ok ⟨comment, n, k, []⟩
  | v :: vs, t, ps, comment, n, k => do
    let q ← newTerm c.direction t ps
    let rs ← convert c v g q.1 name (joinBlank (Gce.withOwner g comment)) k q.2
    let m ← addCounts limit n rs
    let o ← famLoop c limit g name vs q.1 q.2 (Gce.withOwner g comment) m (k + rs.length)
    .ok ⟨o.comment, o.count, o.prio, rs ++ o.rules⟩

/-- The term is for other platforms; capirca/lib/gce_vpc_tf.py:571-576. -/
def elsewhere (t : Term) : Bool :=
  (!t.platform.isEmpty && !t.platform.contains "gce_vpc_tf") ||
  (!t.platformExclude.isEmpty && t.platformExclude.contains "gce_vpc_tf")

/-- One term with its name; the first argument is the comment of the header, which a term without comment shares. The
result has the comment of the header as it is left behind; capirca/lib/gce_vpc_tf.py:545-546, 556-602. -/
def oneTerm (c : Ctx) (limit : Nat) (vs : List Ver) (header : List Str) (n k : Nat) (g : GTerm) (name : Str) : Except Err Out :=
  if g.expired then .ok ⟨header, n, k, []⟩
  else if !g.term.option.isEmpty then .error (.raised "TerraformFirewallError")
  else if elsewhere g.term then .ok ⟨header, n, k, []⟩
  else do
    let o ← famLoop c limit g name vs g.term (g.term.protocol.map .str) (if g.comment.isEmpty then header else g.comment) n k
    .ok ⟨if g.comment.isEmpty then o.comment else header, o.count, o.prio, o.rules⟩

/-- The terms of a filter, `names` being the names so far; capirca/lib/gce_vpc_tf.py:538-602. -/
def termsLoop (c : Ctx) (limit : Nat) (vs : List Ver) : List Str → List Str → Nat → Nat → List GTerm → Except Err Out
  | _, header, n, k, [] => .ok ⟨header, n, k, []⟩
  | names, header, n, k, g :: gs =>
    if g.reply then termsLoop c limit vs names header n k gs
    else do
      let name ← Gce.fixName c.direction g.term.name
      if names.contains name then .error (.raised "TerraformFirewallError")
      else do
        let o ← oneTerm c limit vs header n k g name
        let q ← termsLoop c limit vs (name :: names) o.comment o.count o.prio gs
        .ok ⟨q.comment, q.count, q.prio, o.rules ++ q.rules⟩

/-- The attributes a default deny is given; capirca/lib/gce_vpc_tf.py:519-536. -/
def asDefault (dir af : String) (g : GTerm) : GTerm :=
  { g with
    term := if dir = "EGRESS" then
        { g.term with protocol := ["all"], destinationAddress := (Gce.families af).map Gce.anyIp }
      else { g.term with protocol := ["all"], sourceAddress := (Gce.families af).map Gce.anyIp } }

/-- The terms of a filter after the default deny at the end has been completed; capirca/lib/gce_vpc_tf.py:47-70, 519-536. -/
def prepare (dir af : String) : List GTerm → List GTerm
  | [] => []
  | [g] => [if Gce.isDefaultDeny g then asDefault dir af g else g]
  | g :: h :: gs => g :: prepare dir af (h :: gs)

/-- `_TranslatePolicy` for the filters of the platform; the options are read as in gce.py, but a network is needed;
capirca/lib/gce_vpc_tf.py:469-602. -/
def filtersLoop : Nat → Nat → Nat → List Filter → Except Err (List Rule)
  | _, _, _, [] => .ok []
  | limit, n, k, f :: fs => do
    let h := Gce.head limit f
    if h.network = "" then .error (.raised "TerraformFirewallError")
    else if f.terms.isEmpty then .error .indexError
    else do
      let o ← termsLoop ⟨h.direction, h.network, h.family == "mixed"⟩ h.limit (Gce.families h.family) [] f.comment n k
        (prepare h.direction h.family f.terms)
      let rs ← filtersLoop h.limit o.count o.prio fs
      .ok (o.rules ++ rs)

/-- The rules of `self.terraform_resources`; capirca/lib/gce_vpc_tf.py:469-606. -/
def translate (fs : List Filter) : Except Err (List Rule) := filtersLoop 0 0 1 fs

/-- `_BuildTokens`; capirca/lib/gce_vpc_tf.py:448-467. -/
def tables : Tables where
  platform := "gce_vpc_tf"
  tokens := ((baseTables "gce_vpc_tf").tokens ++ ["destination_tag", "expiration", "owner", "priority", "source_tag",
    "source_service_accounts", "target_service_accounts"]).filter fun s => !["icmp_type", "verbatim"].contains s
  subTokens := [("action", ["accept", "deny"])]
  warnOnly := warnIfUnsupported

end Tf
end Verif
