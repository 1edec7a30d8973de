import Verif.Model.Cisco

/-!
Model of capirca/lib/cloudarmor.py.

The printed JSON is modelled by its values: the rules with description, action, priority and source ranges. The constant
fields `preview` and `versionedExpr` are left out.
-/

namespace Verif
namespace CloudArmor
open Policy Aclgenerator

/-- An element of `srcIpRanges`; capirca/lib/cloudarmor.py:111, 128. -/
inductive Range where
  | star
  | net (v : Ver) (a len : Nat)
deriving DecidableEq, Repr

/-- A rule of the policy; capirca/lib/cloudarmor.py:109-131. -/
structure Rule where
  description : Option Str
  action : String
  priority : Nat
  ranges : List Range
deriving DecidableEq, Repr

/-- A policy term with its comments, which the model of `policy.Term` leaves out; capirca/lib/cloudarmor.py:73-80. -/
structure CTerm where
  term : Term
  comment : List Str := []

/-- `ACTION_MAP`; capirca/lib/cloudarmor.py:34-35. -/
def actionMap : List (String × String) := [("accept", "allow"), ("deny", "deny(404)")]

/-- `term_dict['description']`; capirca/lib/cloudarmor.py:73-80. -/
def description (verbose : Bool) (comment : List Str) : Option Str :=
  if !comment.isEmpty && verbose then
    some (if (joinBlank comment).length > 64 then (joinBlank comment).take 64 else joinBlank comment)
  else none

/-- `term_position_suffix`; capirca/lib/cloudarmor.py:119. -/
def suffix (i n : Nat) : Str := s!" [{i}/{n}]".toList

/-- `s[:limit - len(suffix)]`, for a negative limit without the last characters; capirca/lib/cloudarmor.py:120-122. -/
def cutFor (s suf : Str) : Str :=
  if suf.length ≤ 64 then s.take (64 - suf.length) else s.take (s.length - (suf.length - 64))

/-- `saddrs`; capirca/lib/cloudarmor.py:85-94. -/
def addresses (af : String) (t : Term) : Except Err (List Net) :=
  let ofVer := fun v => t.sourceAddress.filter fun n => n.ver == v
  if af = "inet" then .ok (ofVer .v4)
  else if af = "inet6" then .ok (ofVer .v6)
  else if af = "mixed" then .ok (ofVer .v4 ++ ofVer .v6)
  else .error (.raised "UnsupportedFilterTypeError")

/-- `[l[x:x+n] for x in range(0, len(l), n)]`, the fuel being the length of the list;
capirca/lib/cloudarmor.py:104-106. -/
def chunksAux (n : Nat) : Nat → List α → List (List α)
  | 0, _ => []
  | k + 1, l => if l.isEmpty then [] else l.take n :: chunksAux n k (l.drop n)

/-- `source_addr_chunks`; capirca/lib/cloudarmor.py:104-106. -/
def chunks (n : Nat) (l : List α) : List (List α) := chunksAux n l.length l

/-- One of the rules of a split term, `i` counted from 0; capirca/lib/cloudarmor.py:116-131. -/
def chunkRule (desc : Option Str) (action : String) (prio n i : Nat) (chunk : List Net) : Rule where
  description := if n > 1 then some (cutFor (desc.getD []) (suffix (i + 1) n) ++ suffix (i + 1) n) else desc
  action := action
  priority := prio + i
  ranges := chunk.map fun a => .net a.ver a.addr a.plen

/-- `for i, chunk in enumerate(source_addr_chunks)`; capirca/lib/cloudarmor.py:116. -/
def chunkRules (desc : Option Str) (action : String) (prio n : Nat) : Nat → List (List Net) → List Rule
  | _, [] => []
  | i, c :: cs => chunkRule desc action prio n i c :: chunkRules desc action prio n (i + 1) cs

/-- The rules of a term for its addresses of the family; capirca/lib/cloudarmor.py:104-131. -/
def rulesFor (desc : Option Str) (action : String) (prio : Nat) (addrs : List Net) : List Rule :=
  if (chunks 5 addrs).isEmpty then [⟨desc, action, prio, [.star]⟩]
  else chunkRules desc action prio (chunks 5 addrs).length 0 (chunks 5 addrs)

/-- `self.ACTION_MAP[self.term.action[0]]`; capirca/lib/cloudarmor.py:82. -/
def actionOf (t : Term) : Except Err String :=
  match t.action with
  | [] => .error .indexError
  | a :: _ =>
    match actionMap.lookup a with
    | some s => .ok s
    | none => .error .keyError

/-- `Term(...)` and `ConvertToDict`; capirca/lib/cloudarmor.py:41-139, aclgenerator.py:121-133. -/
def convert (af : String) (verbose : Bool) (prio : Nat) (t : CTerm) : Except Err (List Rule) := do
  let _ ← termProtocols (t.term.protocol.map .str)
  let action ← actionOf t.term
  let addrs ← addresses af t.term
  .ok (rulesFor (description verbose t.comment) action prio addrs)

/-- A filter: the options of its header for the platform, its terms; capirca/lib/cloudarmor.py:204-207. -/
structure Filter where
  options : List String := []
  terms : List CTerm := []

/-- `filter_type` for the options without `noverbose`; capirca/lib/cloudarmor.py:213-221. -/
def filterType : List String → Except Err String
  | [] => .ok "inet"
  | a :: _ => if ["inet", "inet6", "mixed"].contains a then .ok a else .error (.raised "UnsupportedFilterTypeError")

/-- The loop over the terms of a filter: the rules so far and the counter; capirca/lib/cloudarmor.py:225-249. -/
def termsLoop (af : String) (verbose : Bool) : List Rule → Nat → List CTerm → Except Err (List Rule)
  | acc, _, [] => .ok acc
  | acc, counter, t :: ts => do
    let rs ← convert af verbose counter t
    if (acc ++ rs).length > 200 then .error (.raised "ExceededMaxTermsError")
    else termsLoop af verbose (acc ++ rs) (counter + rs.length) ts

/-- `_TranslatePolicy` for the filters of the platform; capirca/lib/cloudarmor.py:204-249. Removing `noverbose` removes
its first occurrence. -/
def filtersLoop : List Rule → List Filter → Except Err (List Rule)
  | acc, [] => .ok acc
  | acc, f :: fs => do
    let af ← filterType (f.options.erase "noverbose")
    let acc' ← termsLoop af (!f.options.contains "noverbose") acc 1 f.terms
    filtersLoop acc' fs

/-- `self.cloudarmor_policies`; capirca/lib/cloudarmor.py:202-249. -/
def translate (fs : List Filter) : Except Err (List Rule) := filtersLoop [] fs

/-- `_BuildTokens`; capirca/lib/cloudarmor.py:158-179. -/
def tables : Tables where
  platform := "cloudarmor"
  tokens := (baseTables "cloudarmor").tokens.filter fun s =>
    !["destination_address", "destination_address_exclude", "destination_port", "expiration", "icmp_type",
      "stateless_reply", "option", "protocol", "platform", "platform_exclude", "source_address_exclude",
      "source_port", "verbatim"].contains s
  subTokens := [("action", ["accept", "deny"])]
  warnOnly := warnIfUnsupported

end CloudArmor
end Verif
