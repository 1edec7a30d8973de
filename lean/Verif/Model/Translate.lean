import Verif.Model.Policy
import Verif.Model.Naming

/-!
Model of the translation of parsed terms in capirca/lib/policy.py: tokens to addresses
(`Term.AddObject`), service names to ports (`TranslatePorts`, `Policy._TranslateTerms`), and the
construction of a policy (`Policy.AddFilter`).
-/

namespace Verif
namespace Policy
open Naming PyStr

/-- What a term names before translation; the attributes of `policy.Term` that `AddObject` appends to
(capirca/lib/policy.py:1203-1411). `rest` has every attribute that is not translated; its address and
port fields are not looked at. -/
structure RawTerm where
  rest : Term := {}
  address : List Str := []
  addressExclude : List Str := []
  sourceAddress : List Str := []
  sourceAddressExclude : List Str := []
  destinationAddress : List Str := []
  destinationAddressExclude : List Str := []
  port : List Str := []
  sourcePort : List Str := []
  destinationPort : List Str := []

/-- Global state of a parse: `DEFINITIONS`, `_OPTIMIZE`, `_SHADE_CHECK`; capirca/lib/policy.py:3026-3032. -/
structure Env where
  nets : Defs
  svcs : Defs
  ip : IpParser
  optimize : Bool := true
  shadeCheck : Bool := false

/-- Map with errors, left to right, appending the results; the pattern of the loops at
capirca/lib/policy.py:161-181 and 1217-1240. -/
def concatM {α β : Type} (f : α → Except Err (List β)) : List α → Except Err (List β)
  | [] => .ok []
  | a :: as => do
    let x ← f a
    let y ← concatM f as
    .ok (x ++ y)

/-- Map with errors, left to right; capirca/lib/policy.py:216-248. -/
def listM {α β : Type} (f : α → Except Err β) : List α → Except Err (List β)
  | [] => .ok []
  | a :: as => do
    let x ← f a
    let y ← listM f as
    .ok (x :: y)

/-- `GetNetAddr(x.value)` for every token of a field, extending the field; capirca/lib/policy.py:1222-1240. -/
def resolveNets (e : Env) (toks : List Str) : Except Err (List Net) := concatM (getNet e.nets e.ip) toks

/-- `int(s)`; capirca/lib/policy.py:178-180. The pieces have no `-`, so the value is not negative. -/
def portInt (s : Str) : Except Err Nat :=
  match pyInt s with
  | some i => .ok i.toNat
  | none => .error .valueError

/-- A port or range text as a pair: `x.split('-')`; capirca/lib/policy.py:176-180. -/
def parseRange (x : Str) : Except Err PortRange :=
  match splitOn '-' x with
  | [a] => do
    let i ← portInt a
    .ok (i, i)
  | a :: b :: _ => do
    let i ← portInt a
    let j ← portInt b
    .ok (i, j)
  | [] => .error .indexError

/-- Inner body of `TranslatePorts`: one protocol and one service; capirca/lib/policy.py:163-180. The
warning for services without the protocol is not modelled. -/
def translateOne (e : Env) (proto : String) (port : Str) : Except Err (List PortRange) := do
  let l ← getServiceByProto e.svcs port proto.toList
  listM parseRange l

/-- `TranslatePorts(ports, protocols, term_name)`; capirca/lib/policy.py:146-182. -/
def translatePorts (e : Env) (ports : List Str) (protocols : List String) : Except Err (List PortRange) :=
  concatM (fun proto => concatM (translateOne e proto) ports) protocols

/-- `if term.port: term.port = TranslatePorts(...); if not term.port: raise`;
capirca/lib/policy.py:220-244. -/
def translateField (e : Env) (ports : List Str) (protocols : List String) : Except Err (List PortRange) :=
  if ports.isEmpty then .ok []
  else
    match translatePorts e ports protocols with
    | .error err => .error err
    | .ok [] => .error (.raised "TermPortProtocolError")
    | .ok l => .ok l

/-- Resolution of the addresses of a term at parse time; capirca/lib/policy.py:1203-1240. The order of
the fields in the policy file decides which error is raised first; the model has a fixed order. -/
def resolveTerm (e : Env) (r : RawTerm) : Except Err Term := do
  let a ← resolveNets e r.address
  let ae ← resolveNets e r.addressExclude
  let s ← resolveNets e r.sourceAddress
  let se ← resolveNets e r.sourceAddressExclude
  let d ← resolveNets e r.destinationAddress
  let de ← resolveNets e r.destinationAddressExclude
  .ok { r.rest with
    address := a, addressExclude := ae, sourceAddress := s, sourceAddressExclude := se,
    destinationAddress := d, destinationAddressExclude := de }

/-- Body of the loop of `_TranslateTerms` (after resolution); capirca/lib/policy.py:216-249. Terms come
out of the parser untranslated, so `term.translated` is false. -/
def translateTerm (e : Env) (addressbook : Bool) (r : RawTerm) : Except Err Term := do
  let t ← resolveTerm e r
  let p ← translateField e r.port t.protocol
  let sp ← translateField e r.sourcePort t.protocol
  let dp ← translateField e r.destinationPort t.protocol
  let t' ← addressCleanup { t with port := p, sourcePort := sp, destinationPort := dp } e.optimize addressbook
  sanityCheck t'
  .ok t'

/-- `_TranslateTerms(terms)`; capirca/lib/policy.py:212-249. -/
def translateTerms (e : Env) (addressbook : Bool) (rs : List RawTerm) : Except Err (List Term) :=
  if rs.isEmpty then .error (.raised "NoTermsError") else listM (translateTerm e addressbook) rs

/-- `Header`: the targets with their options; capirca/lib/policy.py:1798-1847. -/
structure Header where
  target : List (String × List String) := []
deriving DecidableEq, Repr

/-- `FilterOptions(platform)`: options of the first target of the platform; capirca/lib/policy.py:1835-1847. -/
def Header.filterOptions (h : Header) (platform : String) : List String :=
  (h.target.lookup platform).getD []

/-- `_NeedsAddressBook`; capirca/lib/policy.py:251-262. -/
def needsAddressBook (hs : List Header) : Bool :=
  hs.any fun h =>
    (h.target.map Prod.fst).contains "srx" ||
    h.target.any fun t => (h.filterOptions t.1).contains "object-group"

/-- `AddFilter(header, terms)`; capirca/lib/policy.py:205-210; the header counts for
`_NeedsAddressBook` of its own terms. -/
def addFilter (e : Env) (fs : List (Header × List Term)) (f : Header × List RawTerm) :
    Except Err (List (Header × List Term)) :=
  match translateTerms e (needsAddressBook (fs.map Prod.fst ++ [f.1])) f.2 with
  | .error err => .error err
  | .ok ts =>
    if e.shadeCheck then
      match detectShading ts with
      | .error err => .error err
      | .ok ts' => .ok (fs ++ [(f.1, ts')])
    else .ok (fs ++ [(f.1, ts)])

/-- The policy built from the parsed filters; capirca/lib/policy.py:187-210, 2173-2183. -/
def buildPolicyFrom (e : Env) : List (Header × List Term) → List (Header × List RawTerm) →
    Except Err (List (Header × List Term))
  | fs, [] => .ok fs
  | fs, f :: rest =>
    match addFilter e fs f with
    | .error err => .error err
    | .ok fs' => buildPolicyFrom e fs' rest

/-- A policy from its parsed filters; capirca/lib/policy.py:187-210, 2173-2183. -/
def buildPolicy (e : Env) (filters : List (Header × List RawTerm)) : Except Err (List (Header × List Term)) :=
  buildPolicyFrom e [] filters

end Policy
end Verif
