import Verif.Model.Translate

/-!
Model of capirca/lib/aclcheck.py. Parsing of address texts (`nacaddr.IP`) is a parameter, as in
`Model/Naming.lean`; `none` is `ValueError`. `Match.qos` is not modelled.
-/

namespace Verif
namespace Aclcheck
open Policy Port

/-- The validated query: `none` is `'any'`; capirca/lib/aclcheck.py:64-105. -/
structure Query where
  src : Option Net := none
  dst : Option Net := none
  sport : Option Int := none
  dport : Option Int := none
  proto : String := "any"

/-- A `Match` object; capirca/lib/aclcheck.py:283-301. -/
structure Match where
  filter : String
  term : Str
  possibles : List String
  action : String
deriving DecidableEq, Repr

/-- Validation of a port argument; capirca/lib/aclcheck.py:77-87. -/
def queryPort (s : Str) : Except Err (Option Int) :=
  if s == "any".toList then .ok none else
    match portOfStr s with
    | .ok v => .ok (some v)
    | .error e => .error e

/-- Validation of an address argument; capirca/lib/aclcheck.py:89-105. -/
def queryAddr (ip : Str → Option Net) (s : Str) : Except Err (Option Net) :=
  if s == "any".toList then .ok none else
    match ip s with
    | some a => .ok (some a)
    | none => .error (.raised "AddressError")

/-- Validation of the arguments; capirca/lib/aclcheck.py:73-105. -/
def mkQuery (ip : Str → Option Net) (src dst sport dport : Str) (proto : String) : Except Err Query := do
  let sp ← queryPort sport
  let dp ← queryPort dport
  let s ← queryAddr ip src
  let d ← queryAddr ip dst
  .ok { src := s, dst := d, sport := sp, dport := dp, proto := proto }

/-- `_AddrInside`; capirca/lib/aclcheck.py:244-261. -/
def addrInside (addr : Option Net) (addresses : List Net) : Bool :=
  match addr with
  | none => true
  | some a => addresses.isEmpty || addresses.any fun ip => a.subnetOf ip

/-- `_PortInside`; capirca/lib/aclcheck.py:263-276. -/
def portInside (myport : Int) (ports : List PortRange) : Bool :=
  ports.any fun x => decide ((x.1 : Int) ≤ myport) && decide (myport ≤ (x.2 : Int))

/-- The port test of the loop; capirca/lib/aclcheck.py:123-132. -/
def portFits (myport : Option Int) (ports : List PortRange) : Bool :=
  match myport with
  | none => true
  | some p => ports.isEmpty || portInside p ports

/-- `_PossibleMatch`; capirca/lib/aclcheck.py:221-242. -/
def possibleMatch (t : Term) : List String :=
  (if t.option.contains "first-fragment" then ["first-frag"] else []) ++
  (if !t.fragmentOffset.isEmpty then ["frag-offset"] else []) ++
  (if !t.packetLength.isEmpty then ["packet-length"] else []) ++
  (if t.option.contains "established" then ["est"] else []) ++
  (if t.option.contains "tcp-established" && t.protocol.contains "tcp" then ["tcp-est"] else [])

/-- The tests that end in `continue` before a match is recorded; capirca/lib/aclcheck.py:115-143. -/
def admits (q : Query) (t : Term) : Bool :=
  addrInside q.src t.sourceAddress && addrInside q.dst t.destinationAddress &&
  portFits q.sport t.sourcePort && portFits q.dport t.destinationPort &&
  (q.proto == "any" || t.protocol.isEmpty || t.protocol.contains q.proto) &&
  !(!t.protocolExcept.isEmpty && t.protocolExcept.contains q.proto) &&
  !t.action.isEmpty

/-- `Match(filtername, term.name, possible, term.action)`; capirca/lib/aclcheck.py:144-147, 283-290. -/
def mkMatch (filter : String) (t : Term) (possible : List String) : Match :=
  { filter := filter, term := t.name, possibles := possible, action := t.action.headD "" }

/-- The loop over the terms of one filter: `matches` and `exact_matches` it appends;
capirca/lib/aclcheck.py:111-161. -/
def checkTerms (q : Query) (filter : String) : List Term → List Match × List Match
  | [] => ([], [])
  | t :: ts =>
    if !admits q t then checkTerms q filter ts
    else
      let m := mkMatch filter t (possibleMatch t)
      if !(possibleMatch t).isEmpty || t.action.contains "next" then
        let r := checkTerms q filter ts
        (m :: r.1, r.2)
      else ([m], [mkMatch filter t []])

/-- `header.target[0].options[0]`; capirca/lib/aclcheck.py:110. -/
def filterName (h : Header) : Except Err String :=
  match h.target with
  | (_, o :: _) :: _ => .ok o
  | _ => .error .indexError

/-- The loop over the filters; capirca/lib/aclcheck.py:109-161. -/
def check (q : Query) : List (Header × List Term) → Except Err (List Match × List Match)
  | [] => .ok ([], [])
  | (h, ts) :: fs => do
    let n ← filterName h
    let r ← check q fs
    let s := checkTerms q n ts
    .ok (s.1 ++ r.1, s.2 ++ r.2)

/-- `a in b` for strings (substring test), as `action in match.action` does. -/
def isInfix (a b : Str) : Bool := decide (a <:+: b)

/-- `ActionMatch(action)`; capirca/lib/aclcheck.py:171-180. `match.action` is one string, so `in` is a
substring test. -/
def actionMatch (action : String) (ms : List Match) : List Match :=
  ms.filter fun m => m.action != "" && m.possibles.isEmpty &&
    (action == "any" || isInfix action.toList m.action.toList)

end Aclcheck
end Verif
