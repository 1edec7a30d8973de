import Verif.Model.OpenConfig

/-!
Model of capirca/lib/aruba.py.

Lines are values instead of text; comments are not modelled.
-/

namespace Verif
namespace Aruba
open Policy Aclgenerator OpenConfig PyStr

/-- `str.lower` for ASCII; capirca/lib/aruba.py:109, 127, 227. -/
def lower (s : Str) : Str := s.map Char.toLower

/-- Source or destination of a rule; capirca/lib/aruba.py:97-134. -/
inductive Side where
  | any
  | user
  | alias (name : Str)
deriving DecidableEq, Repr

/-- Service of a rule: `any`, the number of a protocol, or a protocol with one port or two; capirca/lib/aruba.py:136-141,
210-230. -/
inductive Svc where
  | any
  | number (n : Nat)
  | ports (proto : Str) (l : List Nat)
deriving DecidableEq, Repr

/-- A rule: `no`, `ipv6`, source, destination, service, action; capirca/lib/aruba.py:143-157. An action that is not in
`_ACTIONS` leaves nothing on the line. -/
structure Rule where
  negate : Bool := false
  v6 : Bool := false
  src : Side := .any
  dst : Side := .any
  svc : Svc := .any
  action : Option String := none
deriving DecidableEq, Repr

/-- A line of an access list; capirca/lib/aruba.py:80-85, 157. -/
inductive Line where
  | rule (r : Rule)
  | verbatim (s : String)
deriving DecidableEq, Repr

/-- A `netdestination` or `netdestination6` block; capirca/lib/aruba.py:163-208. The networks are kept, not the text of the lines. -/
structure Dest where
  v6 : Bool
  name : Str
  nets : List Net

/-- `_ACTIONS`; capirca/lib/aruba.py:57-60. -/
def actionMap : List (String × String) := [("accept", "permit"), ("deny", "deny")]

/-- `_PROTOCOL_MAP`; capirca/lib/aruba.py:62-66. -/
def protocolMap : List (String × Nat) := [("icmp", 1), ("gre", 47), ("esp", 50)]

/-- `protocol in self._PROTOCOL_MAP`; capirca/lib/aruba.py:222. -/
def fixed : Proto → Option Nat
  | .str s => protocolMap.lookup s
  | .num _ => none

/-- The tokens of the ports of one protocol; capirca/lib/aruba.py:225-228. `order` gives the elements of
`set([start, end])` in the order of the set. A number has no `lower`. -/
def portsOf (order : PortRange → List Nat) (ports : List PortRange) : Proto → Except Err (List Svc)
  | .str s => .ok (ports.map fun r => .ports (lower s.toList) (order r))
  | .num _ => if ports.isEmpty then .ok [] else .error .attributeError

/-- `_GeneratePortTokens`; capirca/lib/aruba.py:210-230. -/
def portTokens (order : PortRange → List Nat) (ports : List PortRange) : List Svc → List Proto → Except Err (List Svc)
  | acc, [] => .ok acc
  | acc, p :: ps =>
    match fixed p with
    | some n => .ok [.number n]
    | none =>
      match portsOf order ports p with
      | .error e => .error e
      | .ok l => portTokens order ports (acc ++ l) ps

/-- One side of the rules with its netdestination, `none` where the term gives no text; capirca/lib/aruba.py:100-117,
119-134. -/
def side (v : Ver) (isUser : Bool) (l : List Net) (name : Str) : Option (Side × List Dest) :=
  if isUser then some (.user, [])
  else if l.isEmpty then some (.any, [])
  else if (getAddressOfVersion l (some v)).isEmpty then none
  else some (.alias name, [⟨v == .v6, name, getAddressOfVersion l (some v)⟩])

/-- The services of the rules; capirca/lib/aruba.py:136-141. -/
def services (order : PortRange → List Nat) (t : Term) (ps : List Proto) : Except Err (List Svc) :=
  if ps.isEmpty then .ok [.any] else portTokens order t.destinationPort [] ps

/-- One rule; capirca/lib/aruba.py:143-157. -/
def ruleOf (v : Ver) (t : Term) (s d : Side) (svc : Svc) : Except Err Line :=
  match t.action with
  | [] => .error .indexError
  | a :: _ =>
    .ok (.rule ⟨t.option.contains "negate", v == .v6, s, d, svc, actionMap.lookup a⟩)

/-- `Term.__str__`: the netdestinations and the lines; capirca/lib/aruba.py:75-161. -/
def render (order : PortRange → List Nat) (v : Ver) (t : Term) (ps : List Proto) : Except Err (List Dest × List Line) :=
  if !t.verbatim.isEmpty then
    .ok ([], (t.verbatim.filter fun e => e.1 == "aruba" && e.2 != "").map fun e => .verbatim e.2)
  else
    match side v (t.option.contains "source-is-user") t.sourceAddress (lower t.name ++ "_src".toList) with
    | none => .ok ([], [])
    | some (s, ds) =>
      match side v (t.option.contains "destination-is-user") t.destinationAddress (lower t.name ++ "_dst".toList) with
      | none => .ok ([], [])
      | some (d, dd) => do
        let svcs ← services order t ps
        let ls ← listM (ruleOf v t s d) svcs
        .ok (ds ++ dd, ls)

/-- One term of a filter; capirca/lib/aruba.py:68-73, 299-310, 323-325, capirca/lib/aclgenerator.py (Term.__init__). Platforms of the term are not looked at. -/
def oneTerm (order : PortRange → List Nat) (v : Ver) (t : OTerm) : Except Err (List Dest × List Line) :=
  if t.expired then .ok ([], [])
  else do
    let ps ← termProtocols (t.term.protocol.map .str)
    render order v t.term ps

/-- A filter: the options of the header for the platform, none if the header is not for the platform, and the terms;
capirca/lib/aruba.py:286-296. -/
structure Filter where
  options : List String := []
  terms : List OTerm := []

/-- What is printed for a filter: netdestinations, then the access list; capirca/lib/aruba.py:319-330. A filter without name
is called `None`. -/
structure Block where
  name : Option String
  dests : List Dest
  lines : List Line

/-- The family of a filter; capirca/lib/aruba.py:294-296. -/
def family (f : Filter) : Ver := if f.options.contains "inet6" then .v6 else .v4

/-- One filter; capirca/lib/aruba.py:286-330. -/
def oneFilter (order : PortRange → List Nat) (f : Filter) : Except Err Block := do
  let l ← listM (oneTerm order (family f)) f.terms
  .ok ⟨f.options.head?, l.flatMap Prod.fst, l.flatMap Prod.snd⟩

/-- The filters of a policy, whatever their platforms; capirca/lib/aruba.py:280-330. -/
def translate (order : PortRange → List Nat) (fs : List Filter) : Except Err (List Block) := listM (oneFilter order) fs

/-- `_BuildTokens`, for a class whose `_PLATFORM` is `platform`; capirca/lib/aruba.py:247-278. -/
def tablesFor (platform : String) : Tables where
  platform := platform
  tokens := (baseTables platform).tokens.filter fun s =>
    !["destination_address_exclude", "icmp_type", "source_port", "source_address_exclude", "platform",
      "platform_exclude"].contains s
  subTokens := [("option", ["source-is-user", "destination-is-user", "negate"]), ("action", ["accept", "deny"])]
  warnOnly := warnIfUnsupported

/-- The keyword check of the class, whose `_PLATFORM` is `None` (the name is set in the module only); capirca/lib/aruba.py:23,
233-278, capirca/lib/aclgenerator.py:208, 276-277. No platform of a header is `None`, the model has the empty text for it. -/
def initCheck (filters : List (List String × List KTerm)) : Except Err Unit := Aclgenerator.initCheck (tablesFor "") filters

end Aruba
end Verif
