import Verif.Model.Juniper

/-!
Model of capirca/lib/juniperevo.py and capirca/lib/srxlo.py, the two subclasses of the Juniper generator. Both print
with `juniper.Term.__str__`, modelled in `Verif.Model.Juniper`. Mixed filters are not modelled here.
-/

namespace Verif
namespace JuniperEvo
open Policy Aclgenerator Juniper

/-- `filter_direction`; capirca/lib/juniper.py:989-993. -/
inductive Dir where
  | ingress | egress
deriving DecidableEq, Repr

/-- `interface_type`; capirca/lib/juniper.py:994-998. -/
inductive Iface where
  | physical | loopback
deriving DecidableEq, Repr

/-- The direction among the options of a filter (the first of them is the name of the filter);
capirca/lib/juniper.py:989-993. -/
def directionOf (opts : List String) : Option Dir :=
  if (opts.drop 1).contains "ingress" then some .ingress
  else if (opts.drop 1).contains "egress" then some .egress else none

/-- The interface type among the options of a filter; capirca/lib/juniper.py:994-998. -/
def interfaceOf (opts : List String) : Option Iface :=
  if (opts.drop 1).contains "physical" then some .physical
  else if (opts.drop 1).contains "loopback" then some .loopback else none

/-- The options without the position independent ones, each of which is removed once;
capirca/lib/juniper.py:984-988, 1000-1005. -/
def strip (opts : List String) : List String :=
  ["not-interface-specific", "enable_dsmo", "filter_enhanced_mode"].foldl
    (fun l o => if (opts.drop 1).contains o then removeFirst o l else l) opts

/-- The filter type: the option after the name; capirca/lib/juniper.py:1007-1010. -/
def typeOf (opts : List String) : String :=
  match strip opts with
  | _ :: t :: _ => t
  | _ => "inet"

/-- Which keywords of `_TERM_TYPE['inet6']` are replaced: that for the protocols and that for the excluded ones;
capirca/lib/juniperevo.py:73-107. -/
structure Keys where
  payload : Bool := false
  payloadExcept : Bool := false
deriving DecidableEq, Repr

/-- `ProtocolNameToNumber` with the two extension headers; capirca/lib/aclgenerator.py:522-541, juniperevo.py:56-59,
91-95, 103-107. `hop-by-hop` is entered into the table as 0. The number is kept as text. -/
def toNumber (s : String) : String := if s = "hop-by-hop" then "0" else if s = "fragment" then "44" else s

/-- No extension header is named; capirca/lib/juniperevo.py:75-82. -/
def plainProtocols (l : List String) : Bool := !(l.contains "hop-by-hop" || l.contains "fragment")

/-- The term with numbers for the extension headers; capirca/lib/juniperevo.py:91-95, 103-107. -/
def numbered (j : JTerm) : JTerm :=
  { j with term := { j.term with protocol := j.term.protocol.map toNumber,
                                 protocolExcept := j.term.protocolExcept.map toNumber } }

/-- `_Ipv6ProtocolMatch`: the keywords and the term object afterwards; capirca/lib/juniperevo.py:43-109. -/
def ipv6Match (dir : Option Dir) (iface : Option Iface) (ty : TType) (j : JTerm) : Except Err (Keys × JTerm) :=
  if ty = .inet6 then
    match dir with
    | none => .error (.raised "FilterDirectionError")
    | some .ingress =>
      if iface.getD .physical = .physical then
        .ok ({ payload := plainProtocols j.term.protocol
               payloadExcept := plainProtocols j.term.protocolExcept }, j)
      else .ok ({ payload := true, payloadExcept := true }, numbered j)
    | some .egress => .ok ({ payload := true, payloadExcept := true }, numbered j)
  else .ok ({}, j)

/-- A condition printed with the changed keywords; capirca/lib/juniper.py:506-518 with the table of juniperevo.py:73-107.
Of the printed conditions only those made from the protocols have one of these words before a value, so changing the
table is modelled by changing the word. -/
def rekeyCond (k : Keys) : Cond → Cond
  | .leaf (.w hd :: x :: l) =>
    if hd = "next-header" ∧ k.payload = true then .leaf (.w "payload-protocol" :: x :: l)
    else if hd = "next-header-except" ∧ k.payloadExcept = true then .leaf (.w "payload-protocol-except" :: x :: l)
    else .leaf (.w hd :: x :: l)
  | c => c

/-- A term printed with the changed keywords; capirca/lib/juniperevo.py:36-41. -/
def rekey (k : Keys) : Out → Out
  | .term i n (.normal (some cs) a) => .term i n (.normal (some (cs.map (rekeyCond k))) a)
  | o => o

/-- `Term.__str__`; capirca/lib/juniperevo.py:36-41. -/
def renderTerm (dir : Option Dir) (iface : Option Iface) (ty : TType) (dsmo : Bool) (j : JTerm) :
    Except Err (Option Out × JTerm) := do
  let (k, j) ← ipv6Match dir iface ty j
  let (o, j') ← Juniper.renderTerm "juniperevo" ty dsmo j
  .ok (o.map (rekey k), j')

/-- One term of a filter with one family: what is printed; capirca/lib/juniper.py:1014-1050, 1091-1094. -/
def singleTerm (dir : Option Dir) (iface : Option Iface) (ty : TType) (dsmo : Bool) (j : JTerm) :
    Except Err (Option Out) := do
  match ← translate ty j with
  | (_, none) => .ok none
  | (j1, some none) => (renderTerm dir iface ty dsmo j1).map Prod.fst
  | (_, some (some c)) => (renderTerm dir iface ty dsmo c).map Prod.fst

/-- A filter with one family: the printed terms; capirca/lib/juniper.py:970-1066, 1091-1094. As for Juniper, the
early test for duplicate names only decides which error comes first. -/
def renderSingle (dir : Option Dir) (iface : Option Iface) (ty : TType) (dsmo : Bool) (ts : List JTerm) :
    Except Err (List Out) := do
  if Cisco.hasDup (namesOf ty ts) then .error (.raised "JuniperDuplicateTermError")
  else
    let os ← listM (singleTerm dir iface ty dsmo) ts
    .ok (os.filterMap id)

/-- A filter with the options of its header, unless it is mixed (`none`) or of an unknown type, which is refused at
its first term; capirca/lib/juniper.py:976-1066, aclgenerator.py:428-431. -/
def renderFilter (opts : List String) (ts : List JTerm) : Except Err (Option (TType × List Out)) := do
  let dsmo := (opts.drop 1).contains "enable_dsmo"
  if typeOf opts = "mixed" then .ok none
  else if typeOf opts = "inet" then
    (renderSingle (directionOf opts) (interfaceOf opts) .inet dsmo ts).map fun os => some (.inet, os)
  else if typeOf opts = "inet6" then
    (renderSingle (directionOf opts) (interfaceOf opts) .inet6 dsmo ts).map fun os => some (.inet6, os)
  else if typeOf opts = "bridge" then
    (renderSingle (directionOf opts) (interfaceOf opts) .bridge dsmo ts).map fun os => some (.bridge, os)
  else .error (.raised "UnsupportedAFError")

end JuniperEvo

namespace Srxlo
open Aclgenerator

/-- `_BuildTokens`: the tokens of Juniper without four; capirca/lib/srxlo.py:39-55. -/
def tables : Tables :=
  { Juniper.tables "srxlo" with
    tokens := (Juniper.tables "srxlo").tokens.filter fun s =>
      !["flexible_match_range", "encapsulate", "decapsulate", "port_mirror"].contains s }

end Srxlo
end Verif
