import Verif.Model.Juniper

/-!
Model of capirca/lib/arista_tp.py. The configuration is a list of blocks, one per filter, of values instead of text; comments
(`comment`, `owner`) are left out.
-/

namespace Verif
namespace AristaTp
open Policy Aclgenerator
open Cisco (onPlatform hasDup)
open Juniper (minimizePrefixes removeFirst)

/-- A policy term with the attributes the model of `policy.Term` leaves out; texts are empty if the attribute is not set.
`expired` is `expiration <= current_date`; capirca/lib/arista_tp.py:370-442, 853-869. -/
structure ATerm where
  term : Term
  expired : Bool := false
  counter : String := ""
  dscpSet : String := ""
  nextHopGroup : String := ""
  nextInterface : String := ""

/-- A filter: whether its header has a target for the platform, the options of the target, and the terms;
capirca/lib/arista_tp.py:792-801. One target per header. -/
structure Filter where
  here : Bool := true
  options : List String := []
  terms : List ATerm := []

/-- A protocol of a `protocol` line; capirca/lib/arista_tp.py:569-578, 603-617. A range of one number is printed as the number. -/
inductive ProtoTok where
  | word (s : String)
  | num (n : Int)
  | range (a b : Int)
deriving DecidableEq, Repr

/-- The `protocol` line; capirca/lib/arista_tp.py:315-344. Without types nothing is said about them; `code all` is printed if
there are types but no codes. -/
structure ProtoLine where
  protos : List ProtoTok
  flags : List String
  sport : List PortRange
  dport : List PortRange
  types : List Nat
  codes : List Nat
deriving DecidableEq, Repr

/-- The direction of an address condition. -/
inductive Dir where
  | source | destination
deriving DecidableEq, Repr

/-- A prefix as it is printed. -/
abbrev Pfx := Ver × Nat × Nat

/-- A match condition; capirca/lib/arista_tp.py:252-368. -/
inductive Cond where
  | prefixes (d : Dir) (l : List Pfx)
  | fieldSet (d : Dir) (names : List Str)
  | proto (l : ProtoLine)
  | length (l : List Nat)
  | offset (l : List Nat)
  | ttl (l : List Nat)
  | misc (s : String)
deriving DecidableEq, Repr

/-- A statement under `actions`; capirca/lib/arista_tp.py:370-442. `word none` is the text `None`. -/
inductive Act where
  | word (s : Option String)
  | log
  | count (s : Str)
  | dscp (s : String)
  | trafficClass (n : Nat)
  | group (s : Str)
  | interface (s : Str)
deriving DecidableEq, Repr

/-- A printed term: verbatim lines, or `match NAME FAMILY` with conditions and actions. -/
inductive Out where
  | verbatim (ls : List Str)
  | entry (name : Str) (family : Ver) (conds : List Cond) (acts : List Act)
deriving DecidableEq, Repr

/-- A `field-set`; capirca/lib/arista_tp.py:773-783. -/
structure FieldSet where
  name : Str
  family : Ver
  pfxs : List Pfx
  excepts : List Pfx
deriving DecidableEq, Repr

/-- What is printed for one filter; capirca/lib/arista_tp.py:1060-1106. `removes`: the line `no traffic-policy NAME`. The order of the
counters is that of a Python set; here it is the order of the terms. -/
structure Block where
  fieldSets : List FieldSet
  removes : Bool
  name : Option String
  counters : List Str
  items : List Out

/-! ### terms -/

/-- A term with its family and protocols after `Term.__init__`; capirca/lib/arista_tp.py:151-161, aclgenerator.py:121-133. -/
structure PTerm where
  item : ATerm
  family : Ver
  protos : List Proto

/-- `AF_MAP`; capirca/lib/arista_tp.py:129-132, 707. -/
def afOf (ft : String) : Ver := if ft = "inet6" then .v6 else .v4

/-- The name of a family; capirca/lib/arista_tp.py:129-132. -/
def afName (v : Ver) : String := if v = .v6 then "inet6" else "inet"

/-- `af_map_txt`; capirca/lib/arista_tp.py:787. -/
def afText (v : Ver) : Str := if v = .v6 then "ipv6".toList else "ipv4".toList

/-- The name starts with the text, whatever the case of the letters; capirca/lib/arista_tp.py:240-241, 836. -/
def startsLower (pre name : Str) : Bool := pre.isPrefixOf (name.map Char.toLower)

/-- `is_default_term`; capirca/lib/arista_tp.py:240-241. -/
def isDefault (name : Str) : Bool :=
  startsLower "ipv4-default-".toList name || startsLower "ipv6-default-".toList name

/-- The name of a term in a filter; capirca/lib/arista_tp.py:834-843. -/
def finalName (type ft : String) (name : Str) : Str :=
  if startsLower "default-".toList name then afText (afOf ft) ++ "-default-all".toList
  else if type = "mixed" && ft = "inet6" then "ipv6-".toList ++ name
  else name

/-- One option of `_processTermOptions`; capirca/lib/arista_tp.py:625-649. -/
def optionStep (protos : List Proto) (acc : List String × List String) (o : String) : Except Err (List String × List String) :=
  let tcp := protos = [.str "tcp"]
  let est := if tcp ∧ "established" ∉ acc.1 then (acc.1 ++ ["established"], acc.2) else acc
  if startsWith "established" o then .ok est
  else if startsWith "tcp-established" o then
    if tcp then .ok est else .error (.raised "TcpEstablishedWithNonTcpError")
  else if startsWith "initial" o ∧ tcp then .ok (acc.1 ++ ["initial"], acc.2)
  else if startsWith "rst" o ∧ tcp then .ok (acc.1 ++ ["rst"], acc.2)
  else if Juniper.has "fragment".toList o.toList then .ok (acc.1, acc.2 ++ ["fragment"])
  else .ok acc

/-- `_processTermOptions`: flags and further conditions; capirca/lib/arista_tp.py:621-651. -/
def options (protos : List Proto) : List String × List String → List String → Except Err (List String × List String)
  | acc, [] => .ok acc
  | acc, o :: os => do
    let acc ← optionStep protos acc o
    options protos acc os

/-- `has_match_criteria`; capirca/lib/arista_tp.py:229-236. -/
def hasMatchCriteria (t : Term) : Bool :=
  !t.destinationAddress.isEmpty || !t.destinationAddressExclude.isEmpty || !t.destinationPort.isEmpty ||
  !t.destinationPrefix.isEmpty || !t.fragmentOffset.isEmpty || !t.hopLimit.isEmpty || !t.port.isEmpty ||
  !t.protocol.isEmpty || !t.protocolExcept.isEmpty || !t.sourceAddress.isEmpty || !t.sourceAddressExclude.isEmpty ||
  !t.sourcePort.isEmpty || !t.sourcePrefix.isEmpty || t.ttl.getD 0 != 0

/-- `GetAddressOfVersion`; capirca/lib/arista_tp.py:254-256, 277-279, 948-968. -/
def ofVersion (v : Ver) (l : List Net) : List Net := l.filter fun n => n.ver == v

/-- The text of a network. -/
def pfx (n : Net) : Pfx := (n.ver, n.addr, n.plen)

/-- `src-NAME`, `dst-NAME`; capirca/lib/arista_tp.py:264, 287, 780. -/
def setName (d : Dir) (name : Str) : Str :=
  (match d with
    | .source => "src-".toList
    | .destination => "dst-".toList) ++ name

/-- An address condition; `none` if the term is left out; capirca/lib/arista_tp.py:253-299. -/
def addrCond (v : Ver) (useSets : Bool) (name : Str) (d : Dir) (inc exc : List Net) : Option (List Cond) :=
  if (ofVersion v inc).isEmpty then (if inc.isEmpty then some [] else none)
  else if !(ofVersion v exc).isEmpty || useSets then some [.fieldSet d [setName d name]]
  else some [.prefixes d ((ofVersion v inc).map pfx)]

/-- Prefix lists; capirca/lib/arista_tp.py:301-313. -/
def listCond (d : Dir) (l : List String) : List Cond :=
  if l.isEmpty then [] else [.fieldSet d (l.map String.toList)]

/-- `anet_proto_map`; capirca/lib/arista_tp.py:530-553. -/
def named (v : Ver) : List String :=
  if v = .v6 then ["bgp", "icmpv6", "ospf", "pim", "rsvp", "tcp", "udp", "vrrp"]
  else ["ahp", "bgp", "icmp", "igmp", "ospf", "pim", "rsvp", "tcp", "udp", "vrrp"]

/-- The number of a protocol, or its text; capirca/lib/arista_tp.py:570-576. -/
def numberTok : Proto → ProtoTok
  | .num n => .num n
  | .str s =>
    match protoMap.lookup s with
    | some n => .num n
    | none => .word s

/-- The protocol as a word; capirca/lib/arista_tp.py:577-578. -/
def wordTok : Proto → ProtoTok
  | .num n => .num n
  | .str s => .word s

/-- Has the device a name for the protocol; capirca/lib/arista_tp.py:563-565. -/
def isNamed (v : Ver) : Proto → Bool
  | .num _ => false
  | .str s => (named v).contains s

/-- `_processProtocol`: the protocols; capirca/lib/arista_tp.py:529-578. -/
def protoToks (v : Ver) (ps : List Proto) : List ProtoTok :=
  if ps.all (isNamed v) then ps.map wordTok else ps.map numberTok

/-- The loop of `_processProtocolExcept`; capirca/lib/arista_tp.py:603-616. -/
def gaps : Int → List Int → List ProtoTok
  | ptr, [] => [.range ptr 255]
  | ptr, p :: ps =>
    if ptr < p ∧ p < 255 then .range ptr (p - 1) :: gaps (p + 1) ps
    else if p = ptr then gaps (p + 1) ps
    else gaps ptr ps

/-- The number of a protocol of `protocol_except`; capirca/lib/arista_tp.py:596-600. -/
def exceptNumber (s : String) : Except Err Int :=
  match protoMap.lookup s with
  | some n => .ok n
  | none =>
    match PyStr.pyInt s.toList with
    | some n => .ok n
    | none => .error .valueError

/-- `_processProtocolExcept`; capirca/lib/arista_tp.py:585-619. -/
def exceptToks (v : Ver) (l : List String) : Except Err (List ProtoTok) := do
  let ns ← listM exceptNumber l
  .ok (gaps (if v = .v6 then 0 else 1) (isort (fun a b => decide (a ≤ b)) ns.eraseDups))

/-- The protocols of the `protocol` line: those of `protocol_except` replace the others; capirca/lib/arista_tp.py:315-323. -/
def lineProtos (v : Ver) (p : PTerm) : Except Err (List ProtoTok) :=
  if p.item.term.protocolExcept.isEmpty then .ok (protoToks v p.protos)
  else exceptToks v p.item.term.protocolExcept

/-- `_processICMP`: the types; capirca/lib/arista_tp.py:330-338, 505-521. -/
def icmpTypes (p : PTerm) : Except Err (List Nat) :=
  if p.protos = [.str "icmp"] ∨ p.protos = [.str "icmpv6"] then do
    let l ← normalizeIcmpTypes p.item.term.icmpType (p.protos.map Proto.text) (.name (afName p.family))
    .ok (l.filterMap id)
  else .ok []

/-- `_processICMP`: the codes; capirca/lib/arista_tp.py:339-340, 522-525. -/
def icmpCodes (p : PTerm) (types : List Nat) : List Nat :=
  if (p.protos = [.str "icmp"] ∨ p.protos = [.str "icmpv6"]) ∧ types.length ≤ 1 then p.item.term.icmpCode else []

/-- The flags are printed for TCP alone, and not with `protocol_except`; capirca/lib/arista_tp.py:580-581, 321-323. -/
def flagsOf (p : PTerm) (flags : List String) : List String :=
  if p.protos = [.str "tcp"] ∧ p.item.term.protocolExcept.isEmpty then flags else []

/-- The `protocol` line, left out if it is empty; capirca/lib/arista_tp.py:315-344. -/
def protoCond (p : PTerm) (flags : List String) : Except Err (List Cond) := do
  let ps ← lineProtos p.family p
  let types ← icmpTypes p
  let l : ProtoLine := ⟨ps, flagsOf p flags, p.item.term.sourcePort, p.item.term.destinationPort, types, icmpCodes p types⟩
  .ok (if l = ⟨[], [], [], [], [], []⟩ then [] else [.proto l])

/-- A condition with a number or a range, if it is set. -/
def spanCond (c : List Nat → Cond) (l : List Nat) : List Cond := if l.isEmpty then [] else [c l]

/-- The conditions after the protocol; capirca/lib/arista_tp.py:346-368. -/
def restConds (t : Term) (misc : List String) : List Cond :=
  spanCond .length t.packetLength ++ (spanCond .offset t.fragmentOffset ++ (spanCond .ttl t.hopLimit ++
    ((if t.ttl.getD 0 = 0 then [] else [.ttl [t.ttl.getD 0]]) ++ misc.map .misc)))

/-- `_ACTIONS`; capirca/lib/arista_tp.py:122-128. -/
def actionTable : List (String × String) :=
  [("accept", ""), ("deny", "drop"), ("reject", "drop"), ("reject-with-tcp-rst", "drop")]

/-- `_is_valid_dscp_value`; capirca/lib/arista_tp.py:444-447. Simplified to ASCII digits. -/
def dscpAct (s : String) : Except Err (List Act) :=
  if s = "" then .ok []
  else if s.toList.all PyStr.isDigit && decide (PyStr.digitsVal s.toList ≤ 63) then .ok [.dscp s]
  else .error .valueError

/-- `_is_valid_next_interface`; capirca/lib/arista_tp.py:449-459. -/
def interfaceAct (s : String) : Except Err (List Act) :=
  if s = "" then .ok []
  else if startsWith "Ethernet" s || startsWith "InternalRecirc" s || startsWith "Port-Channel" s then .ok [.interface s.toList]
  else .error .valueError

/-- `re.sub(r"\.", "-", counter)`; capirca/lib/arista_tp.py:977-978. -/
def counterName (s : String) : Str := s.toList.map fun c => if c = '.' then '-' else c

/-- The statements under `actions`; capirca/lib/arista_tp.py:370-436. -/
def actions (a : ATerm) : Except Err (List Act) :=
  match a.term.action with
  | [] => .error .indexError
  | w :: _ => do
    let dscp ← dscpAct a.dscpSet
    let face ← interfaceAct a.nextInterface
    let accept := a.term.action = ["accept"]
    .ok ((if accept then [] else [.word (actionTable.lookup w)]) ++
      ((if a.term.logging.isEmpty ∨ accept then [] else [.log]) ++
      ((if a.counter = "" then [] else [.count (counterName a.counter)]) ++ (dscp ++
      ((if a.term.trafficClass.getD 0 = 0 then [] else [.trafficClass (a.term.trafficClass.getD 0)]) ++
      ((if a.nextHopGroup = "" then [] else [.group a.nextHopGroup.toList]) ++ face))))))

/-- The entry of a term with conditions; capirca/lib/arista_tp.py:252-442. -/
def printEntry (useSets : Bool) (p : PTerm) (opts : List String × List String) : Except Err (Option Out) :=
  let t := p.item.term
  match addrCond p.family useSets t.name .source t.sourceAddress t.sourceAddressExclude with
  | none => .ok none
  | some s =>
    match addrCond p.family useSets t.name .destination t.destinationAddress t.destinationAddressExclude with
    | none => .ok none
    | some d => do
      let pc ← protoCond p opts.1
      let as ← actions p.item
      .ok (some (.entry t.name p.family (s ++ (d ++ (listCond .source t.sourcePrefix ++
        (listCond .destination t.destinationPrefix ++ (pc ++ restConds t opts.2))))) as))

/-- The icmp protocol of the other family; capirca/lib/arista_tp.py:180-182. -/
def otherIcmp (v : Ver) : Proto := if v = .v6 then .str "icmp" else .str "icmpv6"

/-- Is the protocol a number; capirca/lib/arista_tp.py:186 (`", ".join`). -/
def isNum : Proto → Bool
  | .num _ => true
  | .str _ => false

/-- `Term.__str__`; `none` is the empty text; capirca/lib/arista_tp.py:163-442. The icmp protocol of the other family leads to a
message with the protocols joined, which fails for numbers. -/
def render (useSets : Bool) (p : PTerm) : Except Err (Option Out) := do
  if !onPlatform "arista_tp" p.item.term then .ok none
  else if p.protos.contains (otherIcmp p.family) then
    if p.protos.any isNum then .error .typeError else .ok none
  else if !p.item.term.verbatim.isEmpty then
    let ls := (p.item.term.verbatim.filter fun v => v.1 == "arista_tp").map fun v => v.2.toList
    .ok (if ls.isEmpty || ls == [[]] then none else some (.verbatim ls))
  else
    let o ← options p.protos ([], []) p.item.term.option
    if !hasMatchCriteria p.item.term && !isDefault p.item.term.name then .ok none
    else printEntry useSets p o

/-! ### filters -/

/-- Class attributes for `FixHighPorts`; capirca/lib/arista_tp.py:707-710. -/
def highPorts : HighPorts := { supportedAf := ["inet", "inet6", "mixed"] }

/-- An option of a term that is not supported; capirca/lib/arista_tp.py:872-877. -/
def badOption (o : String) : Bool := startsWith "sample" o || startsWith "first-fragment" o

/-- `has_unsupported_match_criteria`; capirca/lib/arista_tp.py:891-895. -/
def unsupported (t : Term) : Bool :=
  !t.dscpExcept.isEmpty || !t.dscpMatch.isEmpty || !t.etherType.isEmpty || !t.flexibleMatchRange.isEmpty ||
  !t.forwardingClass.isEmpty || !t.forwardingClassExcept.isEmpty || t.nextIp || !t.port.isEmpty || !t.trafficType.isEmpty

/-- The term is about fragments; capirca/lib/arista_tp.py:906, 912, 924. -/
def aboutFragments (t : Term) : Bool := t.option.contains "is-fragment" || t.option.contains "fragment"

/-- `Term.__init__`; capirca/lib/arista_tp.py:151-161, aclgenerator.py:121-133. -/
def initTerm (v : Ver) (a : ATerm) : Except Err PTerm := do
  let ps ← termProtocols (a.term.protocol.map .str)
  .ok ⟨a, v, ps⟩

/-- The term loop for one term and one family: `none` if the term is left out; capirca/lib/arista_tp.py:827-981. -/
def prepare (type ft : String) (a : ATerm) : Except Err (Option PTerm) := do
  let t := { a.term with name := finalName type ft a.term.name }
  let u ← fixHighPorts highPorts t ft false
  if a.expired then .ok none
  else if u.option.any badOption then .ok none
  else if unsupported u then .ok none
  else if aboutFragments u && type == "inet6" then .error (.raised "AristaTpFragmentInV6Error")
  else if aboutFragments u && ft == "inet6" then .ok none
  else if aboutFragments u && (!u.sourcePort.isEmpty || !u.destinationPort.isEmpty) then .ok none
  else if u.action = ["next"] then .ok none
  else
    let p ← initTerm (afOf ft) { a with term := u }
    .ok (some p)

/-- The field set of one direction; capirca/lib/arista_tp.py:948-973. -/
def fieldSetOf (useSets : Bool) (v : Ver) (name : Str) (d : Dir) (inc exc : List Net) : List FieldSet :=
  let m := minimizePrefixes (ofVersion v inc) (ofVersion v exc)
  if (!m.1.isEmpty || !m.2.isEmpty) && (!m.2.isEmpty || useSets) then [⟨setName d name, v, m.1.map pfx, m.2.map pfx⟩] else []

/-- The field sets of a term; capirca/lib/arista_tp.py:948-973. -/
def fieldSetsOf (useSets : Bool) (p : PTerm) : List FieldSet :=
  let t := p.item.term
  fieldSetOf useSets p.family t.name .source t.sourceAddress t.sourceAddressExclude ++
  fieldSetOf useSets p.family t.name .destination t.destinationAddress t.destinationAddressExclude

/-- `_remove_duplicate_field_sets`: the field sets that stay, and the new names of the others; capirca/lib/arista_tp.py:988-1042. -/
def dedup : List FieldSet → List FieldSet → List FieldSet × List (Str × Str)
  | kept, [] => (kept, [])
  | kept, f :: fs =>
    match kept.find? fun k => decide (k.pfxs = f.pfxs ∧ k.excepts = f.excepts) with
    | some k =>
      let r := dedup kept fs
      (r.1, (f.name, k.name) :: r.2)
    | none => dedup (kept ++ [f]) fs

/-- `rename_pattern.sub`: the first name of the list that fits at a place is replaced; capirca/lib/arista_tp.py:1094-1104. The first
argument bounds the number of steps. Simplified: the names are not read as regular expressions (`.` and `+`, the only special
characters names may have, stand for themselves), and a name does not reach beyond a word. -/
def substitute (ren : List (Str × Str)) : Nat → Str → Str
  | 0, s => s
  | _ + 1, [] => []
  | n + 1, c :: cs =>
    match ren.find? fun r => r.1.isPrefixOf (c :: cs) with
    | some r => r.2 ++ substitute ren n ((c :: cs).drop r.1.length)
    | none => c :: substitute ren n cs

/-- The substitution in a word. -/
def rename (ren : List (Str × Str)) (s : Str) : Str := substitute ren s.length s

/-- The substitution in a condition; other words do not contain names; capirca/lib/arista_tp.py:1096-1105. -/
def renameCond (ren : List (Str × Str)) : Cond → Cond
  | .fieldSet d names => .fieldSet d (names.map (rename ren))
  | c => c

/-- The substitution in an action; capirca/lib/arista_tp.py:1096-1105. -/
def renameAct (ren : List (Str × Str)) : Act → Act
  | .count s => .count (rename ren s)
  | .group s => .group (rename ren s)
  | .interface s => .interface (rename ren s)
  | a => a

/-- The substitution in the text of a term; capirca/lib/arista_tp.py:1096-1105. -/
def renameOut (ren : List (Str × Str)) : Out → Out
  | .verbatim ls => .verbatim (ls.map (rename ren))
  | .entry n v cs as => .entry (rename ren n) v (cs.map (renameCond ren)) (as.map (renameAct ren))

/-- `field_set`; capirca/lib/arista_tp.py:799. -/
def useSetsOf (opts : List String) : Bool := opts.tail.contains "field_set"

/-- `filter_type`; capirca/lib/arista_tp.py:799-812. -/
def typeOf (opts : List String) : String :=
  match (if useSetsOf opts then removeFirst "field_set" opts else opts)[1]? with
  | some t => t
  | none => "mixed"

/-- `ftypes`; capirca/lib/arista_tp.py:820-825. -/
def families (type : String) : List String := if type = "mixed" then ["inet", "inet6"] else [type]

/-- The pairs the term loop goes through; capirca/lib/arista_tp.py:827-828. -/
def pairs (type : String) (ts : List ATerm) : List (String × ATerm) := ts.flatMap fun a => (families type).map fun ft => (ft, a)

/-- One filter, without the question of the removal: translation and printing; capirca/lib/arista_tp.py:792-985, 1060-1106. Translation
and printing of the terms do not depend on each other, except that the translation of all comes before; this and the early test for
duplicate names only decide which error comes first. -/
def renderFilter (removes : Bool) (f : Filter) : Except Err Block := do
  let type := typeOf f.options
  let useSets := useSetsOf f.options
  if hasDup ((pairs type f.terms).map fun x => finalName type x.1 x.2.term.name) then .error (.raised "DuplicateTermError")
  else
    let os ← listM (fun x => prepare type x.1 x.2) (pairs type f.terms)
    let ps := os.filterMap id
    let is ← listM (render useSets) ps
    let r := dedup [] (ps.flatMap (fieldSetsOf useSets))
    .ok ⟨r.1, removes, f.options.head?, ((ps.filter fun p => p.item.counter != "").map fun p => counterName p.item.counter).eraseDups,
      (is.filterMap id).map (renameOut r.2)⟩

/-- `filter_names_all_same`; capirca/lib/arista_tp.py:1046-1059. -/
def allSame (fs : List Filter) : Bool := (fs.map fun f => f.options.head?).eraseDups.length == 1

/-- The filters one after the other: the first is preceded by the removal of its policy, later ones unless all have one name;
capirca/lib/arista_tp.py:1060-1087. -/
def renderFilters (same : Bool) : Bool → List Filter → Except Err (List Block)
  | _, [] => .ok []
  | first, f :: fs => do
    let b ← renderFilter (!same || first) f
    let bs ← renderFilters same false fs
    .ok (b :: bs)

/-- The generator; capirca/lib/arista_tp.py:785-985, 1044-1108. -/
def translate (fs : List Filter) : Except Err (List Block) :=
  renderFilters (allSame (fs.filter Filter.here)) true (fs.filter Filter.here)

/-- `_BuildTokens`; capirca/lib/arista_tp.py:716-738. -/
def tables : Tables where
  platform := "arista_tp"
  tokens := (baseTables "arista_tp").tokens ++
    ["counter", "destination_prefix", "dscp_set", "fragment_offset", "hop_limit", "icmp_code", "logging", "owner", "packet_length",
     "port", "protocol_except", "source_prefix", "traffic_class", "ttl", "next_hop_group", "next_interface"]
  subTokens := [("option", ["established", "is-fragment", ".*", "tcp-established", "tcp-initial"]),
    ("action", ["accept", "deny", "next", "reject", "reject-with-tcp-rst"]),
    ("icmp_type", (icmp4 ++ icmp6).map Prod.fst)]
  warnOnly := warnIfUnsupported

end AristaTp
end Verif
