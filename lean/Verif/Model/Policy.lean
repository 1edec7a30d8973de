import Verif.Model.Nacaddr

/-!
Model of capirca/lib/policy.py: the `Term` class and `Policy` translation.
Terms are given as values; Model/PolicyText.lean has the lexer and the grammar.
-/

namespace Verif
namespace Policy
open Nacaddr

/-- A port range, `(low, high)`; capirca/lib/policy.py:177-181. -/
abbrev PortRange := Nat × Nat

/-- `policy.Term`; capirca/lib/policy.py:328-531. Ports are in translated form (pairs of integers).
`fragmentOffset`, `hopLimit`, `packetLength` are the integers of the `'a'` or `'a-b'` strings
(empty list = not set). Values that are only compared for presence are `Bool`s. Fields the model
never looks at (comment, owner, expiration, timeout, ...) are left out. -/
structure Term where
  name : Str := []
  action : List String := []
  address : List Net := []
  addressExclude : List Net := []
  restrictAddressFamily : Option String := none
  sourceAddress : List Net := []
  sourceAddressExclude : List Net := []
  destinationAddress : List Net := []
  destinationAddressExclude : List Net := []
  port : List PortRange := []
  sourcePort : List PortRange := []
  destinationPort : List PortRange := []
  protocol : List String := []
  protocolExcept : List String := []
  sourcePrefix : List String := []
  sourcePrefixExcept : List String := []
  destinationPrefix : List String := []
  destinationPrefixExcept : List String := []
  sourceTag : List String := []
  destinationTag : List String := []
  precedence : List String := []
  option : List String := []
  forwardingClass : List String := []
  forwardingClassExcept : List String := []
  fragmentOffset : List Nat := []
  hopLimit : List Nat := []
  packetLength : List Nat := []
  icmpType : List String := []
  icmpCode : List Nat := []
  etherType : List String := []
  trafficType : List String := []
  dscpMatch : List String := []
  dscpExcept : List String := []
  ttl : Option Nat := none
  trafficClass : Option Nat := none
  sourceInterface : Option String := none
  destinationInterface : Option String := none
  flexibleMatchRange : List String := []
  platform : List String := []
  platformExclude : List String := []
  sourceZone : List String := []
  destinationZone : List String := []
  verbatim : List (String × String) := []
  logging : List String := []
  routingInstance : Bool := false
  nextIp : Bool := false
  nextInterface : Bool := false
  nextHopGroup : Bool := false
  encapsulate : Bool := false
  decapsulate : Bool := false
  filterTerm : Bool := false
  portMirror : Bool := false
  flattened : Bool := false
  flattenedAddr : Option (List Net) := none
  flattenedSaddr : Option (List Net) := none
  flattenedDaddr : Option (List Net) := none

/-! ### ports -/

/-- Python's order on pairs of integers (`sorted(ports)`), capirca/lib/policy.py:1608. -/
def portLe (a b : PortRange) : Bool := decide (a.1 < b.1) || (a.1 == b.1 && decide (a.2 ≤ b.2))

/-- One iteration of `CollapsePortList`; capirca/lib/policy.py:1609-1622. `ret_ports` is kept
reversed (head = `ret_ports[-1]`). -/
def pushPort : List PortRange → PortRange → List PortRange
  | [], p => [p]
  | l :: rest, p =>
    if l.2 ≥ p.2 then l :: rest
    else if p.1 < l.2 ∧ l.2 < p.2 then (l.1, p.2) :: rest
    else if l.2 + 1 = p.1 then (l.1, p.2) :: rest
    else p :: l :: rest

/-- `CollapsePortList`; capirca/lib/policy.py:1596-1623. -/
def collapsePortList (ports : List PortRange) : List PortRange :=
  ((isort portLe ports).foldl pushPort []).reverse

/-- `CheckProtocolIsContained`; capirca/lib/policy.py:1625-1643. -/
def checkProtocolIsContained (superset subset : List String) : Bool :=
  if superset.isEmpty then true
  else if subset.isEmpty then false
  else subset.all (superset.contains ·)

/-- `CheckPortIsContained`; capirca/lib/policy.py:1645-1670. -/
def checkPortIsContained (superset subset : List PortRange) : Bool :=
  if superset.isEmpty then true
  else if subset.isEmpty then false
  else subset.all fun sub => superset.any fun sup => decide (sub.1 ≥ sup.1) && decide (sub.2 ≤ sup.2)

/-- `CheckAddressIsContained`; capirca/lib/policy.py:1672-1697. `None` (an unset `flattened_*`
attribute) is falsy like the empty list. -/
def checkAddressIsContained (superset subset : Option (List Net)) : Bool :=
  if (superset.getD []).isEmpty then true
  else if (subset.getD []).isEmpty then false
  else (subset.getD []).all fun sub => (superset.getD []).any fun sup => sub.subnetOf sup

/-! ### FlattenAll, __contains__ -/

/-- One of the three exclusions of `FlattenAll`; capirca/lib/policy.py:1165-1184: the new include
list and the new `flattened_*` attribute. -/
def flattenField (inc exc : List Net) (old : Option (List Net)) :
    Except Err (List Net × Option (List Net)) :=
  if exc.isEmpty then .ok (inc, old)
  else do
    let r ← addressListExclude inc exc false
    .ok (r, some r)

/-- `FlattenAll(mutate=True)`; capirca/lib/policy.py:1143-1184. -/
def flattenAll (t : Term) : Except Err Term :=
  if t.sourceAddressExclude.isEmpty && t.destinationAddressExclude.isEmpty && t.addressExclude.isEmpty then
    .ok { t with flattened := true, flattenedSaddr := some t.sourceAddress,
                 flattenedDaddr := some t.destinationAddress, flattenedAddr := some t.address }
  else do
    let s ← flattenField t.sourceAddress t.sourceAddressExclude t.flattenedSaddr
    let d ← flattenField t.destinationAddress t.destinationAddressExclude t.flattenedDaddr
    let a ← flattenField t.address t.addressExclude t.flattenedAddr
    .ok { t with flattened := true, sourceAddress := s.1, flattenedSaddr := s.2,
                 destinationAddress := d.1, flattenedDaddr := d.2,
                 address := a.1, flattenedAddr := a.2 }

/-- `if not self.flattened: self.FlattenAll()`; capirca/lib/policy.py:567-571. -/
def flattenIfNeeded (t : Term) : Except Err Term := if t.flattened then .ok t else flattenAll t

/-- Sorting strings, as `sorted(list_of_str)`; capirca/lib/policy.py:538 etc. -/
def sortStrs (l : List String) : List String := isort (fun a b => !decide (b < a)) l

/-- Sorting verbatim pairs; capirca/lib/policy.py:538. -/
def sortPairs (l : List (String × String)) : List (String × String) :=
  isort (fun a b => !(decide (b.1 < a.1) || (b.1 == a.1 && decide (b.2 < a.2)))) l

/-- Python `<` on lists of integers (lexicographic); capirca/lib/policy.py:706. -/
def intsLt : List Nat → List Nat → Bool
  | [], [] => false
  | [], _ :: _ => true
  | _ :: _, [] => false
  | a :: as, b :: bs => decide (a < b) || (a == b && intsLt as bs)

/-- Sorting integers; capirca/lib/policy.py:703. -/
def sortInts (l : List Nat) : List Nat := isort (fun a b => decide (a ≤ b)) l

/-- Protocol part of `Term.__contains__` (`other in self`); capirca/lib/policy.py:541-565. The
arguments of `CheckProtocolIsContained` are as in the code. -/
def protocolOk (self other : Term) : Bool :=
  if !self.protocol.isEmpty then
    if !other.protocol.isEmpty then checkProtocolIsContained other.protocol self.protocol
    else false
  else if !self.protocolExcept.isEmpty then
    if !other.protocolExcept.isEmpty then
      checkProtocolIsContained self.protocolExcept other.protocolExcept
    else if !other.protocol.isEmpty then
      other.protocol.all fun p => !self.protocolExcept.contains p
    else false
  else true

/-- Address part of `__contains__` on flattened terms; capirca/lib/policy.py:573-610. -/
def addressOk (self other : Term) : Bool :=
  (checkAddressIsContained self.flattenedAddr other.flattenedAddr ||
    checkAddressIsContained self.flattenedAddr other.flattenedSaddr ||
    checkAddressIsContained self.flattenedAddr other.flattenedDaddr) &&
  (checkAddressIsContained other.flattenedAddr self.flattenedSaddr &&
    checkAddressIsContained other.flattenedAddr self.flattenedDaddr) &&
  checkAddressIsContained self.flattenedSaddr other.flattenedSaddr &&
  checkAddressIsContained self.flattenedDaddr other.flattenedDaddr

/-- Port part; capirca/lib/policy.py:612-627. -/
def portsOk (self other : Term) : Bool :=
  (self.port.isEmpty ||
    (checkPortIsContained self.port other.port || checkPortIsContained self.port other.sourcePort ||
      checkPortIsContained self.port other.destinationPort)) &&
  checkPortIsContained self.sourcePort other.sourcePort &&
  checkPortIsContained self.destinationPort other.destinationPort

/-- Prefix lists and tags; capirca/lib/policy.py:629-652 (the destination tag is compared only if
there is a source tag). -/
def prefixesOk (self other : Term) : Bool :=
  (self.sourcePrefix.isEmpty || sortStrs self.sourcePrefix == sortStrs other.sourcePrefix) &&
  (self.sourcePrefixExcept.isEmpty ||
    sortStrs self.sourcePrefixExcept == sortStrs other.sourcePrefixExcept) &&
  (self.destinationPrefix.isEmpty ||
    sortStrs self.destinationPrefix == sortStrs other.destinationPrefix) &&
  (self.destinationPrefixExcept.isEmpty ||
    sortStrs self.destinationPrefixExcept == sortStrs other.destinationPrefixExcept) &&
  (self.sourceTag.isEmpty ||
    (sortStrs self.sourceTag == sortStrs other.sourceTag &&
      sortStrs self.destinationTag == sortStrs other.destinationTag))

/-- `if self.x: other.x must be non-empty and each of its members in self.x`;
capirca/lib/policy.py:654-685. `strict` is the `elif other.x: return False` present for precedence
and option only. -/
def subListOk (self other : List String) (strict : Bool) : Bool :=
  if !self.isEmpty then !other.isEmpty && other.all (self.contains ·)
  else if strict then other.isEmpty else true

/-- `if self.x: if not other.x: return False`; capirca/lib/policy.py:686-700, 732-734. -/
def presentOk (self other : Bool) : Bool := !self || other

/-- `fragment_offset`; capirca/lib/policy.py:701-709. -/
def fragmentOk (self other : List Nat) : Bool :=
  if self.isEmpty then true
  else if other.isEmpty then false
  else
    let sfo := sortInts self
    let ofo := sortInts other
    !(decide (ofo.headD 0 < sfo.headD 0) || intsLt (sfo.drop 1) (ofo.drop 1))

/-- `hop_limit`; capirca/lib/policy.py:710-722. -/
def hopLimitOk (self other : List Nat) : Bool :=
  if self.isEmpty then true
  else if other.isEmpty then false
  else if self.headD 0 < other.headD 0 then false
  else if !(self.drop 1).isEmpty && !(other.drop 1).isEmpty then !decide (self.headD 0 > other.headD 0)
  else true

/-- `packet_length`; capirca/lib/policy.py:723-731. -/
def packetLengthOk (self other : List Nat) : Bool :=
  if self.isEmpty then true
  else if other.isEmpty then false
  else !(decide (self.headD 0 < other.headD 0) ||
    intsLt (sortInts (other.drop 1)) (sortInts (self.drop 1)))

/-- The remaining checks of `__contains__`; capirca/lib/policy.py:654-758. `sorted(a) is not
sorted(b)` compares two fresh objects and is always true, so a non-empty `icmp_type`, `icmp_code`,
`platform`, `platform_exclude`, `source_zone` or `destination_zone` always gives `False`. -/
def miscOk (self other : Term) : Bool :=
  subListOk self.precedence other.precedence true &&
  subListOk self.option other.option true &&
  subListOk self.forwardingClass other.forwardingClass false &&
  subListOk self.forwardingClassExcept other.forwardingClassExcept false &&
  presentOk self.nextIp other.nextIp &&
  presentOk self.nextInterface other.nextInterface &&
  presentOk self.nextHopGroup other.nextHopGroup &&
  presentOk self.encapsulate other.encapsulate &&
  presentOk self.decapsulate other.decapsulate &&
  fragmentOk self.fragmentOffset other.fragmentOffset &&
  hopLimitOk self.hopLimit other.hopLimit &&
  packetLengthOk self.packetLength other.packetLength &&
  presentOk self.portMirror other.portMirror &&
  self.icmpType.isEmpty && self.icmpCode.isEmpty && self.platform.isEmpty &&
  self.platformExclude.isEmpty && self.sourceZone.isEmpty && self.destinationZone.isEmpty

/-- `Term.__contains__`: `other in self`; capirca/lib/policy.py:534-760. Returns the answer and the
two terms after the call, because flattening mutates them. Flattening may raise. -/
def containsM (self other : Term) : Except Err (Bool × Term × Term) :=
  if (!self.verbatim.isEmpty || !other.verbatim.isEmpty) &&
      !(sortPairs self.verbatim == sortPairs other.verbatim) then .ok (false, self, other)
  else if !protocolOk self other then .ok (false, self, other)
  else do
    let s ← flattenIfNeeded self
    let o ← flattenIfNeeded other
    .ok (addressOk s o && portsOk s o && prefixesOk s o && miscOk s o, s, o)

/-- The answer of `other in self` alone; capirca/lib/policy.py:534-760. -/
def contains (self other : Term) : Except Err Bool := do
  let r ← containsM self other
  .ok r.1

/-- Inner loop of `_DetectShading` for one term; capirca/lib/policy.py:288-297: whether a message
is appended for it, the term and the prior terms afterwards. (The code collects the messages; the
model keeps whether there is one.) -/
def shadedBy (t : Term) : List Term → Except Err (Bool × Term × List Term)
  | [] => .ok (false, t, [])
  | p :: ps => do
    let c ← containsM p t
    let r ← shadedBy c.2.2 ps
    .ok ((c.1 && !c.2.1.action.contains "next") || r.1, r.2.1, c.2.1 :: r.2.2)

/-- Outer loop of `_DetectShading`; capirca/lib/policy.py:286-297. -/
def anyShaded (prior : List Term) : List Term → Except Err (Bool × List Term)
  | [] => .ok (false, prior)
  | t :: ts => do
    let a ← shadedBy t prior
    let b ← anyShaded (a.2.2 ++ [a.2.1]) ts
    .ok (a.1 || b.1, b.2)

/-- `_DetectShading`; capirca/lib/policy.py:273-299; returns the (mutated) terms. -/
def detectShading (terms : List Term) : Except Err (List Term) := do
  let b ← anyShaded [] terms
  if b.1 then .error (.raised "ShadingError") else .ok b.2

/-! ### AddressCleanup -/

/-- Inner function `cleanup`; capirca/lib/policy.py:1558-1564. -/
def cleanup (optimize addressbook : Bool) (addresses complement : List Net) : Except Err (List Net) :=
  if !optimize then .ok (sortAddrList addresses)
  else if addressbook then .ok (collapsePreserveTokens addresses)
  else collapseAddrList addresses complement

/-- `if self.x: self.x = cleanup(self.x, c)`; capirca/lib/policy.py:1567-1586. -/
def cleanupField (optimize addressbook : Bool) (addresses complement : List Net) :
    Except Err (List Net) :=
  if addresses.isEmpty then .ok addresses else cleanup optimize addressbook addresses complement

/-- `AddressCleanup(optimize, addressbook)`; capirca/lib/policy.py:1546-1594. `address_exclude` is
left alone, as in the code; the cleaned include lists are the complements of the exclude lists. -/
def addressCleanup (t : Term) (optimize addressbook : Bool) : Except Err Term := do
  let address ← cleanupField optimize addressbook t.address []
  let sa ← cleanupField optimize addressbook t.sourceAddress t.sourceAddressExclude
  let se ← cleanupField optimize addressbook t.sourceAddressExclude sa
  let da ← cleanupField optimize addressbook t.destinationAddress t.destinationAddressExclude
  let de ← cleanupField optimize addressbook t.destinationAddressExclude da
  .ok { t with
    address := address, sourceAddress := sa, sourceAddressExclude := se,
    destinationAddress := da, destinationAddressExclude := de,
    port := if t.port.isEmpty then t.port else collapsePortList t.port,
    sourcePort := if t.sourcePort.isEmpty then t.sourcePort else collapsePortList t.sourcePort,
    destinationPort :=
      if t.destinationPort.isEmpty then t.destinationPort else collapsePortList t.destinationPort }

/-! ### SanityCheck -/

/-- `PROTOS_WITH_PORTS`; capirca/lib/policy.py:33. -/
def protosWithPorts : List String := ["tcp", "udp", "udplite", "sctp"]

/-- Keys of `ICMP_TYPE[4]`; capirca/lib/policy.py:376-396. -/
def icmpTypes4 : List (String × Nat) :=
  [("echo-reply", 0), ("unreachable", 3), ("source-quench", 4), ("redirect", 5),
   ("alternate-address", 6), ("echo-request", 8), ("router-advertisement", 9),
   ("router-solicitation", 10), ("time-exceeded", 11), ("parameter-problem", 12),
   ("timestamp-request", 13), ("timestamp-reply", 14), ("information-request", 15),
   ("information-reply", 16), ("mask-request", 17), ("mask-reply", 18), ("conversion-error", 31),
   ("mobile-redirect", 32)]

/-- Keys of `ICMP_TYPE[6]`; capirca/lib/policy.py:397-427. -/
def icmpTypes6 : List (String × Nat) :=
  [("destination-unreachable", 1), ("packet-too-big", 2), ("time-exceeded", 3),
   ("parameter-problem", 4), ("echo-request", 128), ("echo-reply", 129),
   ("multicast-listener-query", 130), ("multicast-listener-report", 131),
   ("multicast-listener-done", 132), ("router-solicit", 133), ("router-advertisement", 134),
   ("neighbor-solicit", 135), ("neighbor-advertisement", 136), ("redirect-message", 137),
   ("router-renumbering", 138), ("icmp-node-information-query", 139),
   ("icmp-node-information-response", 140), ("inverse-neighbor-discovery-solicitation", 141),
   ("inverse-neighbor-discovery-advertisement", 142), ("version-2-multicast-listener-report", 143),
   ("home-agent-address-discovery-request", 144), ("home-agent-address-discovery-reply", 145),
   ("mobile-prefix-solicitation", 146), ("mobile-prefix-advertisement", 147),
   ("certification-path-solicitation", 148), ("certification-path-advertisement", 149),
   ("multicast-router-advertisement", 151), ("multicast-router-solicitation", 152),
   ("multicast-router-termination", 153)]

/-- `ICMP_CODE`; capirca/lib/policy.py:429-440 (the second `'parameter-problem'` entry of the dict
literal wins). -/
def icmpCodes : List (String × List Nat) :=
  [("unreachable", [0, 1, 2, 3, 4, 5, 6, 7, 8, 9, 10, 11, 12, 13, 14, 15]),
   ("redirect", [0, 1, 2, 3]), ("router-advertisement", [0, 16]), ("time-exceeded", [0, 1]),
   ("parameter-problem", [0, 1, 2, 3]), ("destination-unreachable", [0, 1, 2, 3, 4, 5, 6, 7]),
   ("router-renumbering", [0, 1, 255]), ("icmp-node-information-query", [0, 1, 2]),
   ("icmp-node-information-response", [0, 1, 2])]

/-- First part of `SanityCheck`: verbatim / action / ports; capirca/lib/policy.py:1436-1480. -/
def sanityAction (t : Term) : Except Err Unit :=
  let anyPort := !t.sourcePort.isEmpty || !t.destinationPort.isEmpty || !t.port.isEmpty
  if !t.verbatim.isEmpty then
    if !t.action.isEmpty || anyPort || !t.protocol.isEmpty || !t.option.isEmpty then
      .error (.raised "ParseError")
    else .ok ()
  else if t.action.isEmpty && !t.routingInstance && !t.nextIp && !t.nextInterface &&
      !t.nextHopGroup && !t.encapsulate && !t.decapsulate && !t.filterTerm && !t.portMirror then
    .error (.raised "TermNoActionError")
  else if t.filterTerm && !t.action.isEmpty then .error (.raised "InvalidTermActionError")
  else if t.protocol.any (fun p => !protosWithPorts.contains p) && anyPort then
    if t.protocol.any (fun p => protosWithPorts.contains p) then
      .error (.raised "MixedPortandNonPortProtos")
    else .error (.raised "TermPortProtocolError")
  else .ok ()

/-- ether-type part of `SanityCheck`; capirca/lib/policy.py:1485-1503. -/
def sanityEther (t : Term) : Except Err Unit :=
  if !t.etherType.isEmpty &&
      (!t.protocol.isEmpty || !t.address.isEmpty || !t.destinationAddress.isEmpty ||
        !t.destinationAddressExclude.isEmpty || !t.destinationPort.isEmpty ||
        !t.destinationPrefix.isEmpty || !t.destinationPrefixExcept.isEmpty ||
        !t.sourceAddress.isEmpty || !t.sourceAddressExclude.isEmpty || !t.sourcePort.isEmpty ||
        !t.sourcePrefix.isEmpty || !t.sourcePrefixExcept.isEmpty) then
    .error (.raised "TermProtocolEtherTypeError")
  else .ok ()

/-- icmp-code part of `SanityCheck`; capirca/lib/policy.py:1506-1522. `ICMP_CODE[type_name]` raises
`KeyError` for types without a code table. -/
def sanityIcmpCode (t : Term) : Except Err Unit :=
  if t.icmpCode.isEmpty then .ok ()
  else
    match t.icmpType with
    | [ty] =>
      match icmpCodes.lookup ty with
      | none => .error .keyError
      | some cs => if t.icmpCode.any (fun c => !cs.contains c) then .error (.raised "ICMPCodeError") else .ok ()
    | _ => .error (.raised "ICMPCodeError")

/-- icmp-type, TTL and traffic-class parts of `SanityCheck`; capirca/lib/policy.py:1523-1544. -/
def sanityRest (t : Term) : Except Err Unit :=
  if t.icmpType.any (fun i => (icmpTypes4.lookup i).isNone && (icmpTypes6.lookup i).isNone) then
    .error (.raised "TermInvalidIcmpType")
  else if (t.ttl.map (fun n => decide (n > 255))).getD false then .error (.raised "InvalidTermTTLValue")
  else if (t.trafficClass.map (fun n => decide (n > 7))).getD false then
    .error (.raised "InvalidTrafficClassValue")
  else .ok ()

/-- `SanityCheck`; capirca/lib/policy.py:1413-1544. -/
def sanityCheck (t : Term) : Except Err Unit := do
  sanityAction t
  sanityEther t
  sanityIcmpCode t
  sanityRest t

/-! ### GetAddressOfVersion -/

/-- `GetAddressOfVersion(addr_type, af)`; capirca/lib/policy.py:1186-1201, on the value of the
attribute; `af=None` returns the list itself. -/
def getAddressOfVersion (l : List Net) : Option Ver → List Net
  | none => l
  | some v => l.filter (fun x => x.ver == v)

end Policy
end Verif
