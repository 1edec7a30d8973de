import Verif.Model.Policy

/-!
Model of the comparison of terms and policies in capirca/lib/policy.py.
-/

namespace Verif
namespace Policy

/-- `sorted` of a list of networks: networks of different families cannot be compared (`ipaddress._BaseNetwork.__lt__` raises TypeError); a sort of a
list with both families always compares two of different families; capirca/lib/policy.py:916-924. -/
def sortedNets (l : List Net) : Except Err (List Net) :=
  if l.any (fun n => n.ver == .v4) && l.any (fun n => n.ver == .v6) then .error .typeError else .ok (isort Net.keyLe l)

/-- `sorted(a) == sorted(b)` for networks; capirca/lib/policy.py:916-924. -/
def eqNets (a b : List Net) : Except Err Bool := do
  let x ← sortedNets a
  let y ← sortedNets b
  .ok (x.length == y.length && (x.zip y).all fun p => p.1.eqv p.2)

/-- `sorted(a) == sorted(b)` for strings; capirca/lib/policy.py:911 etc. -/
def eqStrs (a b : List String) : Except Err Bool :=
  .ok (isort (fun x y => !decide (y < x)) a == isort (fun x y => !decide (y < x)) b)

/-- `sorted(a) == sorted(b)` for port ranges; capirca/lib/policy.py:940-944. -/
def eqPorts (a b : List PortRange) : Except Err Bool := .ok (isort portLe a == isort portLe b)

/-- `sorted(a) == sorted(b)` for numbers; capirca/lib/policy.py:1016. -/
def eqNums (a b : List Nat) : Except Err Bool :=
  .ok (isort (fun x y => decide (x ≤ y)) a == isort (fun x y => decide (x ≤ y)) b)

/-- `a == b`; capirca/lib/policy.py:958-1090. -/
def eqVals {α : Type} [BEq α] (a b : α) : Except Err Bool := .ok (a == b)

/-- The comparisons are made one after the other until one is false or raises; capirca/lib/policy.py:909-1092. -/
def allEq : List (Except Err Bool) → Except Err Bool
  | [] => .ok true
  | .ok true :: r => allEq r
  | .ok false :: _ => .ok false
  | .error e :: _ => .error e

/-- `Term.__eq__`; capirca/lib/policy.py:909-1092. Of the fields that are compared, those that are not in the model of terms (`qos`, `policer`,
`log_limit`, `vpn`, `timeout`, `pan_application`, `versa_application`) are left out. The fields `address_exclude`, `restrict_address_family`,
`dscp_match`, `dscp_except`, `routing_instance` and the names are not compared by the code. -/
def termEq (a b : Term) : Except Err Bool := allEq [
  eqStrs a.action b.action,
  eqNets a.address b.address,
  eqNets a.sourceAddress b.sourceAddress,
  eqNets a.sourceAddressExclude b.sourceAddressExclude,
  eqNets a.destinationAddress b.destinationAddress,
  eqNets a.destinationAddressExclude b.destinationAddressExclude,
  eqStrs a.sourcePrefix b.sourcePrefix,
  eqStrs a.sourcePrefixExcept b.sourcePrefixExcept,
  eqStrs a.destinationPrefix b.destinationPrefix,
  eqStrs a.destinationPrefixExcept b.destinationPrefixExcept,
  eqPorts a.port b.port,
  eqPorts a.sourcePort b.sourcePort,
  eqPorts a.destinationPort b.destinationPort,
  eqStrs a.protocol b.protocol,
  eqStrs a.protocolExcept b.protocolExcept,
  eqStrs a.option b.option,
  eqVals a.trafficClass b.trafficClass,
  eqVals a.verbatim b.verbatim,
  eqVals a.sourceInterface b.sourceInterface,
  eqVals a.destinationInterface b.destinationInterface,
  eqStrs a.sourceTag b.sourceTag,
  eqStrs a.destinationTag b.destinationTag,
  eqVals a.ttl b.ttl,
  eqStrs a.logging b.logging,
  eqVals a.packetLength b.packetLength,
  eqVals a.fragmentOffset b.fragmentOffset,
  eqVals a.hopLimit b.hopLimit,
  eqStrs a.icmpType b.icmpType,
  eqNums a.icmpCode b.icmpCode,
  eqStrs a.etherType b.etherType,
  eqStrs a.trafficType b.trafficType,
  eqStrs a.platform b.platform,
  eqStrs a.platformExclude b.platformExclude,
  eqVals a.precedence b.precedence,
  eqVals a.filterTerm b.filterTerm,
  eqStrs a.forwardingClass b.forwardingClass,
  eqStrs a.forwardingClassExcept b.forwardingClassExcept,
  eqVals a.nextIp b.nextIp,
  eqVals a.nextInterface b.nextInterface,
  eqVals a.nextHopGroup b.nextHopGroup,
  eqVals a.encapsulate b.encapsulate,
  eqVals a.decapsulate b.decapsulate,
  eqVals a.flexibleMatchRange b.flexibleMatchRange,
  eqVals a.portMirror b.portMirror,
  eqStrs a.sourceZone b.sourceZone,
  eqStrs a.destinationZone b.destinationZone]

/-- `==` of the lists of terms of two filters, as `Policy.__eq__` compares them; capirca/lib/policy.py:301-316. Python compares the lengths
first. The headers are not modelled, nor is that a term is equal to itself without comparison. -/
def termsEq (ts us : List Term) : Except Err Bool :=
  if ts.length ≠ us.length then .ok false else allEq ((ts.zip us).map fun p => termEq p.1 p.2)

end Policy
end Verif
