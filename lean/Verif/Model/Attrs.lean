import Verif.Model.Aclgenerator

/-!
The attributes of a policy term as the keyword check of the generators sees them.
-/

namespace Verif
namespace Aclgenerator
open Policy

/-- A list attribute whose elements are not words. -/
def listVal {α : Type} (l : List α) : Val := if l.isEmpty then .falsy else .other

/-- A list of words. -/
def wordsVal (l : List String) : Val := if l.isEmpty then .falsy else .words l

/-- A flag or optional text; texts are not empty. -/
def flagVal (b : Bool) : Val := if b then .other else .falsy

/-- An optional number: `0` is false; capirca/lib/aclgenerator.py:290. -/
def numVal (n : Option Nat) : Val := if n.getD 0 = 0 then .falsy else .other

/-- `term.__dict__`, restricted to the attributes the model of `policy.Term` has;
capirca/lib/policy.py:443-531, capirca/lib/aclgenerator.py:289. -/
def attrsOf (t : Term) : List (String × Val) :=
  [("name", listVal t.name), ("action", wordsVal t.action), ("address", listVal t.address),
   ("address_exclude", listVal t.addressExclude),
   ("restrict_address_family", flagVal t.restrictAddressFamily.isSome),
   ("destination_address", listVal t.destinationAddress),
   ("destination_address_exclude", listVal t.destinationAddressExclude),
   ("destination_port", listVal t.destinationPort), ("destination_prefix", wordsVal t.destinationPrefix),
   ("filter_term", flagVal t.filterTerm), ("forwarding_class", wordsVal t.forwardingClass),
   ("forwarding_class_except", wordsVal t.forwardingClassExcept), ("logging", wordsVal t.logging),
   ("option", wordsVal t.option), ("port", listVal t.port), ("precedence", wordsVal t.precedence),
   ("protocol", wordsVal t.protocol), ("protocol_except", wordsVal t.protocolExcept),
   ("traffic_class", numVal t.trafficClass), ("routing_instance", flagVal t.routingInstance),
   ("source_address", listVal t.sourceAddress), ("source_address_exclude", listVal t.sourceAddressExclude),
   ("source_port", listVal t.sourcePort), ("source_prefix", wordsVal t.sourcePrefix), ("ttl", numVal t.ttl),
   ("verbatim", listVal t.verbatim), ("packet_length", listVal t.packetLength),
   ("fragment_offset", listVal t.fragmentOffset), ("hop_limit", listVal t.hopLimit),
   ("icmp_type", wordsVal t.icmpType), ("icmp_code", listVal t.icmpCode), ("ether_type", wordsVal t.etherType),
   ("traffic_type", wordsVal t.trafficType), ("dscp_match", wordsVal t.dscpMatch),
   ("dscp_except", wordsVal t.dscpExcept), ("next_ip", flagVal t.nextIp), ("next_interface", flagVal t.nextInterface),
   ("next_hop_group", flagVal t.nextHopGroup), ("flexible_match_range", wordsVal t.flexibleMatchRange),
   ("source_prefix_except", wordsVal t.sourcePrefixExcept),
   ("destination_prefix_except", wordsVal t.destinationPrefixExcept), ("encapsulate", flagVal t.encapsulate),
   ("decapsulate", flagVal t.decapsulate), ("port_mirror", flagVal t.portMirror),
   ("destination_zone", wordsVal t.destinationZone), ("source_zone", wordsVal t.sourceZone),
   ("source_tag", wordsVal t.sourceTag), ("destination_tag", wordsVal t.destinationTag),
   ("source_interface", flagVal t.sourceInterface.isSome),
   ("destination_interface", flagVal t.destinationInterface.isSome), ("platform", wordsVal t.platform),
   ("platform_exclude", wordsVal t.platformExclude), ("flattened", flagVal t.flattened)]

/-- The view of a term that `ACLGenerator.__init__` checks; capirca/lib/aclgenerator.py:279-308. -/
def kterm (t : Term) : KTerm := ⟨t.platform, t.platformExclude, attrsOf t⟩

end Aclgenerator
end Verif
