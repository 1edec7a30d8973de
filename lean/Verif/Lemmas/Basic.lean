import Verif.Props.Cisco
import Verif.Lemmas.Keywords

/-!
Terms of generators that know only the common keywords: what the keyword check leaves of a term, and when such a term
matches.
-/

namespace Verif.Props
open Verif Verif.Spec Policy Aclgenerator Nacaddr

/-- Keywords beyond the common ones. -/
def rareWords : List String :=
  ["address", "address_exclude", "port", "forwarding_class", "forwarding_class_except", "precedence",
   "hop_limit", "ether_type", "traffic_type", "dscp_match", "dscp_except", "flexible_match_range", "source_prefix",
   "destination_prefix", "source_prefix_except", "destination_prefix_except", "destination_zone", "source_zone",
   "traffic_class", "ttl", "packet_length", "fragment_offset", "source_interface", "destination_interface"]

/-- The attributes beyond the common ones are not set. -/
structure Basic (t : Term) : Prop where
  address : t.address = []
  addressExclude : t.addressExclude = []
  port : t.port = []
  forwardingClass : t.forwardingClass = []
  forwardingClassExcept : t.forwardingClassExcept = []
  precedence : t.precedence = []
  hopLimit : t.hopLimit = []
  etherType : t.etherType = []
  trafficType : t.trafficType = []
  dscpMatch : t.dscpMatch = []
  dscpExcept : t.dscpExcept = []
  flexible : t.flexibleMatchRange = []
  sourcePrefix : t.sourcePrefix = []
  destinationPrefix : t.destinationPrefix = []
  sourcePrefixExcept : t.sourcePrefixExcept = []
  destinationPrefixExcept : t.destinationPrefixExcept = []
  destinationZone : t.destinationZone = []
  sourceZone : t.sourceZone = []
  packetLength : t.packetLength = []
  fragmentOffset : t.fragmentOffset = []
  sourceInterface : t.sourceInterface = none
  destinationInterface : t.destinationInterface = none
  trafficClass : t.trafficClass = none ∨ t.trafficClass = some 0
  ttl : t.ttl = none ∨ t.ttl = some 0

theorem flagVal_none {α : Type} {o : Option α} (h : (flagVal o.isSome).truthy = false) : o = none := by
  cases o with
  | none => rfl
  | some => cases h

theorem basic_of {g : Tables} {t : Term} (hg : ∀ e ∈ g.subTokens, e.1 ∈ g.tokens) (hw : g.warnOnly = warnIfUnsupported)
    (hr : ∀ s ∈ rareWords, s ∉ g.tokens) (ha : Active g.platform (kterm t))
    (h : initCheck g [([g.platform], [kterm t])] = .ok ()) : Basic t := by
  have tok : ∀ s ∈ rareWords, s ∉ warnIfUnsupported ∧ startsWith "flatten" s = false := by decide
  have key : ∀ a : String × Val, a ∈ attrsOf t → a.1 ∈ rareWords → a.2.truthy = false := by
    intro a hm hs
    obtain ⟨h2, h3⟩ := tok a.1 hs
    exact unknown_unset hg hw ha h hm (hr _ hs) h2 h3
  constructor
  · exact Cisco.listVal_falsy (key ("address", listVal t.address) (by simp [attrsOf]) (by simp [rareWords]))
  · exact Cisco.listVal_falsy (key ("address_exclude", listVal t.addressExclude) (by simp [attrsOf]) (by simp [rareWords]))
  · exact Cisco.listVal_falsy (key ("port", listVal t.port) (by simp [attrsOf]) (by simp [rareWords]))
  · exact Cisco.wordsVal_falsy (key ("forwarding_class", wordsVal t.forwardingClass) (by simp [attrsOf]) (by simp [rareWords]))
  · exact Cisco.wordsVal_falsy (key ("forwarding_class_except", wordsVal t.forwardingClassExcept) (by simp [attrsOf]) (by simp [rareWords]))
  · exact Cisco.wordsVal_falsy (key ("precedence", wordsVal t.precedence) (by simp [attrsOf]) (by simp [rareWords]))
  · exact Cisco.listVal_falsy (key ("hop_limit", listVal t.hopLimit) (by simp [attrsOf]) (by simp [rareWords]))
  · exact Cisco.wordsVal_falsy (key ("ether_type", wordsVal t.etherType) (by simp [attrsOf]) (by simp [rareWords]))
  · exact Cisco.wordsVal_falsy (key ("traffic_type", wordsVal t.trafficType) (by simp [attrsOf]) (by simp [rareWords]))
  · exact Cisco.wordsVal_falsy (key ("dscp_match", wordsVal t.dscpMatch) (by simp [attrsOf]) (by simp [rareWords]))
  · exact Cisco.wordsVal_falsy (key ("dscp_except", wordsVal t.dscpExcept) (by simp [attrsOf]) (by simp [rareWords]))
  · exact Cisco.wordsVal_falsy (key ("flexible_match_range", wordsVal t.flexibleMatchRange) (by simp [attrsOf]) (by simp [rareWords]))
  · exact Cisco.wordsVal_falsy (key ("source_prefix", wordsVal t.sourcePrefix) (by simp [attrsOf]) (by simp [rareWords]))
  · exact Cisco.wordsVal_falsy (key ("destination_prefix", wordsVal t.destinationPrefix) (by simp [attrsOf]) (by simp [rareWords]))
  · exact Cisco.wordsVal_falsy (key ("source_prefix_except", wordsVal t.sourcePrefixExcept) (by simp [attrsOf]) (by simp [rareWords]))
  · exact Cisco.wordsVal_falsy (key ("destination_prefix_except", wordsVal t.destinationPrefixExcept) (by simp [attrsOf]) (by simp [rareWords]))
  · exact Cisco.wordsVal_falsy (key ("destination_zone", wordsVal t.destinationZone) (by simp [attrsOf]) (by simp [rareWords]))
  · exact Cisco.wordsVal_falsy (key ("source_zone", wordsVal t.sourceZone) (by simp [attrsOf]) (by simp [rareWords]))
  · exact Cisco.listVal_falsy (key ("packet_length", listVal t.packetLength) (by simp [attrsOf]) (by simp [rareWords]))
  · exact Cisco.listVal_falsy (key ("fragment_offset", listVal t.fragmentOffset) (by simp [attrsOf]) (by simp [rareWords]))
  · exact flagVal_none (key ("source_interface", flagVal t.sourceInterface.isSome) (by simp [attrsOf]) (by simp [rareWords]))
  · exact flagVal_none (key ("destination_interface", flagVal t.destinationInterface.isSome) (by simp [attrsOf]) (by simp [rareWords]))
  · exact Cisco.numVal_falsy (key ("traffic_class", numVal t.trafficClass) (by simp [attrsOf]) (by simp [rareWords]))
  · exact Cisco.numVal_falsy (key ("ttl", numVal t.ttl) (by simp [attrsOf]) (by simp [rareWords]))

/-- An attribute the generator has no keyword for is not set. -/
theorem unset {g : Tables} {t : Term} (hg : ∀ e ∈ g.subTokens, e.1 ∈ g.tokens) (hw : g.warnOnly = warnIfUnsupported)
    (ha : Active g.platform (kterm t)) (h : initCheck g [([g.platform], [kterm t])] = .ok ()) (s : String) {v : Val}
    (hm : (s, v) ∈ attrsOf t) (ht : s ∉ g.tokens ∧ s ∉ warnIfUnsupported ∧ startsWith "flatten" s = false) :
    v.truthy = false := unknown_unset hg hw ha h hm ht.1 ht.2.1 ht.2.2

/-- What the keyword check does not settle: attributes that are only warned about and zero values. -/
structure Untagged (t : Term) : Prop where
  srcTag : t.sourceTag = []
  dstTag : t.destinationTag = []
  ttl : t.ttl ≠ some 0
  trafficClass : t.trafficClass ≠ some 0

/-- When a term with only the common attributes matches. -/
theorem matches_basic {t : Term} (b : Basic t) (u : Untagged t) {p : Packet} (h5 : FamilyOk p.ver t) :
    Matches t p ↔
      (AddrMatch t.sourceAddress t.sourceAddressExclude p.ver p.src ∧
        AddrMatch t.destinationAddress t.destinationAddressExclude p.ver p.dst) ∧
      MatchProto t p ∧ (PortMatch t.sourcePort p.sport ∧ PortMatch t.destinationPort p.dport) ∧
      (OneOf t.icmpType p.icmpType ∧ OneOf t.icmpCode p.icmpCode) ∧
      (∀ o ∈ t.option, p.hasOption o = true) := by
  have ttl : t.ttl = none := b.ttl.resolve_right u.ttl
  have tc : t.trafficClass = none := b.trafficClass.resolve_right u.trafficClass
  unfold FamilyOk at h5
  unfold Matches MatchAddrs MatchPorts MatchPrefixes MatchMisc MatchRest
  rw [b.address, b.addressExclude, b.port, b.forwardingClass, b.forwardingClassExcept, b.precedence,
    b.hopLimit, b.etherType, b.trafficType, b.dscpMatch, b.dscpExcept, b.flexible, b.sourcePrefix, b.destinationPrefix,
    b.sourcePrefixExcept, b.destinationPrefixExcept, b.destinationZone, b.sourceZone, u.srcTag, u.dstTag, ttl, tc,
    b.packetLength, b.fragmentOffset, b.sourceInterface, b.destinationInterface]
  simp only [OneOf, RangeMatch, true_or, and_true, true_and, and_self, List.not_mem_nil, not_false_iff,
    false_implies, implies_true, h5]
  constructor
  · rintro ⟨⟨a1, a2⟩, ⟨b1, b2⟩, c1, d1, d2, d3⟩
    exact ⟨⟨a1, a2⟩, c1, ⟨b1, b2⟩, ⟨d2, d3⟩, d1⟩
  · rintro ⟨⟨a1, a2⟩, c1, ⟨b1, b2⟩, ⟨d2, d3⟩, d1⟩
    exact ⟨⟨a1, a2⟩, ⟨b1, b2⟩, c1, d1, d2, d3⟩

end Verif.Props
