import Verif.Lemmas.Basic

/-!
Terms of generators that know the common keywords and interfaces.
-/

namespace Verif.Props
open Verif Verif.Spec Policy Aclgenerator Nacaddr

/-- The term without interfaces. -/
def noIface (t : Term) : Term := { t with sourceInterface := none, destinationInterface := none }

theorem matches_noIface (t : Term) (p : Packet) : Matches t p ↔ Matches (noIface t) p ∧
    (t.sourceInterface = none ∨ t.sourceInterface = some p.inInterface) ∧
    (t.destinationInterface = none ∨ t.destinationInterface = some p.outInterface) := by
  unfold Matches MatchRest noIface
  constructor
  · rintro ⟨a, b, c, d, e, f1, f2, f3, f4, f5, f6, f7, f8, f9, f10⟩
    exact ⟨⟨a, b, c, d, e, f1, f2, f3, f4, f5, f6, f7, .inl rfl, .inl rfl, f10⟩, f8, f9⟩
  · rintro ⟨⟨a, b, c, d, e, f1, f2, f3, f4, f5, f6, f7, _, _, f10⟩, f8, f9⟩
    exact ⟨a, b, c, d, e, f1, f2, f3, f4, f5, f6, f7, f8, f9, f10⟩

theorem basic_of_iface {g : Tables} {t : Term} (hg : ∀ e ∈ g.subTokens, e.1 ∈ g.tokens) (hw : g.warnOnly = warnIfUnsupported)
    (hr : ∀ s ∈ rareWords, s ≠ "source_interface" → s ≠ "destination_interface" → s ∉ g.tokens)
    (ha : Active g.platform (kterm t)) (h : initCheck g [([g.platform], [kterm t])] = .ok ()) : Basic (noIface t) := by
  have tok : ∀ s ∈ rareWords, s ∉ warnIfUnsupported ∧ startsWith "flatten" s = false := by decide
  have key : ∀ a : String × Val, a ∈ attrsOf t → a.1 ∈ rareWords → a.1 ≠ "source_interface" → a.1 ≠ "destination_interface" →
      a.2.truthy = false := by
    intro a hm hs n1 n2
    obtain ⟨h2, h3⟩ := tok a.1 hs
    exact unknown_unset hg hw ha h hm (hr _ hs n1 n2) h2 h3
  constructor
  · exact Cisco.listVal_falsy (key ("address", listVal t.address) (by simp [attrsOf]) (by simp [rareWords]) (by simp) (by simp))
  · exact Cisco.listVal_falsy (key ("address_exclude", listVal t.addressExclude) (by simp [attrsOf]) (by simp [rareWords]) (by simp) (by simp))
  · exact Cisco.listVal_falsy (key ("port", listVal t.port) (by simp [attrsOf]) (by simp [rareWords]) (by simp) (by simp))
  · exact Cisco.wordsVal_falsy (key ("forwarding_class", wordsVal t.forwardingClass) (by simp [attrsOf]) (by simp [rareWords]) (by simp) (by simp))
  · exact Cisco.wordsVal_falsy (key ("forwarding_class_except", wordsVal t.forwardingClassExcept) (by simp [attrsOf]) (by simp [rareWords]) (by simp) (by simp))
  · exact Cisco.wordsVal_falsy (key ("precedence", wordsVal t.precedence) (by simp [attrsOf]) (by simp [rareWords]) (by simp) (by simp))
  · exact Cisco.listVal_falsy (key ("hop_limit", listVal t.hopLimit) (by simp [attrsOf]) (by simp [rareWords]) (by simp) (by simp))
  · exact Cisco.wordsVal_falsy (key ("ether_type", wordsVal t.etherType) (by simp [attrsOf]) (by simp [rareWords]) (by simp) (by simp))
  · exact Cisco.wordsVal_falsy (key ("traffic_type", wordsVal t.trafficType) (by simp [attrsOf]) (by simp [rareWords]) (by simp) (by simp))
  · exact Cisco.wordsVal_falsy (key ("dscp_match", wordsVal t.dscpMatch) (by simp [attrsOf]) (by simp [rareWords]) (by simp) (by simp))
  · exact Cisco.wordsVal_falsy (key ("dscp_except", wordsVal t.dscpExcept) (by simp [attrsOf]) (by simp [rareWords]) (by simp) (by simp))
  · exact Cisco.wordsVal_falsy (key ("flexible_match_range", wordsVal t.flexibleMatchRange) (by simp [attrsOf]) (by simp [rareWords]) (by simp) (by simp))
  · exact Cisco.wordsVal_falsy (key ("source_prefix", wordsVal t.sourcePrefix) (by simp [attrsOf]) (by simp [rareWords]) (by simp) (by simp))
  · exact Cisco.wordsVal_falsy (key ("destination_prefix", wordsVal t.destinationPrefix) (by simp [attrsOf]) (by simp [rareWords]) (by simp) (by simp))
  · exact Cisco.wordsVal_falsy (key ("source_prefix_except", wordsVal t.sourcePrefixExcept) (by simp [attrsOf]) (by simp [rareWords]) (by simp) (by simp))
  · exact Cisco.wordsVal_falsy (key ("destination_prefix_except", wordsVal t.destinationPrefixExcept) (by simp [attrsOf]) (by simp [rareWords]) (by simp) (by simp))
  · exact Cisco.wordsVal_falsy (key ("destination_zone", wordsVal t.destinationZone) (by simp [attrsOf]) (by simp [rareWords]) (by simp) (by simp))
  · exact Cisco.wordsVal_falsy (key ("source_zone", wordsVal t.sourceZone) (by simp [attrsOf]) (by simp [rareWords]) (by simp) (by simp))
  · exact Cisco.listVal_falsy (key ("packet_length", listVal t.packetLength) (by simp [attrsOf]) (by simp [rareWords]) (by simp) (by simp))
  · exact Cisco.listVal_falsy (key ("fragment_offset", listVal t.fragmentOffset) (by simp [attrsOf]) (by simp [rareWords]) (by simp) (by simp))
  · rfl
  · rfl
  · exact Cisco.numVal_falsy (key ("traffic_class", numVal t.trafficClass) (by simp [attrsOf]) (by simp [rareWords]) (by simp) (by simp))
  · exact Cisco.numVal_falsy (key ("ttl", numVal t.ttl) (by simp [attrsOf]) (by simp [rareWords]) (by simp) (by simp))

/-- When a term with only the common attributes and interfaces matches. -/
theorem matches_iface {t : Term} (b : Basic (noIface t)) (u : Untagged t) {p : Packet} (h5 : FamilyOk p.ver t) :
    Matches t p ↔
      ((AddrMatch t.sourceAddress t.sourceAddressExclude p.ver p.src ∧
        AddrMatch t.destinationAddress t.destinationAddressExclude p.ver p.dst) ∧
      MatchProto t p ∧ (PortMatch t.sourcePort p.sport ∧ PortMatch t.destinationPort p.dport) ∧
      (OneOf t.icmpType p.icmpType ∧ OneOf t.icmpCode p.icmpCode) ∧
      (∀ o ∈ t.option, p.hasOption o = true)) ∧
      (t.sourceInterface = none ∨ t.sourceInterface = some p.inInterface) ∧
      (t.destinationInterface = none ∨ t.destinationInterface = some p.outInterface) := by
  rw [matches_noIface, matches_basic b ⟨u.srcTag, u.dstTag, u.ttl, u.trafficClass⟩ h5]
  exact Iff.rfl

end Verif.Props
