import Verif.Lemmas.Basic

/-!
Terms of generators that know the common keywords, zones and DSCP.
-/

namespace Verif.Props
open Verif Verif.Spec Policy Aclgenerator Nacaddr

/-- The term without zones and DSCP. -/
def noZone (t : Term) : Term := { t with sourceZone := [], destinationZone := [], dscpMatch := [], dscpExcept := [] }

/-- The keywords of these attributes. -/
def zoneWords : List String := ["source_zone", "destination_zone", "dscp_match", "dscp_except"]

theorem matches_noZone (t : Term) (p : Packet) : Matches t p ↔ Matches (noZone t) p ∧
    (OneOf t.sourceZone p.srcZone ∧ OneOf t.destinationZone p.dstZone) ∧ OneOf t.dscpMatch p.dscp ∧ p.dscp ∉ t.dscpExcept := by
  unfold Matches MatchMisc MatchRest noZone
  constructor
  · rintro ⟨a, b, c, d, ⟨e1, e2, e3, e4, e5, e6, e7, e8, e9⟩, f1, f2, f3, f4, f5, f6⟩
    exact ⟨⟨a, b, c, d, ⟨e1, e2, e3, e4, e5, e6, .inl rfl, .inl rfl, e9⟩, f1, f2, f3, .inl rfl, (by simp), f6⟩, ⟨e7, e8⟩, f4, f5⟩
  · rintro ⟨⟨a, b, c, d, ⟨e1, e2, e3, e4, e5, e6, _, _, e9⟩, f1, f2, f3, _, _, f6⟩, ⟨e7, e8⟩, f4, f5⟩
    exact ⟨a, b, c, d, ⟨e1, e2, e3, e4, e5, e6, e7, e8, e9⟩, f1, f2, f3, f4, f5, f6⟩

theorem basic_of_zone {g : Tables} {t : Term} (hg : ∀ e ∈ g.subTokens, e.1 ∈ g.tokens) (hw : g.warnOnly = warnIfUnsupported)
    (hr : ∀ s ∈ rareWords, s ∉ zoneWords → s ∉ g.tokens)
    (ha : Active g.platform (kterm t)) (h : initCheck g [([g.platform], [kterm t])] = .ok ()) : Basic (noZone t) := by
  have tok : ∀ s ∈ rareWords, s ∉ warnIfUnsupported ∧ startsWith "flatten" s = false := by decide
  have key : ∀ a : String × Val, a ∈ attrsOf t → a.1 ∈ rareWords → a.1 ∉ zoneWords →
      a.2.truthy = false := by
    intro a hm hs n1
    obtain ⟨h2, h3⟩ := tok a.1 hs
    exact unknown_unset hg hw ha h hm (hr _ hs n1) h2 h3
  constructor
  · exact Cisco.listVal_falsy (key ("address", listVal t.address) (by simp [attrsOf]) (by simp [rareWords]) (by simp [zoneWords]))
  · exact Cisco.listVal_falsy (key ("address_exclude", listVal t.addressExclude) (by simp [attrsOf]) (by simp [rareWords]) (by simp [zoneWords]))
  · exact Cisco.listVal_falsy (key ("port", listVal t.port) (by simp [attrsOf]) (by simp [rareWords]) (by simp [zoneWords]))
  · exact Cisco.wordsVal_falsy (key ("forwarding_class", wordsVal t.forwardingClass) (by simp [attrsOf]) (by simp [rareWords]) (by simp [zoneWords]))
  · exact Cisco.wordsVal_falsy (key ("forwarding_class_except", wordsVal t.forwardingClassExcept) (by simp [attrsOf]) (by simp [rareWords]) (by simp [zoneWords]))
  · exact Cisco.wordsVal_falsy (key ("precedence", wordsVal t.precedence) (by simp [attrsOf]) (by simp [rareWords]) (by simp [zoneWords]))
  · exact Cisco.listVal_falsy (key ("hop_limit", listVal t.hopLimit) (by simp [attrsOf]) (by simp [rareWords]) (by simp [zoneWords]))
  · exact Cisco.wordsVal_falsy (key ("ether_type", wordsVal t.etherType) (by simp [attrsOf]) (by simp [rareWords]) (by simp [zoneWords]))
  · exact Cisco.wordsVal_falsy (key ("traffic_type", wordsVal t.trafficType) (by simp [attrsOf]) (by simp [rareWords]) (by simp [zoneWords]))
  · rfl
  · rfl
  · exact Cisco.wordsVal_falsy (key ("flexible_match_range", wordsVal t.flexibleMatchRange) (by simp [attrsOf]) (by simp [rareWords]) (by simp [zoneWords]))
  · exact Cisco.wordsVal_falsy (key ("source_prefix", wordsVal t.sourcePrefix) (by simp [attrsOf]) (by simp [rareWords]) (by simp [zoneWords]))
  · exact Cisco.wordsVal_falsy (key ("destination_prefix", wordsVal t.destinationPrefix) (by simp [attrsOf]) (by simp [rareWords]) (by simp [zoneWords]))
  · exact Cisco.wordsVal_falsy (key ("source_prefix_except", wordsVal t.sourcePrefixExcept) (by simp [attrsOf]) (by simp [rareWords]) (by simp [zoneWords]))
  · exact Cisco.wordsVal_falsy (key ("destination_prefix_except", wordsVal t.destinationPrefixExcept) (by simp [attrsOf]) (by simp [rareWords]) (by simp [zoneWords]))
  · rfl
  · rfl
  · exact Cisco.listVal_falsy (key ("packet_length", listVal t.packetLength) (by simp [attrsOf]) (by simp [rareWords]) (by simp [zoneWords]))
  · exact Cisco.listVal_falsy (key ("fragment_offset", listVal t.fragmentOffset) (by simp [attrsOf]) (by simp [rareWords]) (by simp [zoneWords]))
  · exact flagVal_none (key ("source_interface", flagVal t.sourceInterface.isSome) (by simp [attrsOf]) (by simp [rareWords]) (by simp [zoneWords]))
  · exact flagVal_none (key ("destination_interface", flagVal t.destinationInterface.isSome) (by simp [attrsOf]) (by simp [rareWords]) (by simp [zoneWords]))
  · exact Cisco.numVal_falsy (key ("traffic_class", numVal t.trafficClass) (by simp [attrsOf]) (by simp [rareWords]) (by simp [zoneWords]))
  · exact Cisco.numVal_falsy (key ("ttl", numVal t.ttl) (by simp [attrsOf]) (by simp [rareWords]) (by simp [zoneWords]))

/-- When a term with only the common attributes, zones and DSCP matches. -/
theorem matches_zone {t : Term} (b : Basic (noZone t)) (u : Untagged t) {p : Packet} (h5 : FamilyOk p.ver t) :
    Matches t p ↔
      ((AddrMatch t.sourceAddress t.sourceAddressExclude p.ver p.src ∧
        AddrMatch t.destinationAddress t.destinationAddressExclude p.ver p.dst) ∧
      MatchProto t p ∧ (PortMatch t.sourcePort p.sport ∧ PortMatch t.destinationPort p.dport) ∧
      (OneOf t.icmpType p.icmpType ∧ OneOf t.icmpCode p.icmpCode) ∧
      (∀ o ∈ t.option, p.hasOption o = true)) ∧
      (OneOf t.sourceZone p.srcZone ∧ OneOf t.destinationZone p.dstZone) ∧ OneOf t.dscpMatch p.dscp ∧ p.dscp ∉ t.dscpExcept := by
  rw [matches_noZone, matches_basic b ⟨u.srcTag, u.dstTag, u.ttl, u.trafficClass⟩ h5]
  exact Iff.rfl

end Verif.Props
