import Verif.Lemmas.Basic

/-!
Terms of generators that know the common keywords and lists of prefixes.
-/

namespace Verif.Props
open Verif Verif.Spec Policy Aclgenerator Nacaddr

/-- The term without lists of prefixes. -/
def noPrefix (t : Term) : Term :=
  { t with sourcePrefix := [], sourcePrefixExcept := [], destinationPrefix := [], destinationPrefixExcept := [] }

/-- The keywords of these attributes. -/
def prefixWords : List String := ["source_prefix", "source_prefix_except", "destination_prefix", "destination_prefix_except"]

/-- What the lists of prefixes ask for. -/
def PrefixOk (inc exc : List String) (f : String → Bool) : Prop :=
  (inc = [] ∨ ∃ n ∈ inc, f n = true) ∧ ∀ n ∈ exc, f n = false

theorem matches_noPrefix (t : Term) (p : Packet) : Matches t p ↔ Matches (noPrefix t) p ∧
    PrefixOk t.sourcePrefix t.sourcePrefixExcept p.inSrcPrefix ∧ PrefixOk t.destinationPrefix t.destinationPrefixExcept p.inDstPrefix := by
  unfold Matches MatchPrefixes noPrefix PrefixOk
  constructor
  · rintro ⟨a, b, c, ⟨d1, d2, d3, d4, d5⟩, e, f⟩
    exact ⟨⟨a, b, c, ⟨.inl rfl, (by simp), .inl rfl, (by simp), d5⟩, e, f⟩, ⟨d1, d2⟩, d3, d4⟩
  · rintro ⟨⟨a, b, c, ⟨_, _, _, _, d5⟩, e, f⟩, ⟨d1, d2⟩, d3, d4⟩
    exact ⟨a, b, c, ⟨d1, d2, d3, d4, d5⟩, e, f⟩

theorem basic_of_prefix {g : Tables} {t : Term} (hg : ∀ e ∈ g.subTokens, e.1 ∈ g.tokens) (hw : g.warnOnly = warnIfUnsupported)
    (hr : ∀ s ∈ rareWords, s ∉ prefixWords → s ∉ g.tokens)
    (ha : Active g.platform (kterm t)) (h : initCheck g [([g.platform], [kterm t])] = .ok ()) : Basic (noPrefix t) := by
  have tok : ∀ s ∈ rareWords, s ∉ warnIfUnsupported ∧ startsWith "flatten" s = false := by decide
  have key : ∀ a : String × Val, a ∈ attrsOf t → a.1 ∈ rareWords → a.1 ∉ prefixWords →
      a.2.truthy = false := by
    intro a hm hs n1
    obtain ⟨h2, h3⟩ := tok a.1 hs
    exact unknown_unset hg hw ha h hm (hr _ hs n1) h2 h3
  constructor
  · exact Cisco.listVal_falsy (key ("address", listVal t.address) (by simp [attrsOf]) (by simp [rareWords]) (by simp [prefixWords]))
  · exact Cisco.listVal_falsy (key ("address_exclude", listVal t.addressExclude) (by simp [attrsOf]) (by simp [rareWords]) (by simp [prefixWords]))
  · exact Cisco.listVal_falsy (key ("port", listVal t.port) (by simp [attrsOf]) (by simp [rareWords]) (by simp [prefixWords]))
  · exact Cisco.wordsVal_falsy (key ("forwarding_class", wordsVal t.forwardingClass) (by simp [attrsOf]) (by simp [rareWords]) (by simp [prefixWords]))
  · exact Cisco.wordsVal_falsy (key ("forwarding_class_except", wordsVal t.forwardingClassExcept) (by simp [attrsOf]) (by simp [rareWords]) (by simp [prefixWords]))
  · exact Cisco.wordsVal_falsy (key ("precedence", wordsVal t.precedence) (by simp [attrsOf]) (by simp [rareWords]) (by simp [prefixWords]))
  · exact Cisco.listVal_falsy (key ("hop_limit", listVal t.hopLimit) (by simp [attrsOf]) (by simp [rareWords]) (by simp [prefixWords]))
  · exact Cisco.wordsVal_falsy (key ("ether_type", wordsVal t.etherType) (by simp [attrsOf]) (by simp [rareWords]) (by simp [prefixWords]))
  · exact Cisco.wordsVal_falsy (key ("traffic_type", wordsVal t.trafficType) (by simp [attrsOf]) (by simp [rareWords]) (by simp [prefixWords]))
  · exact Cisco.wordsVal_falsy (key ("dscp_match", wordsVal t.dscpMatch) (by simp [attrsOf]) (by simp [rareWords]) (by simp [prefixWords]))
  · exact Cisco.wordsVal_falsy (key ("dscp_except", wordsVal t.dscpExcept) (by simp [attrsOf]) (by simp [rareWords]) (by simp [prefixWords]))
  · exact Cisco.wordsVal_falsy (key ("flexible_match_range", wordsVal t.flexibleMatchRange) (by simp [attrsOf]) (by simp [rareWords]) (by simp [prefixWords]))
  · rfl
  · rfl
  · rfl
  · rfl
  · exact Cisco.wordsVal_falsy (key ("destination_zone", wordsVal t.destinationZone) (by simp [attrsOf]) (by simp [rareWords]) (by simp [prefixWords]))
  · exact Cisco.wordsVal_falsy (key ("source_zone", wordsVal t.sourceZone) (by simp [attrsOf]) (by simp [rareWords]) (by simp [prefixWords]))
  · exact Cisco.listVal_falsy (key ("packet_length", listVal t.packetLength) (by simp [attrsOf]) (by simp [rareWords]) (by simp [prefixWords]))
  · exact Cisco.listVal_falsy (key ("fragment_offset", listVal t.fragmentOffset) (by simp [attrsOf]) (by simp [rareWords]) (by simp [prefixWords]))
  · exact flagVal_none (key ("source_interface", flagVal t.sourceInterface.isSome) (by simp [attrsOf]) (by simp [rareWords]) (by simp [prefixWords]))
  · exact flagVal_none (key ("destination_interface", flagVal t.destinationInterface.isSome) (by simp [attrsOf]) (by simp [rareWords]) (by simp [prefixWords]))
  · exact Cisco.numVal_falsy (key ("traffic_class", numVal t.trafficClass) (by simp [attrsOf]) (by simp [rareWords]) (by simp [prefixWords]))
  · exact Cisco.numVal_falsy (key ("ttl", numVal t.ttl) (by simp [attrsOf]) (by simp [rareWords]) (by simp [prefixWords]))

/-- When a term with only the common attributes and lists of prefixes matches. -/
theorem matches_prefix {t : Term} (b : Basic (noPrefix t)) (u : Untagged t) {p : Packet} (h5 : FamilyOk p.ver t) :
    Matches t p ↔
      ((AddrMatch t.sourceAddress t.sourceAddressExclude p.ver p.src ∧
        AddrMatch t.destinationAddress t.destinationAddressExclude p.ver p.dst) ∧
      MatchProto t p ∧ (PortMatch t.sourcePort p.sport ∧ PortMatch t.destinationPort p.dport) ∧
      (OneOf t.icmpType p.icmpType ∧ OneOf t.icmpCode p.icmpCode) ∧
      (∀ o ∈ t.option, p.hasOption o = true)) ∧
      PrefixOk t.sourcePrefix t.sourcePrefixExcept p.inSrcPrefix ∧ PrefixOk t.destinationPrefix t.destinationPrefixExcept p.inDstPrefix := by
  rw [matches_noPrefix, matches_basic b ⟨u.srcTag, u.dstTag, u.ttl, u.trafficClass⟩ h5]
  exact Iff.rfl

end Verif.Props
