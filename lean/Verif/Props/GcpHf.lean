import Verif.Lemmas.GcpHf
import Verif.Props.GceLimits

/-!
Properties of the model of capirca/lib/gcp_hf.py: C111, C112, C113, C114.
-/

namespace Verif.Props
open Verif Verif.Spec Verif.Spec.GcpHf Verif.GcpHf Policy Aclgenerator Nacaddr

/-- The addresses and lists of the side a direction looks at are rendered faithfully in a filter of the family. -/
structure HfSide (af : String) (protocol : List String) (l : List Net) (intel : List String) : Prop where
  wf : ∀ n ∈ l, WF n
  plain : ∀ n ∈ l, n.ver = .v6 → ¬ Gce.Embedded n.addr
  one : l = [] ∨ intel = []
  mixed : intel ≠ [] → af = "mixed" → "icmpv6" ∉ protocol

/-- The terms that are rendered faithfully in a filter of the family and direction. For what happens without the conditions
beyond the tool's own checks, see the refutations. -/
structure HfFits (af dir : String) (g : HTerm) : Prop where
  keywords : initCheck Verif.GcpHf.tables [(["gcp_hf"], [kterm g.term])] = .ok ()
  sane : sanityCheck g.term = .ok ()
  action : ∃ a, g.term.action = [a]
  family : g.term.restrictAddressFamily = none
  ttl : g.term.ttl ≠ some 0
  trafficClass : g.term.trafficClass ≠ some 0
  ingress : dir = "INGRESS" → (g.term.destinationAddress = [] ∧ g.term.destinationPrefix = []) ∧
    HfSide af g.term.protocol g.term.sourceAddress g.term.sourcePrefix
  egress : dir = "EGRESS" → (g.term.sourceAddress = [] ∧ g.term.sourcePrefix = []) ∧
    HfSide af g.term.protocol g.term.destinationAddress g.term.destinationPrefix
  protos : ∀ s ∈ g.term.protocol, s ∈ iana.map Prod.fst
  ports : g.term.destinationPort ≠ [] → g.term.protocol ≠ []

/-- The term without lists of prefixes. -/
def clear (t : Term) : Term := { t with sourcePrefix := [], destinationPrefix := [] }

theorem matches_clear {t : Term} {p : Packet} :
    Matches t p ↔ Matches (clear t) p ∧ (t.sourcePrefix = [] ∨ ∃ n ∈ t.sourcePrefix, p.inSrcPrefix n = true) ∧
      (t.destinationPrefix = [] ∨ ∃ n ∈ t.destinationPrefix, p.inDstPrefix n = true) := by
  unfold Matches MatchPrefixes
  constructor
  · rintro ⟨a, b, c, ⟨d1, d2, d3, d4, d5, d6⟩, e, f⟩
    exact ⟨⟨a, b, c, ⟨.inl rfl, d2, .inl rfl, d4, d5, d6⟩, e, f⟩, d1, d3⟩
  · rintro ⟨⟨a, b, c, ⟨_, d2, _, d4, d5, d6⟩, e, f⟩, d1, d3⟩
    exact ⟨a, b, c, ⟨d1, d2, d3, d4, d5, d6⟩, e, f⟩

theorem hf_tables_ok : ∀ e ∈ Verif.GcpHf.tables.subTokens, e.1 ∈ Verif.GcpHf.tables.tokens := by decide

theorem hf_active {g : HTerm} (h : GcpHf.Live g) : Active "gcp_hf" (kterm g.term) := ⟨h.2.1, h.2.2⟩

theorem hf_unset {t : Term} (ha : Active "gcp_hf" (kterm t))
    (h : initCheck Verif.GcpHf.tables [(["gcp_hf"], [kterm t])] = .ok ()) (s : String) {v : Val} (hm : (s, v) ∈ attrsOf t)
    (ht : s ∉ Verif.GcpHf.tables.tokens ∧ s ∉ warnIfUnsupported ∧ startsWith "flatten" s = false) : v.truthy = false :=
  unset (g := Verif.GcpHf.tables) hf_tables_ok rfl ha h s hm ht

theorem hf_basic {t : Term} (ha : Active "gcp_hf" (kterm t))
    (h : initCheck Verif.GcpHf.tables [(["gcp_hf"], [kterm t])] = .ok ()) : Basic (clear t) := by
  have tok : ∀ s ∈ rareWords, s ≠ "source_prefix" → s ≠ "destination_prefix" →
      s ∉ Verif.GcpHf.tables.tokens ∧ s ∉ warnIfUnsupported ∧ startsWith "flatten" s = false := by decide
  have key : ∀ a : String × Val, a ∈ attrsOf t → a.1 ∈ rareWords → a.1 ≠ "source_prefix" → a.1 ≠ "destination_prefix" →
      a.2.truthy = false := by
    intro a hm hs h1 h2
    exact hf_unset ha h a.1 hm (tok a.1 hs h1 h2)
  constructor
  case sourcePrefix => rfl
  case destinationPrefix => rfl
  · exact Cisco.listVal_falsy (key ("address", listVal t.address) (by simp [attrsOf]) (by simp [rareWords]) (by simp) (by simp))
  · exact Cisco.listVal_falsy (key ("address_exclude", listVal t.addressExclude) (by simp [attrsOf]) (by simp [rareWords]) (by simp) (by simp))
  · exact Cisco.listVal_falsy (key ("port", listVal t.port) (by simp [attrsOf]) (by simp [rareWords]) (by simp) (by simp))
  · exact Cisco.wordsVal_falsy (key ("forwarding_class", wordsVal t.forwardingClass) (by simp [attrsOf]) (by simp [rareWords]) (by simp) (by simp))
  · exact Cisco.wordsVal_falsy (key ("forwarding_class_except", wordsVal t.forwardingClassExcept) (by simp [attrsOf]) (by simp [rareWords]) (by simp) (by simp))
  · exact Cisco.wordsVal_falsy (key ("precedence", wordsVal t.precedence) (by simp [attrsOf]) (by simp [rareWords]) (by simp) (by simp))
  · exact Cisco.listVal_falsy (key ("hop_limit", listVal t.hopLimit) (by simp [attrsOf]) (by simp [rareWords]) (by simp) (by simp))
  · exact Cisco.wordsVal_falsy (key ("ether_type", wordsVal t.etherType) (by simp [attrsOf]) (by simp [rareWords]) (by simp) (by simp))
  · exact Cisco.wordsVal_falsy (key ("traffic_type", wordsVal t.trafficType) (by simp [attrsOf]) (by simp [rareWords]) (by simp) (by simp))
  · exact Cisco.wordsVal_falsy (key ("dscp_match", wordsVal t.dscpMatch) (by simp [attrsOf]) (by simp [rareWords]) (by simp) (by simp))
  · exact Cisco.wordsVal_falsy (key ("dscp_except", wordsVal t.dscpExcept) (by simp [attrsOf]) (by simp [rareWords]) (by simp) (by simp))
  · exact Cisco.wordsVal_falsy (key ("flexible_match_range", wordsVal t.flexibleMatchRange) (by simp [attrsOf]) (by simp [rareWords]) (by simp) (by simp))
  · exact Cisco.wordsVal_falsy (key ("source_prefix_except", wordsVal t.sourcePrefixExcept) (by simp [attrsOf]) (by simp [rareWords]) (by simp) (by simp))
  · exact Cisco.wordsVal_falsy (key ("destination_prefix_except", wordsVal t.destinationPrefixExcept) (by simp [attrsOf]) (by simp [rareWords]) (by simp) (by simp))
  · exact Cisco.wordsVal_falsy (key ("destination_zone", wordsVal t.destinationZone) (by simp [attrsOf]) (by simp [rareWords]) (by simp) (by simp))
  · exact Cisco.wordsVal_falsy (key ("source_zone", wordsVal t.sourceZone) (by simp [attrsOf]) (by simp [rareWords]) (by simp) (by simp))
  · exact Cisco.listVal_falsy (key ("packet_length", listVal t.packetLength) (by simp [attrsOf]) (by simp [rareWords]) (by simp) (by simp))
  · exact Cisco.listVal_falsy (key ("fragment_offset", listVal t.fragmentOffset) (by simp [attrsOf]) (by simp [rareWords]) (by simp) (by simp))
  · exact flagVal_none (key ("source_interface", flagVal t.sourceInterface.isSome) (by simp [attrsOf]) (by simp [rareWords]) (by simp) (by simp))
  · exact flagVal_none (key ("destination_interface", flagVal t.destinationInterface.isSome) (by simp [attrsOf]) (by simp [rareWords]) (by simp) (by simp))
  · exact Cisco.numVal_falsy (key ("traffic_class", numVal t.trafficClass) (by simp [attrsOf]) (by simp [rareWords]) (by simp) (by simp))
  · exact Cisco.numVal_falsy (key ("ttl", numVal t.ttl) (by simp [attrsOf]) (by simp [rareWords]) (by simp) (by simp))

theorem hf_refused {g : HTerm} (h : GcpHf.refused g = false) :
    (g.term.destinationTag = [] ∧ g.term.sourceTag = [] ∧ g.term.sourcePort = [] ∧ g.term.option = []) ∧
    (g.targets.length ≤ 256 ∧ ∀ x ∈ g.targets, projectValid x.1 = true ∧ vpcValid x.2 = true) ∧
    g.term.destinationPort.length ≤ 256 ∧ ∀ n ∈ g.term.sourcePrefix ++ g.term.destinationPrefix, n ∈ intelNames := by
  unfold GcpHf.refused at h
  simp only [Bool.or_eq_false_iff, Bool.not_eq_false', List.isEmpty_iff, decide_eq_false_iff_not, List.any_eq_false,
    Bool.or_eq_true, Bool.not_eq_true', not_or, Bool.not_eq_false, List.contains_iff_mem, Nat.not_lt] at h
  obtain ⟨⟨⟨⟨⟨⟨⟨⟨h1, h2⟩, h3⟩, h4⟩, h5⟩, h6⟩, h7⟩, h8⟩, h9⟩ := h
  refine ⟨⟨h1, h2, h5, h6⟩, ⟨h3, h4⟩, h7, fun n hn => ?_⟩
  rcases List.mem_append.1 hn with hn | hn
  · simpa using h8 n hn
  · simpa using h9 n hn

theorem hf_matches {af dir : String} {g : HTerm} (f : HfFits af dir g) (hl : GcpHf.Live g) (hr : GcpHf.refused g = false) {p : Packet} :
    Matches g.term p ↔
      ((g.term.sourceAddress = [] ∨ Den g.term.sourceAddress p.ver p.src) ∧
        (g.term.destinationAddress = [] ∨ Den g.term.destinationAddress p.ver p.dst)) ∧
      (OneOf g.term.protocol p.proto ∧ PortMatch g.term.destinationPort p.dport) ∧
      (g.term.sourcePrefix = [] ∨ ∃ n ∈ g.term.sourcePrefix, p.inSrcPrefix n = true) ∧
      (g.term.destinationPrefix = [] ∨ ∃ n ∈ g.term.destinationPrefix, p.inDstPrefix n = true) := by
  obtain ⟨⟨t1, t2, t3, t4⟩, _⟩ := hf_refused hr
  have un := fun (s : String) {v : Val} => hf_unset (hf_active hl) f.keywords s (v := v)
  have b := hf_basic (hf_active hl) f.keywords
  have h5 : (clear g.term).protocolExcept = [] :=
    Cisco.wordsVal_falsy (un "protocol_except" (by simp [attrsOf, clear]) (by decide))
  have h8 : (clear g.term).icmpType = [] :=
    Cisco.wordsVal_falsy (un "icmp_type" (by simp [attrsOf, clear]) (by decide))
  have h9 : (clear g.term).icmpCode = [] :=
    Cisco.listVal_falsy (un "icmp_code" (by simp [attrsOf, clear]) (by decide))
  have h6 : (clear g.term).sourceAddressExclude = [] :=
    Cisco.listVal_falsy (un "source_address_exclude" (by simp [attrsOf, clear]) (by decide))
  have h7 : (clear g.term).destinationAddressExclude = [] :=
    Cisco.listVal_falsy (un "destination_address_exclude" (by simp [attrsOf, clear]) (by decide))
  have h10 : (clear g.term).option = [] := t4
  have h11 : (clear g.term).sourcePort = [] := t3
  rw [matches_clear, matches_basic b ⟨t2, t1, f.ttl, f.trafficClass⟩ (.inl f.family)]
  unfold MatchProto AddrMatch
  rw [h5, h8, h9, h10, h11, h6, h7]
  constructor
  · rintro ⟨⟨⟨a1, a2⟩, c, d, _, _⟩, e⟩
    exact ⟨⟨a1.1, a2.1⟩, ⟨c.1, d.2⟩, e⟩
  · rintro ⟨⟨a1, a2⟩, ⟨c, d⟩, e⟩
    exact ⟨⟨⟨⟨a1, by simp [Den]⟩, a2, by simp [Den]⟩, ⟨c, by simp⟩, ⟨.inl rfl, d⟩, ⟨.inl rfl, .inl rfl⟩, by simp⟩, e⟩

theorem hf_verbatim {af dir : String} {g : HTerm} (f : HfFits af dir g) (hl : GcpHf.Live g) : g.term.verbatim = [] :=
  Cisco.listVal_falsy (hf_unset (hf_active hl) f.keywords "verbatim" (by simp [attrsOf]) (by decide))

/-! ### the entries -/

theorem hf_dropped {v : Ver} {p : Proto} (h : GcpHf.dropped v p = true) :
    (v = .v6 ∧ (p = .str "icmp" ∨ p = .str "igmp")) ∨ (v = .v4 ∧ p = .str "icmpv6") := by
  unfold GcpHf.dropped at h
  simp only [Bool.or_eq_true, Bool.and_eq_true, beq_iff_eq] at h
  rcases h with (h | h) | h
  · exact .inl ⟨h.2, .inl h.1⟩
  · exact .inr ⟨h.2, h.1⟩
  · exact .inl ⟨h.2, .inr h.1⟩

/-- The protocols of a term once they are checked. -/
def hfProtos (t : Term) : List Proto := (t.protocol.map Proto.str).map Aclgenerator.protoNumber

theorem hf_entries {t : Term} {v : Ver} {es : List Gce.Entry} {p : Packet} (h : entriesOf t v (hfProtos t) = .ok es)
    (hs : ∀ s ∈ t.protocol, s ∈ iana.map Prod.fst) (hp : p.proto ∈ iana.map Prod.fst)
    (hports : t.destinationPort ≠ [] → t.protocol ≠ [])
    (hd : ∀ s ∈ t.protocol, GcpHf.dropped v (.str s) = true → p.proto ≠ s) :
    (∃ e ∈ es, Gce.EntryHits e p) ↔ OneOf t.protocol p.proto ∧
      (t.destinationPort = [] ∨ ∃ r ∈ t.destinationPort, Flat.PortIn p p.dport r) := by
  unfold entriesOf at h
  unfold OneOf
  by_cases h0 : t.protocol = []
  · have hq : t.destinationPort = [] := Classical.byContradiction fun h => hports h h0
    have : hfProtos t = [] := by unfold hfProtos; rw [h0]; rfl
    rw [this, if_pos (by rfl)] at h
    cases h
    simp [h0, hq, Gce.EntryHits, Gce.ProtoIs]
  · rw [if_neg (by simp [hfProtos, h0])] at h
    simp only [h0, false_or]
    constructor
    · rintro ⟨e, he, h1, h2⟩
      obtain ⟨q, hq, h3⟩ := (listM_mem h e).1 he
      obtain ⟨h4, s, rfl, h5⟩ := entryOf_ok h3
      obtain ⟨q', hq', h6⟩ := List.mem_map.1 (List.mem_filter.1 hq).1
      obtain ⟨s', hs', rfl⟩ := List.mem_map.1 hq'
      have : s' = s := by
        unfold Aclgenerator.protoNumber at h6
        dsimp only at h6
        split at h6
        · cases h6
        · exact Proto.str.inj h6
      subst this
      rw [h5, Gce.protoIs_iff (hs _ hs') hp] at h1
      rw [h4] at h2
      exact ⟨h1 ▸ hs', h2⟩
    · rintro ⟨hm, h2⟩
      have hk : Aclgenerator.protoNumber (.str p.proto) ∈ (hfProtos t).filter fun q => !GcpHf.dropped v q := by
        refine List.mem_filter.2 ⟨List.mem_map.2 ⟨_, List.mem_map.2 ⟨_, hm, rfl⟩, rfl⟩, ?_⟩
        cases hx : GcpHf.dropped v (Aclgenerator.protoNumber (.str p.proto)) with
        | false => rfl
        | true =>
          exfalso
          refine hd _ hm ?_ rfl
          unfold Aclgenerator.protoNumber at hx
          dsimp only at hx
          split at hx
          · rcases hf_dropped hx with ⟨_, h | h⟩ | ⟨_, h⟩ <;> cases h
          · exact hx
      obtain ⟨e, he⟩ := Cisco.listM_each h _ hk
      obtain ⟨h4, s, h5, h6⟩ := entryOf_ok he
      have : s = p.proto := by
        unfold Aclgenerator.protoNumber at h5
        dsimp only at h5
        split at h5
        · cases h5
        · exact (Proto.str.inj h5).symm
      subst this
      refine ⟨e, (listM_mem h e).2 ⟨_, hk, he⟩, ?_, ?_⟩
      · rw [h6, Gce.protoIs_iff hp hp]
      · rw [h4]
        exact h2

/-! ### one pass over a term -/

/-- The packets a pass renders the term for, by the side the direction looks at. -/
def PeerOf (dir : String) (t : Term) (v6 : Bool) (v : Ver) (p : Packet) : Prop :=
  if dir = "EGRESS" then Peer t.destinationAddress t.destinationPrefix p.inDstPrefix v6 v p.ver p.dst
  else Peer t.sourceAddress t.sourcePrefix p.inSrcPrefix v6 v p.ver p.src

theorem hf_plain {af : String} {ps : List String} {l : List Net} {intel : List String} (f : HfSide af ps l intel) :
    ∀ n ∈ l, Gce.embedded n = false := by
  intro n hn
  cases he : Gce.embedded n with
  | false => rfl
  | true => exact absurd (embedded_iff.1 he).2 (f.plain n hn (embedded_iff.1 he).1)

theorem given_none {listed : String → Bool} {v : Ver} {x : Nat} : Given [] [] listed v x := .inl ⟨rfl, rfl⟩

theorem hf_both {af dir : String} {v6 : Bool} {v : Ver} {g : HTerm} {r : Rule} {fl : GcpHf.Flow} (f : HfFits af dir g)
    (hdir : dir = "INGRESS" ∨ dir = "EGRESS") (hc : Coherent fl.packet) (h1 : r.sourceRanges = [])
    (h2 : r.destinationRanges = []) (h3 : r.sourceIntel = []) (h4 : r.destinationIntel = []) :
    (∃ y ∈ bothSides dir v6 v g.term r, GcpHf.Hits y fl) ↔
      (r.direction = fl.direction ∧ OneOf r.targets fl.network ∧ ∃ e ∈ r.entries, Gce.EntryHits e fl.packet) ∧
      PeerOf dir g.term v6 v fl.packet := by
  unfold bothSides PeerOf
  rcases hdir with rfl | rfl
  · obtain ⟨_, hs⟩ := f.ingress rfl
    rw [if_neg (by decide), if_neg (by decide)]
    refine side_hits ?_ ?_ hs.wf (hf_plain hs) hs.one hc.src
    · intro ch i
      unfold GcpHf.Hits
      dsimp only
      rw [h2, h4]
      simp only [given_none, and_true]
      constructor
      · rintro ⟨a, b, c, d⟩; exact ⟨⟨a, b, d⟩, c⟩
      · rintro ⟨⟨a, b, d⟩, c⟩; exact ⟨a, b, c, d⟩
    · unfold GcpHf.Hits
      dsimp only
      rw [h1, h2, h4]
      simp only [given_none, and_true]
      constructor
      · rintro ⟨a, b, c, d⟩; exact ⟨⟨a, b, d⟩, c⟩
      · rintro ⟨⟨a, b, d⟩, c⟩; exact ⟨a, b, c, d⟩
  · obtain ⟨_, hs⟩ := f.egress rfl
    rw [if_pos rfl, if_pos rfl]
    refine side_hits ?_ ?_ hs.wf (hf_plain hs) hs.one hc.dst
    · intro ch i
      unfold GcpHf.Hits
      dsimp only
      rw [h1, h3]
      simp only [given_none, true_and]
      constructor
      · rintro ⟨a, b, c, d⟩; exact ⟨⟨a, b, d⟩, c⟩
      · rintro ⟨⟨a, b, d⟩, c⟩; exact ⟨a, b, c, d⟩
    · unfold GcpHf.Hits
      dsimp only
      rw [h1, h2, h3]
      simp only [given_none, true_and]
      constructor
      · rintro ⟨a, b, c, d⟩; exact ⟨⟨a, b, d⟩, c⟩
      · rintro ⟨⟨a, b, d⟩, c⟩; exact ⟨a, b, c, d⟩

theorem hf_pass {af dir : String} {v6 : Bool} {v : Ver} {prio : Nat} {g : HTerm} {name : Str} {rs : List Rule} {fl : GcpHf.Flow}
    (f : HfFits af dir g) (hl : GcpHf.Live g) (h : convert dir v6 v prio g name (hfProtos g.term) = .ok rs)
    (hdir : dir = "INGRESS" ∨ dir = "EGRESS") (hc : Coherent fl.packet)
    (hd : PeerOf dir g.term v6 v fl.packet → ∀ s ∈ g.term.protocol, GcpHf.dropped v (.str s) = true → fl.packet.proto ≠ s) :
    (∃ r ∈ rs, GcpHf.Hits r fl) ↔ (dir = fl.direction ∧ OneOf g.targets fl.network) ∧ PeerOf dir g.term v6 v fl.packet ∧
      OneOf g.term.protocol fl.packet.proto ∧ PortMatch g.term.destinationPort fl.packet.dport := by
  unfold convert at h
  obtain ⟨action, _, h⟩ := bind_ok h
  split at h
  next hf =>
    cases h
    refine iff_of_false (by simp) ?_
    rintro ⟨_, hp, ho, _⟩
    simp only [Bool.and_eq_true, Bool.not_eq_true', List.isEmpty_eq_false_iff, List.isEmpty_iff] at hf
    obtain ⟨h0, hf⟩ := hf
    rcases ho with ho | ho
    · unfold hfProtos at h0
      rw [ho] at h0
      exact h0 rfl
    · have : Aclgenerator.protoNumber (.str fl.packet.proto) ∈ (hfProtos g.term).filter fun p => !GcpHf.dropped v p := by
        refine List.mem_filter.2 ⟨List.mem_map.2 ⟨_, List.mem_map.2 ⟨_, ho, rfl⟩, rfl⟩, ?_⟩
        cases hx : GcpHf.dropped v (Aclgenerator.protoNumber (.str fl.packet.proto)) with
        | false => rfl
        | true =>
          exfalso
          refine hd hp _ ho ?_ rfl
          unfold Aclgenerator.protoNumber at hx
          dsimp only at hx
          split at hx
          · rcases hf_dropped hx with ⟨_, h | h⟩ | ⟨_, h⟩ <;> cases h
          · exact hx
      rw [hf] at this
      cases this
  · obtain ⟨es, h1, h⟩ := bind_ok h
    cases h
    rw [hf_both f hdir hc rfl rfl rfl rfl]
    by_cases hp : PeerOf dir g.term v6 v fl.packet
    case neg => exact iff_of_false (fun h => hp h.2) (fun h => hp h.2.1)
    have he := hf_entries h1 f.protos hc.proto f.ports (hd hp)
    show (dir = fl.direction ∧ OneOf g.targets fl.network ∧ ∃ e ∈ es, Gce.EntryHits e fl.packet) ∧ _ ↔ _
    rw [he]
    constructor
    · rintro ⟨⟨a, b, c, d⟩, e⟩
      exact ⟨⟨a, b⟩, e, c, (gport f.sane (hf_verbatim f hl) f.ports c).1 d⟩
    · rintro ⟨⟨a, b⟩, e, c, d⟩
      exact ⟨⟨a, b, c, (gport f.sane (hf_verbatim f hl) f.ports c).2 d⟩, e⟩

/-- The actions of the rules of a pass. -/
theorem hf_convert_mem {dir : String} {v6 : Bool} {v : Ver} {prio : Nat} {g : HTerm} {name : Str} {ps : List Proto}
    {rs : List Rule} (h : convert dir v6 v prio g name ps = .ok rs) {y : Rule} (hy : y ∈ rs) :
    ∃ action es, GcpHf.actionOf g.term = .ok action ∧ entriesOf g.term v ps = .ok es ∧
      (ps = [] ∨ (ps.filter fun p => !GcpHf.dropped v p) ≠ []) ∧
      y ∈ bothSides dir v6 v g.term (draft dir v6 prio g name action es) := by
  unfold convert at h
  obtain ⟨action, h0, h⟩ := bind_ok h
  split at h
  · cases h; cases hy
  next hf =>
    obtain ⟨es, h1, h⟩ := bind_ok h
    cases h
    refine ⟨action, es, h0, h1, ?_, hy⟩
    simp only [Bool.and_eq_true, Bool.not_eq_true', List.isEmpty_eq_false_iff, List.isEmpty_iff, not_and] at hf
    by_cases hp : ps = []
    · exact .inl hp
    · exact .inr (hf hp)

/-- The rules of a term and direction differ from the draft in ranges, lists and priority. -/
theorem hf_both_mem {dir : String} {v6 : Bool} {v : Ver} {t : Term} {r y : Rule} (h : y ∈ bothSides dir v6 v t r) :
    ∃ j, (dir = "EGRESS" ∧ ∃ d, y = { r with priority := j, destinationIntel := t.destinationPrefix, destinationRanges := d } ∧
        ((t.destinationPrefix ≠ [] ∧ d = r.destinationRanges) ∨ (d ≠ [] ∧ d.length ≤ 256 ∧ ∀ n ∈ d, n.ver = v))) ∨
      (dir ≠ "EGRESS" ∧ ∃ s, y = { r with priority := j, sourceIntel := t.sourcePrefix, sourceRanges := s } ∧
        ((t.sourcePrefix ≠ [] ∧ s = r.sourceRanges) ∨ (s ≠ [] ∧ s.length ≤ 256 ∧ ∀ n ∈ s, n.ver = v))) := by
  unfold bothSides at h
  split at h
  next hd =>
    rcases side_mem h with ⟨rfl, hi⟩ | ⟨ch, j, h1, h2, h3, rfl⟩
    · exact ⟨r.priority, .inl ⟨hd, r.destinationRanges, rfl, .inl ⟨hi, rfl⟩⟩⟩
    · exact ⟨j, .inl ⟨hd, ch, rfl, .inr ⟨h1, h2, h3⟩⟩⟩
  next hd =>
    rcases side_mem h with ⟨rfl, hi⟩ | ⟨ch, j, h1, h2, h3, rfl⟩
    · exact ⟨r.priority, .inr ⟨hd, r.sourceRanges, rfl, .inl ⟨hi, rfl⟩⟩⟩
    · exact ⟨j, .inr ⟨hd, ch, rfl, .inr ⟨h1, h2, h3⟩⟩⟩

/-! ### terms that deny everything -/

theorem hf_families_cases (af : String) : Gce.families af = [.v4, .v6] ∨ Gce.families af = [.v6] ∨ Gce.families af = [.v4] := by
  unfold Gce.families
  split
  · exact .inl rfl
  · split
    · exact .inr (.inl rfl)
    · exact .inr (.inr rfl)

theorem hf_default {g : HTerm} (h : GcpHf.isDefaultDeny g = true) :
    g.term.sourceAddress = [] ∧ g.term.destinationAddress = [] ∧ g.term.sourcePrefix = [] ∧ g.term.destinationPrefix = [] := by
  unfold GcpHf.isDefaultDeny at h
  simp only [Bool.and_eq_true, List.all_eq_true] at h
  have key : ∀ s, ∀ v : Val, (s, v) ∈ attrsOf g.term →
      ["flattened", "action", "name", "logging", "ttl", "traffic_class"].contains s = false → v.truthy = false := by
    intro s v hm hs
    have := h.1.1.2 _ hm
    rw [hs] at this
    simpa using this
  exact ⟨Cisco.listVal_falsy (key "source_address" _ (by simp [attrsOf]) (by decide)),
    Cisco.listVal_falsy (key "destination_address" _ (by simp [attrsOf]) (by decide)),
    Cisco.wordsVal_falsy (key "source_prefix" _ (by simp [attrsOf]) (by decide)),
    Cisco.wordsVal_falsy (key "destination_prefix" _ (by simp [attrsOf]) (by decide))⟩

/-- Giving a default deny any address changes nothing but the term. -/
theorem hf_prepare_cases (c : GcpHf.Ctx) (g : HTerm) : GcpHf.prepare c g = g ∨
    ((g.term.sourceAddress = [] ∧ g.term.destinationAddress = [] ∧ g.term.sourcePrefix = [] ∧ g.term.destinationPrefix = []) ∧
      ((c.direction = "EGRESS" ∧ GcpHf.prepare c g =
        { g with term := { g.term with destinationAddress := (Gce.families c.family).map Gce.anyIp } }) ∨
      (c.direction ≠ "EGRESS" ∧ GcpHf.prepare c g =
        { g with term := { g.term with sourceAddress := (Gce.families c.family).map Gce.anyIp } }))) := by
  unfold GcpHf.prepare
  split
  next h =>
    refine .inr ⟨hf_default h, ?_⟩
    split
    next hd => exact .inl ⟨hd, rfl⟩
    next hd => exact .inr ⟨hd, rfl⟩
  · exact .inl rfl

theorem hf_prepare_same (c : GcpHf.Ctx) (g : HTerm) : (GcpHf.prepare c g).term.protocol = g.term.protocol ∧
    GcpHf.refused (GcpHf.prepare c g) = GcpHf.refused g ∧ GcpHf.elsewhere (GcpHf.prepare c g).term = GcpHf.elsewhere g.term := by
  rcases hf_prepare_cases c g with h | ⟨_, ⟨_, h⟩ | ⟨_, h⟩⟩ <;> rw [h] <;> exact ⟨rfl, rfl, rfl⟩

theorem hf_prepare_convert (c : GcpHf.Ctx) (g : HTerm) {v : Ver} (hv : v ∈ Gce.families c.family) {v6 : Bool} {prio : Nat}
    {name : Str} {ps : List Proto} :
    convert c.direction v6 v prio (GcpHf.prepare c g) name ps = convert c.direction v6 v prio g name ps := by
  have hvs : Gce.families c.family = [v] ∨ Gce.families c.family = [.v4, .v6] := by
    rcases hf_families_cases c.family with h | h | h
    · exact .inr h
    all_goals
      rw [h] at hv ⊢
      rw [List.mem_singleton.1 hv]
      exact .inl rfl
  rcases hf_prepare_cases c g with h | ⟨⟨e1, e2, e3, e4⟩, ⟨hd, h⟩ | ⟨hd, h⟩⟩
  · rw [h]
  · rw [h]
    unfold convert bothSides
    dsimp only
    simp only [if_pos hd, e2, e4, side_any hvs]
    rfl
  · rw [h]
    unfold convert bothSides
    dsimp only
    simp only [if_neg hd, e1, e3, side_any hvs]
    rfl

/-! ### one term -/

theorem addRules_append (api : String) (s : GcpHf.State) (a b : List Rule) :
    addRules api (addRules api s a) b = addRules api s (a ++ b) := by
  unfold addRules
  simp [Nat.add_assoc]

theorem addRules_nil (api : String) (s : GcpHf.State) : addRules api s [] = s := by
  unfold addRules
  simp

theorem range_append {l m : List Nat} {n : Nat} (h1 : l = List.range' n l.length) (h2 : m = List.range' (n + l.length) m.length) :
    l ++ m = List.range' n (l ++ m).length := by
  have := List.range'_append (s := n) (m := l.length) (n := m.length) (step := 1)
  rw [Nat.one_mul] at this
  rw [List.length_append, ← this, ← h1, ← h2]

theorem hf_both_priority {dir : String} {v6 : Bool} {v : Ver} {t : Term} {r : Rule} :
    (bothSides dir v6 v t r).map Rule.priority = List.range' r.priority (bothSides dir v6 v t r).length := by
  unfold bothSides
  split
  · exact side_priority (put := fun l r => { r with destinationRanges := l }) (r := { r with destinationIntel := t.destinationPrefix }) (fun _ _ => rfl)
  · exact side_priority (put := fun l r => { r with sourceRanges := l }) (r := { r with sourceIntel := t.sourcePrefix }) (fun _ _ => rfl)

theorem hf_convert_priority {dir : String} {v6 : Bool} {v : Ver} {prio : Nat} {g : HTerm} {name : Str} {ps : List Proto}
    {rs : List Rule} (h : convert dir v6 v prio g name ps = .ok rs) : rs.map Rule.priority = List.range' prio rs.length := by
  unfold convert at h
  obtain ⟨action, _, h⟩ := bind_ok h
  split at h
  · cases h; rfl
  · obtain ⟨es, _, h⟩ := bind_ok h
    cases h
    exact hf_both_priority

theorem hf_protoNumber_idem (p : Proto) : Aclgenerator.protoNumber (Aclgenerator.protoNumber p) = Aclgenerator.protoNumber p := by
  cases p with
  | num => rfl
  | str s =>
    unfold Aclgenerator.protoNumber
    dsimp only
    by_cases h : (s == "ipip") = true
    · rw [if_pos h]
    · simp only [if_neg h]

theorem hf_termProtocols {ps ps' : List Proto} (h : termProtocols ps = .ok ps') : ps' = ps.map Aclgenerator.protoNumber := by
  unfold termProtocols at h
  split at h
  · cases h
  · exact (Except.ok.inj h).symm

/-- The rules of a pass over a term, in the family of the pass. -/
def Pass (c : GcpHf.Ctx) (g : HTerm) (name : Str) (ps : List Proto) (b : Ver × Nat × List Rule) : Prop :=
  convert c.direction (c.family == "mixed" && b.1 == .v6) b.1 b.2.1 g name ps = .ok b.2.2

theorem hf_famLoop {c : GcpHf.Ctx} {g : HTerm} {name : Str} : ∀ {vs : List Ver} {ps : List Proto} {s s' : GcpHf.State},
    GcpHf.famLoop c g name vs ps s = .ok s' → ∃ parts : List (Ver × Nat × List Rule), parts.map (·.1) = vs ∧
      (∀ b ∈ parts, Pass c g name (ps.map Aclgenerator.protoNumber) b) ∧ s' = addRules c.api s (parts.flatMap (·.2.2)) ∧
      (parts.flatMap (·.2.2)).map Rule.priority = List.range' s.counter (parts.flatMap (·.2.2)).length ∧
      (vs ≠ [] → GcpHf.refused g = false)
  | [], ps, s, s', h => by
    rw [GcpHf.famLoop] at h
    cases h
    exact ⟨[], rfl, by simp, by simp [addRules_nil], rfl, fun h => absurd rfl h⟩
  | v :: vs, ps, s, s', h => by
    rw [GcpHf.famLoop] at h
    obtain ⟨ps', h1, h⟩ := bind_ok h
    have e1 := hf_termProtocols h1
    split at h
    · cases h
    next hr =>
      obtain ⟨rs, h2, h⟩ := bind_ok h
      obtain ⟨parts, k1, k2, k3, k4, _⟩ := hf_famLoop h
      have e2 : ps'.map Aclgenerator.protoNumber = ps' := by
        rw [e1, List.map_map]
        exact List.map_congr_left fun x _ => hf_protoNumber_idem x
      rw [e2] at k2
      refine ⟨(v, s.counter, rs) :: parts, by simp [k1], fun b hb => ?_, ?_, ?_, fun _ => by simpa using hr⟩
      · rw [← e1]
        rcases List.mem_cons.1 hb with rfl | hb
        · exact h2
        · exact k2 b hb
      · rw [k3, addRules_append]
        rfl
      · have := hf_convert_priority h2
        rw [List.flatMap_cons, List.map_append, List.length_append]
        have key := range_append (n := s.counter) (l := rs.map Rule.priority) (m := (parts.flatMap (·.2.2)).map Rule.priority)
          (by rw [List.length_map]; exact this) (by rw [List.length_map, List.length_map]; exact k4)
        simpa using key

/-- The rules of a term. -/
def Block (c : GcpHf.Ctx) (g : HTerm) (rs : List Rule) : Prop :=
  (¬ GcpHf.Live g ∧ rs = []) ∨
  (GcpHf.Live g ∧ GcpHf.refused g = false ∧ ∃ (name : Str) (parts : List (Ver × Nat × List Rule)),
    parts.map (·.1) = Gce.families c.family ∧ (∀ b ∈ parts, Pass c g name (hfProtos g.term) b) ∧ rs = parts.flatMap (·.2.2))

theorem hf_elsewhere {g : HTerm} (hr : g.reply = false) : GcpHf.elsewhere g.term = false ↔ GcpHf.Live g := by
  unfold GcpHf.elsewhere GcpHf.Live
  simp only [Bool.or_eq_false_iff, Bool.and_eq_false_iff, Bool.not_eq_false', List.isEmpty_iff, List.contains_iff_mem, hr,
    true_and]
  constructor
  · rintro ⟨h1, h2⟩
    refine ⟨h1, ?_⟩
    rcases h2 with h2 | h2
    · rw [h2]
      simp
    · simpa using h2
  · rintro ⟨h1, h2⟩
    exact ⟨h1, .inr (by simpa using h2)⟩

theorem hf_oneTerm {c : GcpHf.Ctx} {g : HTerm} {s s' : GcpHf.State} (h : GcpHf.oneTerm c g s = .ok s') :
    ∃ rs, s' = addRules c.api s rs ∧ rs.map Rule.priority = List.range' s.counter rs.length ∧ Block c g rs := by
  unfold GcpHf.oneTerm at h
  split at h
  next hr =>
    cases h
    exact ⟨[], (addRules_nil _ _).symm, rfl, .inl ⟨fun hl => (by rw [hl.1] at hr; cases hr), rfl⟩⟩
  next hr =>
    have hr : g.reply = false := by simpa using hr
    obtain ⟨name, _, h⟩ := bind_ok h
    obtain ⟨p1, p2, p3⟩ := hf_prepare_same c g
    rw [p1, p3] at h
    split at h
    next he =>
      cases h
      refine ⟨[], (addRules_nil _ _).symm, rfl, .inl ⟨fun hl => ?_, rfl⟩⟩
      rw [(hf_elsewhere hr).2 hl] at he
      cases he
    next he =>
      obtain ⟨parts, k1, k2, k3, k4, k5⟩ := hf_famLoop h
      have hne : Gce.families c.family ≠ [] := by
        rcases hf_families_cases c.family with h | h | h <;> rw [h] <;> simp
      refine ⟨_, k3, k4, .inr ⟨(hf_elsewhere hr).1 (by simpa using he), p2 ▸ k5 hne, name, parts, k1, fun b hb => ?_, rfl⟩⟩
      have := k2 b hb
      unfold Pass at this ⊢
      rw [hf_prepare_convert c g (by rw [← k1]; exact List.mem_map.2 ⟨b, hb, rfl⟩)] at this
      exact this

theorem hf_termsLoop {c : GcpHf.Ctx} : ∀ {gs : List HTerm} {s s' : GcpHf.State}, GcpHf.termsLoop c gs s = .ok s' →
    ∃ bs : List (HTerm × List Rule), bs.map Prod.fst = gs ∧ (∀ b ∈ bs, Block c b.1 b.2) ∧
      s' = addRules c.api s (bs.flatMap Prod.snd) ∧
      (bs.flatMap Prod.snd).map Rule.priority = List.range' s.counter (bs.flatMap Prod.snd).length
  | [], s, s', h => by
    rw [GcpHf.termsLoop] at h
    cases h
    exact ⟨[], rfl, by simp, by simp [addRules_nil], rfl⟩
  | g :: gs, s, s', h => by
    rw [GcpHf.termsLoop] at h
    obtain ⟨s1, h1, h⟩ := bind_ok h
    obtain ⟨rs, e1, e2, e3⟩ := hf_oneTerm h1
    obtain ⟨bs, k1, k2, k3, k4⟩ := hf_termsLoop h
    refine ⟨(g, rs) :: bs, by simp [k1], fun b hb => ?_, ?_, ?_⟩
    · rcases List.mem_cons.1 hb with rfl | hb
      · exact e3
      · exact k2 b hb
    · rw [k3, e1, addRules_append]
      rfl
    · rw [e1] at k4
      rw [List.flatMap_cons, List.map_append, List.length_append]
      have key := range_append (n := s.counter) (l := rs.map Rule.priority) (m := (bs.flatMap Prod.snd).map Rule.priority)
        (by rw [List.length_map]; exact e2) (by rw [List.length_map, List.length_map]; exact k4)
      simpa using key

/-! ### all filters -/

/-- A term of a filter with its rules. -/
def Placed (fs : List GcpHf.Filter) (b : (List String × HTerm) × List Rule) : Prop :=
  ∃ f ∈ fs, ∃ h, GcpHf.head f = .ok h ∧ b.1.1 = f.options ∧ b.1.2 ∈ f.terms ∧ Block ⟨h.direction, h.family, h.api⟩ b.1.2 b.2

theorem hf_filters : ∀ {fs : List GcpHf.Filter} {m : Option Nat} {p : GcpHf.Out} {s : GcpHf.State} {x : Option Nat × GcpHf.Out × GcpHf.State},
    GcpHf.filtersLoop m p s fs = .ok x →
    ∃ bs : List ((List String × HTerm) × List Rule), bs.map Prod.fst = allTerms fs ∧ (∀ b ∈ bs, Placed fs b) ∧
      x.2.2.rules = s.rules ++ bs.flatMap Prod.snd ∧ x.2.2.counter = s.counter + (bs.flatMap Prod.snd).length ∧
      (bs.flatMap Prod.snd).map Rule.priority = List.range' s.counter (bs.flatMap Prod.snd).length
  | [], m, p, s, x, h => by
    rw [GcpHf.filtersLoop] at h
    cases h
    exact ⟨[], rfl, by simp, by simp, by simp, rfl⟩
  | f :: fs, m, p, s, x, h => by
    rw [GcpHf.filtersLoop] at h
    obtain ⟨hd, h1, h⟩ := bind_ok h
    split at h
    · cases h
    · obtain ⟨p', h2, h⟩ := bind_ok h
      obtain ⟨s1, h3, h⟩ := bind_ok h
      obtain ⟨bs, k1, k2, k3, k4⟩ := hf_termsLoop h3
      obtain ⟨bs', l1, l2, l3, l4, l5⟩ := hf_filters h
      have efl : (bs.map fun b => ((f.options, b.1), b.2)).flatMap Prod.snd = bs.flatMap Prod.snd := by
        rw [List.flatMap_map]
      refine ⟨(bs.map fun b => ((f.options, b.1), b.2)) ++ bs', ?_, fun b hb => ?_, ?_, ?_, ?_⟩
      · rw [List.map_append, l1, List.map_map]
        unfold allTerms
        rw [List.flatMap_cons, ← k1, List.map_map]
        rfl
      · rcases List.mem_append.1 hb with hb | hb
        · obtain ⟨b', hb', rfl⟩ := List.mem_map.1 hb
          exact ⟨f, by simp, hd, h1, rfl, k1 ▸ List.mem_map.2 ⟨b', hb', rfl⟩, k2 b' hb'⟩
        · obtain ⟨f', hf', y⟩ := l2 b hb
          exact ⟨f', List.mem_cons_of_mem _ hf', y⟩
      · rw [l3, k3, List.flatMap_append, efl]
        unfold addRules
        simp
      · rw [l4, k3, List.flatMap_append, efl]
        unfold addRules
        simp [Nat.add_assoc]
      · rw [k3] at l5
        rw [List.flatMap_append, efl, List.map_append, List.length_append]
        have key := range_append (n := s.counter) (l := (bs.flatMap Prod.snd).map Rule.priority)
          (m := (bs'.flatMap Prod.snd).map Rule.priority) (by rw [List.length_map]; exact k4)
          (by rw [List.length_map, List.length_map]; exact l5)
        simpa using key

theorem hf_translate {fs : List GcpHf.Filter} {out : GcpHf.Out} (h : GcpHf.translate fs = .ok out) :
    ∃ bs : List ((List String × HTerm) × List Rule), bs.map Prod.fst = allTerms fs ∧ (∀ b ∈ bs, Placed fs b) ∧
      out.rules = bs.flatMap Prod.snd ∧ out.rules.map Rule.priority = List.range' 1 out.rules.length := by
  unfold GcpHf.translate at h
  obtain ⟨x, h1, h⟩ := bind_ok h
  obtain ⟨bs, k1, k2, k3, _, k5⟩ := hf_filters h1
  unfold GcpHf.finish at h
  split at h
  · cases h
  · cases h
    have k3 : x.2.2.rules = bs.flatMap Prod.snd := by simpa using k3
    exact ⟨bs, k1, k2, k3, by simpa [k3] using k5⟩

/-! ### headers -/

theorem pick_last : ∀ {l : List String} {a s : String} {o : List String}, l.Nodup → s ∈ l → s ∈ o →
    (∀ x ∈ l, x ≠ s → x ∉ o) → (l.foldl Gce.pick (a, o)).1 = s
  | [], a, s, o, _, h, _, _ => by cases h
  | x :: l, a, s, o, hn, h1, h2, h4 => by
    rw [List.foldl_cons]
    obtain ⟨n1, n2⟩ := List.nodup_cons.1 hn
    by_cases hx : x = s
    · subst hx
      have : Gce.pick (a, o) x = (x, o.erase x) := by
        unfold Gce.pick
        rw [if_pos (by simpa using h2)]
      rw [this, pick_none]
      intro y hy hm
      exact h4 y (List.mem_cons_of_mem _ hy) (fun e => n1 (e ▸ hy)) (List.mem_of_mem_erase hm)
    · have : Gce.pick (a, o) x = (a, o) := by
        unfold Gce.pick
        rw [if_neg (by simpa using h4 x (by simp) hx)]
      rw [this]
      rcases List.mem_cons.1 h1 with h1 | h1
      · exact absurd h1.symm hx
      · exact pick_last n2 h1 h2 fun y hy => h4 y (List.mem_cons_of_mem _ hy)

theorem pick_direction (o : List String) : (["INGRESS", "EGRESS"].foldl Gce.pick ("INGRESS", o)).1 = directionOf o := by
  have h1 : (Gce.pick ("INGRESS", o) "INGRESS").1 = "INGRESS" := by
    unfold Gce.pick
    split <;> rfl
  have h2 : ("EGRESS" ∈ (Gce.pick ("INGRESS", o) "INGRESS").2) ↔ "EGRESS" ∈ o := by
    unfold Gce.pick
    split
    · exact List.mem_erase_of_ne (by decide)
    · rfl
  show (Gce.pick (Gce.pick ("INGRESS", o) "INGRESS") "EGRESS").1 = _
  unfold directionOf
  generalize Gce.pick ("INGRESS", o) "INGRESS" = q at h1 h2
  unfold Gce.pick
  by_cases h : "EGRESS" ∈ o
  · rw [if_pos (by simpa using h2.2 h), if_pos h]
  · rw [if_neg (by simpa using fun h' => h (h2.1 h')), if_neg h, h1]

theorem checkHead_ok {dir af api : String} {cost : Nat} {o : List String} {h : GcpHf.Head}
    (hh : checkHead dir af api cost o = .ok h) : ∃ name, o = [name] ∧ cost ≤ 65536 ∧ name.toList.length ≤ 63 ∧
    labelValid name.toList = true ∧ h = ⟨dir, af, api, cost, name⟩ := by
  unfold checkHead at hh
  split at hh
  · cases hh
  next name rest =>
    split at hh
    · cases hh
    next hn =>
      cases hh
      simp only [Bool.or_eq_true, decide_eq_true_eq, Bool.not_eq_true', not_or, List.isEmpty_eq_false_iff, Nat.not_lt,
        Bool.not_eq_false, Classical.not_not, ne_eq] at hn
      obtain ⟨⟨⟨h1, h2⟩, h3⟩, h4⟩ := hn
      rw [h4]
      exact ⟨name, rfl, h1, h2, h3, rfl⟩

theorem head_ok {f : GcpHf.Filter} {h : GcpHf.Head} (hh : GcpHf.head f = .ok h) : h.direction = directionOf f.options ∧
    (f.families.Perm ["inet", "inet6", "mixed"] → ∀ af, GcpHf.Family f.options af → h.family = af) := by
  unfold GcpHf.head at hh
  obtain ⟨name, _, _, _, _, rfl⟩ := checkHead_ok hh
  refine ⟨pick_direction _, fun hp af hf => ?_⟩
  have hnd : f.families.Nodup := hp.nodup_iff.2 (by decide)
  have hmem : ∀ x, x ∈ f.families ↔ x = "inet" ∨ x = "inet6" ∨ x = "mixed" := fun x => by rw [hp.mem_iff]; simp
  have hd : ∀ x, x = "inet" ∨ x = "inet6" ∨ x = "mixed" →
      (x ∈ (["INGRESS", "EGRESS"].foldl Gce.pick ("INGRESS", f.options)).2 ↔ x ∈ f.options) := by
    intro x hx
    refine ⟨foldl_pick_sub, fun h => foldl_pick_keep h ?_⟩
    rcases hx with rfl | rfl | rfl <;> decide
  generalize (["INGRESS", "EGRESS"].foldl Gce.pick ("INGRESS", f.options)).2 = o at hd
  show (f.families.foldl Gce.pick ("inet", o)).1 = af
  rcases hf with ⟨rfl, h1, h2⟩ | ⟨rfl, h0, h1, h2⟩ | ⟨rfl, h0, h1, h2⟩
  · by_cases h0 : "inet" ∈ f.options
    · refine pick_last hnd ((hmem _).2 (.inl rfl)) ((hd _ (.inl rfl)).2 h0) fun x hx hne => ?_
      rcases (hmem x).1 hx with rfl | rfl | rfl
      · exact absurd rfl hne
      · exact fun h => h1 ((hd _ (by simp)).1 h)
      · exact fun h => h2 ((hd _ (by simp)).1 h)
    · rw [pick_none]
      intro x hx
      rcases (hmem x).1 hx with rfl | rfl | rfl
      · exact fun h => h0 ((hd _ (by simp)).1 h)
      · exact fun h => h1 ((hd _ (by simp)).1 h)
      · exact fun h => h2 ((hd _ (by simp)).1 h)
  · refine pick_last hnd ((hmem _).2 (by simp)) ((hd _ (by simp)).2 h0) fun x hx hne => ?_
    rcases (hmem x).1 hx with rfl | rfl | rfl
    · exact fun h => h1 ((hd _ (by simp)).1 h)
    · exact absurd rfl hne
    · exact fun h => h2 ((hd _ (by simp)).1 h)
  · refine pick_last hnd ((hmem _).2 (by simp)) ((hd _ (by simp)).2 h0) fun x hx hne => ?_
    rcases (hmem x).1 hx with rfl | rfl | rfl
    · exact fun h => h1 ((hd _ (by simp)).1 h)
    · exact fun h => h2 ((hd _ (by simp)).1 h)
    · exact absurd rfl hne

/-! ### decisions -/

/-- The passes of a filter for a packet. -/
theorem hf_peer {af dir : String} {g : HTerm} {fl : GcpHf.Flow} (f : HfFits af dir g) (hl : GcpHf.Live g)
    (hr : GcpHf.refused g = false) (hdir : dir = "INGRESS" ∨ dir = "EGRESS") (haf : af = "inet" ∨ af = "inet6" ∨ af = "mixed")
    (hof : (if dir = "EGRESS" then g.term.destinationPrefix else g.term.sourcePrefix) ≠ [] → GcpHf.OfFamily af fl.packet.ver) :
    ((∃ v ∈ Gce.families af, PeerOf dir g.term (af == "mixed" && v == .v6) v fl.packet) ∧
      OneOf g.term.protocol fl.packet.proto ∧ PortMatch g.term.destinationPort fl.packet.dport) ↔
    GcpHf.OfFamily af fl.packet.ver ∧ Matches g.term fl.packet := by
  rw [hf_matches f hl hr]
  have side : ∀ (l : List Net) (intel : List String) (listed : String → Bool) (x : Nat),
      (l = [] ∨ intel = []) → (intel ≠ [] → GcpHf.OfFamily af fl.packet.ver) →
      ((∃ v ∈ Gce.families af, Peer l intel listed (af == "mixed" && v == .v6) v fl.packet.ver x) ↔
        GcpHf.OfFamily af fl.packet.ver ∧ (l = [] ∨ Den l fl.packet.ver x) ∧ (intel = [] ∨ ∃ n ∈ intel, listed n = true)) := by
    intro l intel listed x h1 h2
    have hmem : fl.packet.ver ∈ Gce.families af ↔ GcpHf.OfFamily af fl.packet.ver := by
      rcases haf with rfl | rfl | rfl <;> cases fl.packet.ver <;> simp [Gce.families, GcpHf.OfFamily]
    by_cases hi : intel = []
    · subst hi
      unfold Peer
      simp only [ne_eq, not_true_eq_false, false_and, and_false, false_or, or_true, true_and, true_or, and_true]
      constructor
      · rintro ⟨v, hv, rfl, h⟩
        exact ⟨hmem.1 hv, h⟩
      · rintro ⟨hv, h⟩
        exact ⟨_, hmem.2 hv, rfl, h⟩
    · have hl := h1.resolve_right hi
      subst hl
      have hv := h2 hi
      unfold Peer
      simp only [hi, hv, ne_eq, not_false_iff, true_and, not_true_eq_false, or_self, false_and, or_false, true_or, false_or]
      constructor
      · rintro ⟨v, _, _, h⟩
        exact h
      · intro h
        rcases haf with rfl | rfl | rfl
        · exact ⟨.v4, by decide, by decide, h⟩
        · exact ⟨.v6, by decide, by decide, h⟩
        · exact ⟨.v4, by decide, by decide, h⟩
  unfold PeerOf
  rcases hdir with rfl | rfl
  · obtain ⟨⟨e1, e2⟩, hs⟩ := f.ingress rfl
    rw [if_neg (by decide)] at hof
    simp only [if_neg (show ¬ ("INGRESS" = "EGRESS") by decide)]
    rw [side _ _ _ _ hs.one hof, e1, e2]
    constructor
    · rintro ⟨⟨a, b, c⟩, d, e⟩
      exact ⟨a, ⟨b, .inl rfl⟩, ⟨d, e⟩, c, .inl rfl⟩
    · rintro ⟨a, ⟨b, _⟩, ⟨d, e⟩, c, _⟩
      exact ⟨⟨a, b, c⟩, d, e⟩
  · obtain ⟨⟨e1, e2⟩, hs⟩ := f.egress rfl
    rw [if_pos rfl] at hof
    simp only [if_true]
    rw [side _ _ _ _ hs.one hof, e1, e2]
    constructor
    · rintro ⟨⟨a, b, c⟩, d, e⟩
      exact ⟨a, ⟨.inl rfl, b⟩, ⟨d, e⟩, .inl rfl, c⟩
    · rintro ⟨a, ⟨_, b⟩, ⟨d, e⟩, _, c⟩
      exact ⟨⟨a, b, c⟩, d, e⟩

/-- Protocols left out of a pass do not matter for the packets the pass is for. -/
theorem hf_left {af dir : String} {g : HTerm} {fl : GcpHf.Flow} {v : Ver} (f : HfFits af dir g)
    (hdir : dir = "INGRESS" ∨ dir = "EGRESS") (haf : af = "inet" ∨ af = "inet6" ∨ af = "mixed") (hv : v ∈ Gce.families af)
    (hof : (if dir = "EGRESS" then g.term.destinationPrefix else g.term.sourcePrefix) ≠ [] → GcpHf.OfFamily af fl.packet.ver)
    (hc : Coherent fl.packet) (hig : fl.packet.ver = .v6 → fl.packet.proto ≠ "igmp")
    (hp : PeerOf dir g.term (af == "mixed" && v == .v6) v fl.packet) :
    ∀ s ∈ g.term.protocol, GcpHf.dropped v (.str s) = true → fl.packet.proto ≠ s := by
  rintro s hs hd rfl
  have same : fl.packet.ver ≠ v := by
    intro e
    rcases hf_dropped hd with ⟨h6, h | h⟩ | ⟨h4, h⟩
    · exact hc.icmp6 (e.trans h6) (Proto.str.inj h)
    · exact hig (e.trans h6) (Proto.str.inj h)
    · exact hc.icmp4 (e.trans h4) (Proto.str.inj h)
  have side : ∀ (l : List Net) (intel : List String) (listed : String → Bool) (x : Nat),
      HfSide af g.term.protocol l intel → (intel ≠ [] → GcpHf.OfFamily af fl.packet.ver) →
      Peer l intel listed (af == "mixed" && v == .v6) v fl.packet.ver x → False := by
    intro l intel listed x hs' ho hp
    rcases hp with ⟨_, h2, h3, _⟩ | ⟨_, h2, _⟩
    · have hfm := ho h2
      rcases haf with rfl | rfl | rfl
      · exact same (by rw [hfm.1 rfl, List.mem_singleton.1 (show v ∈ [Ver.v4] from hv)])
      · exact same (by rw [hfm.2 rfl, List.mem_singleton.1 (show v ∈ [Ver.v6] from hv)])
      · have : v = .v4 := by
          cases v
          · rfl
          · exact absurd h3 (by decide)
        rcases hf_dropped hd with ⟨h6, _⟩ | ⟨_, h⟩
        · rw [this] at h6; cases h6
        · exact hs'.mixed h2 rfl (Proto.str.inj h ▸ hs)
    · exact same h2
  unfold PeerOf at hp
  rcases hdir with rfl | rfl
  · rw [if_neg (by decide)] at hp hof
    exact side _ _ _ _ (f.ingress rfl).2 hof hp
  · rw [if_pos rfl] at hp hof
    exact side _ _ _ _ (f.egress rfl).2 hof hp

theorem hf_action {af dir : String} {g : HTerm} {a : String} (f : HfFits af dir g) (hl : GcpHf.Live g)
    (h : GcpHf.actionOf g.term = .ok a) {w : String} (hw : g.term.action = [w]) : (w, a) ∈ actionNames := by
  have : w ∈ ["accept", "deny", "next"] :=
    word_known (g := Verif.GcpHf.tables) hf_tables_ok (hf_active hl) f.keywords (el := "action") (l := g.term.action)
      (ok := ["accept", "deny", "next"]) (by simp [attrsOf]) (by decide) (by decide) (by rw [hw]; simp)
  unfold GcpHf.actionOf at h
  rw [hw] at h
  cases h
  simp only [List.mem_cons, List.not_mem_nil, or_false] at this
  rcases this with rfl | rfl | rfl <;> decide

theorem hf_names_unique : ∀ {w a b : String}, (w, a) ∈ actionNames → (w, b) ∈ actionNames → a = b := by
  intro w a b h1 h2
  simp only [actionNames, List.mem_cons, Prod.mk.injEq, List.not_mem_nil, or_false] at h1 h2
  rcases h1 with ⟨rfl, rfl⟩ | ⟨rfl, rfl⟩ | ⟨rfl, rfl⟩ <;> rcases h2 with ⟨h, rfl⟩ | ⟨h, rfl⟩ | ⟨h, rfl⟩ <;>
    first | rfl | exact absurd h (by decide)

theorem hf_wants_unique {fl : GcpHf.Flow} (x : List String × HTerm) (a b : String) (h1 : GcpHf.Wants fl x a)
    (h2 : GcpHf.Wants fl x b) : a = b := by
  obtain ⟨_, _, _, w, e1, h1⟩ := h1
  obtain ⟨_, _, _, w', e2, h2⟩ := h2
  rw [e1] at e2
  cases e2
  exact hf_names_unique h1 h2

/-- The rules of a term match what the term matches. -/
theorem hf_block {c : GcpHf.Ctx} {g : HTerm} {rs : List Rule} {fl : GcpHf.Flow} {a : String} (hb : Block c g rs)
    (f : GcpHf.Live g → HfFits c.family c.direction g) (hdir : c.direction = "INGRESS" ∨ c.direction = "EGRESS")
    (haf : c.family = "inet" ∨ c.family = "inet6" ∨ c.family = "mixed")
    (hof : GcpHf.Live g → c.direction = fl.direction →
      (if c.direction = "EGRESS" then g.term.destinationPrefix else g.term.sourcePrefix) ≠ [] → GcpHf.OfFamily c.family fl.packet.ver)
    (hc : Coherent fl.packet) (hig : fl.packet.ver = .v6 → fl.packet.proto ≠ "igmp") :
    (∃ r ∈ rs, GcpHf.Hits r fl ∧ r.action = a) ↔ (c.direction = fl.direction ∧ GcpHf.OfFamily c.family fl.packet.ver) ∧ GcpHf.Live g ∧
      (Matches g.term fl.packet ∧ OneOf g.targets fl.network) ∧ ∃ w, g.term.action = [w] ∧ (w, a) ∈ actionNames := by
  rcases hb with ⟨hl, rfl⟩ | ⟨hl, hr, name, parts, h1, h2, rfl⟩
  · exact iff_of_false (by simp) (fun h => hl h.2.1)
  have f := f hl
  have memb : ∀ y ∈ parts.flatMap (·.2.2), y.direction = c.direction ∧ GcpHf.actionOf g.term = .ok y.action := by
    intro y hy
    obtain ⟨b, hb, hy⟩ := List.mem_flatMap.1 hy
    obtain ⟨action, es, k1, _, _, k2⟩ := hf_convert_mem (h2 b hb) hy
    obtain ⟨j, ⟨_, d, rfl, _⟩ | ⟨_, d, rfl, _⟩⟩ := hf_both_mem k2
    · exact ⟨rfl, k1⟩
    · exact ⟨rfl, k1⟩
  by_cases hq : c.direction = fl.direction
  case neg =>
    refine iff_of_false ?_ (fun h => hq h.1.1)
    rintro ⟨y, hy, hh, _⟩
    exact hq ((memb y hy).1.symm.trans hh.1)
  have hof := hof hl hq
  have hits : (∃ y ∈ parts.flatMap (·.2.2), GcpHf.Hits y fl) ↔
      OneOf g.targets fl.network ∧ GcpHf.OfFamily c.family fl.packet.ver ∧ Matches g.term fl.packet := by
    rw [← hf_peer f hl hr hdir haf hof]
    have hpass : ∀ b ∈ parts, ((∃ y ∈ b.2.2, GcpHf.Hits y fl) ↔ (c.direction = fl.direction ∧ OneOf g.targets fl.network) ∧
        PeerOf c.direction g.term (c.family == "mixed" && b.1 == .v6) b.1 fl.packet ∧
        OneOf g.term.protocol fl.packet.proto ∧ PortMatch g.term.destinationPort fl.packet.dport) := by
      intro b hb
      refine hf_pass f hl (h2 b hb) hdir hc fun hp => ?_
      exact hf_left f hdir haf (h1 ▸ List.mem_map.2 ⟨b, hb, rfl⟩) hof hc hig hp
    constructor
    · rintro ⟨y, hy, hh⟩
      obtain ⟨b, hb, hy⟩ := List.mem_flatMap.1 hy
      obtain ⟨⟨_, k1⟩, k2, k3⟩ := (hpass b hb).1 ⟨y, hy, hh⟩
      exact ⟨k1, ⟨b.1, h1 ▸ List.mem_map.2 ⟨b, hb, rfl⟩, k2⟩, k3⟩
    · rintro ⟨k1, ⟨v, hv, k2⟩, k3⟩
      rw [← h1] at hv
      obtain ⟨b, hb, rfl⟩ := List.mem_map.1 hv
      obtain ⟨y, hy, hh⟩ := (hpass b hb).2 ⟨⟨hq, k1⟩, k2, k3⟩
      exact ⟨y, List.mem_flatMap.2 ⟨b, hb, hy⟩, hh⟩
  obtain ⟨w, hw⟩ := f.action
  constructor
  · rintro ⟨y, hy, hh, rfl⟩
    obtain ⟨k1, k2, k3⟩ := hits.1 ⟨y, hy, hh⟩
    exact ⟨⟨hq, k2⟩, hl, ⟨k3, k1⟩, w, hw, hf_action f hl (memb y hy).2 hw⟩
  · rintro ⟨⟨_, k2⟩, _, ⟨k3, k1⟩, w', hw', hn⟩
    obtain ⟨y, hy, hh⟩ := hits.2 ⟨k1, k2, k3⟩
    exact ⟨y, hy, hh, hf_names_unique (hf_action f hl (memb y hy).2 hw') hn⟩

theorem directionOf_cases (o : List String) : directionOf o = "INGRESS" ∨ directionOf o = "EGRESS" := by
  unfold directionOf
  split
  · exact .inr rfl
  · exact .inl rfl

theorem hf_family_cases {o : List String} {af : String} (h : GcpHf.Family o af) : af = "inet" ∨ af = "inet6" ∨ af = "mixed" := by
  rcases h with h | h | h
  · exact .inl h.1
  · exact .inr (.inl h.1)
  · exact .inr (.inr h.1)

theorem hf_family_unique {o : List String} {a b : String} (h1 : GcpHf.Family o a) (h2 : GcpHf.Family o b) : a = b := by
  rcases h1 with ⟨rfl, x1, x2⟩ | ⟨rfl, x0, x1, x2⟩ | ⟨rfl, x0, x1, x2⟩ <;>
    rcases h2 with ⟨rfl, y1, y2⟩ | ⟨rfl, y0, y1, y2⟩ | ⟨rfl, y0, y1, y2⟩ <;> first | rfl | contradiction

/-- C111, for terms that are rendered faithfully: the rule that acts on a flow has the action of the first term that matches
it, over all filters of the policy. Terms with lists of threat intelligence are in filters that are for the packet's family.
Not proved, and refuted below: the same without these conditions. -/
theorem C111_partial {fs : List GcpHf.Filter} {out : GcpHf.Out} {fl : GcpHf.Flow} {a : String} (h : GcpHf.translate fs = .ok out)
    (hperm : ∀ f ∈ fs, f.families.Perm ["inet", "inet6", "mixed"]) (hhead : ∀ f ∈ fs, ∃ af, GcpHf.Family f.options af)
    (hfit : ∀ f ∈ fs, ∀ af, GcpHf.Family f.options af → ∀ g ∈ f.terms, GcpHf.Live g → HfFits af (directionOf f.options) g)
    (hof : ∀ f ∈ fs, ∀ af, GcpHf.Family f.options af → directionOf f.options = fl.direction → ∀ g ∈ f.terms, GcpHf.Live g →
      g.term.sourcePrefix ++ g.term.destinationPrefix ≠ [] → GcpHf.OfFamily af fl.packet.ver)
    (hc : Coherent fl.packet) (hig : fl.packet.ver = .v6 → fl.packet.proto ≠ "igmp") :
    GcpHf.Decides out.rules fl a ↔ GcpHf.PolicyDecides fs fl a := by
  obtain ⟨bs, h1, h2, h3, h4⟩ := hf_translate h
  unfold GcpHf.Decides
  rw [Lemmas.best_first]
  · rw [h3, Lemmas.first_blocks (want := GcpHf.Wants fl) hf_wants_unique, h1]
    · exact Iff.rfl
    · intro b hb w
      obtain ⟨f, hf, hd, k1, k2, k3, k4⟩ := h2 b hb
      obtain ⟨e1, e2⟩ := head_ok k1
      obtain ⟨af, haf⟩ := hhead f hf
      have e2 := e2 (hperm f hf) af haf
      rw [e1, e2] at k4
      rw [hf_block k4 (fun hl => hfit f hf af haf _ k3 hl) (directionOf_cases _) (hf_family_cases haf) ?_ hc hig]
      · unfold GcpHf.Wants
        rw [k2]
        refine and_congr (and_congr Iff.rfl ?_) Iff.rfl
        exact ⟨fun h => ⟨af, haf, h⟩, fun ⟨af', h1, h2⟩ => hf_family_unique h1 haf ▸ h2⟩
      · intro hl hq hne
        refine hof f hf af haf hq _ k3 hl fun h => hne ?_
        obtain ⟨x1, x2⟩ := List.append_eq_nil_iff.1 h
        split
        · exact x2
        · exact x1
  · intro x y h1 h2
    exact Nat.lt_asymm h1 h2
  · have : (out.rules.map Rule.priority).Pairwise (· < ·) := by
      rw [h4]
      exact List.pairwise_lt_range'
    exact List.pairwise_map.1 this

end Verif.Props
