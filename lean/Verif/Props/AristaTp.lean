import Verif.Lemmas.AristaTp
import Verif.Lemmas.IptablesTerm
import Verif.Lemmas.Keywords
import Verif.Lemmas.Basic

/-!
Property theorems C122-C125: the traffic policies of capirca/lib/arista_tp.py.
-/

namespace Verif.Props
open Verif Verif.Spec Verif.Spec.Eos Verif.AristaTp Policy Aclgenerator

/-! ### terms -/

/-- If the excludes say anything about the version, one of them cuts something out of an include that stays. -/
def Cuts (v : Ver) (inc exc : List Net) : Prop :=
  (∃ n ∈ inc, n.ver = v) → (∃ e ∈ exc, e.ver = v) →
    ∃ e ∈ exc, e.ver = v ∧ ∃ n ∈ inc, (∀ u x, Mem e u x → Mem n u x) ∧ ∀ f ∈ exc, ¬ ∀ u x, Mem n u x ↔ Mem f u x

/-- The terms that are rendered faithfully for packets of the version. `keywords` and `sane` are the checks of the tool itself; for
what happens without the other conditions, see the refutations. (`srcOnce`, `dstOnce` and `hopsOnce`: the tool prints two conditions
of one kind, and what a switch makes of them is not part of the model.) -/
structure AtpFits (v : Ver) (a : ATerm) : Prop where
  keywords : initCheck AristaTp.tables [(["arista_tp"], [kterm a.term])] = .ok ()
  sane : sanityCheck a.term = .ok ()
  verbatim : a.term.verbatim = []
  action : ∃ w, a.term.action = [w]
  srcTag : a.term.sourceTag = []
  dstTag : a.term.destinationTag = []
  trafficClass : a.term.trafficClass = none
  ttl : a.term.ttl ≠ some 0
  port : a.term.port = []
  family : FamilyOk v a.term
  src : ∀ n ∈ a.term.sourceAddress ++ a.term.sourceAddressExclude, WF n
  dst : ∀ n ∈ a.term.destinationAddress ++ a.term.destinationAddressExclude, WF n
  srcExclude : a.term.sourceAddress = [] → a.term.sourceAddressExclude = []
  dstExclude : a.term.destinationAddress = [] → a.term.destinationAddressExclude = []
  srcNested : ∀ n ∈ a.term.sourceAddress, ∀ e ∈ a.term.sourceAddressExclude, ¬ StrictSub n e
  dstNested : ∀ n ∈ a.term.destinationAddress, ∀ e ∈ a.term.destinationAddressExclude, ¬ StrictSub n e
  srcCuts : Cuts v a.term.sourceAddress a.term.sourceAddressExclude
  dstCuts : Cuts v a.term.destinationAddress a.term.destinationAddressExclude
  srcOnce : a.term.sourceAddress = [] ∨ a.term.sourcePrefix = []
  dstOnce : a.term.destinationAddress = [] ∨ a.term.destinationPrefix = []
  hopsOnce : a.term.hopLimit = [] ∨ a.term.ttl = none
  names : ∀ s ∈ a.term.protocol ++ a.term.protocolExcept, s ∈ iana.map Prod.fst
  except : a.term.protocol = [] ∨ a.term.protocolExcept = []
  icmp4 : v = .v4 → "icmpv6" ∈ a.term.protocol → ∀ s ∈ a.term.protocol, s = "icmpv6"
  icmp6 : v = .v6 → "icmp" ∈ a.term.protocol → ∀ s ∈ a.term.protocol, s = "icmp"
  types : a.term.icmpType ≠ [] → a.term.protocol = ["icmp"] ∨ a.term.protocol = ["icmpv6"]
  wide : PWF a.term.destinationPort
  ports : a.term.sourcePort ++ a.term.destinationPort ≠ [] →
    a.term.protocol ≠ [] ∧ ∀ s ∈ a.term.protocol, s = "tcp" ∨ s = "udp"
  opts : ∀ o ∈ a.term.option, o ∈ ["established", "tcp-established", "initial", "rst", "is-fragment"]
  flags : "initial" ∈ a.term.option ∨ "rst" ∈ a.term.option → a.term.protocol = ["tcp"]
  est : "established" ∈ a.term.option → a.term.protocol = ["tcp"] ∨
    (a.term.protocol ≠ [] ∧ ∀ s ∈ a.term.protocol, s = "udp")
  frag : "is-fragment" ∈ a.term.option → v = .v4 ∧ a.term.sourcePort = [] ∧ a.term.destinationPort = [] ∧
    "established" ∉ a.term.option
  criteria : (∃ n, a.term.name.map Char.toLower = "default-".toList ++ n) ∨ a.term.sourceAddress ≠ [] ∨
    a.term.destinationAddress ≠ [] ∨ a.term.sourcePrefix ≠ [] ∨ a.term.destinationPrefix ≠ [] ∨ a.term.protocol ≠ [] ∨
    a.term.protocolExcept ≠ [] ∨ a.term.fragmentOffset ≠ [] ∨ a.term.hopLimit ≠ [] ∨ a.term.ttl ≠ none

/-- Attributes the keyword check refuses. -/
structure AtpUnset (t : Term) : Prop where
  address : t.address = []
  addressExclude : t.addressExclude = []
  forwardingClass : t.forwardingClass = []
  forwardingClassExcept : t.forwardingClassExcept = []
  precedence : t.precedence = []
  etherType : t.etherType = []
  trafficType : t.trafficType = []
  dscpMatch : t.dscpMatch = []
  dscpExcept : t.dscpExcept = []
  flexible : t.flexibleMatchRange = []
  sourcePrefixExcept : t.sourcePrefixExcept = []
  destinationPrefixExcept : t.destinationPrefixExcept = []
  destinationZone : t.destinationZone = []
  sourceZone : t.sourceZone = []
  sourceInterface : t.sourceInterface = none
  destinationInterface : t.destinationInterface = none
  nextIp : t.nextIp = false

theorem atp_tables : ∀ e ∈ AristaTp.tables.subTokens, e.1 ∈ AristaTp.tables.tokens := by decide

theorem atp_unset {t : Term} (ha : Active "arista_tp" (kterm t))
    (h : initCheck AristaTp.tables [(["arista_tp"], [kterm t])] = .ok ()) : AtpUnset t := by
  have key : ∀ (s : String) {v : Val}, (s, v) ∈ attrsOf t →
      (s ∉ AristaTp.tables.tokens ∧ s ∉ warnIfUnsupported ∧ startsWith "flatten" s = false) → v.truthy = false :=
    fun s _ hm hs => unset (g := AristaTp.tables) atp_tables rfl ha h s hm hs
  constructor
  · exact Cisco.listVal_falsy (key "address" (by simp [attrsOf]) (by decide))
  · exact Cisco.listVal_falsy (key "address_exclude" (by simp [attrsOf]) (by decide))
  · exact Cisco.wordsVal_falsy (key "forwarding_class" (by simp [attrsOf]) (by decide))
  · exact Cisco.wordsVal_falsy (key "forwarding_class_except" (by simp [attrsOf]) (by decide))
  · exact Cisco.wordsVal_falsy (key "precedence" (by simp [attrsOf]) (by decide))
  · exact Cisco.wordsVal_falsy (key "ether_type" (by simp [attrsOf]) (by decide))
  · exact Cisco.wordsVal_falsy (key "traffic_type" (by simp [attrsOf]) (by decide))
  · exact Cisco.wordsVal_falsy (key "dscp_match" (by simp [attrsOf]) (by decide))
  · exact Cisco.wordsVal_falsy (key "dscp_except" (by simp [attrsOf]) (by decide))
  · exact Cisco.wordsVal_falsy (key "flexible_match_range" (by simp [attrsOf]) (by decide))
  · exact Cisco.wordsVal_falsy (key "source_prefix_except" (by simp [attrsOf]) (by decide))
  · exact Cisco.wordsVal_falsy (key "destination_prefix_except" (by simp [attrsOf]) (by decide))
  · exact Cisco.wordsVal_falsy (key "destination_zone" (by simp [attrsOf]) (by decide))
  · exact Cisco.wordsVal_falsy (key "source_zone" (by simp [attrsOf]) (by decide))
  · exact flagVal_none (key "source_interface" (by simp [attrsOf]) (by decide))
  · exact flagVal_none (key "destination_interface" (by simp [attrsOf]) (by decide))
  · exact Cisco.flagVal_falsy (key "next_ip" (by simp [attrsOf]) (by decide))

/-- What remains of `Matches` for such a term. -/
theorem atp_matches {t : Term} (u : AtpUnset t) (h1 : t.sourceTag = []) (h2 : t.destinationTag = [])
    (h3 : t.trafficClass = none) (h4 : t.port = []) {p : Packet} (hf : FamilyOk p.ver t) (ports : List PortRange) :
    Matches { t with destinationPort := ports } p ↔
      AddrMatch t.sourceAddress t.sourceAddressExclude p.ver p.src ∧
      AddrMatch t.destinationAddress t.destinationAddressExclude p.ver p.dst ∧
      (t.sourcePrefix = [] ∨ ∃ n ∈ t.sourcePrefix, p.inSrcPrefix n = true) ∧
      (t.destinationPrefix = [] ∨ ∃ n ∈ t.destinationPrefix, p.inDstPrefix n = true) ∧
      ((OneOf t.protocol p.proto ∧ p.proto ∉ t.protocolExcept) ∧ (∀ o ∈ t.option, p.hasOption o = true) ∧
        (PortMatch t.sourcePort p.sport ∧ PortMatch ports p.dport) ∧
        (OneOf t.icmpType p.icmpType ∧ OneOf t.icmpCode p.icmpCode)) ∧
      RangeMatch t.packetLength p.packetLength ∧ RangeMatch t.fragmentOffset p.fragmentOffset ∧
      RangeMatch t.hopLimit p.hopLimit ∧ (t.ttl = none ∨ t.ttl = some p.ttl) := by
  unfold FamilyOk at hf
  unfold Matches MatchAddrs MatchPorts MatchProto MatchPrefixes MatchMisc MatchRest
  dsimp only
  rw [h1, h2, h3, h4, u.address, u.addressExclude, u.forwardingClass, u.forwardingClassExcept, u.precedence, u.etherType,
    u.trafficType, u.dscpMatch, u.dscpExcept, u.flexible, u.sourcePrefixExcept, u.destinationPrefixExcept, u.destinationZone,
    u.sourceZone, u.sourceInterface, u.destinationInterface]
  have e1 : ∀ x : String, OneOf ([] : List String) x := fun x => .inl rfl
  constructor
  · rintro ⟨⟨_, a1, a2⟩, ⟨_, b1, b2⟩, c, ⟨d1, _, d2, _, _, _⟩, ⟨_, g1, _, _, g2, g3, _, _, g4, g5, g6⟩,
      ⟨_, _, _, _, _, k, _, _, _, _⟩⟩
    exact ⟨a1, a2, d1, d2, ⟨c, g1, ⟨b1, b2⟩, g2, g3⟩, g6, g4, g5, k⟩
  · rintro ⟨a1, a2, d1, d2, ⟨c, g1, ⟨b1, b2⟩, g2, g3⟩, g6, g4, g5, k⟩
    exact ⟨⟨.inl ⟨rfl, rfl⟩, a1, a2⟩, ⟨.inl rfl, b1, b2⟩, c, ⟨d1, by simp, d2, by simp, e1 _, e1 _⟩,
      ⟨e1 _, g1, e1 _, by simp, g2, g3, e1 _, e1 _, g4, g5, g6⟩,
      ⟨hf, e1 _, e1 _, e1 _, by simp, k, .inl rfl, .inl rfl, .inl rfl, by simp⟩⟩

theorem atp_est {t : Term} (h : ∀ o ∈ t.option, o ∈ ["established", "tcp-established", "initial", "rst", "is-fragment"]) :
    HasEstablished t ↔ "established" ∈ t.option := by
  constructor
  · rintro ⟨o, ho, hp⟩
    have := h o ho
    simp only [List.mem_cons, List.not_mem_nil, or_false] at this
    rw [← startsWith_iff] at hp
    rcases this with rfl | rfl | rfl | rfl | rfl
    · exact ho
    all_goals exact absurd hp (by decide)
  · intro h
    exact ⟨_, h, [], by simp⟩

/-- The ports of the prepared term. -/
theorem atp_ports {t u : Term} {name : Str} {ft : String} (hft : ft = "inet" ∨ ft = "inet6")
    (opts : ∀ o ∈ t.option, o ∈ ["established", "tcp-established", "initial", "rst", "is-fragment"])
    (hw : PWF t.destinationPort) (h : fixHighPorts AristaTp.highPorts { t with name := name } ft false = .ok u) (p : Packet) :
    ∃ ports, u = { t with name := name, destinationPort := ports } ∧
      ("established" ∉ t.option → ports = t.destinationPort) ∧
      (Matches { t with destinationPort := ports } p ↔ Ios.Means t p) := by
  have hsup : ft ∈ AristaTp.highPorts.supportedAf := by rcases hft with rfl | rfl <;> decide
  have hbl : ∀ l, AristaTp.highPorts.blacklist.lookup ft = some l →
      ∀ q ∈ l, ¬ TermProto AristaTp.highPorts { t with name := name } q := by
    intro l h; cases h
  by_cases he : HasEstablished { t with name := name }
  · have he' : "established" ∈ t.option := (atp_est (t := { t with name := name }) opts).1 he
    obtain ⟨e1, e2⟩ := C32_established (c := AristaTp.highPorts) (t := { t with name := name }) (af := ft) false hsup hbl he hw
    by_cases hall : ∀ q, TermProto AristaTp.highPorts { t with name := name } q → q = "tcp" ∨ q = "udp"
    · obtain ⟨ports, e, hx⟩ := e1 hall
      rw [e] at h
      cases h
      refine ⟨ports, rfl, fun hn => absurd he' hn, ?_⟩
      have : Matches { t with destinationPort := ports } p ↔
          Matches { t with destinationPort := t.destinationPort ++ [(1024, 65535)] } p := by
        refine matches_ports (t := t) (name := t.name) ?_
        have hnz : ports ≠ [] := by
          intro e0
          have := (hx 1024).2 (.inr ⟨rfl, by omega, by omega⟩)
          rw [e0] at this
          obtain ⟨_, h, _⟩ := this
          cases h
        unfold PortMatch
        rw [hx]
        constructor
        · rintro (h | ⟨q, hq, h⟩ | ⟨_, h⟩)
          · exact absurd h hnz
          · exact .inr ⟨q, List.mem_append_left _ hq, h⟩
          · exact .inr ⟨(1024, 65535), by simp, h⟩
        · rintro (h | ⟨q, hq, h⟩)
          · simp at h
          · rcases List.mem_append.1 hq with hq | hq
            · exact .inr (.inl ⟨q, hq, h⟩)
            · rw [List.mem_singleton.1 hq] at h
              exact .inr (.inr ⟨rfl, h⟩)
      rw [this]
      unfold Ios.Means
      simp [he']
    · have hex : ∃ q, TermProto AristaTp.highPorts { t with name := name } q ∧ q ≠ "tcp" ∧ q ≠ "udp" := by
        refine Classical.byContradiction fun hn => hall fun q hq => ?_
        refine Classical.byContradiction fun hne => hn ⟨q, hq, fun h => hne (.inl h), fun h => hne (.inr h)⟩
      rw [e2 hex] at h
      cases h
  · have he' : "established" ∉ t.option := fun h => he ((atp_est (t := { t with name := name }) opts).2 h)
    rw [C32_unchanged (c := AristaTp.highPorts) false hsup hbl he] at h
    cases h
    refine ⟨t.destinationPort, rfl, fun _ => rfl, ?_⟩
    unfold Ios.Means
    simp [he']

/-- What `Term.__init__` makes of the protocols. -/
def toProto (s : String) : Proto := if s = "ipip" then .num 4 else .str s

theorem map_toProto {l : List String} {w : String} (hw : w ≠ "ipip") : l.map toProto = [.str w] ↔ l = [w] := by
  constructor
  · intro h
    obtain ⟨s, rfl, hs⟩ := List.map_eq_singleton_iff.1 h
    unfold toProto at hs
    split at hs
    · cases hs
    · cases hs; rfl
  · rintro rfl
    simp [toProto, hw]

theorem atp_init {v : Ver} {a : ATerm} {q : PTerm} (h : AristaTp.initTerm v a = .ok q) :
    q = ⟨a, v, a.term.protocol.map toProto⟩ := by
  unfold AristaTp.initTerm at h
  obtain ⟨ps, h1, h⟩ := bind_ok h
  cases h
  have := ((C55_protocols _ _).1 h1).2
  rw [this, List.map_map]
  congr 1
  apply List.map_congr_left
  intro s _
  simp only [Function.comp, toProto, Proto.str.injEq]

/-- The icmp types and codes. -/
theorem atp_types {q : PTerm} {l : List String} (hq : q.protos = l.map toProto) {types : List Nat}
    (h : AristaTp.icmpTypes q = .ok types) (sane : sanityIcmpCode q.item.term = .ok ())
    (ht : q.item.term.icmpType ≠ [] → l = ["icmp"] ∨ l = ["icmpv6"]) {p : Packet} (hv : p.ver = q.family) :
    ((types = [] ∨ ∃ k ∈ types, (p.icmpType, k) ∈ icmpNumbers p.ver) ↔ OneOf q.item.term.icmpType p.icmpType) ∧
    AristaTp.icmpCodes q types = q.item.term.icmpCode ∧
    (types ++ q.item.term.icmpCode ≠ [] → (q.family = .v4 ∧ l = ["icmp"]) ∨ (q.family = .v6 ∧ l = ["icmpv6"])) := by
  have hc : q.item.term.icmpCode ≠ [] → ∃ ty, q.item.term.icmpType = [ty] := by
    intro hc
    unfold sanityIcmpCode at sane
    rw [if_neg (by simpa using hc)] at sane
    split at sane
    next ty e => exact ⟨ty, e⟩
    · cases sane
  have h0 : q.item.term.icmpType = [] → q.item.term.icmpCode = [] := by
    intro e
    refine Classical.byContradiction fun hn => ?_
    obtain ⟨ty, h⟩ := hc hn
    rw [e] at h
    cases h
  by_cases he : q.item.term.icmpType = []
  · have e : types = [] := by
      unfold AristaTp.icmpTypes at h
      split at h
      · obtain ⟨l', h1, h⟩ := bind_ok h
        cases h
        unfold normalizeIcmpTypes at h1
        rw [if_pos (by simp [he])] at h1
        cases h1
        rfl
      · cases h; rfl
    subst e
    rw [h0 he]
    refine ⟨⟨fun _ => .inl he, fun _ => .inl rfl⟩, ?_, fun h => absurd rfl h⟩
    unfold AristaTp.icmpCodes
    rw [h0 he]
    split <;> rfl
  · have hcase : q.protos = [.str "icmp"] ∨ q.protos = [.str "icmpv6"] := by
      rw [hq, map_toProto (by decide), map_toProto (by decide)]
      exact ht he
    have htext : q.protos.map Proto.text = l := by
      rcases ht he with rfl | rfl <;> rw [hq] <;> rfl
    unfold AristaTp.icmpTypes at h
    rw [if_pos hcase, htext] at h
    obtain ⟨l', h1, h⟩ := bind_ok h
    cases h
    have h2 : Iptables.icmpTypes q.item.term l q.family = .ok l' := by
      unfold Iptables.icmpTypes
      rw [if_neg (by simpa using he)]
      exact h1
    obtain ⟨k1, _, k2⟩ := Iptables.icmpTypes_spec h2 p
    obtain ⟨k3, k4⟩ := k2 he
    obtain ⟨k5, _⟩ := C34_length he h1
    have hm : ∀ k, k ∈ l'.filterMap id ↔ some k ∈ l' := by
      intro k
      simp [List.mem_filterMap]
    have hne : l'.filterMap id ≠ [] := by
      intro e
      cases l' with
      | nil => simp at k5; exact he (by simpa using k5.symm)
      | cons x xs =>
        cases x with
        | none => exact k3 (by simp)
        | some k => simp at e
    refine ⟨?_, ?_, fun _ => k4⟩
    · rw [← k1, hv]
      constructor
      · rintro (h | ⟨k, hk, h⟩)
        · exact absurd h hne
        · exact ⟨some k, (hm k).1 hk, fun j e => by cases e; exact h⟩
      · rintro ⟨ty, hty, h⟩
        cases ty with
        | none => exact absurd hty k3
        | some k => exact .inr ⟨k, (hm k).2 hty, h k rfl⟩
    · unfold AristaTp.icmpCodes
      by_cases hcd : q.item.term.icmpCode = []
      · rw [hcd]; split <;> rfl
      · obtain ⟨ty, e⟩ := hc hcd
        rw [e] at k5
        refine if_pos ⟨hcase, ?_⟩
        have := List.length_filterMap_le id l'
        simp at k5
        omega

theorem gaps_ne {p : Int} : ∀ {l : List Int}, gaps p l ≠ []
  | [] => by simp [gaps]
  | n :: ns => by
    rw [gaps]
    split
    · simp
    · split
      · exact gaps_ne
      · exact gaps_ne

theorem protoToks_ne {v : Ver} {l : List Proto} (h : l ≠ []) : protoToks v l ≠ [] := by
  unfold protoToks
  split <;> simpa using h

/-- The options, for a packet of one of the protocols. -/
theorem atp_options {l : List String} {os : List String} {r : List String × List String}
    (h : AristaTp.options (l.map toProto) ([], []) os = .ok r)
    (opts : ∀ o ∈ os, o ∈ ["established", "tcp-established", "initial", "rst", "is-fragment"])
    (flags : "initial" ∈ os ∨ "rst" ∈ os → l = ["tcp"])
    (est : "established" ∈ os → l = ["tcp"] ∨ (l ≠ [] ∧ ∀ s ∈ l, s = "udp")) {p : Packet} (hp : Coherent p)
    (hl : OneOf l p.proto) : (l ≠ ["tcp"] → r.1 = []) ∧
    ((∀ o ∈ os, p.hasOption o = true) ↔ (∀ f ∈ r.1, ∃ o, (f, o) ∈ flagNames ∧ p.hasOption o = true) ∧
      ∀ m ∈ r.2, m = "fragment" ∧ p.hasOption "is-fragment" = true) := by
  obtain ⟨hF, hM, hE⟩ := options_spec opts h
  rw [map_toProto (by decide)] at hE
  simp only [map_toProto (show "tcp" ≠ "ipip" by decide), List.not_mem_nil, false_or] at hF hM
  refine ⟨fun hn => List.eq_nil_iff_forall_not_mem.2 fun f hf => hn ((hF f).1 hf).1, ?_⟩
  constructor
  · intro ho
    refine ⟨fun f hf => ?_, fun m hm => ?_⟩
    · obtain ⟨_, ⟨rfl, h | h⟩ | ⟨rfl, h⟩ | ⟨rfl, h⟩⟩ := (hF f).1 hf
      · exact ⟨"tcp-established", by decide, by rw [← hp.est]; exact ho _ h⟩
      · exact ⟨"tcp-established", by decide, ho _ h⟩
      · exact ⟨"initial", by decide, ho _ h⟩
      · exact ⟨"rst", by decide, ho _ h⟩
    · obtain ⟨rfl, h⟩ := (hM m).1 hm
      exact ⟨rfl, ho _ h⟩
  · rintro ⟨h1, h2⟩ o ho
    have hflag : ∀ f o, (f, o) ∈ flagNames → f ∈ r.1 → p.hasOption o = true := by
      intro f o hm hf
      obtain ⟨o', hm', h⟩ := h1 f hf
      have key : ∀ a ∈ flagNames, ∀ b ∈ flagNames, a.1 = b.1 → a.2 = b.2 := by decide
      have := key _ hm _ hm' rfl
      dsimp only at this
      rw [this]
      exact h
    have := opts o ho
    simp only [List.mem_cons, List.not_mem_nil, or_false] at this
    rcases this with rfl | rfl | rfl | rfl | rfl
    · rw [hp.est]
      rcases est ho with e | ⟨e1, e2⟩
      · exact hflag "established" _ (by decide) ((hF _).2 ⟨e, .inl ⟨rfl, .inl ho⟩⟩)
      · rcases hl with h | h
        · exact absurd h e1
        · exact hp.udp (e2 _ h)
    · exact hflag "established" _ (by decide) ((hF _).2 ⟨hE ho, .inl ⟨rfl, .inr ho⟩⟩)
    · exact hflag "initial" _ (by decide) ((hF _).2 ⟨flags (.inl ho), .inr (.inl ⟨rfl, ho⟩)⟩)
    · exact hflag "rst" _ (by decide) ((hF _).2 ⟨flags (.inr ho), .inr (.inr ⟨rfl, ho⟩)⟩)
    · exact (h2 "fragment" ((hM _).2 ⟨rfl, ho⟩)).2

theorem sane_icmp {t : Term} (h : sanityCheck t = .ok ()) : sanityIcmpCode t = .ok () := by
  unfold sanityCheck at h
  obtain ⟨_, _, h⟩ := bind_ok h
  obtain ⟨_, _, h⟩ := bind_ok h
  obtain ⟨_, h1, _⟩ := bind_ok h
  exact h1

/-- The `protocol` line and the conditions from the options. -/
theorem atp_line {v : Ver} {a : ATerm} (f : AtpFits v a) {name : Str} {ports : List PortRange}
    (hports : "established" ∉ a.term.option → ports = a.term.destinationPort) {q : PTerm}
    (hq : q = ⟨{ a with term := { a.term with name := name, destinationPort := ports } }, v, a.term.protocol.map toProto⟩)
    {r : List String × List String} (ho : AristaTp.options q.protos ([], []) q.item.term.option = .ok r) {cs : List Cond}
    (h : protoCond q r.1 = .ok cs) {sets : List FieldSet} {p : Packet} (hp : Packets p) (hv : p.ver = v) :
    ((∀ c ∈ cs, Holds sets p c) ∧ ∀ m ∈ r.2, m = "fragment" ∧ p.hasOption "is-fragment" = true) ↔
      (OneOf a.term.protocol p.proto ∧ p.proto ∉ a.term.protocolExcept) ∧ (∀ o ∈ a.term.option, p.hasOption o = true) ∧
        (PortMatch a.term.sourcePort p.sport ∧ PortMatch ports p.dport) ∧
        (OneOf a.term.icmpType p.icmpType ∧ OneOf a.term.icmpCode p.icmpCode) := by
  have hfam : q.family = v := by rw [hq]
  have hps : q.protos = a.term.protocol.map toProto := by rw [hq]
  have hopt : q.item.term.option = a.term.option := by rw [hq]
  have htype : q.item.term.icmpType = a.term.icmpType := by rw [hq]
  have hcode : q.item.term.icmpCode = a.term.icmpCode := by rw [hq]
  have hexc : q.item.term.protocolExcept = a.term.protocolExcept := by rw [hq]
  have hsp : q.item.term.sourcePort = a.term.sourcePort := by rw [hq]
  have hdp : q.item.term.destinationPort = ports := by rw [hq]
  unfold protoCond at h
  obtain ⟨toks, h1, h⟩ := bind_ok h
  obtain ⟨types, h2, h⟩ := bind_ok h
  have hsane : sanityIcmpCode q.item.term = .ok () := by
    have := sane_icmp f.sane
    unfold sanityIcmpCode at this ⊢
    rw [htype, hcode]
    exact this
  obtain ⟨t1, t2, t3⟩ := atp_types (l := a.term.protocol) hps h2 hsane (by rw [htype]; exact f.types) (hv.trans hfam.symm)
  rw [hps, hopt] at ho
  have hO := fun hl => atp_options (l := a.term.protocol) ho f.opts f.flags f.est hp.coherent hl
  have hnames1 : ∀ s ∈ a.term.protocol, s ∈ iana.map Prod.fst := fun s hs => f.names s (List.mem_append_left _ hs)
  have hnames2 : ∀ s ∈ a.term.protocolExcept, s ∈ iana.map Prod.fst := fun s hs => f.names s (List.mem_append_right _ hs)
  have hdports : a.term.protocol = [] → a.term.sourcePort = [] ∧ ports = [] := by
    intro e
    have hne : "established" ∉ a.term.option := by
      intro he
      rcases f.est he with h | h
      · rw [e] at h; cases h
      · exact h.1 e
    have : a.term.sourcePort ++ a.term.destinationPort = [] :=
      Classical.byContradiction fun hn => (f.ports hn).1 e
    rw [List.append_eq_nil_iff] at this
    exact ⟨this.1, (hports hne).trans this.2⟩
  have hnotypes : a.term.protocol = [] → types = [] ∧ a.term.icmpType = [] ∧ a.term.icmpCode = [] := by
    intro e
    rw [hcode] at t3
    have : types ++ a.term.icmpCode = [] := Classical.byContradiction fun hn => by
      rcases t3 hn with ⟨_, h⟩ | ⟨_, h⟩ <;> rw [e] at h <;> cases h
    rw [List.append_eq_nil_iff] at this
    refine ⟨this.1, Classical.byContradiction fun hn => ?_, this.2⟩
    rcases f.types hn with h | h <;> rw [e] at h <;> cases h
  have htcp : q.protos = [.str "tcp"] ↔ a.term.protocol = ["tcp"] := by rw [hps]; exact map_toProto (by decide)
  rw [t2, hcode, hsp, hdp] at h
  dsimp only at h
  by_cases hpe : a.term.protocol = []
  · obtain ⟨e1, e2⟩ := hdports hpe
    obtain ⟨e3, e4, e5⟩ := hnotypes hpe
    have hfl : flagsOf q r.1 = [] := by
      unfold flagsOf
      exact if_neg fun h => by have := htcp.1 h.1; rw [hpe] at this; cases this
    have hone : OneOf a.term.protocol p.proto := .inl hpe
    obtain ⟨o1, o2⟩ := hO hone
    have hr1 : r.1 = [] := o1 (by rw [hpe]; simp)
    rw [hfl, e1, e2, e3, e5] at h
    have hrest : (PortMatch a.term.sourcePort p.sport ∧ PortMatch ports p.dport) ∧
        (OneOf a.term.icmpType p.icmpType ∧ OneOf a.term.icmpCode p.icmpCode) :=
      ⟨⟨.inl e1, .inl e2⟩, .inl e4, .inl e5⟩
    rw [hr1] at o2
    have o3 : (∀ o ∈ a.term.option, p.hasOption o = true) ↔ ∀ m ∈ r.2, m = "fragment" ∧ p.hasOption "is-fragment" = true := by
      rw [o2]; simp
    rw [o3]
    by_cases hee : a.term.protocolExcept = []
    · unfold lineProtos at h1
      rw [hexc, if_pos (by simp [hee]), hps, hpe] at h1
      have : toks = [] := by
        have := Except.ok.inj h1
        rw [← this]
        unfold protoToks
        split <;> rfl
      rw [this, if_pos rfl] at h
      cases h
      constructor
      · rintro ⟨_, h⟩
        exact ⟨⟨hone, by rw [hee]; simp⟩, h, hrest⟩
      · rintro ⟨_, h, _⟩
        exact ⟨by simp, h⟩
    · unfold lineProtos at h1
      rw [hexc, if_neg (by simpa using hee), hfam] at h1
      have hx := exceptToks_is h1 hnames2 hp.coherent.proto (fun e => hp.zero (hv.trans e))
      have hne : toks ≠ [] := by
        unfold exceptToks at h1
        obtain ⟨ns, _, h1⟩ := bind_ok h1
        cases h1
        exact gaps_ne
      rw [if_neg (by simp [hne])] at h
      cases h
      have : (∀ c ∈ [Cond.proto ⟨toks, [], [], [], [], []⟩], Holds sets p c) ↔ p.proto ∉ a.term.protocolExcept := by
        rw [← hx]
        simp only [List.mem_singleton, forall_eq, Holds]
        constructor
        · intro h; exact h.proto
        · intro h
          exact ⟨h, fun h => absurd rfl h, by simp, by simp, .inl rfl, .inl rfl, by simp, .inl rfl, .inl rfl⟩
      rw [this]
      constructor
      · rintro ⟨h', h⟩
        exact ⟨⟨hone, h'⟩, h, hrest⟩
      · rintro ⟨⟨_, h'⟩, h, _⟩
        exact ⟨h', h⟩
  · have hee : a.term.protocolExcept = [] := f.except.resolve_left hpe
    unfold lineProtos at h1
    rw [hexc, if_pos (by simp [hee]), hfam, hps] at h1
    have htok := Except.ok.inj h1
    have hx : (∃ t ∈ toks, ProtoIs p t) ↔ p.proto ∈ a.term.protocol := by
      rw [← htok]
      exact protoToks_is hnames1 hp.coherent.proto
    have hne : toks ≠ [] := by
      rw [← htok]
      exact protoToks_ne (by simpa using hpe)
    rw [if_neg (by simp [hne])] at h
    cases h
    have hone : OneOf a.term.protocol p.proto ↔ p.proto ∈ a.term.protocol := or_iff_right hpe
    simp only [List.mem_singleton, forall_eq, Holds]
    by_cases hm : p.proto ∈ a.term.protocol
    · obtain ⟨o1, o2⟩ := hO (.inr hm)
      have hfl : flagsOf q r.1 = r.1 := by
        unfold flagsOf
        by_cases ht : a.term.protocol = ["tcp"]
        · exact if_pos ⟨htcp.2 ht, by rw [hexc, hee]; rfl⟩
        · rw [o1 ht]; split <;> rfl
      rw [hfl, o2]
      rw [htype] at t1
      rw [hcode] at t3
      constructor
      · rintro ⟨h, hm'⟩
        exact ⟨⟨.inr hm, by rw [hee]; simp⟩, ⟨h.flags, hm'⟩, ⟨h.sport, h.dport⟩, t1.1 h.types, h.codes⟩
      · rintro ⟨_, ⟨h1, h2⟩, ⟨h3, h4⟩, h5, h6⟩
        refine ⟨⟨hx.2 hm, ?_, h1, ?_, h3, h4, ?_, t1.2 h5, h6⟩, h2⟩
        · intro hf
          have ht : a.term.protocol = ["tcp"] := Classical.byContradiction fun hn => hf (o1 hn)
          rw [← htok, ht]
          cases v <;> rfl
        · intro hpt
          have hsub : ∀ s ∈ a.term.protocol, s = "tcp" ∨ s = "udp" := by
            by_cases he : "established" ∈ a.term.option
            · intro s hs
              rcases f.est he with e | e
              · rw [e] at hs; exact .inl (List.mem_singleton.1 hs)
              · exact .inr (e.2 s hs)
            · dsimp only at hpt
              rw [hports he] at hpt
              exact (f.ports hpt).2
          rw [← htok]
          exact protoToks_ports hsub
        · intro hty
          rcases t3 hty with ⟨e1, e2⟩ | ⟨e1, e2⟩
          · rw [hfam] at e1
            left
            rw [← htok, e2, e1]
            rfl
          · rw [hfam] at e1
            right
            rw [← htok, e2, e1]
            rfl
    · constructor
      · rintro ⟨h, _⟩
        exact absurd (hx.1 h.proto) hm
      · rintro ⟨⟨h, _⟩, _⟩
        exact absurd (hone.1 h) hm

/-! ### one term -/

/-- The condition for one direction. -/
theorem atp_addr {v : Ver} {us : Bool} {name : Str} {d : Dir} {inc exc : List Net} (hw : ∀ n ∈ inc ++ exc, WF n)
    (h0 : inc = [] → exc = []) {sets : List FieldSet} {ren : List (Str × Str)} {p : Packet} (hv : p.ver = v)
    (hs : (∃ n ∈ inc, n.ver = v) → (us = true ∨ ∃ e ∈ exc, e.ver = v) →
      (InSet sets d p (rename ren (setName d name)) ↔ AddrMatch inc exc v (Eos.addr d p))) :
    (addrCond v us name d inc exc = none → ¬ AddrMatch inc exc v (Eos.addr d p)) ∧
    ∀ cs, addrCond v us name d inc exc = some cs →
      ((∀ c ∈ cs.map (renameCond ren), Holds sets p c) ↔ AddrMatch inc exc v (Eos.addr d p)) := by
  have hi : ∀ n ∈ inc, WF n := fun n h => hw n (List.mem_append_left _ h)
  unfold addrCond
  split
  next he =>
    rw [List.isEmpty_iff] at he
    split
    next h1 =>
      rw [List.isEmpty_iff] at h1
      refine ⟨by simp, fun cs e => ?_⟩
      cases e
      rw [h0 h1, h1]
      refine ⟨fun _ => ⟨.inl rfl, ?_⟩, fun _ => by simp⟩
      rintro ⟨_, h, _⟩; cases h
    next h1 =>
      refine ⟨fun _ => ?_, by simp⟩
      rintro ⟨h | ⟨n, hn, hm⟩, _⟩
      · exact h1 (by simp [h])
      · have : n ∈ ofVersion v inc := mem_ofVersion.2 ⟨hn, hm.1⟩
        rw [he] at this
        cases this
  next he =>
    have hex : ∃ n ∈ inc, n.ver = v := by
      have : ofVersion v inc ≠ [] := by simpa using he
      obtain ⟨n, hn⟩ := List.exists_mem_of_ne_nil _ this
      exact ⟨n, (mem_ofVersion.1 hn).1, (mem_ofVersion.1 hn).2⟩
    split
    next hu =>
      refine ⟨by simp, fun cs e => ?_⟩
      cases e
      have hu' : us = true ∨ ∃ e ∈ exc, e.ver = v := by
        rw [Bool.or_eq_true] at hu
        rcases hu with h | h
        · have : ofVersion v exc ≠ [] := by simpa using h
          obtain ⟨n, hn⟩ := List.exists_mem_of_ne_nil _ this
          exact .inr ⟨n, (mem_ofVersion.1 hn).1, (mem_ofVersion.1 hn).2⟩
        · exact .inl h
      rw [← hs hex hu']
      simp [renameCond, Holds]
    next hu =>
      refine ⟨by simp, fun cs e => ?_⟩
      cases e
      have : ofVersion v exc = [] := by
        simp only [Bool.or_eq_true, not_or, Bool.not_eq_true, Bool.not_eq_false'] at hu
        exact List.isEmpty_iff.1 hu.1
      have hne : inc ≠ [] := by
        rintro rfl
        obtain ⟨_, h, _⟩ := hex
        cases h
      rw [← prefixes_are hi this hne]
      simp [renameCond, Holds, hv]

theorem atp_list {d : Dir} {l : List String} {sets : List FieldSet} {ren : List (Str × Str)} {p : Packet}
    (h : ∀ s ∈ l, InSet sets d p (rename ren s.toList) ↔ inList d p s = true) :
    (∀ c ∈ (listCond d l).map (renameCond ren), Holds sets p c) ↔ (l = [] ∨ ∃ n ∈ l, inList d p n = true) := by
  unfold listCond
  split
  next he => simp [List.isEmpty_iff.1 he]
  next he =>
    have hne : l ≠ [] := by simpa using he
    simp only [List.map_cons, List.map_nil, List.mem_singleton, forall_eq, renameCond, Holds, hne, false_or, List.map_map,
      List.mem_map, Function.comp]
    constructor
    · rintro ⟨_, ⟨s, hs, rfl⟩, hi⟩
      exact ⟨s, hs, (h s hs).1 hi⟩
    · rintro ⟨s, hs, hi⟩
      exact ⟨_, ⟨s, hs, rfl⟩, (h s hs).2 hi⟩

theorem atp_span {c : List Nat → Cond} {l : List Nat} {P : Cond → Prop} {x : Nat} (h : P (c l) ↔ RangeMatch l x) :
    (∀ y ∈ spanCond c l, P y) ↔ RangeMatch l x := by
  unfold spanCond
  split
  next he => rw [List.isEmpty_iff.1 he]; simp [RangeMatch]
  next => simpa using h

theorem atp_rest {t : Term} (hz : t.ttl ≠ some 0) {misc : List String} {sets : List FieldSet} {ren : List (Str × Str)} {p : Packet}
    (hp : Packets p) : (∀ c ∈ (restConds t misc).map (renameCond ren), Holds sets p c) ↔
      (RangeMatch t.packetLength p.packetLength ∧ RangeMatch t.fragmentOffset p.fragmentOffset ∧
      RangeMatch t.hopLimit p.hopLimit ∧ (t.ttl = none ∨ t.ttl = some p.ttl)) ∧
      ∀ m ∈ misc, m = "fragment" ∧ p.hasOption "is-fragment" = true := by
  rw [← hp.hops]
  have e : (∀ c ∈ (restConds t misc).map (renameCond ren), Holds sets p c) ↔
      ∀ c ∈ restConds t misc, Holds sets p (renameCond ren c) := by simp
  rw [e]
  unfold restConds
  have app : ∀ {l m : List Cond} {P : Cond → Prop}, (∀ c ∈ l ++ m, P c) ↔ (∀ c ∈ l, P c) ∧ ∀ c ∈ m, P c := by
    intro l m P
    exact List.forall_mem_append
  have s1 := atp_span (c := .length) (l := t.packetLength) (P := fun c => Holds sets p (renameCond ren c)) (x := p.packetLength) Iff.rfl
  have s2 := atp_span (c := .offset) (l := t.fragmentOffset) (P := fun c => Holds sets p (renameCond ren c)) (x := p.fragmentOffset) Iff.rfl
  have s3 := atp_span (c := .ttl) (l := t.hopLimit) (P := fun c => Holds sets p (renameCond ren c)) (x := p.ttl) Iff.rfl
  rw [app, app, app, app, s1, s2, s3, ← hp.hops]
  have h1 : (∀ c ∈ (if t.ttl.getD 0 = 0 then [] else [Cond.ttl [t.ttl.getD 0]]), Holds sets p (renameCond ren c)) ↔
      (t.ttl = none ∨ t.ttl = some p.hopLimit) := by
    rw [hp.hops]
    cases ht : t.ttl with
    | none => simp
    | some n =>
      have : n ≠ 0 := by rintro rfl; exact hz ht
      simp only [Option.getD_some, if_neg this, List.mem_singleton, forall_eq, renameCond, Holds, RangeMatch]
      simp [eq_comm]
  rw [h1]
  have h2 : (∀ c ∈ misc.map Cond.misc, Holds sets p (renameCond ren c)) ↔
      ∀ m ∈ misc, m = "fragment" ∧ p.hasOption "is-fragment" = true := by
    simp [renameCond, Holds]
  rw [h2]
  constructor
  · rintro ⟨a, b, c, d, e⟩; exact ⟨⟨a, b, c, d⟩, e⟩
  · rintro ⟨⟨a, b, c, d⟩, e⟩; exact ⟨a, b, c, d, e⟩

/-- What is kept of a term that is not left out. -/
theorem prepare_shape {type ft : String} {a : ATerm} {q : PTerm} (h : AristaTp.prepare type ft a = .ok (some q)) :
    a.expired = false ∧ ∃ ports, q = ⟨{ a with term := { a.term with name := finalName type ft a.term.name, destinationPort := ports } },
      afOf ft, a.term.protocol.map toProto⟩ := by
  unfold AristaTp.prepare at h
  obtain ⟨u, hu, h⟩ := bind_ok h
  obtain ⟨ports, rfl⟩ := restrict_fixHighPorts hu
  dsimp only at h
  split at h
  · cases h
  next hx =>
    refine ⟨by simpa using hx, ports, ?_⟩
    iterate 6
      split at h
      · cases h
    obtain ⟨q', hq, h⟩ := bind_ok h
    cases h
    exact atp_init hq

theorem prepare_families {type ft : String} {a : ATerm} {r : Option PTerm} (h : AristaTp.prepare type ft a = .ok r) :
    ft = "inet" ∨ ft = "inet6" ∨ ft = "mixed" := by
  unfold AristaTp.prepare at h
  obtain ⟨u, hu, h⟩ := bind_ok h
  unfold fixHighPorts at hu
  split at hu
  · cases hu
  next hc =>
    have hc : ¬ ft = "inet" → ¬ ft = "inet6" → ft = "mixed" := by simpa [AristaTp.highPorts] using hc
    by_cases h1 : ft = "inet"
    · exact .inl h1
    · by_cases h2 : ft = "inet6"
      · exact .inr (.inl h2)
      · exact .inr (.inr (hc h1 h2))

theorem live_platform {a : ATerm} (h : a.expired = false) : Live a ↔ Cisco.onPlatform "arista_tp" a.term = true := by
  rw [Cisco.onPlatform_iff (c := ⟨"arista_tp", false⟩)]
  unfold Live Active kterm
  simp [h]

theorem atp_action {t : Term} (ha : Active "arista_tp" (kterm t))
    (h : initCheck AristaTp.tables [(["arista_tp"], [kterm t])] = .ok ()) {w : String} (hm : w ∈ t.action) :
    w ∈ ["accept", "deny", "next", "reject", "reject-with-tcp-rst"] :=
  word_known (g := AristaTp.tables) atp_tables ha h (el := "action") (l := t.action) (by simp [attrsOf]) rfl (by decide) hm

/-- The actions do what the action of the term says. -/
theorem atp_verdict {a : ATerm} {w : String} (hw : a.term.action = [w])
    (hk : w ∈ ["accept", "deny", "next", "reject", "reject-with-tcp-rst"]) (hn : w ≠ "next") {as : List Act}
    (h : AristaTp.actions a = .ok as) (ren : List (Str × Str)) (b : Bool) :
    Verdict (as.map (renameAct ren)) b ↔ Ios.Permits w b := by
  unfold AristaTp.actions at h
  rw [hw] at h
  dsimp only at h
  obtain ⟨ds, h1, h⟩ := bind_ok h
  obtain ⟨is, h2, h⟩ := bind_ok h
  cases h
  have hd : ∀ s, Act.word s ∉ ds := by
    unfold AristaTp.dscpAct at h1
    split at h1
    · cases h1; simp
    · split at h1
      · cases h1; simp
      · cases h1
  have hi : ∀ s, Act.word s ∉ is := by
    unfold AristaTp.interfaceAct at h2
    split at h2
    · cases h2; simp
    · split at h2
      · cases h2; simp
      · cases h2
  have hr : ∀ (l : List Act) s, Act.word s ∈ l.map (renameAct ren) ↔ Act.word s ∈ l := by
    intro l s
    rw [List.mem_map]
    constructor
    · rintro ⟨x, hx, e⟩
      cases x <;> simp [renameAct] at e
      subst e
      exact hx
    · intro h
      exact ⟨_, h, rfl⟩
  have hm : ∀ s, Act.word s ∈ (if [w] = ["accept"] then [] else [Act.word (actionTable.lookup w)]) ++
      ((if a.term.logging.isEmpty = true ∨ [w] = ["accept"] then [] else [Act.log]) ++
      ((if a.counter = "" then [] else [.count (counterName a.counter)]) ++ (ds ++
      ((if a.term.trafficClass.getD 0 = 0 then [] else [.trafficClass (a.term.trafficClass.getD 0)]) ++
      ((if a.nextHopGroup = "" then [] else [.group a.nextHopGroup.toList]) ++ is))))) ↔
      (w ≠ "accept" ∧ s = actionTable.lookup w) := by
    intro s
    simp only [List.mem_append, hd, hi, or_false, false_or]
    have : ∀ (c : Prop) [Decidable c] (x : Act), Act.word s ≠ x → ((Act.word s ∈ if c then [] else [x]) ↔ False) := by
      intro c _ x hx
      split <;> simp [hx]
    rw [this _ .log (by simp), this _ (.count _) (by simp), this _ (.trafficClass _) (by simp), this _ (.group _) (by simp)]
    simp only [or_false]
    by_cases hwa : w = "accept"
    · simp [hwa]
    · simp [hwa]
  unfold Verdict
  simp only [hr, hm]
  simp only [List.mem_cons, List.not_mem_nil, or_false] at hk
  unfold Ios.Permits
  rcases hk with rfl | rfl | rfl | rfl | rfl
  · simp
  · simp [actionTable, List.lookup]
  · exact absurd rfl hn
  · simp [actionTable, List.lookup]
  · simp [actionTable, List.lookup]

theorem other_icmp {v : Ver} {a : ATerm} (f : AtpFits v a) (h : (a.term.protocol.map toProto).contains (otherIcmp v) = true)
    {p : Packet} (hp : Coherent p) (hv : p.ver = v) : ¬ OneOf a.term.protocol p.proto := by
  rw [List.contains_iff_mem, List.mem_map] at h
  obtain ⟨s, hs, e⟩ := h
  rintro (h | h)
  · rw [h] at hs; cases hs
  · cases v with
    | v4 =>
      have : s = "icmpv6" := by
        unfold toProto otherIcmp at e
        split at e
        · cases e
        · simpa using e
      subst this
      exact hp.icmp4 hv (f.icmp4 rfl hs _ h)
    | v6 =>
      have : s = "icmp" := by
        unfold toProto otherIcmp at e
        split at e
        · cases e
        · simpa using e
      subst this
      exact hp.icmp6 hv (f.icmp6 rfl hs _ h)

theorem startsLower_iff {pre name : Str} : startsLower pre name = true ↔ ∃ n, name.map Char.toLower = pre ++ n := by
  unfold startsLower
  rw [List.isPrefixOf_iff_prefix]
  constructor
  · rintro ⟨n, h⟩; exact ⟨n, h.symm⟩
  · rintro ⟨n, h⟩; exact ⟨n, h.symm⟩

theorem finalName_default {type ft : String} {name : Str} (h : startsLower "default-".toList name = true) :
    isDefault (finalName type ft name) = true := by
  unfold finalName
  rw [if_pos h]
  have : ∀ v : Ver, isDefault (afText v ++ "-default-all".toList) = true := by
    intro v; cases v <;> decide
  exact this _

/-- One term in one family: what is printed for it does to packets of the family what the term asks for. -/
theorem atp_term {type ft : String} {v : Ver} (hft : (ft = "inet" ∧ v = .v4) ∨ (ft = "inet6" ∧ v = .v6)) {a : ATerm}
    (f : Live a → AtpFits v a) {r : Option PTerm} (h : AristaTp.prepare type ft a = .ok r) {us : Bool} {sets : List FieldSet}
    {ren : List (Str × Str)} {p : Packet} (hp : Packets p) (hv : p.ver = v)
    (hs : Live a → r ≠ none → (∃ n ∈ a.term.sourceAddress, n.ver = v) → (us = true ∨ ∃ e ∈ a.term.sourceAddressExclude, e.ver = v) →
      (InSet sets .source p (rename ren (setName .source (finalName type ft a.term.name))) ↔
        AddrMatch a.term.sourceAddress a.term.sourceAddressExclude v p.src))
    (hd : Live a → r ≠ none → (∃ n ∈ a.term.destinationAddress, n.ver = v) → (us = true ∨ ∃ e ∈ a.term.destinationAddressExclude, e.ver = v) →
      (InSet sets .destination p (rename ren (setName .destination (finalName type ft a.term.name))) ↔
        AddrMatch a.term.destinationAddress a.term.destinationAddressExclude v p.dst))
    (hl : Live a → ∀ d, ∀ s ∈ a.term.sourcePrefix ++ a.term.destinationPrefix,
      (InSet sets d p (rename ren s.toList) ↔ inList d p s = true)) :
    (r = none → ∀ b, ¬ Wants a p b) ∧ ∀ q, r = some q → ∀ o, AristaTp.render us q = .ok o →
      (o = none → ∀ b, ¬ Wants a p b) ∧ ∀ x, o = some x → ∀ b, Does sets p (renameOut ren x) b ↔ Wants a p b := by
  have hft' : ft = "inet" ∨ ft = "inet6" := hft.imp And.left And.left
  have haf : afOf ft = v := by rcases hft with ⟨rfl, rfl⟩ | ⟨rfl, rfl⟩ <;> rfl
  by_cases hlive : Live a
  · have F := f hlive
    have hx : a.expired = false := hlive.1
    have hact : Active "arista_tp" (kterm a.term) := ⟨hlive.2.1, hlive.2.2⟩
    have U := atp_unset hact F.keywords
    obtain ⟨w, hw⟩ := F.action
    have hwk := atp_action hact F.keywords (w := w) (by simp [hw])
    have hwants : ∀ b, Wants a p b ↔ Ios.Means a.term p ∧ Ios.Permits w b := by
      intro b
      unfold Wants
      rw [hw]
      constructor
      · rintro ⟨_, h, w', e, h'⟩
        cases e
        exact ⟨h, h'⟩
      · rintro ⟨h, h'⟩
        exact ⟨hlive, h, w, rfl, h'⟩
    unfold AristaTp.prepare at h
    obtain ⟨u, hu, h⟩ := bind_ok h
    obtain ⟨ports, rfl, hports, hmeans⟩ := atp_ports hft' F.opts F.wide hu p
    dsimp only at h
    rw [if_neg (by simp [hx])] at h
    have hbad : (a.term.option.any badOption) = false := by
      rw [← Bool.not_eq_true, List.any_eq_true]
      rintro ⟨o, ho, hb⟩
      have key : ∀ o ∈ ["established", "tcp-established", "initial", "rst", "is-fragment"], badOption o = false := by decide
      rw [key o (F.opts o ho)] at hb
      cases hb
    rw [hbad] at h
    have huns : unsupported { a.term with name := finalName type ft a.term.name, destinationPort := ports } = false := by
      unfold unsupported
      simp [U.dscpExcept, U.dscpMatch, U.etherType, U.flexible, U.forwardingClass, U.forwardingClassExcept, U.nextIp, F.port,
        U.trafficType]
    rw [huns] at h
    have hfr : aboutFragments { a.term with name := finalName type ft a.term.name, destinationPort := ports } = true →
        "is-fragment" ∈ a.term.option := by
      unfold aboutFragments
      rw [Bool.or_eq_true, List.contains_iff_mem, List.contains_iff_mem]
      rintro (h | h)
      · exact h
      · exact absurd (F.opts _ h) (by decide)
    simp only [Bool.false_eq_true, if_false] at h
    split at h
    · cases h
    · split at h
      next hc =>
        rw [Bool.and_eq_true] at hc
        have := (F.frag (hfr hc.1)).1
        rcases hft with ⟨rfl, _⟩ | ⟨_, rfl⟩
        · exact absurd hc.2 (by decide)
        · cases this
      · split at h
        next hc =>
          rw [Bool.and_eq_true] at hc
          obtain ⟨_, h1, h2, h3⟩ := F.frag (hfr hc.1)
          have := hc.2
          rw [h1, hports h3, h2] at this
          cases this
        · split at h
          next hc =>
            rw [hw] at hc
            cases hc
            cases h
            refine ⟨fun _ b hb => ?_, by simp⟩
            obtain ⟨_, h⟩ := (hwants b).1 hb
            unfold Ios.Permits at h
            simp at h
          next hnext =>
            have hnext : w ≠ "next" := by
              rintro rfl
              exact hnext hw
            obtain ⟨q, hq, h⟩ := bind_ok h
            cases h
            have hq := atp_init hq
            rw [haf] at hq
            refine ⟨by simp, fun q' e o ho => ?_⟩
            cases e
            have e1 : q.item.term = { a.term with name := finalName type ft a.term.name, destinationPort := ports } := by rw [hq]
            have e2 : q.family = v := by rw [hq]
            have e3 : q.protos = a.term.protocol.map toProto := by rw [hq]
            unfold AristaTp.render at ho
            have hon : Cisco.onPlatform "arista_tp" q.item.term = true := by
              rw [e1]
              exact (live_platform hx).1 hlive
            rw [hon] at ho
            simp only [Bool.not_true, Bool.false_eq_true, if_false] at ho
            split at ho
            next hoth =>
              rw [e3, e2] at hoth
              split at ho
              · cases ho
              · cases ho
                refine ⟨fun _ b hb => ?_, by simp⟩
                obtain ⟨h, _⟩ := (hwants b).1 hb
                rw [← hmeans, atp_matches U F.srcTag F.dstTag F.trafficClass F.port (hv.symm ▸ F.family)] at h
                exact other_icmp F hoth hp.coherent hv h.2.2.2.2.1.1.1
            next hoth =>
              have hvb : q.item.term.verbatim = [] := by rw [e1]; exact F.verbatim
              rw [hvb] at ho
              simp only [List.isEmpty_nil, Bool.not_true, Bool.false_eq_true, if_false] at ho
              obtain ⟨opt, hopt, ho⟩ := bind_ok ho
              have hcrit : (!hasMatchCriteria q.item.term && !isDefault q.item.term.name) = false := by
                rw [Bool.and_eq_false_iff, Bool.not_eq_false', Bool.not_eq_false', e1]
                rcases F.criteria with h | h
                · right
                  exact finalName_default (startsLower_iff.2 h)
                · left
                  unfold hasMatchCriteria
                  simp only [Bool.or_eq_true, Bool.not_eq_true', List.isEmpty_eq_false_iff, bne_iff_ne]
                  rcases h with h | h | h | h | h | h | h | h | h
                  · simp [h]
                  · simp [h]
                  · simp [h]
                  · simp [h]
                  · simp [h]
                  · simp [h]
                  · simp [h]
                  · simp [h]
                  · right
                    cases ht : a.term.ttl with
                    | none => exact absurd ht h
                    | some n =>
                      rintro e
                      have : n = 0 := e
                      subst this
                      exact F.ttl ht
              rw [hcrit] at ho
              simp only [Bool.false_eq_true, if_false] at ho
              unfold printEntry at ho
              dsimp only at ho
              rw [e1, e2] at ho
              dsimp only at ho
              have A1 := atp_addr (us := us) (name := finalName type ft a.term.name) (d := .source) F.src F.srcExclude hv (hs hlive (by simp))
              have A2 := atp_addr (us := us) (name := finalName type ft a.term.name) (d := .destination) F.dst F.dstExclude hv (hd hlive (by simp))
              have hM : ∀ b, Wants a p b ↔ _ ∧ Ios.Permits w b := fun b => (hwants b).trans
                (and_congr (hmeans.symm.trans
                  (atp_matches U F.srcTag F.dstTag F.trafficClass F.port (hv.symm ▸ F.family) ports)) Iff.rfl)
              rw [hv] at hM
              split at ho
              next ha1 =>
                cases ho
                exact ⟨fun _ b hb => A1.1 ha1 ((hM b).1 hb).1.1, by simp⟩
              next cs1 ha1 =>
                split at ho
                next ha2 =>
                  cases ho
                  exact ⟨fun _ b hb => A2.1 ha2 ((hM b).1 hb).1.2.1, by simp⟩
                next cs2 ha2 =>
                  obtain ⟨pc, hpc, ho⟩ := bind_ok ho
                  obtain ⟨as, has, ho⟩ := bind_ok ho
                  cases ho
                  refine ⟨by simp, fun x e b => ?_⟩
                  cases e
                  rw [hM b]
                  have V := atp_verdict (a := q.item) (w := w) (by rw [e1]; exact hw) hwk hnext has ren b
                  have L := atp_line F hports (q := q) hq hopt hpc (sets := sets) hp hv
                  have L1 := atp_list (d := .source) (l := a.term.sourcePrefix) (sets := sets) (ren := ren) (p := p)
                    fun s hs => hl hlive _ s (List.mem_append_left _ hs)
                  have L2 := atp_list (d := .destination) (l := a.term.destinationPrefix) (sets := sets) (ren := ren) (p := p)
                    fun s hs => hl hlive _ s (List.mem_append_right _ hs)
                  have R := atp_rest (t := { a.term with name := finalName type ft a.term.name, destinationPort := ports }) F.ttl
                    (misc := opt.2) (sets := sets) (ren := ren) hp
                  have hpc' : pc.map (renameCond ren) = pc := by
                    unfold protoCond at hpc
                    obtain ⟨_, _, hpc⟩ := bind_ok hpc
                    obtain ⟨_, _, hpc⟩ := bind_ok hpc
                    dsimp only at hpc
                    split at hpc <;> cases hpc <;> rfl
                  have D : Does sets p (renameOut ren (.entry (finalName type ft a.term.name) v (cs1 ++ (cs2 ++
                      (listCond .source a.term.sourcePrefix ++ (listCond .destination a.term.destinationPrefix ++ (pc ++
                      restConds { a.term with name := finalName type ft a.term.name, destinationPort := ports } opt.2))))) as)) b ↔
                      (∀ c ∈ (cs1 ++ (cs2 ++
                      (listCond .source a.term.sourcePrefix ++ (listCond .destination a.term.destinationPrefix ++ (pc ++
                      restConds { a.term with name := finalName type ft a.term.name, destinationPort := ports } opt.2))))).map
                        (renameCond ren), Holds sets p c) ∧ Verdict (as.map (renameAct ren)) b := by
                    unfold Does renameOut
                    constructor
                    · rintro ⟨n, cs, ac, e, h1, h2⟩
                      cases e
                      exact ⟨h1, h2⟩
                    · rintro ⟨h1, h2⟩
                      exact ⟨_, _, _, by rw [hv], h1, h2⟩
                  rw [D, V]
                  simp only [List.map_append, List.forall_mem_append]
                  rw [A1.2 cs1 ha1, A2.2 cs2 ha2, L1, L2, hpc', R]
                  refine and_congr ⟨?_, ?_⟩ Iff.rfl
                  · rintro ⟨a1, a2, a3, a4, a5, a6, a7⟩
                    exact ⟨a1, a2, a3, a4, L.1 ⟨a5, a7⟩, a6⟩
                  · rintro ⟨a1, a2, a3, a4, a5, a6⟩
                    obtain ⟨b1, b2⟩ := L.2 a5
                    exact ⟨a1, a2, a3, a4, b1, a6, b2⟩
  · have hno : ∀ b, ¬ Wants a p b := fun b h => hlive h.1
    refine ⟨fun _ => hno, fun q e o ho => ⟨fun _ => hno, fun x hx => ?_⟩⟩
    subst e
    exfalso
    obtain ⟨hexp, ports, rfl⟩ := prepare_shape h
    unfold AristaTp.render at ho
    rw [if_pos] at ho
    · cases ho; cases hx
    · have : Cisco.onPlatform "arista_tp" a.term = false := by
        rw [← Bool.not_eq_true]
        exact fun h => hlive ((live_platform hexp).2 h)
      dsimp only
      rw [show Cisco.onPlatform "arista_tp" { a.term with name := finalName type ft a.term.name, destinationPort := ports } = false
        from this]
      rfl

end Verif.Props
