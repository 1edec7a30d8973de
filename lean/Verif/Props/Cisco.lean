import Verif.Lemmas.Cisco

/-!
Properties of the Cisco generators (cisco, ciscoxr, cisconx, arista): C39 - C42, C60.
-/

namespace Verif.Props
open Verif Verif.Cisco Policy Aclgenerator Nacaddr Summarizer Spec Spec.Ios

/-! ### C39 -/

/-- The terms an extended list renders faithfully for the family `af`. `keywords` and `sane` are the checks of
the tool itself; every other condition is needed, see the refutations below. -/
structure Fits (c : Cfg) (af : Ver) (dsmo : Bool) (t : Term) (a : String) : Prop where
  keywords : initCheck (tables c) [([c.platform], [kterm t])] = .ok ()
  sane : sanityCheck t = .ok ()
  active : Active c.platform (kterm t)
  verbatim : t.verbatim = []
  action : t.action = [a]
  either : t.address = []
  srcTag : t.sourceTag = []
  dstTag : t.destinationTag = []
  ttl : t.ttl ≠ some 0
  trafficClass : t.trafficClass ≠ some 0
  src : ∀ n ∈ t.sourceAddress ++ t.sourceAddressExclude, WF n
  dst : ∀ n ∈ t.destinationAddress ++ t.destinationAddressExclude, WF n
  srcExclude : t.sourceAddress = [] → t.sourceAddressExclude = []
  dstExclude : t.destinationAddress = [] → t.destinationAddressExclude = []
  names : ∀ s ∈ t.protocol, s ∈ iana.map Prod.fst
  icmp4 : af = .v4 → "icmpv6" ∈ t.protocol → t.protocol = ["icmpv6"]
  icmp6 : af = .v6 → "icmp" ∈ t.protocol → t.protocol = ["icmp"]
  ipv6 : c.protoInt = false → af = .v6 → "ipv6" ∉ t.protocol
  est : "tcp-established" ∈ t.option ∨ "established" ∈ t.option →
    "tcp" ∈ t.protocol ∨ (t.protocol ≠ [] ∧ ∀ s ∈ t.protocol, s = "udp")
  frag : "is-fragment" ∈ t.option ∨ "fragments" ∈ t.option →
    t.protocol = [] ∧ af = .v4 ∧ c.platform ≠ "ciscoxr"
  dsmo : dsmo = true → af = .v4

/-- The same, with the consequences of the two checks instead of the checks. -/
structure Core (c : Cfg) (af : Ver) (dsmo : Bool) (t : Term) (a : String) : Prop where
  unsup : Unsupported t
  opts : ∀ o ∈ t.option, o ∈ ["established", "tcp-established", "is-fragment", "fragments"]
  act : a ∈ ["accept", "deny", "reject", "next", "reject-with-tcp-rst"]
  ports : t.sourcePort ≠ [] ∨ t.destinationPort ≠ [] → ∀ s ∈ t.protocol, s ∈ protosWithPorts
  codes : t.icmpCode ≠ [] → t.icmpType ≠ []
  active : Active c.platform (kterm t)
  verbatim : t.verbatim = []
  action : t.action = [a]
  either : t.address = []
  srcTag : t.sourceTag = []
  dstTag : t.destinationTag = []
  ttl : t.ttl ≠ some 0
  trafficClass : t.trafficClass ≠ some 0
  src : ∀ n ∈ t.sourceAddress ++ t.sourceAddressExclude, WF n
  dst : ∀ n ∈ t.destinationAddress ++ t.destinationAddressExclude, WF n
  srcExclude : t.sourceAddress = [] → t.sourceAddressExclude = []
  dstExclude : t.destinationAddress = [] → t.destinationAddressExclude = []
  names : ∀ s ∈ t.protocol, s ∈ iana.map Prod.fst
  icmp4 : af = .v4 → "icmpv6" ∈ t.protocol → t.protocol = ["icmpv6"]
  icmp6 : af = .v6 → "icmp" ∈ t.protocol → t.protocol = ["icmp"]
  ipv6 : c.protoInt = false → af = .v6 → "ipv6" ∉ t.protocol
  est : "tcp-established" ∈ t.option ∨ "established" ∈ t.option →
    "tcp" ∈ t.protocol ∨ (t.protocol ≠ [] ∧ ∀ s ∈ t.protocol, s = "udp")
  frag : "is-fragment" ∈ t.option ∨ "fragments" ∈ t.option →
    t.protocol = [] ∧ af = .v4 ∧ c.platform ≠ "ciscoxr"
  dsmo : dsmo = true → af = .v4

/-- The family of the term, if it has one, is the rendered one. -/
def FamilyOk (af : Ver) (t : Term) : Prop :=
  t.restrictAddressFamily = none ∨ t.restrictAddressFamily = some (if af = .v4 then "inet" else "inet6")

theorem sane_ports {t : Term} (h : sanityCheck t = .ok ()) (hv : t.verbatim = []) (hp : t.sourcePort ≠ [] ∨ t.destinationPort ≠ [])
    {s : String} (hs : s ∈ t.protocol) : s ∈ protosWithPorts := by
  unfold sanityCheck at h
  obtain ⟨_, h1, _⟩ := bind_ok h
  clear h
  unfold sanityAction at h1
  rw [hv] at h1
  dsimp only at h1
  rw [if_neg (by simp)] at h1
  split at h1
  · cases h1
  · split at h1
    · cases h1
    · split at h1
      · split at h1 <;> cases h1
      next hn =>
        refine Classical.byContradiction fun hns => hn ?_
        rw [Bool.and_eq_true]
        refine ⟨List.any_eq_true.2 ⟨s, hs, by simpa using hns⟩, ?_⟩
        rcases hp with hp | hp <;> simp [hp]

theorem sane_codes {t : Term} (h : sanityCheck t = .ok ()) (hc : t.icmpCode ≠ []) : t.icmpType ≠ [] := by
  unfold sanityCheck at h
  obtain ⟨_, _, h⟩ := bind_ok h
  obtain ⟨_, _, h⟩ := bind_ok h
  obtain ⟨_, h1, _⟩ := bind_ok h
  unfold sanityIcmpCode at h1
  rw [if_neg (by simpa using hc)] at h1
  intro e
  rw [e] at h1
  cases h1

theorem Fits.core {c : Cfg} (hc : c ∈ cfgs) {af : Ver} {dsmo : Bool} {t : Term} {a : String}
    (f : Fits c af dsmo t a) : Core c af dsmo t a where
  unsup := unsupported hc f.active f.keywords
  opts := fun _ ho => options_known hc f.active f.keywords ho
  act := action_known hc f.active f.keywords (by rw [f.action]; simp)
  ports := fun hp _ hs => sane_ports f.sane f.verbatim hp hs
  codes := fun h => sane_codes f.sane h
  active := f.active
  verbatim := f.verbatim
  action := f.action
  either := f.either
  srcTag := f.srcTag
  dstTag := f.dstTag
  ttl := f.ttl
  trafficClass := f.trafficClass
  src := f.src
  dst := f.dst
  srcExclude := f.srcExclude
  dstExclude := f.dstExclude
  names := f.names
  icmp4 := f.icmp4
  icmp6 := f.icmp6
  ipv6 := f.ipv6
  est := f.est
  frag := f.frag
  dsmo := f.dsmo

/-- What remains of `Matches` for such a term. -/
theorem matches_fits {c : Cfg} {af : Ver} {dsmo : Bool} {t : Term} {a : String}
    (f : Core c af dsmo t a) {p : Packet} (hv : p.ver = af) :
    Matches t p ↔ FamilyOk af t ∧ OneOf t.protocol p.proto ∧
      AddrMatch t.sourceAddress t.sourceAddressExclude af p.src ∧
      AddrMatch t.destinationAddress t.destinationAddressExclude af p.dst ∧
      PortMatch t.sourcePort p.sport ∧ PortMatch t.destinationPort p.dport ∧
      OneOf t.icmpType p.icmpType ∧ OneOf t.icmpCode p.icmpCode ∧ (∀ o ∈ t.option, p.hasOption o = true) ∧
      OneOf t.dscpMatch p.dscp := by
  have u := f.unsup
  have ttl : t.ttl = none := u.ttl.resolve_right f.ttl
  have tc : t.trafficClass = none := u.trafficClass.resolve_right f.trafficClass
  unfold Matches MatchAddrs MatchPorts MatchProto MatchPrefixes MatchMisc MatchRest FamilyOk
  rw [f.either, f.srcTag, f.dstTag, ttl, tc, u.addressExclude, u.destinationPrefix, u.forwardingClass,
    u.forwardingClassExcept, u.port, u.precedence, u.protocolExcept, u.sourcePrefix, u.packetLength, u.fragmentOffset,
    u.hopLimit, u.etherType, u.trafficType, u.dscpExcept, u.flexible, u.sourcePrefixExcept,
    u.destinationPrefixExcept, u.destinationZone, u.sourceZone, u.sourceInterface, u.destinationInterface, hv]
  simp only [OneOf, RangeMatch, true_or, and_true, true_and, and_self, List.not_mem_nil, not_false_iff,
    false_implies, implies_true]
  constructor
  · rintro ⟨⟨a1, a2⟩, ⟨b1, b2⟩, c1, ⟨d1, d2, d3⟩, e1, e2⟩
    exact ⟨e1, c1, a1, a2, b1, b2, d2, d3, d1, e2⟩
  · rintro ⟨e1, c1, a1, a2, b1, b2, d2, d3, d1, e2⟩
    exact ⟨⟨a1, a2⟩, ⟨b1, b2⟩, c1, ⟨d1, d2, d3⟩, e1, e2⟩

/-- The protocol dimension. -/
theorem protocols_match {c : Cfg} {af : Ver} {dsmo : Bool} {t : Term} {a : String} (hc : c ∈ cfgs)
    (f : Core c af dsmo t a) (hi : ¬ (af = .v6 ∧ "icmp" ∈ t.protocol)) {p : Packet} (hp : Coherent p)
    (hv : p.ver = af) :
    (∃ q ∈ protocols c af ((t.protocol.map .str).map protoNumber),
      ProtoMatches af (protoTok (printedProto c af q)) p) ↔ OneOf t.protocol p.proto := by
  by_cases h0 : t.protocol = []
  · have : ∃ s, protocols c af [] = [some (.str s)] ∧ (s = "ip" ∧ af = .v4 ∨ s = "ipv4" ∧ af = .v4 ∨ s = "ipv6" ∧ af = .v6) := by
      have hc' := hc
      simp only [cfgs, List.mem_cons, List.not_mem_nil, or_false] at hc'
      rcases hc' with rfl | rfl | rfl | rfl | rfl <;> cases af <;> exact ⟨_, rfl, by decide⟩
    obtain ⟨s, e, hs⟩ := this
    rw [h0]
    show (∃ q ∈ protocols c af [], _) ↔ _
    rw [e]
    refine ⟨fun _ => .inl rfl, fun _ => ⟨_, List.mem_singleton.2 rfl, ?_⟩⟩
    have ep : printedProto c af (some (.str s)) = some (.str s) := by
      unfold printedProto
      rw [if_neg]
      rintro ⟨_, _, h⟩
      rcases hs with ⟨rfl, _⟩ | ⟨rfl, _⟩ | ⟨rfl, _⟩ <;> exact absurd h (by decide)
    rw [ep]
    rcases hs with ⟨rfl, ha⟩ | ⟨rfl, ha⟩ | ⟨rfl, ha⟩
    · rw [show protoTok (some (.str "ip")) = .w "ip" by decide]
      exact .inl ⟨.inl rfl, ha⟩
    · rw [show protoTok (some (.str "ipv4")) = .w "ipv4" by decide]
      exact .inl ⟨.inr rfl, ha⟩
    · rw [show protoTok (some (.str "ipv6")) = .w "ipv6" by decide]
      exact .inr (.inl ⟨rfl, ha⟩)
  · by_cases h1 : t.protocol = ["hopopt"]
    · have e : protocols c af ((["hopopt"].map .str).map protoNumber) = [some (.str "hbh")] := by
        have hc' := hc
        simp only [cfgs, List.mem_cons, List.not_mem_nil, or_false] at hc'
        rcases hc' with rfl | rfl | rfl | rfl | rfl <;> cases af <;> rfl
      rw [h1, e]
      have ep : printedProto c af (some (.str "hbh")) = some (.str "hbh") := by
        unfold printedProto
        rw [if_neg]
        rintro ⟨_, _, h⟩
        exact absurd h (by decide)
      constructor
      · rintro ⟨q, hq, hm⟩
        rw [List.mem_singleton.1 hq, ep, show protoTok (some (.str "hbh")) = .w "hbh" by decide] at hm
        refine .inr (List.mem_singleton.2 ?_)
        rcases hm with ⟨h | h, _⟩ | ⟨h, _⟩ | ⟨_, h⟩ | ⟨h, _⟩ | h
        · exact absurd h (by decide)
        · exact absurd h (by decide)
        · exact absurd h (by decide)
        · exact h
        · exact absurd h (by decide)
        · have := hp.proto
          rw [h] at this
          exact absurd this (by decide)
      · rintro (h | h)
        · cases h
        · refine ⟨_, List.mem_singleton.2 rfl, ?_⟩
          rw [ep, show protoTok (some (.str "hbh")) = .w "hbh" by decide]
          exact .inr (.inr (.inl ⟨rfl, List.mem_singleton.1 h⟩))
    · rw [protocols_map h0 h1]
      have key : ∀ s ∈ t.protocol, (ProtoMatches af (protoTok (printedProto c af (protoOne c s))) p ↔ p.proto = s) := by
        intro s hs
        exact proto_match hc (f.names s hs) (fun h1 h2 h3 => f.ipv6 h1 h2 (h3 ▸ hs))
          (fun h => hi ⟨h.1, h.2 ▸ hs⟩) hp hv
      constructor
      · rintro ⟨q, hq, hm⟩
        obtain ⟨s, hs, rfl⟩ := List.mem_map.1 hq
        rw [(key s hs).1 hm]
        exact .inr hs
      · rintro (h | h)
        · exact absurd h h0
        · exact ⟨_, List.mem_map.2 ⟨_, h, rfl⟩, (key _ h).2 rfl⟩

/-- What is known about the entries of the protocol list. -/
theorem protocols_mem {c : Cfg} {af : Ver} {dsmo : Bool} {t : Term} {a : String} (hc : c ∈ cfgs)
    (f : Core c af dsmo t a) {q : Option Proto}
    (hq : q ∈ protocols c af ((t.protocol.map .str).map protoNumber)) :
    (∃ e ∈ iana, e.1 ∈ t.protocol ∧ q = protoOne c e.1) ∨ q = some (.str "hbh") ∨
      (t.protocol = [] ∧ (q = some (.str "ip") ∨ q = some (.str "ipv4") ∨ q = some (.str "ipv6"))) := by
  by_cases h0 : t.protocol = []
  · rw [h0] at hq
    refine .inr (.inr ⟨h0, ?_⟩)
    have hc' := hc
    simp only [cfgs, List.mem_cons, List.not_mem_nil, or_false] at hc'
    rcases hc' with rfl | rfl | rfl | rfl | rfl <;> cases af <;> revert q <;> decide
  · by_cases h1 : t.protocol = ["hopopt"]
    · rw [h1] at hq
      refine .inr (.inl ?_)
      have hc' := hc
      simp only [cfgs, List.mem_cons, List.not_mem_nil, or_false] at hc'
      rcases hc' with rfl | rfl | rfl | rfl | rfl <;> cases af <;> revert q <;> decide
    · rw [protocols_map h0 h1] at hq
      obtain ⟨s, hs, rfl⟩ := List.mem_map.1 hq
      obtain ⟨e, he, rfl⟩ := List.mem_map.1 (f.names s hs)
      exact .inl ⟨e, he, hs, rfl⟩

theorem termProtocols_ok {l : List String} {ps : List Proto} (h : termProtocols (l.map .str) = .ok ps) :
    ps = (l.map .str).map protoNumber := by
  unfold termProtocols at h
  split at h
  · cases h
  · cases h; rfl

theorem action_tok {a : String} (ha : a ∈ ["accept", "deny", "reject", "next", "reject-with-tcp-rst"]) :
    (a = "next" ∧ (actionTable.lookup a).getD [] = [.w "!", .w "next"]) ∨
    ∃ permit, Permits a permit ∧ (actionTable.lookup a).getD [] = actTok permit := by
  simp only [List.mem_cons, List.not_mem_nil, or_false] at ha
  rcases ha with rfl | rfl | rfl | rfl | rfl
  · exact .inr ⟨true, .inl ⟨rfl, rfl⟩, rfl⟩
  · exact .inr ⟨false, .inr ⟨.inl rfl, rfl⟩, rfl⟩
  · exact .inr ⟨false, .inr ⟨.inr (.inl rfl), rfl⟩, rfl⟩
  · exact .inl ⟨rfl, rfl⟩
  · exact .inr ⟨false, .inr ⟨.inr (.inr rfl), rfl⟩, rfl⟩

theorem permits_unique {a : String} {b d : Bool} (h : Permits a b) (h' : Permits a d) : b = d := by
  rcases h with ⟨rfl, rfl⟩ | ⟨h, rfl⟩ <;> rcases h' with ⟨h1, rfl⟩ | ⟨h1, rfl⟩
  · rfl
  · rcases h1 with h | h | h <;> exact absurd h (by decide)
  · subst h1; rcases h with h | h | h <;> exact absurd h (by decide)
  · rfl

theorem addrMatch_wf {l m : List Net} (h : ∀ n ∈ l ++ m, WF n) : (∀ n ∈ l, WF n) ∧ ∀ n ∈ m, WF n :=
  ⟨fun n hn => h n (List.mem_append_left _ hn), fun n hn => h n (List.mem_append_right _ hn)⟩

theorem next_no_match {af : Ver} {c : Cfg} {protos : List (Option Proto)} {sas das : List (List Tok)}
    {sps dps : List (Option PortRange)} {types codes : List (Option Nat)} {opts : List Opt} {l : Cisco.Line} {b : Bool}
    {p : Packet}
    (h : l ∈ (expand c af [.w "!", .w "next"] protos sas das sps dps types codes opts).map Cisco.Line.ace) :
    ¬ LineMatches af l b p := by
  rintro ⟨toks, e, h1, h2, _⟩
  obtain ⟨toks', ht, rfl⟩ := List.mem_map.1 h
  cases h1
  obtain ⟨sa, h1, da, h2', sp, h3, dp, h4, q, h5, ty, h6, co, h7, rfl⟩ := mem_expand.1 ht
  cases h2

/-- The options of the rendered term. -/
theorem opts_match {c : Cfg} {af : Ver} {dsmo : Bool} {t : Term} {a : String} (hc : c ∈ cfgs)
    (f : Core c af dsmo t a) {tail : List Opt} (htail : tailOpts t = .ok tail) {p : Packet} (hp : Coherent p)
    (hone : OneOf t.protocol p.proto) :
    ((.established ∈ flagOpts (protocols c af ((t.protocol.map .str).map protoNumber)) t.option ++ ([] ++ tail) →
        p.hasOption "tcp-established" = true) ∧
      (.fragments ∈ flagOpts (protocols c af ((t.protocol.map .str).map protoNumber)) t.option ++ ([] ++ tail) →
        p.hasOption "is-fragment" = true) ∧
      ∀ d, .dscp d ∈ flagOpts (protocols c af ((t.protocol.map .str).map protoNumber)) t.option ++ ([] ++ tail) →
        p.dscp = d) ↔
    (∀ o ∈ t.option, p.hasOption o = true) ∧ OneOf t.dscpMatch p.dscp := by
  have htl : (∀ o ∈ tail, o ≠ .established ∧ o ≠ .fragments) ∧ ((∀ d, .dscp d ∈ tail → p.dscp = d) ↔ OneOf t.dscpMatch p.dscp) := by
    unfold tailOpts at htail
    split at htail
    next h =>
      cases htail
      rw [h]
      split
      · simp [OneOf]
      · simp [OneOf]
    next d h =>
      cases htail
      rw [h]
      split
      · simp [OneOf, eq_comm]
      · simp [OneOf, eq_comm]
    next => cases htail
  -- tcp in the list
  have htcp : ((protocols c af ((t.protocol.map .str).map protoNumber)).contains (some (.num 6)) ||
      (protocols c af ((t.protocol.map .str).map protoNumber)).contains (some (.str "tcp"))) = true ↔
      "tcp" ∈ t.protocol := by
    rw [Bool.or_eq_true, List.contains_iff_mem, List.contains_iff_mem]
    constructor
    · intro h
      have : ∃ q ∈ protocols c af ((t.protocol.map .str).map protoNumber), q = some (.num 6) ∨ q = some (.str "tcp") := by
        rcases h with h | h
        · exact ⟨_, h, .inl rfl⟩
        · exact ⟨_, h, .inr rfl⟩
      obtain ⟨q, hq, h⟩ := this
      rcases protocols_mem hc f hq with ⟨e, he, hm, rfl⟩ | rfl | ⟨_, rfl | rfl | rfl⟩
      · rw [← (tcp_cases c hc e he).1 h]; exact hm
      all_goals exact absurd h (by decide)
    · intro h
      have h0 : t.protocol ≠ [] := by intro e; rw [e] at h; cases h
      have h1 : t.protocol ≠ ["hopopt"] := by
        intro e; rw [e] at h; exact absurd h (by decide)
      rw [protocols_map h0 h1]
      have := (tcp_cases c hc ("tcp", 6) (by decide)).2 rfl
      rcases this with e | e
      · exact .inl (List.mem_map.2 ⟨_, h, e⟩)
      · exact .inr (List.mem_map.2 ⟨_, h, e⟩)
  have hip : (protocols c af ((t.protocol.map .str).map protoNumber)).contains (some (.str "ip")) = true ↔
      t.protocol = [] ∧ af = .v4 ∧ c.platform ≠ "ciscoxr" := by
    rw [List.contains_iff_mem]
    constructor
    · intro hq
      have h0 : t.protocol = [] := by
        rcases protocols_mem hc f hq with ⟨e, he, hm, h⟩ | h | ⟨h, _⟩
        · exact absurd h.symm (ip_cases c hc e he)
        · exact absurd h (by decide)
        · exact h
      refine ⟨h0, ?_⟩
      rw [h0] at hq
      have hc' := hc
      simp only [cfgs, List.mem_cons, List.not_mem_nil, or_false] at hc'
      rcases hc' with rfl | rfl | rfl | rfl | rfl <;> cases af <;> revert hq <;> decide
    · rintro ⟨h0, rfl, h2⟩
      rw [h0]
      have hc' := hc
      simp only [cfgs, List.mem_cons, List.not_mem_nil, or_false] at hc'
      rcases hc' with rfl | rfl | rfl | rfl | rfl
      · decide
      · exact absurd rfl h2
      · decide
      · decide
      · decide
  generalize protocols c af ((t.protocol.map .str).map protoNumber) = protos at htcp hip
  have hest : .established ∈ flagOpts protos t.option ++ ([] ++ tail) ↔
      "tcp" ∈ t.protocol ∧ ("tcp-established" ∈ t.option ∨ "established" ∈ t.option) := by
    rw [List.nil_append, List.mem_append]
    have : .established ∉ tail := fun h => (htl.1 _ h).1 rfl
    simp only [this, or_false, flagOpts, List.mem_append]
    constructor
    · rintro (h | h)
      · split at h
        next h' =>
          rw [Bool.and_eq_true, htcp, Bool.or_eq_true, List.contains_iff_mem, List.contains_iff_mem] at h'
          exact h'
        next => cases h
      · split at h
        · simp at h
        · cases h
    · intro h
      left
      rw [if_pos]
      · simp
      · rw [Bool.and_eq_true, htcp, Bool.or_eq_true, List.contains_iff_mem, List.contains_iff_mem]
        exact h
  have hfrag : .fragments ∈ flagOpts protos t.option ++ ([] ++ tail) ↔
      (t.protocol = [] ∧ af = .v4 ∧ c.platform ≠ "ciscoxr") ∧ ("fragments" ∈ t.option ∨ "is-fragment" ∈ t.option) := by
    rw [List.nil_append, List.mem_append]
    have : .fragments ∉ tail := fun h => (htl.1 _ h).2 rfl
    simp only [this, or_false, flagOpts, List.mem_append]
    constructor
    · rintro (h | h)
      · split at h
        · simp at h
        · cases h
      · split at h
        next h' =>
          rw [Bool.and_eq_true, hip, Bool.or_eq_true, List.contains_iff_mem, List.contains_iff_mem] at h'
          exact h'
        next => cases h
    · intro h
      right
      rw [if_pos]
      · simp
      · rw [Bool.and_eq_true, hip, Bool.or_eq_true, List.contains_iff_mem, List.contains_iff_mem]
        exact h
  have hdscp : ∀ d, .dscp d ∈ flagOpts protos t.option ++ ([] ++ tail) ↔ .dscp d ∈ tail := by
    intro d
    rw [List.nil_append, List.mem_append]
    constructor
    · rintro (h | h)
      · simp only [flagOpts, List.mem_append] at h
        rcases h with h | h
        · split at h
          · simp at h
          · cases h
        · split at h
          · simp at h
          · cases h
      · exact h
    · exact .inr
  constructor
  · rintro ⟨m1, m2, m3⟩
    refine ⟨?_, htl.2.1 fun d hd => m3 d ((hdscp d).2 hd)⟩
    intro o ho
    have hk := f.opts o ho
    simp only [List.mem_cons, List.not_mem_nil, or_false] at hk
    have estd : ("tcp-established" ∈ t.option ∨ "established" ∈ t.option) → p.hasOption "tcp-established" = true := by
      intro h
      rcases f.est h with ht | ⟨hne, hu⟩
      · exact m1 (hest.2 ⟨ht, h⟩)
      · rcases hone with h0 | h0
        · exact absurd h0 hne
        · exact hp.udp (hu _ h0)
    have fragd : ("is-fragment" ∈ t.option ∨ "fragments" ∈ t.option) → p.hasOption "is-fragment" = true := by
      intro h
      exact m2 (hfrag.2 ⟨f.frag h, h.symm⟩)
    rcases hk with rfl | rfl | rfl | rfl
    · rw [hp.est]; exact estd (.inr ho)
    · exact estd (.inl ho)
    · exact fragd (.inl ho)
    · rw [hp.frag]; exact fragd (.inr ho)
  · rintro ⟨m1, m2⟩
    refine ⟨fun h => ?_, fun h => ?_, fun d h => htl.2.2 m2 d ((hdscp d).1 h)⟩
    · rcases (hest.1 h).2 with h | h
      · exact m1 _ h
      · rw [← hp.est]; exact m1 _ h
    · rcases (hfrag.1 h).2 with h | h
      · rw [← hp.frag]; exact m1 _ h
      · exact m1 _ h

/-- The main lemma of C39. -/
theorem core_exact {c : Cfg} (hc : c ∈ cfgs) {af : Ver} {dsmo : Bool} {t : Term} {a : String}
    (f : Core c af dsmo t a) (hf : FamilyOk af t) {nextIp : List Net} {ls : List Cisco.Line}
    (h : renderTerm c af dsmo t nextIp = .ok ls) {p : Packet} (hp : Coherent p) (hv : p.ver = af) (b : Bool) :
    (∃ l ∈ ls, LineMatches af l b p) ↔ Permits a b ∧ Matches t p := by
  rw [matches_fits f hv]
  unfold renderTerm at h
  obtain ⟨ps, h1, h⟩ := bind_ok h
  rw [onPlatform_iff.2 f.active] at h
  simp only [Bool.not_true, Bool.false_eq_true, if_false, List.contains_iff_mem, f.verbatim, List.isEmpty_nil] at h
  have hps := termProtocols_ok h1
  split at h
  next hx =>
    cases h
    constructor
    · rintro ⟨l, hl, _⟩; cases hl
    · rintro ⟨_, _, ho, _⟩
      rcases hx with ⟨h6, hm⟩ | ⟨h4, hm⟩
      · rw [f.icmp6 h6 hm] at ho
        rcases ho with h | h
        · cases h
        · exact absurd (List.mem_singleton.1 h) (hp.icmp6 (hv.trans h6))
      · rw [f.icmp4 h4 hm] at ho
        rcases ho with h | h
        · cases h
        · exact absurd (List.mem_singleton.1 h) (hp.icmp4 (hv.trans h4))
  next hx =>
    have hx6 : ¬ (af = .v6 ∧ "icmp" ∈ t.protocol) := fun h => hx (.inl h)
    unfold termBody at h
    dsimp only at h
    obtain ⟨rs, s1, s2, s3⟩ := addrs_spec (addrMatch_wf f.src).1 (addrMatch_wf f.src).2 f.dsmo f.srcExclude
    obtain ⟨rd, d1, d2, d3⟩ := addrs_spec (addrMatch_wf f.dst).1 (addrMatch_wf f.dst).2 f.dsmo f.dstExclude
    rw [s1] at h
    cases rs with
    | none =>
      cases h
      constructor
      · rintro ⟨l, hl, _⟩; cases hl
      · rintro ⟨_, _, _, hm, _⟩
        exact absurd hm ((s2 rfl).2 _)
    | some src =>
      simp only [bind, Except.bind] at h
      rw [d1] at h
      cases rd with
      | none =>
        cases h
        constructor
        · rintro ⟨l, hl, _⟩; cases hl
        · rintro ⟨_, _, _, _, hm, _⟩
          exact absurd hm ((d2 rfl).2 _)
      | some dst =>
        dsimp only at h
        obtain ⟨⟨act, hop⟩, ha, h⟩ := bind_ok h
        dsimp only at h
        obtain ⟨tail, htail, h⟩ := bind_ok h
        obtain ⟨types, hty, h⟩ := bind_ok h
        obtain ⟨sas, hsas, h⟩ := bind_ok h
        obtain ⟨das, hdas, h⟩ := bind_ok h
        cases h
        unfold actionOf at ha
        rw [f.action] at ha
        simp only [Except.ok.injEq, Prod.mk.injEq] at ha
        obtain ⟨rfl, rfl⟩ := ha
        rw [hps]
        obtain ⟨ty1, ty2, ty3⟩ := icmpTypes_spec hty p
        rcases action_tok f.act with
          ⟨rfl, e⟩ | ⟨permit, hpm, e⟩
        · rw [e]
          constructor
          · rintro ⟨l, hl, hm⟩; exact absurd hm (next_no_match hl)
          · rintro ⟨h, _⟩
            rcases h with ⟨h, _⟩ | ⟨h | h | h, _⟩ <;> exact absurd h (by decide)
        · rw [e]
          have hicmp : c.platform = "arista" → t.sourcePort ≠ [] ∨ t.destinationPort ≠ [] →
              ∀ q ∈ protocols c af ((t.protocol.map .str).map protoNumber),
                printedProto c af q ≠ some (.str "icmp") := by
            intro hpl hports q hq he
            rcases protocols_mem hc f hq with ⟨e, hem, hm, rfl⟩ | rfl | ⟨_, rfl | rfl | rfl⟩
            · have h1 := f.ports hports _ hm
              rcases icmp_cases c hc af (by cases af <;> simp) e hem he with h | h <;> rw [h] at h1 <;>
                exact absurd h1 (by decide)
            all_goals
              unfold printedProto at he
              rw [if_neg (by simp [hpl])] at he
              exact absurd he (by decide)
          have hudp : ∀ q ∈ protocols c af ((t.protocol.map .str).map protoNumber),
              (q = some (.num 17) ∨ q = some (.str "udp")) →
              ProtoMatches af (protoTok (printedProto c af q)) p → p.hasOption "tcp-established" = true := by
            intro q hq hu hm
            rcases protocols_mem hc f hq with ⟨e, hem, hmem, rfl⟩ | rfl | ⟨_, rfl | rfl | rfl⟩
            · have := (proto_match hc (f.names _ hmem) (fun h1 h2 h3 => f.ipv6 h1 h2 (h3 ▸ hmem))
                (fun h => hx6 ⟨h.1, h.2 ▸ hmem⟩) hp hv).1 hm
              exact hp.udp (this.trans (udp_cases c hc e hem hu))
            all_goals exact absurd hu (by decide)
          have hps' : p.src < 2 ^ af.bits := hv ▸ hp.src
          have hpd' : p.dst < 2 ^ af.bits := hv ▸ hp.dst
          rw [body_match hsas hdas (s3 _ rfl).1 (d3 _ rfl).1 (fun h => ty2 (f.codes h)) hicmp hps' hpd' hv hudp b,
            protocols_match hc f hx6 hp hv, (s3 _ rfl).2 _ hps', (d3 _ rfl).2 _ hpd', ty1]
          constructor
          · rintro ⟨rfl, m1, m2, m3, m4, m5, m6, m7, m8⟩
            have := (opts_match hc f htail hp m1).1 m8
            exact ⟨hpm, hf, m1, m2, m3, m4, m5, m6, m7, this⟩
          · rintro ⟨hb, _, m1, m2, m3, m4, m5, m6, m7, m8⟩
            exact ⟨permits_unique hb hpm, m1, m2, m3, m4, m5, m6, m7, (opts_match hc f htail hp m1).2 m8⟩

/-- C39 (partial): for a term the generator renders faithfully (`Fits`), some line rendered for the family
matches a packet of that family exactly when the packet satisfies all conditions of the term, and it does so with
the term's action. Terms with the action `next` render to comments. Missing: the terms outside `Fits`, for which
the statement is false (refutations below). -/
theorem C39_exact_partial {c : Cfg} (hc : c ∈ [ios, xr, nx, eos, brocade]) {af : Ver} {dsmo : Bool} {t : Term} {a : String}
    (f : Fits c af dsmo t a) (hf : FamilyOk af t) {nextIp : List Net} {ls : List Cisco.Line}
    (h : renderTerm c af dsmo t nextIp = .ok ls) {p : Packet} (hp : Coherent p) (hv : p.ver = af) (b : Bool) :
    (∃ l ∈ ls, LineMatches af l b p) ↔ Permits a b ∧ Matches t p :=
  core_exact hc (f.core hc) hf h hp hv b

/-- The shape of a rendering without verbatim text. -/
theorem render_cases {c : Cfg} {af : Ver} {dsmo : Bool} {t : Term} {nextIp : List Net} {ls : List Cisco.Line}
    (hv : t.verbatim = []) (h : renderTerm c af dsmo t nextIp = .ok ls) :
    ls = [] ∨ ∃ src dst act hop tail types sas das ps,
      addrs af dsmo t.sourceAddress t.sourceAddressExclude = .ok (some src) ∧
      addrs af dsmo t.destinationAddress t.destinationAddressExclude = .ok (some dst) ∧
      actionOf c t nextIp = .ok (act, hop) ∧ tailOpts t = .ok tail ∧ icmpTypesOf t af = .ok types ∧
      listM (ipString c) src = .ok sas ∧ listM (ipString c) dst = .ok das ∧
      ps = (t.protocol.map .str).map protoNumber ∧
      ls = (expand c af act (protocols c af ps) sas das (ports t.sourcePort) (ports t.destinationPort) types
        (if t.icmpCode.isEmpty then [none] else t.icmpCode.map some)
        (flagOpts (protocols c af ps) t.option ++ (hop ++ tail))).map .ace := by
  unfold renderTerm at h
  obtain ⟨ps, h1, h⟩ := bind_ok h
  simp only [hv, List.isEmpty_nil, Bool.not_true, Bool.false_eq_true, if_false] at h
  split at h
  · cases h; exact .inl rfl
  · split at h
    · cases h; exact .inl rfl
    · unfold termBody at h
      dsimp only at h
      obtain ⟨rs, s1, h⟩ := bind_ok h
      cases rs with
      | none => cases h; exact .inl rfl
      | some src =>
        dsimp only at h
        obtain ⟨rd, d1, h⟩ := bind_ok h
        cases rd with
        | none => cases h; exact .inl rfl
        | some dst =>
          dsimp only at h
          obtain ⟨⟨act, hop⟩, ha, h⟩ := bind_ok h
          dsimp only at h
          obtain ⟨tail, htail, h⟩ := bind_ok h
          obtain ⟨types, hty, h⟩ := bind_ok h
          obtain ⟨sas, hsas, h⟩ := bind_ok h
          obtain ⟨das, hdas, h⟩ := bind_ok h
          cases h
          exact .inr ⟨src, dst, act, hop, tail, types, sas, das, ps, s1, d1, ha, htail, hty, hsas, hdas,
            termProtocols_ok h1, rfl⟩

/-- C39: every line rendered for such a term is an entry the device can read, with the action of the term. -/
theorem C39_lines_valid {c : Cfg} (hc : c ∈ [ios, xr, nx, eos, brocade]) {af : Ver} {dsmo : Bool} {t : Term} {a : String}
    (f : Fits c af dsmo t a) (hn : a ≠ "next") {nextIp : List Net} {ls : List Cisco.Line}
    (h : renderTerm c af dsmo t nextIp = .ok ls) :
    ∀ l ∈ ls, ∃ toks e, l = .ace toks ∧ parseAce toks = some e ∧ Permits a e.permit := by
  have hc : c ∈ cfgs := hc
  replace f := f.core hc
  rcases render_cases f.verbatim h with rfl | ⟨src, dst, act, hop, tail, types, sas, das, ps, s1, d1, ha, htail, hty,
    hsas, hdas, rfl, rfl⟩
  · intro l hl; cases hl
  · intro l hl
    obtain ⟨toks, ht, rfl⟩ := List.mem_map.1 hl
    obtain ⟨sa, h1, da, h2, sp, h3, dp, h4, q, h5, ty, h6, co, h7, rfl⟩ := mem_expand.1 ht
    obtain ⟨x, hx, hsa⟩ := (listM_mem hsas sa).1 h1
    obtain ⟨y, hy, hda⟩ := (listM_mem hdas da).1 h2
    obtain ⟨rs, s1', _, s3⟩ := addrs_spec (addrMatch_wf f.src).1 (addrMatch_wf f.src).2 f.dsmo f.srcExclude
    obtain ⟨rd, d1', _, d3⟩ := addrs_spec (addrMatch_wf f.dst).1 (addrMatch_wf f.dst).2 f.dsmo f.dstExclude
    rw [s1] at s1'; cases s1'
    rw [d1] at d1'; cases d1'
    unfold actionOf at ha
    rw [f.action] at ha
    simp only [Except.ok.injEq, Prod.mk.injEq] at ha
    obtain ⟨rfl, rfl⟩ := ha
    rcases action_tok f.act with ⟨rfl, _⟩ | ⟨permit, hpm, e⟩
    · exact absurd rfl hn
    · rw [e]
      have hicmp : c.platform = "arista" → t.sourcePort ≠ [] ∨ t.destinationPort ≠ [] →
          printedProto c af q ≠ some (.str "icmp") := by
        intro hpl hports he
        rcases protocols_mem hc f h5 with ⟨e, hem, hm, rfl⟩ | rfl | ⟨_, rfl | rfl | rfl⟩
        · have h1 := f.ports hports _ hm
          rcases icmp_cases c hc af (by cases af <;> simp) e hem he with h | h <;> rw [h] at h1 <;>
            exact absurd h1 (by decide)
        all_goals
          unfold printedProto at he
          rw [if_neg (by simp [hpl])] at he
          exact absurd he (by decide)
      have hco : co ≠ none → ty ≠ none := by
        rintro hn rfl
        by_cases h0 : t.icmpCode = []
        · rw [h0] at h7; simp at h7; exact hn h7
        · exact (icmpTypes_spec hty {}).2.1 (f.codes h0) h6
      obtain ⟨e, e1, e2, _⟩ := parse_termlet ((s3 _ rfl).1 x hx) ((d3 _ rfl).1 y hy) hsa hda (p := printedProto c af q)
        (sp := sp) (dp := dp) (fun h hp => hicmp hp (.inl (ports_ne h3 h)))
        (fun h hp => hicmp hp (.inr (ports_ne h4 h))) hco
        (fixOptions q (flagOpts (protocols c af ((t.protocol.map .str).map protoNumber)) t.option ++ ([] ++ tail))) permit
      exact ⟨_, e, rfl, e1, by rw [e2]; exact hpm⟩

theorem isort_pairwise_le (l : List Nat) : (isort (fun a b => decide (a ≤ b)) l).Pairwise (· ≤ ·) := by
  have le : TotalPre (fun a b : Nat => decide (a ≤ b)) :=
    ⟨fun a b => by simp only [decide_eq_true_eq]; omega, fun a b c => by simp only [decide_eq_true_eq]; omega⟩
  exact (isort_sorted le l).imp fun h => by simpa using h

/-- C39: rendering such a term raises no error, if it has at most one dscp value, its icmp types belong to its
protocol, and masks are contiguous. -/
theorem C39_renders {c : Cfg} {af : Ver} {t : Term} {a : String} (f : Fits c af false t a)
    (hd : t.dscpMatch.length ≤ 1)
    (hi : t.icmpType ≠ [] → (t.protocol = ["icmp"] ∧ ∀ x ∈ t.icmpType, x ∈ icmpV4.map Prod.fst) ∨
      (t.protocol = ["icmpv6"] ∧ ∀ x ∈ t.icmpType, x ∈ icmpV6.map Prod.fst)) (nextIp : List Net) :
    ∃ ls, renderTerm c af false t nextIp = .ok ls := by
  have hps : termProtocols (t.protocol.map .str) = .ok ((t.protocol.map .str).map protoNumber) := by
    unfold termProtocols
    rw [if_neg]
    rw [List.any_eq_true]
    rintro ⟨p, hp, h⟩
    obtain ⟨s, hs, rfl⟩ := List.mem_map.1 hp
    have hk : (Proto.str s).known = true := by
      have := f.names s hs
      revert s
      have : ∀ s ∈ iana.map Prod.fst, (Proto.str s).known = true := by decide
      intro s _ _ _ h
      exact this s h
    rw [hk] at h
    simp at h
  unfold renderTerm
  rw [hps]
  simp only [bind, Except.bind]
  split
  · exact ⟨_, rfl⟩
  · split
    · exact ⟨_, rfl⟩
    next hx =>
      rw [f.verbatim]
      simp only [List.isEmpty_nil, Bool.not_true, Bool.false_eq_true, if_false, List.contains_iff_mem] at hx ⊢
      obtain ⟨rs, s1, _, s3⟩ := addrs_spec (addrMatch_wf f.src).1 (addrMatch_wf f.src).2 f.dsmo f.srcExclude
      obtain ⟨rd, d1, _, d3⟩ := addrs_spec (addrMatch_wf f.dst).1 (addrMatch_wf f.dst).2 f.dsmo f.dstExclude
      have hnd : ∀ {inc exc : List Net} {l}, addrs af false inc exc = .ok (some l) →
          ∃ r, listM (ipString c) l = .ok r := by
        intro inc exc l hl
        apply listM_total
        intro x hx
        unfold addrs at hl
        split at hl
        · cases hl
          rw [List.mem_singleton.1 hx]
          exact ⟨_, rfl⟩
        · obtain ⟨r, _, hl⟩ := bind_ok hl
          split at hl
          · cases hl
          · simp only [Bool.false_eq_true, if_false] at hl
            cases hl
            obtain ⟨n, _, rfl⟩ := List.mem_map.1 hx
            unfold ipString
            dsimp only
            split
            · split
              · exact ⟨_, rfl⟩
              · exact ⟨_, rfl⟩
            · exact ⟨_, rfl⟩
      have htail : ∃ l, tailOpts t = .ok l := by
        unfold tailOpts
        match h : t.dscpMatch, hd with
        | [], _ => exact ⟨_, rfl⟩
        | [d], _ => exact ⟨_, rfl⟩
      have hty : ∃ l, icmpTypesOf t af = .ok l := by
        unfold icmpTypesOf
        split
        · exact ⟨_, rfl⟩
        next h0 =>
          have h0' : t.icmpType ≠ [] := by simpa using h0
          have hlk : ∀ {tbl : List (String × Nat)} {x : String}, x ∈ tbl.map Prod.fst → ∃ n, tbl.lookup x = some n := by
            intro tbl x hx
            induction tbl with
            | nil => cases hx
            | cons e tbl ih =>
              obtain ⟨k, v⟩ := e
              rw [List.lookup_cons]
              cases hk : x == k with
              | true => exact ⟨v, rfl⟩
              | false =>
                rcases List.mem_cons.1 hx with h | h
                · rw [h] at hk; simp at hk
                · exact ih h
          rcases hi h0' with ⟨h1, h2⟩ | ⟨h1, h2⟩
          · cases af with
            | v6 => exact absurd (.inl ⟨rfl, by rw [h1]; simp⟩) hx
            | v4 =>
              exact ⟨_, (C34_types h0' _).2 ⟨icmp4, .inl ⟨rfl, h1, rfl⟩, fun x hx => hlk (h2 x hx),
                _, rfl, isort_pairwise_le _, isort_perm _ _⟩⟩
          · cases af with
            | v4 => exact absurd (.inr ⟨rfl, by rw [h1]; simp⟩) hx
            | v6 =>
              exact ⟨_, (C34_types h0' _).2 ⟨icmp6, .inr ⟨rfl, h1, rfl⟩, fun x hx => hlk (h2 x hx),
                _, rfl, isort_pairwise_le _, isort_perm _ _⟩⟩
      obtain ⟨tail, htail⟩ := htail
      obtain ⟨types, hty⟩ := hty
      unfold termBody
      dsimp only
      rw [s1]
      cases rs with
      | none => exact ⟨_, rfl⟩
      | some src =>
        simp only [bind, Except.bind]
        rw [d1]
        cases rd with
        | none => exact ⟨_, rfl⟩
        | some dst =>
          obtain ⟨sas, hsas⟩ := hnd s1
          obtain ⟨das, hdas⟩ := hnd d1
          have ha : actionOf c t nextIp = .ok ((actionTable.lookup a).getD [], []) := by
            unfold actionOf
            rw [f.action]
          dsimp only
          rw [ha, htail, hty, hsas, hdas]
          exact ⟨_, rfl⟩

/-! ### C40 -/

/-- C40 (extended and inet6 lists): if the term names source or destination addresses but none of the rendered
family is left after the exclusion, no line is rendered. -/
theorem C40_not_widened_partial {c : Cfg} {af : Ver} {dsmo : Bool} {t : Term} {nextIp : List Net}
    {ls : List Cisco.Line} (hv : t.verbatim = [])
    (hs : ∀ n ∈ t.sourceAddress ++ t.sourceAddressExclude, WF n)
    (hdst : ∀ n ∈ t.destinationAddress ++ t.destinationAddressExclude, WF n)
    (h0 : (t.sourceAddress ≠ [] ∧ ∀ x, Den t.sourceAddress af x → Den t.sourceAddressExclude af x) ∨
      (t.destinationAddress ≠ [] ∧ ∀ x, Den t.destinationAddress af x → Den t.destinationAddressExclude af x))
    (h : renderTerm c af dsmo t nextIp = .ok ls) : ls = [] := by
  have key : ∀ {inc exc : List Net} {l : List Addr}, (∀ n ∈ inc ++ exc, WF n) → inc ≠ [] →
      (∀ x, Den inc af x → Den exc af x) → addrs af dsmo inc exc ≠ .ok (some l) := by
    intro inc exc l hw hne hx h
    unfold addrs at h
    rw [if_neg (by simpa using hne)] at h
    obtain ⟨r, hr, h⟩ := bind_ok h
    have hr0 : r = [] := by
      cases r with
      | nil => rfl
      | cons n r =>
        exfalso
        unfold leftover at hr
        dsimp only at hr
        split at hr
        next hz =>
          simp only [Except.ok.injEq] at hr
          have hn : n ∈ inc.filter fun n => n.ver == af := by rw [hr]; simp
          obtain ⟨hn1, hn2⟩ := List.mem_filter.1 hn
          have hv : n.ver = af := by simpa using hn2
          have : Den exc af n.addr := hx _ ⟨n, hn1, hv ▸ mem_self⟩
          rw [← den_filter, List.isEmpty_iff.1 hz] at this
          obtain ⟨m, hm, _⟩ := this
          cases hm
        next hz =>
          obtain ⟨r', h1, hw', _, h4⟩ := addressListExclude_spec (inc.filter fun n => n.ver == af)
            (exc.filter fun n => n.ver == af) (fun n hn => hw n (List.mem_append_left _ (List.mem_filter.1 hn).1))
            (fun n hn => hw n (List.mem_append_right _ (List.mem_filter.1 hn).1))
          rw [hr] at h1
          cases h1
          obtain ⟨⟨m, hm, hm'⟩, hne'⟩ := (h4 n.ver n.addr).1 ⟨n, by simp, mem_self⟩
          have hv : n.ver = af := by
            rw [← hm'.1]
            simpa using (List.mem_filter.1 hm).2
          apply hne'
          rw [hv, den_filter]
          apply hx
          exact ⟨m, (List.mem_filter.1 hm).1, hv ▸ hm'⟩
    rw [hr0] at h
    cases h
  rcases render_cases hv h with rfl | ⟨src, dst, act, hop, tail, types, sas, das, ps, s1, d1, _⟩
  · rfl
  · rcases h0 with ⟨h1, h2⟩ | ⟨h1, h2⟩
    · exact absurd s1 (key hs h1 h2)
    · exact absurd d1 (key hdst h1 h2)

/-! ### C42 -/

/-- C42: the ports of a term are the ports of its entries: two-port ranges become two single ports, everything
else stays. -/
theorem C42_ports (l : List PortRange) : SamePorts (fixConsecutivePorts l) l ∧
    (∀ r ∈ fixConsecutivePorts l, r.1 + 1 ≠ r.2) ∧ (PWF l → PWF (fixConsecutivePorts l)) ∧
    (fixConsecutivePorts l = [] ↔ l = []) := by
  refine ⟨fun x => fixConsecutivePorts_pmem l x, ?_, ?_, ?_⟩
  · intro r hr
    obtain ⟨p, hp, hr⟩ := List.mem_flatMap.1 hr
    split at hr
    · rcases List.mem_cons.1 hr with rfl | hr
      · simp
      · rw [List.mem_singleton.1 hr]; simp
    next h => rw [List.mem_singleton.1 hr]; exact h
  · intro hw r hr
    obtain ⟨p, hp, hr⟩ := List.mem_flatMap.1 hr
    split at hr
    · rcases List.mem_cons.1 hr with rfl | hr
      · exact Nat.le_refl _
      · rw [List.mem_singleton.1 hr]; exact Nat.le_refl _
    · rw [List.mem_singleton.1 hr]; exact hw p hp
  · cases l with
    | nil => simp [fixConsecutivePorts]
    | cons p l =>
      simp only [fixConsecutivePorts, List.flatMap_cons, List.append_eq_nil_iff, reduceCtorEq, iff_false]
      rintro ⟨h, _⟩
      split at h <;> cases h

example : fixConsecutivePorts [(1, 2), (5, 5), (7, 9), (9, 10)] = [(1, 1), (2, 2), (5, 5), (7, 9), (9, 9), (10, 10)] := by
  decide

/-! ### C60 -/

theorem decides_append {v : Ver} {xs ys : List Cisco.Line} {p : Packet} {b : Bool} :
    Decides v (xs ++ ys) p b ↔ Decides v xs p b ∨ ((∀ l ∈ xs, ∀ b', ¬ LineMatches v l b' p) ∧ Decides v ys p b) := by
  constructor
  · rintro ⟨pre, l, post, e, hm, hn⟩
    rcases List.append_eq_append_iff.1 e with ⟨zs, rfl, e2⟩ | ⟨zs, rfl, e2⟩
    · exact .inr ⟨fun m hm' => hn m (List.mem_append_left _ hm'), zs, l, post, e2, hm,
        fun m hm' => hn m (List.mem_append_right _ hm')⟩
    · cases zs with
      | nil =>
        rw [List.nil_append] at e2
        exact .inr ⟨fun m hm' => hn m (by simpa using hm'), [], l, post, by simp [e2], hm, fun m hm' => by cases hm'⟩
      | cons z zs =>
        simp only [List.cons_append, List.cons.injEq] at e2
        obtain ⟨rfl, _⟩ := e2
        exact .inl ⟨pre, l, zs, rfl, hm, hn⟩
  · rintro (⟨pre, l, post, rfl, hm, hn⟩ | ⟨hx, pre, l, post, rfl, hm, hn⟩)
    · exact ⟨pre, l, post ++ ys, by simp, hm, hn⟩
    · refine ⟨xs ++ pre, l, post, by simp, hm, ?_⟩
      intro m hm'
      rcases List.mem_append.1 hm' with h | h
      · exact hx m h
      · exact hn m h

theorem decides_uniform {v : Ver} {p : Packet} {b : Bool} : ∀ {xs : List Cisco.Line},
    (∀ l ∈ xs, ∀ b', LineMatches v l b' p → ∀ b'', (∃ m ∈ xs, LineMatches v m b'' p) → b' = b'') →
    (Decides v xs p b ↔ ∃ l ∈ xs, LineMatches v l b p) := by
  intro xs hu
  constructor
  · rintro ⟨pre, l, post, rfl, hm, _⟩
    exact ⟨l, by simp, hm⟩
  · rintro ⟨l, hl, hm⟩
    have : ∀ ys zs : List Cisco.Line, xs = ys ++ zs → (∀ m ∈ ys, ∀ b', ¬ LineMatches v m b' p) → l ∈ zs →
        Decides v xs p b := by
      intro ys zs
      induction zs generalizing ys with
      | nil => intro _ _ h; cases h
      | cons z zs ih =>
        intro e hy hz
        by_cases hzz : ∃ b', LineMatches v z b' p
        · obtain ⟨b', hb⟩ := hzz
          have hzx : z ∈ xs := by rw [e]; simp
          have : b' = b := hu z hzx b' hb b ⟨l, hl, hm⟩
          subst this
          exact ⟨ys, z, zs, e, hb, hy⟩
        · rcases List.mem_cons.1 hz with rfl | hz
          · exact absurd ⟨b, hm⟩ hzz
          · refine ih (ys ++ [z]) (by rw [e]; simp) ?_ hz
            intro m hm'
            rcases List.mem_append.1 hm' with h | h
            · exact hy m h
            · rw [List.mem_singleton.1 h]
              intro b' hb
              exact hzz ⟨b', hb⟩
    exact this [] xs rfl (fun m hm' => by cases hm') hl

theorem policyDecides_cons {platform : String} {r : RTerm} {ts : List RTerm} {p : Packet} {b : Bool} :
    PolicyDecides platform (r :: ts) p b ↔
      (Live platform r ∧ Means r.term p ∧ ∃ a, r.term.action = [a] ∧ Permits a b) ∨
      (¬ (Live platform r ∧ Means r.term p ∧ r.term.action ≠ ["next"]) ∧ PolicyDecides platform ts p b) := by
  constructor
  · rintro ⟨pre, s, post, a, e, h1, h2, h3, h4, h5⟩
    cases pre with
    | nil =>
      simp only [List.nil_append, List.cons.injEq] at e
      obtain ⟨rfl, _⟩ := e
      exact .inl ⟨h1, h2, a, h3, h4⟩
    | cons z pre =>
      simp only [List.cons_append, List.cons.injEq] at e
      obtain ⟨rfl, e⟩ := e
      exact .inr ⟨h5 _ (by simp), pre, s, post, a, e, h1, h2, h3, h4, fun m hm => h5 m (List.mem_cons_of_mem _ hm)⟩
  · rintro (⟨h1, h2, a, h3, h4⟩ | ⟨h0, pre, s, post, a, rfl, h1, h2, h3, h4, h5⟩)
    · exact ⟨[], r, ts, a, rfl, h1, h2, h3, h4, fun m hm => by cases hm⟩
    · refine ⟨r :: pre, s, post, a, rfl, h1, h2, h3, h4, ?_⟩
      intro m hm
      rcases List.mem_cons.1 hm with rfl | hm
      · exact h0
      · exact h5 m hm

/-- Changing name and destination ports keeps the conditions, if ports were allowed. -/
theorem Core.withPorts {c : Cfg} {af : Ver} {dsmo : Bool} {t : Term} {a : String} (f : Core c af dsmo t a)
    (name : Str) (ports : List PortRange) (h : ports ≠ [] → ∀ s ∈ t.protocol, s ∈ protosWithPorts) :
    Core c af dsmo { t with name := name, destinationPort := ports } a where
  unsup := ⟨f.unsup.addressExclude, f.unsup.destinationPrefix, f.unsup.forwardingClass, f.unsup.forwardingClassExcept,
    f.unsup.port, f.unsup.precedence, f.unsup.protocolExcept, f.unsup.sourcePrefix, f.unsup.packetLength,
    f.unsup.fragmentOffset, f.unsup.hopLimit, f.unsup.etherType, f.unsup.trafficType, f.unsup.dscpExcept,
    f.unsup.flexible, f.unsup.sourcePrefixExcept, f.unsup.destinationPrefixExcept, f.unsup.destinationZone,
    f.unsup.sourceZone, f.unsup.sourceInterface, f.unsup.destinationInterface, f.unsup.ttl, f.unsup.trafficClass⟩
  opts := f.opts
  act := f.act
  ports := fun hp s hs => by
    rcases hp with hp | hp
    · exact f.ports (.inl hp) s hs
    · exact h hp s hs
  codes := f.codes
  active := f.active
  verbatim := f.verbatim
  action := f.action
  either := f.either
  srcTag := f.srcTag
  dstTag := f.dstTag
  ttl := f.ttl
  trafficClass := f.trafficClass
  src := f.src
  dst := f.dst
  srcExclude := f.srcExclude
  dstExclude := f.dstExclude
  names := f.names
  icmp4 := f.icmp4
  icmp6 := f.icmp6
  ipv6 := f.ipv6
  est := f.est
  frag := f.frag
  dsmo := f.dsmo

/-- `Matches` depends on the destination ports only through their set. -/
theorem matches_ports {t : Term} {p : Packet} {name : Str} {x y : List PortRange} (h : PortMatch x p.dport ↔ PortMatch y p.dport) :
    Matches { t with name := name, destinationPort := x } p ↔ Matches { t with destinationPort := y } p := by
  unfold Matches
  refine and_congr Iff.rfl (and_congr ?_ Iff.rfl)
  unfold MatchPorts
  exact and_congr Iff.rfl (and_congr Iff.rfl h)

theorem restrict_fixHighPorts {hc : HighPorts} {t t' : Term} {af : String} {st : Bool}
    (h : fixHighPorts hc t af st = .ok t') : ∃ ports, t' = { t with destinationPort := ports } := by
  unfold fixHighPorts at h
  split at h
  · cases h
  · split at h
    · cases h
    · unfold fixEstablished at h
      split at h
      · split at h
        · cases h; exact ⟨_, rfl⟩
        · split at h
          · cases h; exact ⟨_, rfl⟩
          · cases h
      · cases h; exact ⟨_, rfl⟩

theorem hasEst_opts {t : Term} (h : ∀ o ∈ t.option, o ∈ ["established", "tcp-established", "is-fragment", "fragments"]) :
    HasEstablished t ↔ "established" ∈ t.option := by
  constructor
  · rintro ⟨o, ho, hp⟩
    have := h o ho
    simp only [List.mem_cons, List.not_mem_nil, or_false] at this
    rw [← startsWith_iff] at hp
    rcases this with rfl | rfl | rfl | rfl
    · exact ho
    all_goals exact absurd hp (by decide)
  · intro h
    exact ⟨_, h, [], by simp⟩

/-- What a term contributes to the rendered list, and what it asks for. -/
theorem prepared_hits {c : Cfg} (hc : c ∈ cfgs) {k : Kind} {af : Ver} (hk : afName k = if af = .v4 then "inet" else "inet6")
    {dsmo : Bool} {r r' : RTerm} (hpr : prepare k r = .ok (some r')) {a : String} (f : Core c af dsmo r.term a)
    (hw : PWF r.term.destinationPort) {ls : List Cisco.Line}
    (hr : renderTerm c af dsmo r'.term r'.nextIp = .ok ls) {p : Packet} (hp : Coherent p) (hv : p.ver = af) (b : Bool) :
    (∃ l ∈ ls, LineMatches af l b p) ↔
      Live c.platform r ∧ Means r.term p ∧ ∃ a, r.term.action = [a] ∧ Permits a b := by
  unfold prepare at hpr
  obtain ⟨name, _, hpr⟩ := bind_ok hpr
  obtain ⟨t', h2, hpr⟩ := bind_ok hpr
  have hsup : afName k ∈ ({} : HighPorts).supportedAf := by
    rw [hk]; cases af <;> decide
  have hbl : ∀ l, ({} : HighPorts).blacklist.lookup (afName k) = some l →
      ∀ p ∈ l, ¬ TermProto {} { r.term with name := name } p := by
    intro l h; cases h
  -- the prepared term
  have key : ∃ ports, t' = { r.term with name := name, destinationPort := ports } ∧
      (ports ≠ [] → ∀ s ∈ r.term.protocol, s ∈ protosWithPorts) ∧
      (Matches { r.term with name := name, destinationPort := ports } p ↔ Means r.term p) := by
    by_cases he : HasEstablished { r.term with name := name }
    · have he' : "established" ∈ r.term.option := (hasEst_opts (t := { r.term with name := name }) f.opts).1 he
      obtain ⟨e1, e2⟩ := C32_established (c := {}) (t := { r.term with name := name }) (af := afName k) false hsup hbl he hw
      by_cases hall : ∀ q, TermProto {} { r.term with name := name } q → q = "tcp" ∨ q = "udp"
      · obtain ⟨ports, e, hx⟩ := e1 hall
        rw [e] at h2
        cases h2
        refine ⟨ports, rfl, ?_, ?_⟩
        · intro _ s hs
          rcases hall s (.inl hs) with rfl | rfl <;> decide
        · have : Matches { r.term with name := name, destinationPort := ports } p ↔
              Matches { r.term with destinationPort := r.term.destinationPort ++ [(1024, 65535)] } p := by
            apply matches_ports
            have hnz : ports ≠ [] := by
              intro e0
              have := (hx 1024).2 (.inr ⟨rfl, by omega, by omega⟩)
              rw [e0] at this
              obtain ⟨_, h, _⟩ := this
              cases h
            unfold PortMatch
            rw [hx]
            constructor
            · rintro (h | ⟨q, hq, h⟩ | ⟨_, h⟩)
              · exact absurd h hnz
              · exact .inr ⟨q, List.mem_append_left _ hq, h⟩
              · exact .inr ⟨(1024, 65535), by simp, h⟩
            · rintro (h | ⟨q, hq, h⟩)
              · simp at h
              · rcases List.mem_append.1 hq with hq | hq
                · exact .inr (.inl ⟨q, hq, h⟩)
                · rw [List.mem_singleton.1 hq] at h
                  exact .inr (.inr ⟨rfl, h⟩)
          rw [this]
          unfold Means
          simp [he']
      · have hex : ∃ q, TermProto {} { r.term with name := name } q ∧ q ≠ "tcp" ∧ q ≠ "udp" := by
          refine Classical.byContradiction fun hn => hall fun q hq => ?_
          refine Classical.byContradiction fun hne => hn ⟨q, hq, fun h => hne (.inl h), fun h => hne (.inr h)⟩
        rw [e2 hex] at h2
        cases h2
    · have he' : "established" ∉ r.term.option := fun h =>
        he ((hasEst_opts (t := { r.term with name := name }) f.opts).2 h)
      rw [C32_unchanged (c := {}) false hsup hbl he] at h2
      cases h2
      refine ⟨r.term.destinationPort, rfl, fun h => f.ports (.inr h), ?_⟩
      have := matches_ports (t := r.term) (p := p) (name := name) (x := r.term.destinationPort)
        (y := r.term.destinationPort) Iff.rfl
      rw [this]
      unfold Means
      simp [he']
  obtain ⟨ports, rfl, hpp, hmm⟩ := key
  dsimp only at hpr
  split at hpr
  · cases hpr
  next hfam =>
    split at hpr
    · cases hpr
    next hexp =>
      simp only [Except.ok.injEq, Option.some.injEq] at hpr
      subst hpr
      have hf : FamilyOk af { r.term with name := name, destinationPort := ports } := by
        unfold FamilyOk
        dsimp only
        rw [← hk]
        cases hra : r.term.restrictAddressFamily with
        | none => exact .inl rfl
        | some x =>
          right
          rw [hra] at hfam
          simp only [Option.isSome_some, Bool.true_and, bne_iff_ne, ne_eq, Classical.not_not] at hfam
          exact hfam
      rw [core_exact hc (f.withPorts name ports hpp) hf hr hp hv b, hmm]
      constructor
      · rintro ⟨h1, h2⟩
        exact ⟨⟨by simpa using hexp, f.active.1, f.active.2⟩, h2, a, f.action, h1⟩
      · rintro ⟨_, h2, a', h3, h4⟩
        rw [f.action] at h3
        cases h3
        exact ⟨h4, h2⟩

theorem decides_nil {v : Ver} {p : Packet} {b : Bool} : ¬ Decides v [] p b := by
  rintro ⟨pre, l, post, e, _⟩
  cases pre <;> cases e

theorem terms_decide {c : Cfg} (hc : c ∈ cfgs) {k : Kind} {af : Ver} (hk : afName k = if af = .v4 then "inet" else "inet6")
    {dsmo : Bool} {p : Packet} (hp : Coherent p) (hv : p.ver = af) (b : Bool) :
    ∀ {ts : List RTerm} {kept : List (Option RTerm)} {ls : List Cisco.Line},
    (∀ r ∈ ts, Live c.platform r → FamilyOk af r.term → (∃ a, Core c af dsmo r.term a) ∧ PWF r.term.destinationPort) →
    listM (prepare k) ts = .ok kept →
    concatM (fun r : RTerm => renderTerm c af dsmo r.term r.nextIp) (kept.filterMap id) = .ok ls →
    (Decides af ls p b ↔ PolicyDecides c.platform ts p b)
  | [], kept, ls, _, h1, h2 => by
    rw [listM] at h1
    cases h1
    rw [List.filterMap_nil, concatM] at h2
    cases h2
    refine iff_of_false decides_nil ?_
    rintro ⟨pre, r, post, a, e, _⟩
    cases pre <;> cases e
  | r :: ts, kept, ls, hf, h1, h2 => by
    rw [listM] at h1
    obtain ⟨x, hx, h1⟩ := bind_ok h1
    obtain ⟨xs, hxs, h1⟩ := bind_ok h1
    cases h1
    rw [policyDecides_cons]
    have ih := @terms_decide c hc k af hk dsmo p hp hv b ts xs
    have hf' : ∀ r ∈ ts, Live c.platform r → FamilyOk af r.term →
        (∃ a, Core c af dsmo r.term a) ∧ PWF r.term.destinationPort := fun r hr => hf r (List.mem_cons_of_mem _ hr)
    cases x with
    | none =>
      rw [List.filterMap_cons_none rfl] at h2
      rw [ih hf' hxs h2]
      -- dropped: expired or of another family
      have hdrop : ¬ (Live c.platform r ∧ Means r.term p) := by
        rintro ⟨hl, hm⟩
        unfold prepare at hx
        obtain ⟨name, _, hx⟩ := bind_ok hx
        obtain ⟨t', ht', hx⟩ := bind_ok hx
        obtain ⟨ports, rfl⟩ := restrict_fixHighPorts ht'
        have hre : r.term.restrictAddressFamily = none ∨ r.term.restrictAddressFamily = some (afName k) := by
          rw [hk]
          have : ∀ x : List PortRange, Matches { r.term with destinationPort := x } p →
              r.term.restrictAddressFamily = none ∨
                r.term.restrictAddressFamily = some (if af = .v4 then "inet" else "inet6") := by
            intro x hx
            have := hx.2.2.2.2.2.1
            rw [hv] at this
            exact this
          rcases hm with ⟨_, hm⟩ | ⟨_, hm⟩
          · exact this r.term.destinationPort hm
          · exact this _ hm
        dsimp only at hx
        split at hx
        next hfam =>
          rcases hre with h | h <;> rw [h] at hfam <;> simp at hfam
        · split at hx
          next hexp => rw [hl.1] at hexp; cases hexp
          next => cases hx
      constructor
      · intro h
        exact .inr ⟨fun h' => hdrop ⟨h'.1, h'.2.1⟩, h⟩
      · rintro (⟨h1, h2, _⟩ | ⟨_, h⟩)
        · exact absurd ⟨h1, h2⟩ hdrop
        · exact h
    | some r' =>
      rw [show List.filterMap id (some r' :: xs) = r' :: xs.filterMap id from rfl, concatM] at h2
      obtain ⟨l1, hl1, h2⟩ := bind_ok h2
      obtain ⟨l2, hl2, h2⟩ := bind_ok h2
      cases h2
      have hlive : r'.term.platform = r.term.platform ∧ r'.term.platformExclude = r.term.platformExclude ∧
          r.expired = false ∧ FamilyOk af r.term := by
        unfold prepare at hx
        obtain ⟨name, _, hx⟩ := bind_ok hx
        obtain ⟨t', ht', hx⟩ := bind_ok hx
        obtain ⟨ports, rfl⟩ := restrict_fixHighPorts ht'
        dsimp only at hx
        split at hx
        · cases hx
        next hfam =>
          split at hx
          · cases hx
          next hexp =>
            simp only [Except.ok.injEq, Option.some.injEq] at hx
            subst hx
            refine ⟨rfl, rfl, by simpa using hexp, ?_⟩
            unfold FamilyOk
            rw [← hk]
            cases hra : r.term.restrictAddressFamily with
            | none => exact .inl rfl
            | some x =>
              right
              rw [hra] at hfam
              simp only [Option.isSome_some, Bool.true_and, bne_iff_ne, ne_eq, Classical.not_not] at hfam
              exact hfam
      have hhit : ∀ b', (∃ l ∈ l1, LineMatches af l b' p) ↔
          Live c.platform r ∧ Means r.term p ∧ ∃ a, r.term.action = [a] ∧ Permits a b' := by
        intro b'
        by_cases hL : Live c.platform r
        · obtain ⟨⟨a, f⟩, hw⟩ := hf r (List.mem_cons_self ..) hL hlive.2.2.2
          exact prepared_hits hc hk hx f hw hl1 hp hv b'
        · refine iff_of_false ?_ (fun h => hL h.1)
          have hna : onPlatform c.platform r'.term ≠ true := by
            intro hon
            obtain ⟨a1, a2⟩ := onPlatform_iff.1 hon
            have a1' : r'.term.platform = [] ∨ c.platform ∈ r'.term.platform := a1
            have a2' : c.platform ∉ r'.term.platformExclude := a2
            rw [hlive.1] at a1'
            rw [hlive.2.1] at a2'
            exact hL ⟨hlive.2.2.1, a1', a2'⟩
          unfold renderTerm at hl1
          obtain ⟨_, _, hl1⟩ := bind_ok hl1
          rw [show onPlatform c.platform r'.term = false by simpa using hna] at hl1
          cases hl1
          rintro ⟨l, hl, _⟩
          cases hl
      have huni : ∀ l ∈ l1, ∀ b', LineMatches af l b' p → ∀ b'', (∃ m ∈ l1, LineMatches af m b'' p) → b' = b'' := by
        intro l hl b' hb' b'' hb''
        obtain ⟨_, _, a1, e1, p1⟩ := (hhit b').1 ⟨l, hl, hb'⟩
        obtain ⟨_, _, a2, e2, p2⟩ := (hhit b'').1 hb''
        rw [e1] at e2
        cases e2
        exact permits_unique p1 p2
      rw [decides_append, decides_uniform huni, hhit b, ih hf' hxs hl2]
      have hnone : (∀ l ∈ l1, ∀ b', ¬ LineMatches af l b' p) ↔
          ¬ (Live c.platform r ∧ Means r.term p ∧ r.term.action ≠ ["next"]) := by
        constructor
        · rintro h ⟨h1, h2, h3⟩
          obtain ⟨⟨a, f⟩, _⟩ := hf r (List.mem_cons_self ..) h1 hlive.2.2.2
          have : ∃ permit, Permits a permit := by
            rcases action_tok f.act with ⟨rfl, _⟩ | ⟨permit, hpm, _⟩
            · exact absurd f.action h3
            · exact ⟨permit, hpm⟩
          obtain ⟨permit, hpm⟩ := this
          obtain ⟨l, hl, hm⟩ := (hhit permit).2 ⟨h1, h2, a, f.action, hpm⟩
          exact h l hl permit hm
        · intro h l hl b' hm
          obtain ⟨h1, h2, a, h3, h4⟩ := (hhit b').1 ⟨l, hl, hm⟩
          refine h ⟨h1, h2, ?_⟩
          intro hn
          rw [h3] at hn
          cases hn
          rcases h4 with ⟨h, _⟩ | ⟨h | h | h, _⟩ <;> exact absurd h (by decide)
      rw [hnone]

/-- C60 (partial): a rendered extended (`inet6`) list decides about every packet of its family like the policy:
the first matching entry permits (denies) exactly if the first live term that matches the packet, and whose
action is not `next`, accepts (denies, rejects) it. Expired terms, terms of another family or platform have no
effect. Missing: the terms outside `Fits` and verbatim terms, whose text is not interpreted. -/
theorem C60_filter_partial {c : Cfg} (hc : c ∈ [ios, xr, nx, eos, brocade]) {name : Str} {k : Kind} {af : Ver}
    (hk : (k = .extended ∧ af = .v4) ∨ (k = .inet6 ∧ af = .v6)) {dsmo : Bool} (hd : af = .v6 → dsmo = false)
    {ts : List RTerm}
    (hf : ∀ r ∈ ts, Live c.platform r → FamilyOk af r.term →
      (∃ a, Fits c af dsmo r.term a) ∧ PWF r.term.destinationPort)
    {acl : Acl} (h : renderList c name k dsmo ts = .ok acl) {p : Packet} (hp : Coherent p) (hpv : p.ver = af)
    (permit : Bool) : Decides af acl.lines p permit ↔ PolicyDecides c.platform ts p permit := by
  have hc : c ∈ cfgs := hc
  unfold renderList at h
  split at h
  · cases h
  · obtain ⟨kept, h1, h⟩ := bind_ok h
    have hf' : ∀ r ∈ ts, Live c.platform r → FamilyOk af r.term →
        (∃ a, Core c af dsmo r.term a) ∧ PWF r.term.destinationPort := by
      intro r hr hl hfam
      obtain ⟨⟨a, f⟩, hw⟩ := hf r hr hl hfam
      exact ⟨⟨a, f.core hc⟩, hw⟩
    rcases hk with ⟨rfl, rfl⟩ | ⟨rfl, rfl⟩
    · dsimp only at h
      obtain ⟨ls, h2, h⟩ := bind_ok h
      cases h
      exact terms_decide hc rfl hp hpv permit hf' h1 h2
    · dsimp only at h
      obtain ⟨ls, h2, h⟩ := bind_ok h
      cases h
      have := hd rfl
      subst this
      exact terms_decide hc rfl hp hpv permit hf' h1 h2

/-! ### concrete cases -/

instance (platform : String) (t : KTerm) : Decidable (Active platform t) :=
  inferInstanceAs (Decidable ((t.platform = [] ∨ platform ∈ t.platform) ∧ platform ∉ t.platformExclude))

/-- Replies from a network without a part of it. -/
def exTerm : Term :=
  { name := "web".toList, action := ["accept"], protocol := ["tcp", "udp"], sourceAddress := [ip4 10 0 0 0 8],
    sourceAddressExclude := [ip4 10 1 0 0 16], destinationPort := [(80, 81), (1000, 2000)],
    option := ["tcp-established"], logging := ["true"] }

/-- Echo requests to a host. -/
def exIcmp : Term :=
  { name := "ping".toList, action := ["deny"], protocol := ["icmp"], destinationAddress := [ip4 192 168 0 1 32],
    icmpType := ["echo-request", "unreachable"] }

/-- Replies to a network, with the high ports added by the generator. -/
def exEst : Term :=
  { name := "replies".toList, action := ["accept"], protocol := ["tcp"], destinationAddress := [ip4 10 0 0 0 8, ip6 0x20 16],
    option := ["established"] }

theorem exTerm_fits : Fits ios .v4 false exTerm "accept" := by constructor <;> decide +kernel
theorem exTerm_fits_eos : Fits eos .v4 true exTerm "accept" := by constructor <;> decide +kernel
theorem exTerm_fits_brocade : Fits brocade .v4 false exTerm "accept" := by constructor <;> decide +kernel
theorem exIcmp_fits : Fits ios .v4 false exIcmp "deny" := by constructor <;> decide +kernel
theorem exIcmp_fits_xr : Fits xr .v6 false exIcmp "deny" := by constructor <;> decide +kernel
theorem exEst_fits : Fits nx .v6 false exEst "accept" := by constructor <;> decide +kernel
theorem exEst_fits4 : Fits ios .v4 false exEst "accept" := by constructor <;> decide +kernel

example : ∃ ls, renderTerm ios .v4 false exTerm [] = .ok ls ∧ ls.length = 48 :=
  ⟨_, rfl, by decide +kernel⟩

example : renderTerm xr .v4 false exIcmp [] =
    .ok [.ace [.w "deny", .w "icmp", .w "any", .w "host", .ip .v4 (192 * 2 ^ 24 + 168 * 2 ^ 16 + 1), .num 3],
      .ace [.w "deny", .w "icmp", .w "any", .w "host", .ip .v4 (192 * 2 ^ 24 + 168 * 2 ^ 16 + 1), .num 8]] := by
  decide +kernel

/-- A packet for the examples. -/
def ciscoPacket (proto : String) (est : Bool) : Packet :=
  { ver := .v4, src := 10 * 2 ^ 24 + 1, dst := 192 * 2 ^ 24 + 168 * 2 ^ 16 + 1, proto := proto, sport := 4000,
    dport := 80, hasOption := fun o => est && (o == "tcp-established" || o == "established") }

theorem ciscoPacket_coherent : Coherent (ciscoPacket "tcp" true) where
  src := by decide
  dst := by decide
  proto := by decide
  icmp4 := by decide
  icmp6 := by decide
  est := by decide
  udp := by decide
  nontcp := by decide
  frag := by decide

theorem ciscoPlain_coherent {s : String} (h : s ∈ ["tcp", "icmp", "gre", "igmp"]) : Coherent (ciscoPacket s false) where
  src := by show 10 * 2 ^ 24 + 1 < 2 ^ 32; decide
  dst := by show 192 * 2 ^ 24 + 168 * 2 ^ 16 + 1 < 2 ^ 32; decide
  proto := by
    show s ∈ _
    revert s; decide
  icmp4 := by
    intro _
    show s ≠ _
    revert s; decide
  icmp6 := by intro h; cases h
  est := rfl
  udp := by
    show s = "udp" → _
    intro e; subst e; exact absurd h (by decide)
  nontcp := fun _ _ => rfl
  frag := rfl

/-- A filter for C60: a term of the other family, an expired one, a `next` term and two ordinary ones. -/
def exFilter : List RTerm :=
  [{ term := { exIcmp with name := "six".toList, restrictAddressFamily := some "inet6" } },
   { term := { exTerm with name := "old".toList, action := ["deny"] }, expired := true },
   { term := { exTerm with name := "more".toList, action := ["next"] } }, { term := exEst }, { term := exIcmp }]

example : (∀ r ∈ exFilter, Live "cisco" r → FamilyOk .v4 r.term →
      (∃ a, Fits ios .v4 false r.term a) ∧ PWF r.term.destinationPort) ∧
    ∃ acl, renderList ios "f".toList .extended false exFilter = .ok acl ∧ acl.lines.length = 51 := by
  constructor
  · intro r hr hl hf
    simp only [exFilter, List.mem_cons, List.not_mem_nil, or_false] at hr
    rcases hr with rfl | rfl | rfl | rfl | rfl
    · exact absurd hf (by unfold FamilyOk; decide)
    · cases hl.1
    · exact ⟨⟨"next", by constructor <;> decide +kernel⟩, by unfold PWF; decide⟩
    · exact ⟨⟨"accept", exEst_fits4⟩, by unfold PWF; decide⟩
    · exact ⟨⟨"deny", exIcmp_fits⟩, by unfold PWF; decide⟩
  · exact ⟨_, rfl, by decide +kernel⟩

/-- The hypotheses of C40: the only IPv4 address is excluded. -/
example : let t : Term := { exTerm with sourceAddressExclude := [ip4 0 0 0 0 4], sourceAddress := [ip4 10 0 0 0 8, ip6 0x20 16] }
    (∀ n ∈ t.sourceAddress ++ t.sourceAddressExclude, WF n) ∧ t.sourceAddress ≠ [] ∧
    (∀ x, Den t.sourceAddress .v4 x → Den t.sourceAddressExclude .v4 x) ∧
    renderTerm ios .v4 false t [] = .ok [] := by
  refine ⟨by decide +kernel, by decide, ?_, by decide +kernel⟩
  rintro x ⟨n, hn, h⟩
  simp only [List.mem_cons, List.not_mem_nil, or_false] at hn
  rcases hn with rfl | rfl
  · obtain ⟨h1, h2, h3⟩ := h
    simp only [ip4, Ver.bits] at h2 h3
    refine ⟨_, List.mem_singleton.2 rfl, rfl, ?_⟩
    simp only [ip4, Ver.bits]
    omega
  · cases h.1

/-! ### refutations of C39, C40 -/

/-- The term passes the checks of the tool. -/
def Accepted (c : Cfg) (t : Term) : Prop :=
  initCheck (tables c) [([c.platform], [kterm t])] = .ok () ∧ sanityCheck t = .ok ()

instance (c : Cfg) (t : Term) : Decidable (Accepted c t) := inferInstanceAs (Decidable (_ ∧ _))

theorem any_line {v : Ver} {s : String} {p : Packet} (hv : p.ver = v) (h : ProtoMatches v (.w s) p) :
    LineMatches v (.ace [.w "permit", .w s, .w "any", .w "any"]) true p :=
  ⟨_, ⟨true, .w s, .any, .any, .any, .any, none, none, {}⟩, rfl, rfl, rfl,
    { ver := hv, proto := h, src := trivial, dst := trivial, sport := trivial, dport := trivial,
      itype := by intro _ h; cases h
      icode := by intro _ h; cases h
      est := by intro h; cases h
      frag := by intro h; cases h
      dscp := by intro _ h; cases h }⟩

/-- C39 is false for a term that lists icmp beside other protocols: in an IPv6 list the whole term disappears,
so TCP packets it accepts are matched by no line. -/
theorem C39_refuted_mixed : ∃ (t : Term) (p : Packet), Accepted ios t ∧ renderTerm ios .v6 false t [] = .ok [] ∧
    Coherent p ∧ p.ver = .v6 ∧ Matches t p := by
  refine ⟨{ name := "t".toList, action := ["accept"], protocol := ["icmp", "tcp"] }, { ver := .v6, proto := "tcp" },
    by decide +kernel, by decide +kernel, ?_, rfl, ?_⟩
  · exact ⟨by decide, by decide, by decide, by decide, by decide, rfl, by decide, by decide, rfl⟩
  · simp [Matches, MatchAddrs, MatchPorts, MatchProto, MatchPrefixes, MatchMisc, MatchRest, OneOf, PortMatch, RangeMatch,
      AddrMatch, Den]

/-- C39 is false for an exclusion without inclusion: it is ignored and the excluded hosts are permitted. -/
theorem C39_refuted_exclude : ∃ (t : Term) (p : Packet) (ls : List Cisco.Line), Accepted ios t ∧
    renderTerm ios .v4 false t [] = .ok ls ∧ Coherent p ∧ p.ver = .v4 ∧ (∃ l ∈ ls, LineMatches .v4 l true p) ∧
    ¬ Matches t p := by
  refine ⟨{ name := "t".toList, action := ["accept"], sourceAddressExclude := [ip4 10 0 0 0 8] }, ciscoPacket "tcp" false,
    _, by decide +kernel, rfl, ciscoPlain_coherent (by decide), rfl, ⟨_, List.mem_singleton.2 rfl, ?_⟩, ?_⟩
  · exact any_line rfl (.inl ⟨.inl rfl, rfl⟩)
  · rintro ⟨⟨_, ⟨_, h⟩, _⟩, _⟩
    apply h
    exact ⟨_, List.mem_singleton.2 rfl, rfl, by decide, by decide⟩

/-- C39 is false for the either-direction address: it is accepted and ignored. -/
theorem C39_refuted_address : ∃ (t : Term) (p : Packet) (ls : List Cisco.Line), Accepted ios t ∧
    renderTerm ios .v4 false t [] = .ok ls ∧ Coherent p ∧ p.ver = .v4 ∧ (∃ l ∈ ls, LineMatches .v4 l true p) ∧
    ¬ Matches t p := by
  refine ⟨{ name := "t".toList, action := ["accept"], address := [ip4 11 0 0 0 8] }, ciscoPacket "tcp" false,
    _, by decide +kernel, rfl, ciscoPlain_coherent (by decide), rfl, ⟨_, List.mem_singleton.2 rfl, ?_⟩, ?_⟩
  · exact any_line rfl (.inl ⟨.inl rfl, rfl⟩)
  · rintro ⟨⟨h, _⟩, _⟩
    have key : ∀ x, Den [ip4 11 0 0 0 8] .v4 x → 11 * 2 ^ 24 ≤ x ∧ x < 12 * 2 ^ 24 := by
      rintro x ⟨n, hn, _, h2, h3⟩
      rw [List.mem_singleton.1 hn] at h2 h3
      simp only [ip4, Ver.bits] at h2 h3
      omega
    rcases h with ⟨h, _⟩ | ⟨h | h, _⟩ | ⟨h | h, _⟩
    · cases h
    · cases h
    · have := key _ h
      simp only [ciscoPacket] at this
      omega
    · cases h
    · have := key _ h
      simp only [ciscoPacket] at this
      omega

/-- C39 is false for `is-fragment` with a protocol: the option is dropped and every packet is permitted. -/
theorem C39_refuted_fragment : ∃ (t : Term) (p : Packet) (ls : List Cisco.Line), Accepted ios t ∧
    renderTerm ios .v4 false t [] = .ok ls ∧ Coherent p ∧ p.ver = .v4 ∧ (∃ l ∈ ls, LineMatches .v4 l true p) ∧
    ¬ Matches t p := by
  refine ⟨{ name := "t".toList, action := ["accept"], protocol := ["tcp"], option := ["is-fragment"] },
    ciscoPacket "tcp" false, _, by decide +kernel, rfl, ciscoPlain_coherent (by decide), rfl,
    ⟨_, List.mem_singleton.2 rfl, ?_⟩, ?_⟩
  · exact any_line rfl (.inr (.inr (.inr (.inr rfl))))
  · rintro ⟨_, _, _, _, ⟨_, h, _⟩, _⟩
    exact absurd (h "is-fragment" (by decide)) (by decide)

/-- C39 is false for `tcp-established` without TCP: the option is dropped. -/
theorem C39_refuted_established : ∃ (t : Term) (p : Packet) (ls : List Cisco.Line), Accepted ios t ∧
    renderTerm ios .v4 false t [] = .ok ls ∧ Coherent p ∧ p.ver = .v4 ∧ (∃ l ∈ ls, LineMatches .v4 l true p) ∧
    ¬ Matches t p := by
  refine ⟨{ name := "t".toList, action := ["accept"], option := ["tcp-established"] },
    ciscoPacket "tcp" false, _, by decide +kernel, rfl, ciscoPlain_coherent (by decide), rfl,
    ⟨_, List.mem_singleton.2 rfl, ?_⟩, ?_⟩
  · exact any_line rfl (.inl ⟨.inl rfl, rfl⟩)
  · rintro ⟨_, _, _, _, ⟨_, h, _⟩, _⟩
    exact absurd (h "tcp-established" (by decide)) (by decide)

/-- C39 is false for protocol 41 on the platforms that print names: `ipv6` means every IPv6 packet there. -/
theorem C39_refuted_ipv6 : ∃ (t : Term) (p : Packet) (ls : List Cisco.Line), Accepted xr t ∧
    renderTerm xr .v6 false t [] = .ok ls ∧ Coherent p ∧ p.ver = .v6 ∧ (∃ l ∈ ls, LineMatches .v6 l true p) ∧
    ¬ Matches t p := by
  refine ⟨{ name := "t".toList, action := ["accept"], protocol := ["ipv6"] }, { ver := .v6, proto := "tcp" },
    _, by decide +kernel, rfl, ?_, rfl, ⟨_, List.mem_singleton.2 rfl, ?_⟩, ?_⟩
  · exact ⟨by decide, by decide, by decide, by decide, by decide, rfl, by decide, by decide, rfl⟩
  · exact any_line rfl (.inr (.inl ⟨rfl, rfl⟩))
  · rintro ⟨_, _, ⟨h, _⟩, _⟩
    rcases h with h | h
    · cases h
    · exact absurd h (by decide)

/-- C39 is false for ttl 0: the keyword check takes it for absent, and it is not rendered. -/
theorem C39_refuted_ttl : ∃ (t : Term) (p : Packet) (ls : List Cisco.Line), Accepted ios t ∧
    renderTerm ios .v4 false t [] = .ok ls ∧ Coherent p ∧ p.ver = .v4 ∧ (∃ l ∈ ls, LineMatches .v4 l true p) ∧
    ¬ Matches t p := by
  refine ⟨{ name := "t".toList, action := ["accept"], ttl := some 0 }, { ciscoPacket "tcp" false with ttl := 64 },
    _, by decide +kernel, rfl, ?_, rfl, ⟨_, List.mem_singleton.2 rfl, ?_⟩, ?_⟩
  · have := ciscoPlain_coherent (s := "tcp") (by decide)
    exact ⟨this.src, this.dst, this.proto, this.icmp4, this.icmp6, this.est, this.udp, this.nontcp, this.frag⟩
  · exact any_line rfl (.inl ⟨.inl rfl, rfl⟩)
  · rintro ⟨_, _, _, _, _, _, _, _, _, _, h, _⟩
    rcases h with h | h
    · cases h
    · exact absurd h (by decide)

/-- C39 is false for protocol numbers: IOS lists print `None` as the protocol. -/
theorem C39_refuted_number : ∃ (t : Term), Accepted ios t ∧
    renderTerm ios .v4 false t [] = .ok [.ace [.w "permit", .w "None", .w "any", .w "any"]] :=
  ⟨{ name := "t".toList, action := ["accept"], protocol := ["50"] }, by decide +kernel, by decide +kernel⟩

/-- C40 is false for standard lists: a term with IPv6 addresses only is rendered as `permit any`. -/
theorem C40_refuted_standard : ∃ (t : Term), Accepted ios t ∧ standardCheck t = .ok () ∧
    (t.address ≠ [] ∧ ∀ n ∈ t.address, n.ver = .v6) ∧
    renderStandard ios "LIST".toList t = .ok [.ace [.w "permit", .w "any"]] :=
  ⟨{ name := "t".toList, action := ["accept"], address := [ip6 0x20 16] }, by decide +kernel, by decide +kernel,
    by decide, by decide +kernel⟩

/-- C40 is false for object groups: exclusions are ignored, here of all addresses of the term. -/
theorem C40_refuted_objectgroup : ∃ (t : Term), Accepted ios t ∧
    t.sourceAddressExclude = t.sourceAddress ∧ t.sourceAddress ≠ [] ∧
    renderGroupTerm [] "cisco" .v4 t = .ok [.inl [.tok (.w "permit"), .tok (.w "ip"), .netGroup "CORP", .tok (.w "any")]] ∧
    (netGroups .v4 [t]).map (fun g => (g.name, g.nets)) = [("CORP", t.sourceAddress)] :=
  ⟨{ name := "t".toList, action := ["accept"], sourceAddress := [{ ip4 10 0 0 0 8 with parent := "CORP" }],
     sourceAddressExclude := [{ ip4 10 0 0 0 8 with parent := "CORP" }] },
    by decide +kernel, rfl, by decide, by decide +kernel, by decide +kernel⟩

/-! ### C41 -/

/-- The address lists of the terms. -/
def lists (ts : List Term) : List (List Net) := ts.flatMap fun t => [t.sourceAddress, t.destinationAddress]

theorem netGroups_lists (af : Ver) (ts : List Term) : netGroups af ts = (lists ts).foldl (addGroup af) [] := by
  unfold netGroups lists
  generalize ([] : List NetGroup) = acc
  induction ts generalizing acc with
  | nil => rfl
  | cons t ts ih => exact ih _

/-- What the groups collected so far satisfy. -/
structure GroupsOk (af : Ver) (seen : List (List Net)) (gs : List NetGroup) : Prop where
  nodup : (gs.map NetGroup.name).Nodup
  origin : ∀ g ∈ gs, ∃ l ∈ seen, ∃ n ns, l.filter (fun n => n.ver == af) = n :: ns ∧ g = ⟨n.parent, af, n :: ns⟩
  covered : ∀ l ∈ seen, ∀ n ns, l.filter (fun n => n.ver == af) = n :: ns → ∃ g ∈ gs, g.name = n.parent

theorem addGroup_ok {af : Ver} {seen : List (List Net)} {gs : List NetGroup} (h : GroupsOk af seen gs) (l : List Net) :
    GroupsOk af (seen ++ [l]) (addGroup af gs l) := by
  unfold addGroup
  split
  next he =>
    refine ⟨h.nodup, ?_, ?_⟩
    · intro g hg
      obtain ⟨l', h1, h2⟩ := h.origin g hg
      exact ⟨l', List.mem_append_left _ h1, h2⟩
    · intro l' hl' n ns e
      rcases List.mem_append.1 hl' with hl' | hl'
      · exact h.covered l' hl' n ns e
      · rw [List.mem_singleton.1 hl', he] at e; cases e
  next n ns he =>
    split
    next hany =>
      obtain ⟨g, hg, hn⟩ := List.any_eq_true.1 hany
      refine ⟨h.nodup, ?_, ?_⟩
      · intro g hg
        obtain ⟨l', h1, h2⟩ := h.origin g hg
        exact ⟨l', List.mem_append_left _ h1, h2⟩
      · intro l' hl' n' ns' e
        rcases List.mem_append.1 hl' with hl' | hl'
        · exact h.covered l' hl' n' ns' e
        · rw [List.mem_singleton.1 hl', he] at e
          cases e
          exact ⟨g, hg, by simpa using hn⟩
    next hany =>
      have hnot : ∀ g ∈ gs, g.name ≠ n.parent := by
        intro g hg e
        exact hany (List.any_eq_true.2 ⟨g, hg, by simpa using e⟩)
      refine ⟨?_, ?_, ?_⟩
      · rw [List.map_append, List.nodup_append]
        refine ⟨h.nodup, by simp, ?_⟩
        intro a ha b hb
        obtain ⟨g, hg, rfl⟩ := List.mem_map.1 ha
        simp only [List.map_cons, List.map_nil, List.mem_singleton] at hb
        rw [hb]
        exact hnot g hg
      · intro g hg
        rcases List.mem_append.1 hg with hg | hg
        · obtain ⟨l', h1, h2⟩ := h.origin g hg
          exact ⟨l', List.mem_append_left _ h1, h2⟩
        · exact ⟨l, by simp, n, ns, he, List.mem_singleton.1 hg⟩
      · intro l' hl' n' ns' e
        rcases List.mem_append.1 hl' with hl' | hl'
        · obtain ⟨g, hg, e'⟩ := h.covered l' hl' n' ns' e
          exact ⟨g, List.mem_append_left _ hg, e'⟩
        · rw [List.mem_singleton.1 hl', he] at e
          cases e
          exact ⟨_, List.mem_append_right _ (List.mem_singleton.2 rfl), rfl⟩

theorem groups_ok (af : Ver) (ts : List Term) : GroupsOk af (lists ts) (netGroups af ts) := by
  rw [netGroups_lists]
  have : ∀ (ls seen : List (List Net)) (gs : List NetGroup), GroupsOk af seen gs →
      GroupsOk af (seen ++ ls) (ls.foldl (addGroup af) gs) := by
    intro ls
    induction ls with
    | nil => intro seen gs h; simpa using h
    | cons l ls ih =>
      intro seen gs h
      have := ih (seen ++ [l]) (addGroup af gs l) (addGroup_ok h l)
      simpa using this
  exact this (lists ts) [] [] ⟨by simp, by simp, by simp⟩

theorem mem_lists {ts : List Term} {l : List Net} :
    l ∈ lists ts ↔ ∃ t ∈ ts, l = t.sourceAddress ∨ l = t.destinationAddress := by
  unfold lists
  rw [List.mem_flatMap]
  simp only [List.mem_cons, List.not_mem_nil, or_false]

/-- C41 (partial): every network group is defined once per list, with addresses of the family only. If the
addresses of every list come from one named network, and lists with the same name have the same addresses of
the family, then the group an entry refers to exists and contains exactly the term's addresses of the family.
Missing: lists of several networks (refuted below). -/
theorem C41_groups_partial (af : Ver) (ts : List Term) :
    ((netGroups af ts).map NetGroup.name).Nodup ∧
    (∀ g ∈ netGroups af ts, g.af = af ∧ g.nets ≠ [] ∧ ∀ n ∈ g.nets, n.ver = af) ∧
    ((∀ l ∈ lists ts, ∀ n ∈ l, ∀ m ∈ l, n.parent = m.parent) →
     (∀ l ∈ lists ts, ∀ m ∈ lists ts, ∀ a ∈ l, ∀ b ∈ m, a.parent = b.parent → ∀ x, Den l af x ↔ Den m af x) →
     ∀ t ∈ ts, ∀ l, (l = t.sourceAddress ∨ l = t.destinationAddress) → (∃ n ∈ l, n.ver = af) →
       ∃ g ∈ netGroups af ts, (∀ n ∈ l, n.parent = g.name) ∧ (∀ x, Den g.nets af x ↔ Den l af x) ∧
         ∀ g' ∈ netGroups af ts, g'.name = g.name → g' = g) := by
  have ok := groups_ok af ts
  refine ⟨ok.nodup, ?_, ?_⟩
  · intro g hg
    obtain ⟨l, _, n, ns, e, rfl⟩ := ok.origin g hg
    refine ⟨rfl, by simp, ?_⟩
    intro m hm
    have : m ∈ l.filter fun n => n.ver == af := by rw [e]; exact hm
    simpa using (List.mem_filter.1 this).2
  · intro h1 h2 t ht l hl ⟨n0, hn0, hv0⟩
    have hlm : l ∈ lists ts := mem_lists.2 ⟨t, ht, hl⟩
    have hf : n0 ∈ l.filter fun n => n.ver == af := List.mem_filter.2 ⟨hn0, by simp [hv0]⟩
    cases e : l.filter fun n => n.ver == af with
    | nil => rw [e] at hf; cases hf
    | cons n ns =>
      have hn : n ∈ l := (List.mem_filter.1 (by rw [e]; simp : n ∈ l.filter fun n => n.ver == af)).1
      obtain ⟨g, hg, hname⟩ := ok.covered l hlm n ns e
      refine ⟨g, hg, fun m hm => by rw [hname]; exact h1 _ hlm m hm n hn, ?_, ?_⟩
      · intro x
        obtain ⟨l', hl', m, ms, e', rfl⟩ := ok.origin g hg
        have hm : m ∈ l' := (List.mem_filter.1 (by rw [e']; simp : m ∈ l'.filter fun n => n.ver == af)).1
        show Den (m :: ms) af x ↔ _
        rw [← e', den_filter]
        exact h2 l' hl' l hlm m hm n hn hname x
      · intro g' hg' hn'
        have hnd := ok.nodup
        clear ok
        revert hnd hg hg'
        generalize netGroups af ts = gs
        intro hg hg' hnd
        induction gs with
        | nil => cases hg
        | cons a gs ih =>
          rw [List.map_cons, List.nodup_cons] at hnd
          rcases List.mem_cons.1 hg with e | k <;> rcases List.mem_cons.1 hg' with e' | k'
          · rw [e, e']
          · exact absurd (List.mem_map.2 ⟨g', k', by rw [hn', e]⟩) hnd.1
          · exact absurd (List.mem_map.2 ⟨g, k, by rw [← hn', e']⟩) hnd.1
          · exact ih k k' hnd.2

/-- C41: the groups an entry refers to: the one named after the first source address, the one named after the
first destination address, and port groups of the term. -/
theorem C41_references {extra : List String} {platform : String} {af : Ver} {t : Term}
    {ls : List (Sum (List GTok) String)} (h : renderGroupTerm extra platform af t = .ok ls) {toks : List GTok}
    (hl : .inl toks ∈ ls) :
    (∀ name, .netGroup name ∈ toks → t.sourceAddress.head?.map Net.parent = some name ∨
      t.destinationAddress.head?.map Net.parent = some name) ∧
    ∀ lo hi, .portGroup lo hi ∈ toks → (lo, hi) ∈ t.sourcePort ∨ (lo, hi) ∈ t.destinationPort := by
  unfold renderGroupTerm at h
  obtain ⟨ps, _, h⟩ := bind_ok h
  split at h
  · cases h; cases hl
  · split at h
    · cases h
      obtain ⟨v, _, e⟩ := List.mem_map.1 hl
      cases e
    · split at h
      · cases h
      · cases h
        simp only [List.mem_flatMap, List.mem_map] at hl
        obtain ⟨sp, hsp, dp, hdp, q, _, e⟩ := hl
        cases e
        have hg : ∀ (l : List Net) (name : String), GTok.netGroup name ∈ groupAddr (groupName l) →
            l.head?.map Net.parent = some name := by
          intro l name hn
          unfold groupAddr at hn
          split at hn
          · cases hn
          · split at hn
            · simp at hn
            next h1 h2 =>
              have e : name = groupName l := by simpa using hn
              rw [e]
              cases l with
              | nil => exact absurd rfl h2
              | cons m ms => rfl
        have hp : ∀ (l : List PortRange) (o : Option PortRange) lo hi,
            o ∈ (if l.isEmpty then [none] else l.map some) →
            GTok.portGroup lo hi ∈ (o.toList.map fun r => GTok.portGroup r.1 r.2) → (lo, hi) ∈ l := by
          intro l o lo hi ho hm
          cases o with
          | none => cases hm
          | some r =>
            simp only [Option.toList_some, List.map_cons, List.map_nil, List.mem_singleton, GTok.portGroup.injEq] at hm
            split at ho
            · simp at ho
            · obtain ⟨r', hr', e⟩ := List.mem_map.1 ho
              cases e
              rw [hm.1, hm.2]
              exact hr'
        have hga : ∀ (l : List Net) lo hi, GTok.portGroup lo hi ∉ groupAddr (groupName l) := by
          intro l lo hi hm
          unfold groupAddr at hm
          split at hm
          · cases hm
          · split at hm <;> simp at hm
        constructor
        · intro name hn
          simp only [List.mem_append, List.mem_cons, List.mem_map, reduceCtorEq, false_or, and_false, exists_false] at hn
          rcases hn with hn | hn
          · exact .inl (hg _ _ hn)
          · exact .inr (hg _ _ (hn.resolve_right id))
        · intro lo hi hn
          simp only [List.mem_append, List.mem_cons] at hn
          rcases hn with hn | hn | hn | hn | hn | hn
          · obtain ⟨_, _, e⟩ := List.mem_map.1 hn; cases e
          · cases hn
          · exact absurd hn (hga _ _ _)
          · exact .inl (hp _ _ _ _ hsp hn)
          · exact absurd hn (hga _ _ _)
          · exact .inr (hp _ _ _ _ hdp hn)

/-- C41: port groups are defined once, and exactly for the port ranges of the terms. -/
theorem C41_ports (ts : List Term) : (portGroups ts).Nodup ∧
    ∀ r, r ∈ portGroups ts ↔ ∃ t ∈ ts, r ∈ t.sourcePort ∨ r ∈ t.destinationPort := by
  have key : ∀ (l acc : List PortRange), acc.Nodup →
      (l.foldl (fun gs p => if gs.contains p then gs else gs ++ [p]) acc).Nodup ∧
      ∀ r, r ∈ l.foldl (fun gs p => if gs.contains p then gs else gs ++ [p]) acc ↔ r ∈ acc ∨ r ∈ l := by
    intro l
    induction l with
    | nil => intro acc h; exact ⟨h, by simp⟩
    | cons p l ih =>
      intro acc h
      rw [List.foldl_cons]
      by_cases hc : acc.contains p = true
      · rw [if_pos hc]
        obtain ⟨h1, h2⟩ := ih acc h
        refine ⟨h1, fun r => ?_⟩
        rw [h2, List.mem_cons]
        constructor
        · rintro (h | h)
          · exact .inl h
          · exact .inr (.inr h)
        · rintro (h | rfl | h)
          · exact .inl h
          · exact .inl (List.contains_iff_mem.1 hc)
          · exact .inr h
      · rw [if_neg hc]
        have hn : p ∉ acc := fun h => hc (List.contains_iff_mem.2 h)
        obtain ⟨h1, h2⟩ := ih (acc ++ [p]) (by
          rw [List.nodup_append]
          refine ⟨h, by simp, ?_⟩
          intro a ha b hb
          rw [List.mem_singleton.1 hb]
          rintro rfl
          exact hn ha)
        refine ⟨h1, fun r => ?_⟩
        rw [h2, List.mem_append, List.mem_singleton, List.mem_cons, or_assoc]
  obtain ⟨h1, h2⟩ := key (ts.flatMap fun t => t.sourcePort ++ t.destinationPort) [] (by simp)
  refine ⟨h1, fun r => ?_⟩
  unfold portGroups
  rw [h2]
  simp only [List.not_mem_nil, false_or, List.mem_flatMap, List.mem_append]

/-- Two terms with the networks `CORP` and `WEB`, for the hypotheses of C41. -/
example : let corp := { ip4 10 0 0 0 8 with parent := "CORP" }
    let web := { ip4 192 168 0 0 24 with parent := "WEB" }
    let web' := { ip4 192 168 2 0 24 with parent := "WEB" }
    let ts : List Term := [{ sourceAddress := [corp], destinationAddress := [web, web'] },
      { destinationAddress := [corp], destinationPort := [(80, 80)] }]
    (∀ l ∈ lists ts, ∀ n ∈ l, ∀ m ∈ l, n.parent = m.parent) ∧
    (∀ l ∈ lists ts, ∀ m ∈ lists ts, ∀ a ∈ l, ∀ b ∈ m, a.parent = b.parent → l = m) ∧
    (netGroups .v4 ts).map (fun g => (g.name, g.nets)) = [("CORP", [corp]), ("WEB", [web, web'])] := by
  decide +kernel

/-- C41 is false for lists of several networks: the group is named after the first network and contains all;
a second term that uses the first network alone gets the addresses of both. -/
theorem C41_refuted_shared : ∃ (t u : Term) (x : Nat), Accepted ios t ∧ Accepted ios u ∧
    (∃ ls, renderGroupTerm [] "cisco" .v4 u = .ok ls ∧ ∃ toks, .inl toks ∈ ls ∧ .netGroup "CORP" ∈ toks) ∧
    u.destinationAddress = [] ∧ (∃ g ∈ netGroups .v4 [t, u], g.name = "CORP" ∧ Den g.nets .v4 x) ∧
    ¬ Den u.sourceAddress .v4 x := by
  refine ⟨{ name := "t".toList, action := ["accept"], sourceAddress := [{ ip4 10 0 0 0 8 with parent := "CORP" },
      { ip4 192 168 0 0 16 with parent := "GUEST" }] },
    { name := "u".toList, action := ["accept"], sourceAddress := [{ ip4 10 0 0 0 8 with parent := "CORP" }] },
    192 * 2 ^ 24 + 168 * 2 ^ 16, by decide +kernel, by decide +kernel, ⟨_, rfl, _, List.mem_singleton.2 rfl, by decide⟩,
    rfl, ⟨_, List.mem_singleton.2 rfl, rfl, _, List.mem_cons_of_mem _ (List.mem_singleton.2 rfl), rfl, by decide, by decide⟩, ?_⟩
  rintro ⟨n, hn, _, _, h⟩
  rw [List.mem_singleton.1 hn] at h
  exact absurd h (by decide)

/-- C41 is false for lists with addresses of both families from different networks: the entry refers to a group
that is not defined. -/
theorem C41_refuted_undefined : ∃ (t : Term), Accepted ios t ∧
    renderGroupTerm [] "cisco" .v6 t = .ok [.inl [.tok (.w "permit"), .tok (.w "ipv6"), .netGroup "CORP", .tok (.w "any")]] ∧
    hasFamily .v6 t = true ∧ ∀ g ∈ netGroups .v6 [t], g.name ≠ "CORP" := by
  refine ⟨{ name := "t".toList, action := ["accept"], sourceAddress := [{ ip4 10 0 0 0 8 with parent := "CORP" },
      { ip6 0x20 16 with parent := "CORP6" }] }, by decide +kernel, by decide +kernel, by decide, by decide +kernel⟩

end Verif.Props
