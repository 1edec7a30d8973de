import Verif.Lemmas.JuniperTerm
import Verif.Lemmas.Keywords
import Verif.Props.Juniper

/-!
Property theorems C65-C69: the terms and filters of capirca/lib/juniper.py.
-/

namespace Verif.Props
open Verif Verif.Spec Verif.Spec.Junos Verif.Juniper Policy Aclgenerator

/-! ### C65 -/

/-- The terms a filter of the given type renders faithfully. `keywords` and `sane` are the checks of the tool
itself; every other condition is needed, see the refutations below. -/
structure JFits (platform : String) (ty : TType) (dsmo : Bool) (j : JTerm) (a : String) : Prop where
  keywords : initCheck (tables platform) [([platform], [kterm j.term])] = .ok ()
  sane : sanityCheck j.term = .ok ()
  active : Active platform (kterm j.term)
  inactive : j.inactive = false
  verbatim : j.term.verbatim = []
  action : j.term.action = [a]
  routing : j.routing = ""
  nextIp : j.nextIp = []
  srcTag : j.term.sourceTag = []
  dstTag : j.term.destinationTag = []
  trafficClass : j.term.trafficClass ≠ some 0
  ttl : j.term.ttl ≠ some 0
  ttl6 : ty ≠ .inet → j.term.ttl = none
  hops4 : ty = .inet → j.term.hopLimit = []
  addr : ∀ n ∈ j.term.address, WF n
  src : ∀ n ∈ j.term.sourceAddress ++ j.term.sourceAddressExclude, WF n
  dst : ∀ n ∈ j.term.destinationAddress ++ j.term.destinationAddressExclude, WF n
  srcExclude : j.term.sourceAddress = [] → j.term.sourceAddressExclude = []
  dstExclude : j.term.destinationAddress = [] → j.term.destinationAddressExclude = []
  srcNested : ∀ n ∈ j.term.sourceAddress, ∀ e ∈ j.term.sourceAddressExclude, ¬ StrictSub n e
  dstNested : ∀ n ∈ j.term.destinationAddress, ∀ e ∈ j.term.destinationAddressExclude, ¬ StrictSub n e
  dsmo : dsmo = true → ty.af = .v4 ∧ ∀ e ∈ j.term.sourceAddressExclude ++ j.term.destinationAddressExclude, e.ver ≠ ty.af
  srcPrefix : j.term.sourcePrefix = [] → j.term.sourcePrefixExcept = []
  dstPrefix : j.term.destinationPrefix = [] → j.term.destinationPrefixExcept = []
  names : ∀ s ∈ j.term.protocol ++ j.term.protocolExcept, s ∈ iana.map Prod.fst
  opts : ∀ o ∈ j.term.option, o = "inactive" ∨ o ∈ ["sample", "established", "tcp-established", "rst", "initial",
    "tcp-initial", "first-fragment", "is-fragment"]
  est : "established" ∈ j.term.option → j.term.protocol = ["tcp"] ∨
    (j.term.protocol ≠ [] ∧ ∀ s ∈ j.term.protocol, s = "udp")
  criteria : ((∀ o ∈ j.term.option, o = "sample" ∨ o = "inactive") ∧ j.term.packetLength = [] ∧ j.term.icmpType = []) ∨
    j.term.protocol ≠ [] ∨ j.term.protocolExcept ≠ [] ∨ j.term.address ≠ [] ∨ j.term.sourceAddress ≠ [] ∨
    j.term.destinationAddress ≠ [] ∨ j.term.sourcePrefix ≠ [] ∨ j.term.destinationPrefix ≠ [] ∨ j.term.port ≠ [] ∨
    j.term.sourcePort ≠ [] ∨ j.term.destinationPort ≠ []

/-- Attributes the keyword check refuses. -/
structure JUnsupported (t : Term) : Prop where
  addressExclude : t.addressExclude = []
  destinationZone : t.destinationZone = []
  sourceZone : t.sourceZone = []
  sourceInterface : t.sourceInterface = none
  destinationInterface : t.destinationInterface = none
  trafficClass : t.trafficClass = none ∨ t.trafficClass = some 0

theorem jtables_ok (platform : String) : ∀ e ∈ (tables platform).subTokens, e.1 ∈ (tables platform).tokens := by
  have : ∀ e ∈ (tables "").subTokens, e.1 ∈ (tables "").tokens := by decide
  exact this

theorem junsupported {platform : String} {t : Term} (ha : Active platform (kterm t))
    (h : initCheck (tables platform) [([platform], [kterm t])] = .ok ()) : JUnsupported t := by
  have tok : ∀ s ∈ ["address_exclude", "destination_zone", "source_zone", "source_interface",
    "destination_interface", "traffic_class"],
    s ∉ (tables platform).tokens ∧ s ∉ warnIfUnsupported ∧ startsWith "flatten" s = false := by
    have : ∀ s ∈ ["address_exclude", "destination_zone", "source_zone", "source_interface",
      "destination_interface", "traffic_class"],
      s ∉ (tables "").tokens ∧ s ∉ warnIfUnsupported ∧ startsWith "flatten" s = false := by decide
    exact this
  have key : ∀ a : String × Val, a ∈ attrsOf t → a.1 ∈ ["address_exclude", "destination_zone", "source_zone",
    "source_interface", "destination_interface", "traffic_class"] → a.2.truthy = false := by
    intro a hm hs
    obtain ⟨h1, h2, h3⟩ := tok a.1 hs
    exact unknown_unset (g := tables platform) (jtables_ok platform) rfl ha h hm h1 h2 h3
  refine ⟨?_, ?_, ?_, ?_, ?_, ?_⟩
  · exact Cisco.listVal_falsy (key ("address_exclude", listVal t.addressExclude) (by simp [attrsOf]) (by simp))
  · exact Cisco.wordsVal_falsy (key ("destination_zone", wordsVal t.destinationZone) (by simp [attrsOf]) (by simp))
  · exact Cisco.wordsVal_falsy (key ("source_zone", wordsVal t.sourceZone) (by simp [attrsOf]) (by simp))
  · have := Cisco.flagVal_falsy (key ("source_interface", flagVal t.sourceInterface.isSome) (by simp [attrsOf]) (by simp))
    simpa using this
  · have := Cisco.flagVal_falsy (key ("destination_interface", flagVal t.destinationInterface.isSome) (by simp [attrsOf]) (by simp))
    simpa using this
  · exact Cisco.numVal_falsy (key ("traffic_class", numVal t.trafficClass) (by simp [attrsOf]) (by simp))

theorem jaction {platform : String} {t : Term} (ha : Active platform (kterm t))
    (h : initCheck (tables platform) [([platform], [kterm t])] = .ok ()) {a : String} (hm : a ∈ t.action) :
    a ∈ ["accept", "deny", "next", "reject", "reject-with-tcp-rst"] :=
  word_known (g := tables platform) (jtables_ok platform) ha h (el := "action") (l := t.action) (by simp [attrsOf])
    rfl (by decide) hm

theorem sane_filter {t : Term} (h : sanityCheck t = .ok ()) (hv : t.verbatim = []) (ha : t.action ≠ []) :
    t.filterTerm = false := by
  unfold sanityCheck at h
  obtain ⟨_, h1, _⟩ := bind_ok h
  unfold sanityAction at h1
  rw [hv] at h1
  dsimp only at h1
  rw [if_neg (by simp)] at h1
  split at h1
  · cases h1
  · split at h1
    · cases h1
    next hn => simpa [ha] using hn

/-- The three address conditions. -/
theorem addrConds_match {ty : TType} (hty : ty ≠ .bridge) {dsmo : Bool} {t : Term} {r : Option (List Cond)}
    (addr : ∀ n ∈ t.address, WF n)
    (src : ∀ n ∈ t.sourceAddress ++ t.sourceAddressExclude, WF n)
    (dst : ∀ n ∈ t.destinationAddress ++ t.destinationAddressExclude, WF n)
    (srcExclude : t.sourceAddress = [] → t.sourceAddressExclude = [])
    (dstExclude : t.destinationAddress = [] → t.destinationAddressExclude = [])
    (srcNested : ∀ n ∈ t.sourceAddress, ∀ e ∈ t.sourceAddressExclude, ¬ StrictSub n e)
    (dstNested : ∀ n ∈ t.destinationAddress, ∀ e ∈ t.destinationAddressExclude, ¬ StrictSub n e)
    (hm : dsmo = true → ty.af = .v4 ∧ ∀ e ∈ t.sourceAddressExclude ++ t.destinationAddressExclude, e.ver ≠ ty.af)
    (hx : t.addressExclude = []) (h : addrConds ty dsmo t = .ok r) {p : Packet} (hp : Coherent p) (hv : p.ver = ty.af) :
    (∃ cs, r = some cs ∧ ∀ c ∈ cs, CondMatches p c) ↔ MatchAddrs t p := by
  have hsrc : p.src < 2 ^ ty.af.bits := hv ▸ hp.src
  have hdst : p.dst < 2 ^ ty.af.bits := hv ▸ hp.dst
  have k1 : ∀ ls, CondMatches p (.block (kw ty "addr") ls) ↔ AddrLines ls ty.af p.src ∨ AddrLines ls ty.af p.dst := by
    intro ls
    cases ty
    · simp [CondMatches, kw, hv]
    · simp [CondMatches, kw, hv]
    · exact absurd rfl hty
  have k2 : ∀ ls, CondMatches p (.block (kw ty "saddr") ls) ↔ AddrLines ls ty.af p.src := by
    intro ls
    cases ty
    · simp [CondMatches, kw, hv]
    · simp [CondMatches, kw, hv]
    · exact absurd rfl hty
  have k3 : ∀ ls, CondMatches p (.block (kw ty "daddr") ls) ↔ AddrLines ls ty.af p.dst := by
    intro ls
    cases ty
    · simp [CondMatches, kw, hv]
    · simp [CondMatches, kw, hv]
    · exact absurd rfl hty
  have ws := addrMatch_wf src
  have wd := addrMatch_wf dst
  have one : ∀ {hd : String} {inc exc : List Net} {r : Option (List Cond)} {x : Nat},
      (∀ ls, CondMatches p (.block hd ls) ↔ AddrLines ls ty.af x) →
      ((AddrMatch inc exc ty.af x) ↔ ∃ cs, r = some cs ∧ (cs = [] ∨ ∃ ls, cs = [.block hd ls] ∧ AddrLines ls ty.af x)) →
      ((∃ cs, r = some cs ∧ ∀ c ∈ cs, CondMatches p c) → (∀ cs, r = some cs → cs = [] ∨ ∃ ls, cs = [.block hd ls]) →
        AddrMatch inc exc ty.af x) ∧
      (AddrMatch inc exc ty.af x → ∃ cs, r = some cs ∧ ∀ c ∈ cs, CondMatches p c) := by
    intro hd inc exc r x hk hh
    refine ⟨?_, ?_⟩
    · rintro ⟨cs, rfl, hc⟩ hform
      refine hh.2 ⟨cs, rfl, ?_⟩
      rcases hform cs rfl with h | ⟨ls, rfl⟩
      · exact .inl h
      · exact .inr ⟨ls, rfl, (hk ls).1 (hc _ (by simp))⟩
    · intro h
      obtain ⟨cs, e, h⟩ := hh.1 h
      refine ⟨cs, e, ?_⟩
      rcases h with rfl | ⟨ls, rfl, h⟩
      · simp
      · intro c hc
        rw [List.mem_singleton.1 hc]
        exact (hk ls).2 h
  have form : ∀ {hd : String} {inc exc : List Net} {r : Option (List Cond)} (_ : ∀ n ∈ inc, WF n) (_ : ∀ n ∈ exc, WF n)
      (_ : dsmo = true → ty.af = .v4 ∧ ∀ e ∈ exc, e.ver ≠ ty.af) (_ : addrCond ty.af dsmo hd inc exc = .ok r),
      ∀ cs, r = some cs → (cs = [] ∧ inc = []) ∨ ∃ ls, cs = [.block hd ls] := by
    intro hd inc exc r a b c h cs e
    rcases (addrCond_spec a b c h).2 cs e with h | ⟨_, ls, h, _⟩
    · exact .inl h
    · exact .inr ⟨ls, h⟩
  unfold addrConds at h
  obtain ⟨ra, ha, h⟩ := bind_ok h
  have wn : ∀ n ∈ ([] : List Net), WF n := by simp
  have c1 : ∀ x, x < 2 ^ ty.af.bits → _ := fun x hx => C44_addresses_partial (x := x) addr wn
    (fun e => ⟨(hm e).1, by simp⟩) (by simp) (fun _ => rfl) ha hx
  have m1 : (∃ cs, ra = some cs ∧ ∀ c ∈ cs, CondMatches p c) ↔
      (t.address = [] ∧ t.addressExclude = []) ∨ AddrMatch t.address t.addressExclude p.ver p.src ∨
        AddrMatch t.address t.addressExclude p.ver p.dst := by
    rw [hx, hv]
    constructor
    · rintro ⟨cs, rfl, hc⟩
      rcases form addr wn (fun e => ⟨(hm e).1, by simp⟩) ha cs rfl with ⟨_, h⟩ | ⟨ls, rfl⟩
      · exact .inl ⟨h, rfl⟩
      · right
        rcases (k1 ls).1 (hc _ (by simp)) with h | h
        · exact .inl ((c1 _ hsrc).2 ⟨_, rfl, .inr ⟨ls, rfl, h⟩⟩)
        · exact .inr ((c1 _ hdst).2 ⟨_, rfl, .inr ⟨ls, rfl, h⟩⟩)
    · intro h
      have h : AddrMatch t.address [] ty.af p.src ∨ AddrMatch t.address [] ty.af p.dst := by
        rcases h with ⟨h, _⟩ | h
        · rw [h]; exact .inl ⟨.inl rfl, by rintro ⟨_, h, _⟩; cases h⟩
        · exact h
      rcases h with h | h
      · obtain ⟨cs, e, k⟩ := (c1 _ hsrc).1 h
        refine ⟨cs, e, ?_⟩
        rcases k with k | ⟨ls, k, k'⟩
        · simp [k]
        · intro c hc; rw [k] at hc; rw [List.mem_singleton.1 hc]; exact (k1 ls).2 (.inl k')
      · obtain ⟨cs, e, k⟩ := (c1 _ hdst).1 h
        refine ⟨cs, e, ?_⟩
        rcases k with k | ⟨ls, k, k'⟩
        · simp [k]
        · intro c hc; rw [k] at hc; rw [List.mem_singleton.1 hc]; exact (k1 ls).2 (.inr k')
  unfold MatchAddrs
  rw [← m1, hv]
  cases ra with
  | none => cases h; simp
  | some as =>
    dsimp only at h
    obtain ⟨rs, hs, h⟩ := bind_ok h
    have hms : dsmo = true → ty.af = .v4 ∧ ∀ e ∈ t.sourceAddressExclude, e.ver ≠ ty.af :=
      fun e => ⟨(hm e).1, fun x hx => (hm e).2 x (List.mem_append_left _ hx)⟩
    have hmd : dsmo = true → ty.af = .v4 ∧ ∀ e ∈ t.destinationAddressExclude, e.ver ≠ ty.af :=
      fun e => ⟨(hm e).1, fun x hx => (hm e).2 x (List.mem_append_right _ hx)⟩
    have m2 := one k2 (C44_addresses_partial ws.1 ws.2 hms srcNested srcExclude hs hsrc)
    have m2' : (∃ cs, rs = some cs ∧ ∀ c ∈ cs, CondMatches p c) ↔
        AddrMatch t.sourceAddress t.sourceAddressExclude ty.af p.src :=
      ⟨fun h => m2.1 h fun cs e => (form ws.1 ws.2 hms hs cs e).imp And.left id, m2.2⟩
    rw [← m2']
    cases rs with
    | none => cases h; simp
    | some ss =>
      dsimp only at h
      obtain ⟨rd, hd, h⟩ := bind_ok h
      have m3 := one k3 (C44_addresses_partial wd.1 wd.2 hmd dstNested dstExclude hd hdst)
      have m3' : (∃ cs, rd = some cs ∧ ∀ c ∈ cs, CondMatches p c) ↔
          AddrMatch t.destinationAddress t.destinationAddressExclude ty.af p.dst :=
        ⟨fun h => m3.1 h fun cs e => (form wd.1 wd.2 hmd hd cs e).imp And.left id, m3.2⟩
      rw [← m3']
      cases rd with
      | none => cases h; simp
      | some ds =>
        cases h
        simp only [Option.some.injEq]
        constructor
        · rintro ⟨_, rfl, h⟩
          rw [forall_app, forall_app] at h
          exact ⟨⟨_, rfl, h.1⟩, ⟨_, rfl, h.2.1⟩, ⟨_, rfl, h.2.2⟩⟩
        · rintro ⟨⟨_, rfl, h1⟩, ⟨_, rfl, h2⟩, ⟨_, rfl, h3⟩⟩
          refine ⟨_, rfl, ?_⟩
          rw [forall_app, forall_app]
          exact ⟨h1, h2, h3⟩

/-- What remains of `Matches` for such a term. -/
theorem matches_juniper {t : Term} (u : JUnsupported t) (h1 : t.sourceTag = []) (h2 : t.destinationTag = [])
    (h3 : t.trafficClass ≠ some 0) (h4 : "inactive" ∉ t.option) {p : Packet} {v : Ver} (hv : p.ver = v)
    (hf : FamilyOk v t) (ports : List PortRange) :
    Matches { conditions t with destinationPort := ports } p ↔ MatchAddrs t p ∧
      (OneOf t.forwardingClass p.forwardingClass ∧ p.forwardingClass ∉ t.forwardingClassExcept ∧
      ((t.sourcePrefix = [] ∨ ∃ n ∈ t.sourcePrefix, p.inSrcPrefix n = true) ∧
        ∀ n ∈ t.sourcePrefixExcept, p.inSrcPrefix n = false) ∧
      ((t.destinationPrefix = [] ∨ ∃ n ∈ t.destinationPrefix, p.inDstPrefix n = true) ∧
        ∀ n ∈ t.destinationPrefixExcept, p.inDstPrefix n = false) ∧
      (t.ttl = none ∨ t.ttl = some p.ttl) ∧ (t.port = [] ∨ PMem t.port p.sport ∨ PMem t.port p.dport) ∧
      PortMatch t.sourcePort p.sport ∧ PortMatch ports p.dport) ∧
      (∀ o ∈ t.option, o ≠ "sample" → p.hasOption o = true) ∧
      (RangeMatch t.packetLength p.packetLength ∧ RangeMatch t.fragmentOffset p.fragmentOffset) ∧
      OneOf t.icmpType p.icmpType ∧
      (OneOf t.icmpCode p.icmpCode ∧ OneOf t.etherType p.etherType ∧ OneOf t.protocol p.proto ∧
        p.proto ∉ t.protocolExcept ∧ OneOf t.trafficType p.trafficType) ∧
      OneOf t.precedence p.precedence ∧
      (OneOf t.dscpMatch p.dscp ∧ p.dscp ∉ t.dscpExcept ∧ RangeMatch t.hopLimit p.hopLimit ∧
        ∀ f ∈ t.flexibleMatchRange, p.flexible f = true) := by
  have tc : t.trafficClass = none := u.trafficClass.resolve_right h3
  have ho : (∀ o ∈ t.option.filter (fun o => o ≠ "sample" ∧ o ≠ "inactive"), p.hasOption o = true) ↔
      ∀ o ∈ t.option, o ≠ "sample" → p.hasOption o = true := by
    constructor
    · intro h o hm hs
      exact h o (List.mem_filter.2 ⟨hm, by simpa [hs] using fun e : o = "inactive" => h4 (e ▸ hm)⟩)
    · intro h o hm
      have := List.mem_filter.1 hm
      exact h o this.1 (by have := this.2; simp at this; exact this.1)
  unfold FamilyOk at hf
  unfold Matches MatchPorts MatchProto MatchPrefixes MatchMisc MatchRest conditions
  dsimp only
  rw [ho, h1, h2, tc, u.destinationZone, u.sourceZone, u.sourceInterface, u.destinationInterface, hv]
  have e1 : ∀ x : String, OneOf ([] : List String) x := fun x => .inl rfl
  constructor
  · rintro ⟨a, ⟨b1, b2, b3⟩, ⟨c1, c2⟩, ⟨d1, d2, d3, d4, _, _⟩, ⟨g1, g2, g3, g4, g5, g6, _, _, g7, g8, g9⟩,
      ⟨_, k1, k2, k3, k4, k5, _, _, _, k6⟩⟩
    exact ⟨a, ⟨g3, g4, ⟨d1, d2⟩, ⟨d3, d4⟩, k5, b1, b2, b3⟩, g2, ⟨g9, g7⟩, g5, ⟨g6, k1, c1, c2, k2⟩, g1,
      ⟨k3, k4, g8, k6⟩⟩
  · rintro ⟨a, ⟨g3, g4, ⟨d1, d2⟩, ⟨d3, d4⟩, k5, b1, b2, b3⟩, g2, ⟨g9, g7⟩, g5, ⟨g6, k1, c1, c2, k2⟩, g1,
      ⟨k3, k4, g8, k6⟩⟩
    exact ⟨a, ⟨b1, b2, b3⟩, ⟨c1, c2⟩, ⟨d1, d2, d3, d4, e1 _, e1 _⟩, ⟨g1, g2, g3, g4, g5, g6, e1 _, e1 _, g7, g8, g9⟩,
      ⟨hf, k1, k2, k3, k4, k5, .inl rfl, .inl rfl, .inl rfl, k6⟩⟩

theorem removeFirst_absent {a : String} : ∀ {l : List String}, a ∉ l → removeFirst a l = l
  | [], _ => rfl
  | x :: xs, h => by
    rw [removeFirst, if_neg (fun e => h (by simp [e])), removeFirst_absent (fun h' => h (by simp [h']))]

theorem prune_absent {ty : TType} {l : List String} (h : pruned ty l = false) : pruneIcmp ty l = l := by
  cases ty with
  | inet =>
    unfold pruned at h
    rw [Bool.or_eq_false_iff] at h
    unfold pruneIcmp
    dsimp only
    rw [removeFirst_absent (a := "icmpv6") (by simpa using h.1), removeFirst_absent (by simpa using h.2)]
  | inet6 =>
    unfold pruned at h
    unfold pruneIcmp
    dsimp only
    rw [removeFirst_absent (by simpa using h)]
  | bridge => rfl

/-- Without match criteria, the term has no condition left. -/
theorem no_criteria {j : JTerm} (h : hasMatchCriteria j = false) : j.term.address = [] ∧ j.term.dscpExcept = [] ∧
    j.term.dscpMatch = [] ∧ j.term.destinationAddress = [] ∧ j.term.destinationPort = [] ∧
    j.term.destinationPrefix = [] ∧ j.term.destinationPrefixExcept = [] ∧ j.term.etherType = [] ∧
    j.term.flexibleMatchRange = [] ∧ j.term.forwardingClass = [] ∧ j.term.forwardingClassExcept = [] ∧
    j.term.fragmentOffset = [] ∧ j.term.hopLimit = [] ∧ j.term.port = [] ∧ j.term.precedence = [] ∧
    j.term.protocol = [] ∧ j.term.protocolExcept = [] ∧ j.term.sourceAddress = [] ∧ j.term.sourcePort = [] ∧
    j.term.sourcePrefix = [] ∧ j.term.sourcePrefixExcept = [] ∧ j.term.trafficType = [] ∧
    (j.term.ttl = none ∨ j.term.ttl = some 0) := by
  unfold hasMatchCriteria at h
  simp only [Bool.or_eq_false_iff, Bool.not_eq_false', List.isEmpty_iff, bne_eq_false_iff_eq] at h
  obtain ⟨⟨⟨⟨⟨⟨⟨⟨⟨⟨⟨⟨⟨⟨⟨⟨⟨⟨⟨⟨⟨⟨⟨⟨a1, a2⟩, a3⟩, a4⟩, a5⟩, a6⟩, a7⟩, _⟩, a8⟩, a9⟩, a10⟩, a11⟩, a12⟩, a13⟩, _⟩, a14⟩,
    a15⟩, a16⟩, a17⟩, a18⟩, a19⟩, a20⟩, a21⟩, a22⟩, a23⟩ := h
  refine ⟨a1, a2, a3, a4, a5, a6, a7, a8, a9, a10, a11, a12, a13, a14, a15, a16, a17, a18, a19, a20, a21, a22, ?_⟩
  cases hl : j.term.ttl with
  | none => exact .inl rfl
  | some n => rw [hl] at a23; right; simpa using a23

theorem acts_normal {b : Bool} {name : Str} {cs : Option (List Cond)} {th : Option (Bool × List (List Tok))}
    {p : Packet} {d : Verdict} : (∃ x, some (Out.term b name (.normal cs th)) = some x ∧ Acts p x d) ↔
      b = false ∧ FromMatches p cs ∧ verdict th = d := by
  constructor
  · rintro ⟨x, e, n, cs, as, e', h1, h2⟩
    cases e
    cases e'
    exact ⟨rfl, h1, h2⟩
  · rintro ⟨rfl, h1, h2⟩
    exact ⟨_, rfl, name, cs, th, rfl, h1, h2⟩

theorem fromMatches_some {p : Packet} {l : List Cond} : FromMatches p (some l) ↔ ∀ c ∈ l, CondMatches p c := by
  unfold FromMatches
  simp

theorem fromMatches_none {p : Packet} : FromMatches p none := by
  unfold FromMatches
  simp

/-- A rendered term object matches what the term it was made from asks for. -/
theorem render_exact {platform : String} {ty : TType} (hty : ty ≠ .bridge) {dsmo : Bool} {j0 : JTerm} {a : String}
    (f : JFits platform ty dsmo j0 a) (hin : "inactive" ∉ j0.term.option) (hfam : FamilyOk ty.af j0.term)
    {name : Str} {ports : List PortRange} {P PE : List String}
    (hports : ports = [] → j0.term.destinationPort = [])
    (hP : ∀ q ∈ iana.map Prod.fst, (∃ s ∈ P, Names s q) ↔ q ∈ j0.term.protocol)
    (hP0 : P = [] ↔ j0.term.protocol = []) (htcp : j0.term.protocol = ["tcp"] → P = ["tcp"])
    (hPE : ∀ q ∈ iana.map Prod.fst, (∃ s ∈ PE, Names s q) ↔ q ∈ j0.term.protocolExcept)
    (hPE0 : PE = [] ↔ j0.term.protocolExcept = [])
    {o : Option Out} {j' : JTerm}
    (h : renderTerm platform ty dsmo { j0 with term := { j0.term with
      name := name, destinationPort := ports, protocol := P, protocolExcept := PE } } = .ok (o, j'))
    {p : Packet} (hp : Packets p) (hv : p.ver = ty.af) (d : Verdict) :
    (∃ x, o = some x ∧ Acts p x d) ↔ Matches { conditions j0.term with destinationPort := ports } p ∧ Asks a d := by
  have u := junsupported f.active f.keywords
  have hact := jaction f.active f.keywords (a := a) (by rw [f.action]; simp)
  have hfil := sane_filter f.sane f.verbatim (by rw [f.action]; simp)
  rw [matches_juniper u f.srcTag f.dstTag f.trafficClass hin hv hfam ports]
  have hpr := hp.coherent.proto
  have hPp : (∃ s ∈ pruneIcmp ty P, Names s p.proto) ↔ p.proto ∈ j0.term.protocol := by
    rw [exists_prune hp.coherent hv, hP p.proto hpr]
  unfold renderTerm at h
  have hon : ∀ t : Term, t.platform = j0.term.platform → t.platformExclude = j0.term.platformExclude →
      Cisco.onPlatform platform t = true := by
    intro t e1 e2
    refine (Cisco.onPlatform_iff (c := { Cisco.ios with platform := platform })).2 ?_
    have := f.active
    unfold Active kterm at this ⊢
    dsimp only at this ⊢
    rw [e1, e2]
    exact this
  rw [hon _ (by rfl) (by rfl)] at h
  simp only [Bool.not_true, Bool.false_eq_true, if_false] at h
  split at h
  next hc =>
    cases h
    rw [Bool.and_eq_true, List.isEmpty_iff] at hc
    refine iff_of_false (by simp) ?_
    rintro ⟨⟨_, _, _, _, _, ⟨_, _, hh, _⟩, _⟩, _⟩
    rcases hh with hh | hh
    · have := hP0.2 hh
      subst this
      have := hc.2
      cases ty <;> simp [pruned] at this
    · have := hPp.2 hh
      rw [hc.1] at this
      simp at this
  next hc =>
    have hemp : pruneIcmp ty P = [] ↔ j0.term.protocol = [] := by
      rw [← hP0]
      constructor
      · intro e
        rw [e] at hc
        simp only [List.isEmpty_nil, Bool.true_and, Bool.not_eq_true] at hc
        rw [prune_absent hc] at e
        exact e
      · rintro rfl
        cases ty <;> rfl
    rw [f.verbatim] at h
    simp only [List.isEmpty_nil, Bool.not_true, Bool.false_eq_true, if_false] at h
    obtain ⟨os, ho, h⟩ := bind_ok h
    unfold printTerm at h
    dsimp only at h
    rw [hfil] at h
    simp only [Bool.false_eq_true, if_false] at h
    have hknown : ∀ o ∈ j0.term.option, o ∈ knownOptions := by
      intro o hm
      rcases f.opts o hm with e | e
      · exact absurd (e ▸ hm) hin
      · exact e
    have hestP : OneOf j0.term.protocol p.proto → ("established" ∈ j0.term.option →
        pruneIcmp ty P = ["tcp"] ∨ p.hasOption "tcp-established" = true) := by
      intro hpm he
      rcases f.est he with e | ⟨e0, e⟩
      · left
        rw [htcp e]
        cases ty <;> rfl
      · right
        rcases hpm with hpm | hpm
        · exact absurd hpm e0
        · exact hp.coherent.udp (e _ hpm)
    have hos2 : ∀ e ∈ os.2, e = "sample" := by
      -- the extra actions do not depend on the packet
      have gen : ∀ (os' : List String) (acc acc' : List (List Tok) × List String), (∀ o ∈ os', o ∈ knownOptions) →
          options ty (pruneIcmp ty P) acc os' = .ok acc' → ∀ e ∈ acc'.2, e ∈ acc.2 ∨ e = "sample" := by
        intro os'
        induction os' with
        | nil =>
          intro acc acc' _ h e he
          rw [options] at h
          cases h
          exact .inl he
        | cons o os' ih =>
          intro acc acc' hk h e he
          rw [options] at h
          obtain ⟨b, h1, h2⟩ := bind_ok h
          rcases ih b acc' (fun x hx => hk x (by simp [hx])) h2 e he with h | h
          · unfold optionStep at h1
            split at h1
            · cases h1
              simpa using h
            · split at h1
              · split at h1 <;> cases h1 <;> exact .inl h
              · split at h1
                · split at h1
                  · simp only [Except.ok.injEq] at h1
                    subst h1
                    split at h <;> exact .inl h
                  · cases h1
                · split at h1
                  · cases h1; exact .inl h
                  · split at h1
                    · cases h1; exact .inl h
                    · split at h1 <;> cases h1 <;> exact .inl h
          · exact .inr h
      intro e he
      rcases gen _ _ _ hknown ho e he with h | h
      · cases h
      · exact h
    split at h
    next hcrit =>
      obtain ⟨ac, hac, h⟩ := bind_ok h
      have hA := addrConds_match (p := p) hty (t := { j0.term with
        name := name, destinationPort := ports, protocol := pruneIcmp ty P, protocolExcept := PE })
        f.addr f.src f.dst f.srcExclude f.dstExclude f.srcNested f.dstNested f.dsmo u.addressExclude hac hp.coherent hv
      have hA : (∃ cs, ac = some cs ∧ ∀ c ∈ cs, CondMatches p c) ↔ MatchAddrs j0.term p := hA
      rw [← hA]
      cases ac with
      | none =>
        cases h
        simp
      | some ac =>
        dsimp only at h
        obtain ⟨rc, hrc, h⟩ := bind_ok h
        obtain ⟨th, hth, h⟩ := bind_ok h
        cases h
        unfold restConds at hrc
        obtain ⟨ic, hic, hrc⟩ := bind_ok hrc
        obtain ⟨pc, hpc, hrc⟩ := bind_ok hrc
        cases hrc
        have hth' := thenClause_spec hth f.nextIp f.routing f.action hact hos2 d
        have c1 := conds1_match (ty := ty) (p := p) (t := { j0.term with
          name := name, destinationPort := ports, protocol := pruneIcmp ty P, protocolExcept := PE, verbatim := [], filterTerm := false })
          f.ttl f.ttl6 f.srcPrefix f.dstPrefix
        have c2 := conds2_match (p := p) (t := { j0.term with
          name := name, destinationPort := ports, protocol := pruneIcmp ty P, protocolExcept := PE, verbatim := [], filterTerm := false })
        have c3 := conds3_match (ty := ty) hty (p := p) (t := renameIcmp { j0.term with
          name := name, destinationPort := ports, protocol := pruneIcmp ty P, protocolExcept := PE, verbatim := [], filterTerm := false }) hv
        have c4 := conds4_match (ty := ty) hty (p := p) (t := { j0.term with
          name := name, destinationPort := ports, protocol := pruneIcmp ty P, protocolExcept := PE, verbatim := [], filterTerm := false }) hv f.hops4
        have ci := icmpCond_match hty hic hv
        have cp := precCond_match (p := p) hpc
        have c3p : ((renameIcmp { j0.term with
            name := name, destinationPort := ports, protocol := pruneIcmp ty P, protocolExcept := PE, verbatim := [], filterTerm := false }).protocol = [] ∨ ∃ s ∈ (renameIcmp { j0.term with
            name := name, destinationPort := ports, protocol := pruneIcmp ty P, protocolExcept := PE, verbatim := [], filterTerm := false }).protocol,
            Names s p.proto) ↔ OneOf j0.term.protocol p.proto := by
          unfold renameIcmp OneOf
          dsimp only
          rw [replaceFirst_ne, hemp,
            exists_replaceFirst (P := fun s => Names s p.proto) (names_icmp6 hpr), hPp]
        have c3e : (¬ ∃ s ∈ (renameIcmp { j0.term with
            name := name, destinationPort := ports, protocol := pruneIcmp ty P, protocolExcept := PE, verbatim := [], filterTerm := false }).protocolExcept,
            Names s p.proto) ↔ p.proto ∉ j0.term.protocolExcept := by
          unfold renameIcmp
          dsimp only
          rw [exists_replaceFirst (P := fun s => Names s p.proto) (names_icmp6 hpr), hPE p.proto hpr]
        dsimp only at c1 c2 c3 c4 c3p c3e
        rw [c3p, c3e] at c3
        rw [acts_normal, f.inactive, fromMatches_some]
        simp only [true_and]
        rw [hth', forall_app, forall_app, forall_app, forall_app, forall_app, forall_app, forall_app,
          c1, c2, ci, c3, cp, c4]
        have hop : OneOf j0.term.protocol p.proto → ((∀ c ∈ os.1.map Cond.leaf, CondMatches p c) ↔
            ∀ o ∈ j0.term.option, o ≠ "sample" → p.hasOption o = true) := by
          intro hpm
          have := (options_spec hty hp hknown (hestP hpm) ho).1
          simp only [List.not_mem_nil, false_implies, implies_true, true_and] at this
          rw [← this]
          simp
        simp only [Option.some.injEq, exists_eq_left']
        refine and_congr ?_ Iff.rfl
        refine and_congr Iff.rfl (and_congr Iff.rfl ?_)
        constructor
        · rintro ⟨x1, x2, x3, x4, x5⟩
          exact ⟨(hop x4.2.2.1).1 x1, x2, x3, x4, x5⟩
        · rintro ⟨x1, x2, x3, x4, x5⟩
          exact ⟨(hop x4.2.2.1).2 x1, x2, x3, x4, x5⟩
    next hcrit =>
      obtain ⟨th, hth, h⟩ := bind_ok h
      cases h
      have hth' := thenClause_spec hth f.nextIp f.routing f.action hact hos2 d
      obtain ⟨a1, a2, a3, a4, a5, a6, a7, a8, a9, a10, a11, a12, a13, a14, a15, a16, a17, a18, a19, a20, a21, a22, a23⟩ :=
        no_criteria (by simpa using hcrit)
      dsimp only at a1 a2 a3 a4 a5 a6 a7 a8 a9 a10 a11 a12 a13 a14 a15 a16 a17 a18 a19 a20 a21 a22 a23
      have a16' := hemp.1 a16
      have a17' := hPE0.1 a17
      have ho : (∀ o ∈ j0.term.option, o = "sample" ∨ o = "inactive") ∧ j0.term.packetLength = [] ∧
          j0.term.icmpType = [] := by
        rcases f.criteria with h | h | h | h | h | h | h | h | h | h | h
        · exact h
        · exact absurd a16' h
        · exact absurd a17' h
        · exact absurd a1 h
        · exact absurd a18 h
        · exact absurd a4 h
        · exact absurd a20 h
        · exact absurd a6 h
        · exact absurd a14 h
        · exact absurd a19 h
        · exact absurd (hports a5) h
      obtain ⟨o1, o2, o3⟩ := ho
      have o4 : j0.term.icmpCode = [] := by
        refine Classical.byContradiction fun hn => ?_
        exact sane_codes f.sane hn o3
      have ttl : j0.term.ttl = none := a23.resolve_right f.ttl
      have hopts : ∀ o ∈ j0.term.option, o ≠ "sample" → p.hasOption o = true := by
        intro o hm hs
        rcases o1 o hm with e | e
        · exact absurd e hs
        · exact absurd (e ▸ hm) hin
      have e1 : ∀ v x, AddrMatch [] [] v x := fun v x => ⟨.inl rfl, by rintro ⟨_, h, _⟩; cases h⟩
      have hA : MatchAddrs j0.term p := by
        unfold MatchAddrs
        rw [a1, u.addressExclude, a18, f.srcExclude a18, a4, f.dstExclude a4]
        exact ⟨.inl ⟨rfl, rfl⟩, e1 _ _, e1 _ _⟩
      rw [a2, a3, a5, a6, a7, a8, a9, a10, a11, a12, a13, a14, a15, a16', a17', a19, a20, a21, a22, o2, o3, o4, ttl]
      rw [acts_normal, f.inactive]
      simp only [fromMatches_none, true_and]
      rw [hth']
      refine ⟨fun h => ⟨⟨hA, ?_⟩, h⟩, fun h => h.2⟩
      simp [OneOf, RangeMatch, PortMatch]
      exact fun o hm hs => hopts o hm hs

theorem map_ok {α β : Type} {x : Except Err α} {f : α → β} {b : β} (h : x.map f = .ok b) : ∃ a, x = .ok a ∧ f a = b := by
  cases x with
  | error e => cases h
  | ok a => exact ⟨a, rfl, by cases h; rfl⟩

theorem ty_name {ty : TType} (hty : ty ≠ .bridge) : ty.name = if ty.af = .v4 then "inet" else "inet6" := by
  cases ty
  · rfl
  · rfl
  · exact absurd rfl hty

/-- How one term goes through translation and printing. -/
theorem single_cases {platform : String} {ty : TType} (hty : ty ≠ .bridge) {dsmo : Bool} {j : JTerm} {o : Option Out}
    (h : singleTerm platform ty dsmo j = .ok o) :
    (o = none ∧ (¬ FamilyOk ty.af j.term ∨ j.expired = true)) ∨
    ∃ name ports ps j', FamilyOk ty.af j.term ∧ j.expired = false ∧
      fixHighPorts highPorts { (deactivate j).term with name := name } ty.name false =
        .ok { (deactivate j).term with name := name, destinationPort := ports } ∧
      termProtocols ((deactivate j).term.protocol.map .str) = .ok ps ∧
      renderTerm platform ty dsmo { deactivate j with term := { (deactivate j).term with
        name := name, destinationPort := ports,
        protocol := replaceFirst "hopopt" "hop-by-hop" (ps.map Proto.text),
        protocolExcept := replaceFirst "hopopt" "hop-by-hop" (deactivate j).term.protocolExcept } } = .ok (o, j') := by
  have hexp : (deactivate j).expired = j.expired := by unfold deactivate; split <;> rfl
  unfold singleTerm at h
  obtain ⟨⟨j1, r⟩, ht, h⟩ := bind_ok h
  unfold translate at ht
  split at ht
  next hfam =>
    cases ht
    cases h
    refine .inl ⟨rfl, .inl fun hf => ?_⟩
    rw [ty_name hty] at hfam
    rcases hf with e | e <;> rw [e] at hfam <;> simp at hfam
  next hfam =>
    have hf : FamilyOk ty.af j.term := by
      unfold FamilyOk
      rw [← ty_name hty]
      cases hra : j.term.restrictAddressFamily with
      | none => exact .inl rfl
      | some x =>
        right
        rw [hra] at hfam
        simp only [Option.isSome_some, Bool.true_and, bne_iff_ne, ne_eq, Classical.not_not] at hfam
        exact hfam
    dsimp only at ht
    obtain ⟨name, _, ht⟩ := bind_ok ht
    obtain ⟨u, hu, ht⟩ := bind_ok ht
    split at ht
    next hx =>
      cases ht
      cases h
      exact .inl ⟨rfl, .inr (by rw [← hexp]; exact hx)⟩
    next hx =>
      have hx' : j.expired = false := by rw [← hexp]; simpa using hx
      split at ht
      · cases ht
      · split at ht
        next hc =>
          obtain ⟨ports, rfl⟩ := restrict_fixHighPorts hu
          obtain ⟨c, hi, ht⟩ := bind_ok ht
          cases ht
          unfold initTerm at hi
          obtain ⟨ps, hps, hi⟩ := bind_ok hi
          cases hi
          dsimp only at h
          obtain ⟨⟨o', j'⟩, hr, e⟩ := map_ok h
          cases e
          exact .inr ⟨name, ports, ps, j', hf, hx', hu, hps, hr⟩
        next hc =>
          have hu' : u = { (deactivate j).term with name := name } := by
            unfold fixHighPorts at hu
            split at hu
            · cases hu
            · split at hu
              · cases hu
              · unfold fixEstablished at hu
                unfold copied at hc
                rw [if_neg hc] at hu
                cases hu
                rfl
          subst hu'
          obtain ⟨c, hi, ht⟩ := bind_ok ht
          cases ht
          unfold initTerm at hi
          obtain ⟨ps, hps, hi⟩ := bind_ok hi
          cases hi
          dsimp only at h
          obtain ⟨⟨o', j'⟩, hr, e⟩ := map_ok h
          cases e
          exact .inr ⟨name, (deactivate j).term.destinationPort, ps, j', hf, hx', hu, hps, hr⟩

theorem render_inactive {platform : String} {ty : TType} {dsmo : Bool} {j j' : JTerm} {o : Option Out}
    (h : renderTerm platform ty dsmo j = .ok (o, j')) (hi : j.inactive = true) (p : Packet) (d : Verdict) :
    ¬ ∃ x, o = some x ∧ Acts p x d := by
  have aux : ∀ n b, ¬ ∃ x, some (Out.term true n b) = some x ∧ Acts p x d := by
    rintro n b ⟨x, e, _, _, _, rfl, _⟩
    cases e
  unfold renderTerm at h
  split at h
  · cases h; simp
  · dsimp only at h
    split at h
    · cases h; simp
    · split at h
      · cases h
        rintro ⟨x, e, _, _, _, rfl, _⟩
        cases e
      · obtain ⟨os, _, h⟩ := bind_ok h
        unfold printTerm at h
        dsimp only at h
        rw [hi] at h
        split at h
        · cases h
          exact aux _ _
        · split at h
          · obtain ⟨ac, _, h⟩ := bind_ok h
            split at h
            · cases h; simp
            · obtain ⟨_, _, h⟩ := bind_ok h
              obtain ⟨_, _, h⟩ := bind_ok h
              cases h
              exact aux _ _
          · obtain ⟨_, _, h⟩ := bind_ok h
            cases h
            exact aux _ _

/-- A term that is not live has no effect. -/
theorem single_dead {platform : String} {ty : TType} (hty : ty ≠ .bridge) {dsmo : Bool} {j : JTerm} {o : Option Out}
    (h : singleTerm platform ty dsmo j = .ok o) (hl : ¬ Live platform j) (p : Packet) (d : Verdict) :
    ¬ ∃ x, o = some x ∧ Acts p x d := by
  rcases single_cases hty h with ⟨rfl, _⟩ | ⟨name, ports, ps, j', _, hx, _, _, hr⟩
  · simp
  · by_cases hin : (deactivate j).inactive = true
    · exact render_inactive hr hin p d
    · have hno : "inactive" ∉ j.term.option ∧ j.inactive = false := by
        unfold deactivate at hin
        split at hin
        · simp at hin
        next hc => exact ⟨by simpa using hc, by simpa using hin⟩
      have hd : deactivate j = j := by
        unfold deactivate
        rw [if_neg (by simpa using hno.1)]
      rw [hd] at hr
      have hoff : Cisco.onPlatform platform j.term ≠ true := by
        intro hon
        obtain ⟨a1, a2⟩ := (Cisco.onPlatform_iff (c := { Cisco.ios with platform := platform })).1 hon
        exact hl ⟨hx, hno.1, hno.2, a1, a2⟩
      unfold renderTerm at hr
      rw [if_pos (by
        have : Cisco.onPlatform platform j.term = false := by simpa using hoff
        change (!Cisco.onPlatform platform j.term) = true
        rw [this]
        rfl)] at hr
      cases hr
      simp

theorem junos_est {t : Term} (h : ∀ o ∈ t.option, o = "inactive" ∨ o ∈ ["sample", "established", "tcp-established",
    "rst", "initial", "tcp-initial", "first-fragment", "is-fragment"]) :
    HasEstablished t ↔ "established" ∈ t.option := by
  constructor
  · rintro ⟨o, ho, r, hr⟩
    have hp : "established".toList <+: o.toList := ⟨r, hr.symm⟩
    rcases h o ho with rfl | hm
    · exact absurd hp (by decide)
    · have : ∀ o ∈ ["sample", "established", "tcp-established", "rst", "initial", "tcp-initial", "first-fragment",
        "is-fragment"], "established".toList <+: o.toList → o = "established" := by decide
      exact this o hm hp ▸ ho
  · intro h
    exact ⟨_, h, [], by simp⟩

/-- Means, with the ports of the prepared term. -/
theorem means_ports {ty : TType} {t t' u : Term} {ports : List PortRange}
    (opts : ∀ o ∈ t.option, o = "inactive" ∨ o ∈ ["sample", "established", "tcp-established",
      "rst", "initial", "tcp-initial", "first-fragment", "is-fragment"]) (hw : PWF t.destinationPort)
    (ho : t'.option = t.option) (hd : t'.destinationPort = t.destinationPort)
    (h2 : fixHighPorts highPorts t' ty.name false = .ok u) (hu : u.destinationPort = ports) (p : Packet) :
    (ports = [] → t.destinationPort = []) ∧
    (Matches { conditions t with destinationPort := ports } p ↔ Junos.Means t p) := by
  have hsup : ty.name ∈ highPorts.supportedAf := by cases ty <;> decide
  have hbl : ∀ l, highPorts.blacklist.lookup ty.name = some l →
      ∀ q ∈ l, ¬ TermProto highPorts t' q := by
    intro l h; cases h
  have hce : "established" ∈ (conditions t).option ↔ "established" ∈ t.option := by
    unfold conditions
    simp
  by_cases he : HasEstablished t'
  · have he' : "established" ∈ t.option := ho ▸ (junos_est (t := t') (ho ▸ opts)).1 he
    obtain ⟨e1, e2⟩ := C32_established (c := highPorts) (t := t') (af := ty.name) false hsup hbl he (hd ▸ hw)
    by_cases hall : ∀ q, TermProto highPorts t' q → q = "tcp" ∨ q = "udp"
    · obtain ⟨ports', e, hx⟩ := e1 hall
      rw [e] at h2
      have : ports' = ports := by
        have := Except.ok.inj h2
        rw [← hu]
        exact congrArg Term.destinationPort this
      subst this
      rw [hd] at hx
      have hnz : ports' ≠ [] := by
        intro e0
        have := (hx 1024).2 (.inr ⟨rfl, by omega, by omega⟩)
        rw [e0] at this
        obtain ⟨_, h, _⟩ := this
        cases h
      refine ⟨fun e => absurd e hnz, ?_⟩
      have : Matches { conditions t with destinationPort := ports' } p ↔
          Matches { conditions t with destinationPort := t.destinationPort ++ [(1024, 65535)] } p := by
        refine matches_ports (t := conditions t) (name := t.name) ?_
        unfold PortMatch
        rw [hx]
        constructor
        · rintro (h | ⟨q, hq, h⟩ | ⟨_, h⟩)
          · exact absurd h hnz
          · exact .inr ⟨q, List.mem_append_left _ hq, h⟩
          · exact .inr ⟨(1024, 65535), by simp, h⟩
        · rintro (h | ⟨q, hq, h⟩)
          · simp at h
          · rcases List.mem_append.1 hq with hq | hq
            · exact .inr (.inl ⟨q, hq, h⟩)
            · rw [List.mem_singleton.1 hq] at h
              exact .inr (.inr ⟨rfl, h⟩)
      rw [this]
      unfold Junos.Means Ios.Means
      rw [hce]
      simp only [he', not_true, false_and, true_and, false_or]
      exact Iff.rfl
    · have hex : ∃ q, TermProto highPorts t' q ∧ q ≠ "tcp" ∧ q ≠ "udp" := by
        refine Classical.byContradiction fun hn => hall fun q hq => ?_
        refine Classical.byContradiction fun hne => hn ⟨q, hq, fun h => hne (.inl h), fun h => hne (.inr h)⟩
      rw [e2 hex] at h2
      cases h2
  · have he' : "established" ∉ t.option := fun h => he ((junos_est (t := t') (ho ▸ opts)).2 (ho ▸ h))
    rw [C32_unchanged (c := highPorts) false hsup hbl he] at h2
    have : t.destinationPort = ports := by
      rw [← hu, ← Except.ok.inj h2, hd]
    subst this
    refine ⟨id, ?_⟩
    unfold Junos.Means Ios.Means
    rw [hce]
    simp only [he', not_false_iff, false_and, true_and, or_false]
    exact Iff.rfl

/-- C65 (partial): the term of a filter of one family acts on a packet of the family exactly if it is live (not
expired, not inactive, of the platform) and asks for the packet, and then as its action says. Missing: the terms
outside `JFits`, see the refutations. -/
theorem C65_term_partial {platform : String} {ty : TType} (hty : ty ≠ .bridge) {dsmo : Bool} {j : JTerm} {a : String}
    (f : JFits platform ty dsmo j a) (hw : PWF j.term.destinationPort) {o : Option Out}
    (h : singleTerm platform ty dsmo j = .ok o) {p : Packet} (hp : Packets p) (hv : p.ver = ty.af) (d : Verdict) :
    (∃ x, o = some x ∧ Acts p x d) ↔ Live platform j ∧ Junos.Means j.term p ∧ Asks a d := by
  by_cases hl : Live platform j
  · have hin := hl.2.1
    have hd : deactivate j = j := by
      unfold deactivate
      rw [if_neg (by simpa using hin)]
    rcases single_cases hty h with ⟨rfl, hn⟩ | ⟨name, ports, ps, j', hfam, hx, hu, hps, hr⟩
    · refine iff_of_false (by simp) ?_
      rintro ⟨_, hm, _⟩
      rcases hn with hn | hn
      · apply hn
        have : ∀ x : List PortRange, Matches { conditions j.term with destinationPort := x } p → FamilyOk ty.af j.term := by
          intro x hx
          have := hx.2.2.2.2.2.1
          rw [hv] at this
          exact this
        rcases hm with ⟨_, hm⟩ | ⟨_, hm⟩
        · exact this _ hm
        · exact this _ hm
      · rw [hl.1] at hn
        cases hn
    · rw [hd] at hu hps hr
      obtain ⟨hpz, hmm⟩ := means_ports (t := j.term) f.opts hw (by rfl) (by rfl) hu rfl p
      have hps' := termProtocols_ok hps
      have key := render_exact hty f hin hfam (name := name) (ports := ports)
        (P := replaceFirst "hopopt" "hop-by-hop" (ps.map Proto.text))
        (PE := replaceFirst "hopopt" "hop-by-hop" j.term.protocolExcept) hpz ?_ ?_ ?_ ?_ ?_ hr hp hv d
      · rw [key, hmm]
        exact ⟨fun h => ⟨hl, h.1, h.2⟩, fun h => h.2⟩
      · intro q hq
        rw [exists_init hps hq, exists_names (fun s hs => f.names s (List.mem_append_left _ hs)) hq]
      · rw [replaceFirst_ne, hps']
        simp
      · intro e
        rw [hps', e]
        decide
      · intro q hq
        rw [exists_replaceFirst (P := fun s => Names s q) (names_hop hq),
          exists_names (fun s hs => f.names s (List.mem_append_right _ hs)) hq]
      · rw [replaceFirst_ne]
  · exact iff_of_false (single_dead hty h hl p d) (fun h => hl h.1)

/-! ### C66 -/

theorem jdecides_nil {p : Packet} {b : Bool} : ¬ Junos.Decides [] p b := by
  rintro ⟨pre, l, post, e, _⟩
  cases pre <;> cases e

theorem jdecides_cons {o : Out} {os : List Out} {p : Packet} {b : Bool} : Junos.Decides (o :: os) p b ↔
    Acts p o (if b then .accept else .discard) ∨ ((∀ d, d ≠ .next → ¬ Acts p o d) ∧ Junos.Decides os p b) := by
  constructor
  · rintro ⟨pre, l, post, e, h1, h2⟩
    cases pre with
    | nil => cases e; exact .inl h1
    | cons q pre =>
      cases e
      exact .inr ⟨h2 _ (by simp), pre, l, post, rfl, h1, fun q hq => h2 q (by simp [hq])⟩
  · rintro (h | ⟨h, pre, l, post, rfl, h1, h2⟩)
    · exact ⟨[], o, os, rfl, h, by simp⟩
    · refine ⟨o :: pre, l, post, rfl, h1, ?_⟩
      intro q hq
      rcases List.mem_cons.1 hq with rfl | hq
      · exact h
      · exact h2 q hq

theorem jpolicy_cons {platform : String} {j : JTerm} {ts : List JTerm} {p : Packet} {b : Bool} :
    Junos.PolicyDecides platform (j :: ts) p b ↔
      (Junos.Live platform j ∧ Junos.Means j.term p ∧ ∃ a, j.term.action = [a] ∧ Asks a (if b then .accept else .discard)) ∨
      (¬ (Junos.Live platform j ∧ Junos.Means j.term p ∧ j.term.action ≠ ["next"]) ∧
        Junos.PolicyDecides platform ts p b) := by
  constructor
  · rintro ⟨pre, l, post, a, e, h1, h2, h3, h4, h5⟩
    cases pre with
    | nil => cases e; exact .inl ⟨h1, h2, a, h3, h4⟩
    | cons q pre =>
      cases e
      exact .inr ⟨h5 _ (by simp), pre, l, post, a, rfl, h1, h2, h3, h4, fun q hq => h5 q (by simp [hq])⟩
  · rintro (⟨h1, h2, a, h3, h4⟩ | ⟨h, pre, l, post, a, rfl, h1, h2, h3, h4, h5⟩)
    · exact ⟨[], j, ts, a, rfl, h1, h2, h3, h4, by simp⟩
    · refine ⟨j :: pre, l, post, a, rfl, h1, h2, h3, h4, ?_⟩
      intro q hq
      rcases List.mem_cons.1 hq with rfl | hq
      · exact h
      · exact h5 q hq

/-- Terms with the right effect make a list with the right decision. -/
theorem outs_decide {platform : String} {p : Packet} (b : Bool) :
    ∀ {ts : List JTerm} {os : List (Option Out)}, ts.length = os.length →
    (∀ e ∈ ts.zip os, ∀ d, (∃ x, e.2 = some x ∧ Acts p x d) ↔
      Junos.Live platform e.1 ∧ Junos.Means e.1.term p ∧ ∃ a, e.1.term.action = [a] ∧ Asks a d) →
    (∀ j ∈ ts, Junos.Live platform j → Junos.Means j.term p → ∃ a d, j.term.action = [a] ∧ Asks a d) →
    (Junos.Decides (os.filterMap id) p b ↔ Junos.PolicyDecides platform ts p b)
  | [], [], _, _, _ => by
    refine iff_of_false jdecides_nil ?_
    rintro ⟨pre, r, post, a, e, _⟩
    cases pre <;> cases e
  | j :: ts, o :: os, hl, he, hk => by
    have ih := @outs_decide platform p b ts os (by simpa using hl)
      (fun e h => he e (by simp [h])) (fun j h => hk j (by simp [h]))
    have hj := he (j, o) (by simp)
    dsimp only at hj
    rw [jpolicy_cons, ← hj]
    have hn : (∀ d, d ≠ .next → ¬ ∃ x, o = some x ∧ Acts p x d) ↔
        ¬ (Junos.Live platform j ∧ Junos.Means j.term p ∧ j.term.action ≠ ["next"]) := by
      constructor
      · rintro h ⟨h1, h2, h3⟩
        obtain ⟨a, d, h4, h5⟩ := hk j (by simp) h1 h2
        refine h d ?_ ((hj d).2 ⟨h1, h2, a, h4, h5⟩)
        rintro rfl
        rcases h5 with ⟨_, h⟩ | ⟨rfl, _⟩ | ⟨_, h⟩
        · cases h
        · exact h3 h4
        · cases h
      · intro h d hd hx
        obtain ⟨h1, h2, a, h3, h4⟩ := (hj d).1 hx
        refine h ⟨h1, h2, ?_⟩
        intro e
        rw [h3] at e
        cases e
        rcases h4 with ⟨h, _⟩ | ⟨_, h⟩ | ⟨h | h | h, _⟩
        · exact absurd h (by decide)
        · exact hd h
        all_goals exact absurd h (by decide)
    rw [← hn]
    cases o with
    | none =>
      rw [List.filterMap_cons_none rfl, ih]
      simp
    | some x =>
      rw [show List.filterMap id (some x :: os) = x :: os.filterMap id from rfl, jdecides_cons, ih]
      simp

theorem listM_zip {α β : Type} {f : α → Except Err β} : ∀ {l : List α} {r : List β}, listM f l = .ok r →
    l.length = r.length ∧ ∀ e ∈ l.zip r, f e.1 = .ok e.2
  | [], r, h => by
    rw [listM] at h
    cases h
    simp
  | x :: l, r, h => by
    rw [listM] at h
    obtain ⟨y, hy, h⟩ := bind_ok h
    obtain ⟨ys, hys, h⟩ := bind_ok h
    cases h
    obtain ⟨h1, h2⟩ := listM_zip hys
    refine ⟨by simp [h1], ?_⟩
    intro e he
    rcases List.mem_cons.1 he with rfl | he
    · exact hy
    · exact h2 e he

/-- C66 (partial): a rendered filter of one family decides about every packet of the family like the policy: the
first term that does not pass the packet on accepts (drops) it exactly if the first live term of the policy that
matches the packet, and whose action is not `next`, accepts (denies, rejects) it. Missing: the terms outside `JFits`. -/
theorem C66_filter_partial {platform : String} {ty : TType} (hty : ty ≠ .bridge) {dsmo : Bool} {ts : List JTerm}
    (hf : ∀ j ∈ ts, Junos.Live platform j → (∃ a, JFits platform ty dsmo j a) ∧ PWF j.term.destinationPort)
    {os : List Out} (h : renderSingle platform ty dsmo ts = .ok os) {p : Packet} (hp : Packets p) (hv : p.ver = ty.af)
    (accept : Bool) : Junos.Decides os p accept ↔ Junos.PolicyDecides platform ts p accept := by
  unfold renderSingle at h
  split at h
  · cases h
  · obtain ⟨rs, hrs, h⟩ := bind_ok h
    cases h
    obtain ⟨hlen, hz⟩ := listM_zip hrs
    refine outs_decide accept hlen ?_ ?_
    · rintro ⟨j, o⟩ he d
      dsimp only
      by_cases hl : Junos.Live platform j
      · obtain ⟨⟨a, f⟩, hw⟩ := hf j (List.of_mem_zip he).1 hl
        rw [C65_term_partial hty f hw (hz _ he) hp hv d]
        constructor
        · rintro ⟨h1, h2, h3⟩
          exact ⟨h1, h2, a, f.action, h3⟩
        · rintro ⟨h1, h2, a', h3, h4⟩
          rw [f.action] at h3
          cases h3
          exact ⟨h1, h2, h4⟩
      · exact iff_of_false (single_dead hty (hz _ he) hl p d) (fun h => hl h.1)
    · intro j hj hl _
      obtain ⟨⟨a, f⟩, _⟩ := hf j hj hl
      have := jaction f.active f.keywords (a := a) (by rw [f.action]; simp)
      refine ⟨a, ?_⟩
      simp only [List.mem_cons, List.not_mem_nil, or_false] at this
      rcases this with rfl | rfl | rfl | rfl | rfl
      · exact ⟨.accept, f.action, .inl ⟨rfl, rfl⟩⟩
      · exact ⟨.discard, f.action, .inr (.inr ⟨.inl rfl, rfl⟩)⟩
      · exact ⟨.next, f.action, .inr (.inl ⟨rfl, rfl⟩)⟩
      · exact ⟨.discard, f.action, .inr (.inr ⟨.inr (.inl rfl), rfl⟩)⟩
      · exact ⟨.discard, f.action, .inr (.inr ⟨.inr (.inr rfl), rfl⟩)⟩

/-! ### concrete cases and refutations -/

/-- A term for the examples. -/
def jterm (t : Term) : JTerm := { term := t }

/-- Web servers, without a part of a network, counted and logged. -/
def jexWeb : JTerm :=
  { term := { name := "web".toList, action := ["accept"], protocol := ["tcp"], sourceAddress := [ip4 10 0 0 0 8, ip6 0x20 16],
              sourceAddressExclude := [ip4 10 1 0 0 16], destinationPort := [(80, 80), (443, 443)],
              logging := ["true"], option := ["sample"] }
    counter := "web-hits" }

/-- Replies, with the high ports added by the generator. -/
def jexEst : JTerm :=
  { term := { name := "replies".toList, action := ["accept"], protocol := ["tcp"],
              destinationAddress := [ip4 10 0 0 0 8, ip6 0x20 16], option := ["established"] } }

/-- Pings, passed on. -/
def jexPing : JTerm :=
  { term := { name := "ping".toList, action := ["next"], protocol := ["icmp"], icmpType := ["echo-request"] } }

/-- The rest. -/
def jexDeny : JTerm := { term := { name := "default".toList, action := ["reject"] } }

/-- A term switched off. -/
def jexOff : JTerm := { term := { name := "off".toList, action := ["accept"], option := ["inactive"] } }

theorem not_strict {a e : Net} (h : Mem a a.ver a.addr)
    (hx : ¬ Mem e a.ver a.addr ∨ ((a.ver = e.ver ∧ a.addr ≤ e.addr) ∧
      e.addr + 2 ^ (e.ver.bits - e.plen) ≤ a.addr + 2 ^ (a.ver.bits - a.plen))) : ¬ StrictSub a e := by
  rintro ⟨h1, h2⟩
  rcases hx with hx | ⟨⟨e1, e2⟩, e3⟩
  · exact hx (h1 _ _ h)
  · apply h2
    rintro v x ⟨m1, m2, m3⟩
    exact ⟨e1.trans m1, by omega, by omega⟩

instance (n : Net) (v : Ver) (x : Nat) : Decidable (Mem n v x) :=
  inferInstanceAs (Decidable (n.ver = v ∧ n.addr ≤ x ∧ x < n.addr + 2 ^ (n.ver.bits - n.plen)))

theorem no_strict {l m : List Net} (h : ∀ a ∈ l, ∀ e ∈ m, Mem a a.ver a.addr ∧ (¬ Mem e a.ver a.addr ∨
    ((a.ver = e.ver ∧ a.addr ≤ e.addr) ∧ e.addr + 2 ^ (e.ver.bits - e.plen) ≤ a.addr + 2 ^ (a.ver.bits - a.plen)))) :
    ∀ a ∈ l, ∀ e ∈ m, ¬ StrictSub a e :=
  fun a ha e he => not_strict (h a ha e he).1 (h a ha e he).2

theorem jexWeb_fits : JFits "juniper" .inet false jexWeb "accept" := by
  constructor <;> first | decide +kernel | exact no_strict (by decide +kernel)
theorem jexWeb_fits6 : JFits "juniper" .inet6 false jexWeb "accept" := by
  constructor <;> first | decide +kernel | exact no_strict (by decide +kernel)
theorem jexEst_fits : JFits "juniper" .inet false jexEst "accept" := by
  constructor <;> first | decide +kernel | exact no_strict (by decide +kernel)
theorem jexEst_fits6 : JFits "juniper" .inet6 false jexEst "accept" := by
  constructor <;> first | decide +kernel | exact no_strict (by decide +kernel)
theorem jexPing_fits : JFits "juniper" .inet false jexPing "next" := by
  constructor <;> first | decide +kernel | exact no_strict (by decide +kernel)
theorem jexDeny_fits : JFits "juniper" .inet false jexDeny "reject" := by
  constructor <;> first | decide +kernel | exact no_strict (by decide +kernel)
theorem jexDeny_fits6 : JFits "juniper" .inet6 false jexDeny "reject" := by
  constructor <;> first | decide +kernel | exact no_strict (by decide +kernel)
theorem jexOff_fits : JFits "juniper" .inet false jexOff "accept" := by
  constructor <;> first | decide +kernel | exact no_strict (by decide +kernel)

/-- C65, C66 are not vacuous: a filter with all these terms is printed. -/
example : ∃ os, renderSingle "juniper" .inet false [jexWeb, jexEst, jexPing, jexOff, jexDeny] = .ok os ∧ os.length = 5 :=
  ⟨_, rfl, by decide +kernel⟩

/-- The tool accepts the term for the platform. -/
def JAccepted (platform : String) (t : Term) : Prop :=
  initCheck (tables platform) [([platform], [kterm t])] = .ok () ∧ sanityCheck t = .ok ()

instance (platform : String) (t : Term) : Decidable (JAccepted platform t) :=
  inferInstanceAs (Decidable (_ ∧ _))

/-- A packet for the refutations. -/
def junosPacket (v : Ver) (proto : String) : Packet := { ver := v, proto := proto, dport := 4000, hopLimit := 1, ttl := 1 }

theorem junosPacket_ok {v : Ver} : Packets (junosPacket v "tcp") := by
  cases v <;> exact ⟨⟨by decide, by decide, by decide, by decide, by decide, rfl, by decide, by decide, rfl⟩, rfl⟩

/-- C65 is false for a term whose only condition is `is-fragment`: it is dropped and every packet accepted. -/
theorem C65_refuted_fragment : ∃ (t : Term) (p : Packet) (x : Out), JAccepted "juniper" t ∧
    singleTerm "juniper" .inet false (jterm t) = .ok (some x) ∧ Packets p ∧ p.ver = .v4 ∧ Acts p x .accept ∧
    ¬ Junos.Means t p := by
  refine ⟨{ name := "t".toList, action := ["accept"], option := ["is-fragment"] }, junosPacket .v4 "tcp",
    .term false "t".toList (.normal none (some (false, [[.w "accept"]]))),
    by decide +kernel, by decide +kernel, junosPacket_ok, rfl, ⟨_, none, _, rfl, fromMatches_none, by decide⟩, ?_⟩
  rintro (⟨_, _, _, _, _, ⟨_, h, _⟩, _⟩ | ⟨h, _⟩)
  · exact absurd (h "is-fragment" (by decide)) (by decide)
  · exact absurd h (by decide)

/-- C65 is false for a term whose only condition is the packet length. -/
theorem C65_refuted_length : ∃ (t : Term) (p : Packet) (x : Out), JAccepted "juniper" t ∧
    singleTerm "juniper" .inet false (jterm t) = .ok (some x) ∧ Packets p ∧ p.ver = .v4 ∧ Acts p x .accept ∧
    ¬ Junos.Means t p := by
  refine ⟨{ name := "t".toList, action := ["accept"], packetLength := [64, 128] }, junosPacket .v4 "tcp",
    .term false "t".toList (.normal none (some (false, [[.w "accept"]]))),
    by decide +kernel, by decide +kernel, junosPacket_ok, rfl, ⟨_, none, _, rfl, fromMatches_none, by decide⟩, ?_⟩
  rintro (⟨_, h⟩ | ⟨h, _⟩)
  · have : RangeMatch [64, 128] 0 := h.2.2.2.2.1.2.2.2.2.2.2.2.2.2.2
    simp [RangeMatch] at this
  · exact absurd h (by decide)

/-- C65 is false for a term whose only condition is the icmp type. -/
theorem C65_refuted_icmp_type : ∃ (t : Term) (p : Packet) (x : Out), JAccepted "juniper" t ∧
    singleTerm "juniper" .inet false (jterm t) = .ok (some x) ∧ Packets p ∧ p.ver = .v4 ∧ Acts p x .accept ∧
    ¬ Junos.Means t p := by
  refine ⟨{ name := "t".toList, action := ["accept"], icmpType := ["echo-request"] }, junosPacket .v4 "tcp",
    .term false "t".toList (.normal none (some (false, [[.w "accept"]]))),
    by decide +kernel, by decide +kernel, junosPacket_ok, rfl, ⟨_, none, _, rfl, fromMatches_none, by decide⟩, ?_⟩
  rintro (⟨_, h⟩ | ⟨h, _⟩)
  · have : OneOf ["echo-request"] (junosPacket .v4 "tcp").icmpType := h.2.2.2.2.1.2.2.2.2.1
    simp [OneOf, junosPacket] at this
  · exact absurd h (by decide)

/-- C65 is false for `established` with TCP and UDP: the flags are not tested and new connections to the high ports
are accepted. -/
theorem C65_refuted_established : ∃ (t : Term) (p : Packet) (x : Out), JAccepted "juniper" t ∧
    singleTerm "juniper" .inet false (jterm t) = .ok (some x) ∧ Packets p ∧ p.ver = .v4 ∧ Acts p x .accept ∧
    ¬ Junos.Means t p := by
  refine ⟨{ name := "t".toList, action := ["accept"], protocol := ["tcp", "udp"], option := ["established"] },
    junosPacket .v4 "tcp", .term false "t".toList (.normal (some [.leaf [.w "destination-port", .range 1024 65535],
      .leaf [.w "protocol", .w "[", .w "tcp", .w "udp", .w "]"]]) (some (false, [[.w "accept"]]))),
    by decide +kernel, by decide +kernel, junosPacket_ok, rfl, ⟨_, _, _, rfl, fromMatches_some.2 ?_, by decide⟩, ?_⟩
  · intro c hc
    simp only [List.mem_cons, List.not_mem_nil, or_false] at hc
    rcases hc with rfl | rfl
    · simp only [CondMatches, LeafMatches, values]
      exact .inr ⟨1024, 65535, by simp, by decide, by decide⟩
    · simp [CondMatches, LeafMatches, values, ProtoIn, junosPacket]
  · rintro (⟨h, _⟩ | ⟨_, _, _, _, _, ⟨_, h, _⟩, _⟩)
    · exact absurd (by decide) h
    · exact absurd (h "established" (by decide)) (by decide)

/-- C65 is false for `ttl` in IPv6 filters: it is dropped without notice. -/
theorem C65_refuted_ttl : ∃ (t : Term) (p : Packet) (x : Out), JAccepted "juniper" t ∧
    singleTerm "juniper" .inet6 false (jterm t) = .ok (some x) ∧ Packets p ∧ p.ver = .v6 ∧ Acts p x .accept ∧
    ¬ Junos.Means t p := by
  refine ⟨{ name := "t".toList, action := ["accept"], protocol := ["tcp"], ttl := some 255 },
    junosPacket .v6 "tcp", .term false "t".toList (.normal (some [.leaf [.w "next-header", .w "tcp"]])
      (some (false, [[.w "accept"]]))),
    by decide +kernel, by decide +kernel, junosPacket_ok, rfl, ⟨_, _, _, rfl, fromMatches_some.2 ?_, by decide⟩, ?_⟩
  · intro c hc
    rw [List.mem_singleton] at hc
    subst hc
    simp [CondMatches, LeafMatches, values, ProtoIn, junosPacket]
  · rintro (⟨_, h⟩ | ⟨h, _⟩)
    · have : (some 255 : Option Nat) = none ∨ some 255 = some 1 := h.2.2.2.2.2.2.2.2.2.2.1
      simp at this
    · exact absurd h (by decide)

/-- C65 is false for `hop-limit` in IPv4 filters: it is dropped without notice. -/
theorem C65_refuted_hop_limit : ∃ (t : Term) (p : Packet) (x : Out), JAccepted "juniper" t ∧
    singleTerm "juniper" .inet false (jterm t) = .ok (some x) ∧ Packets p ∧ p.ver = .v4 ∧ Acts p x .accept ∧
    ¬ Junos.Means t p := by
  refine ⟨{ name := "t".toList, action := ["accept"], protocol := ["tcp"], hopLimit := [255] },
    junosPacket .v4 "tcp", .term false "t".toList (.normal (some [.leaf [.w "protocol", .w "tcp"]])
      (some (false, [[.w "accept"]]))),
    by decide +kernel, by decide +kernel, junosPacket_ok, rfl, ⟨_, _, _, rfl, fromMatches_some.2 ?_, by decide⟩, ?_⟩
  · intro c hc
    rw [List.mem_singleton] at hc
    subst hc
    simp [CondMatches, LeafMatches, values, ProtoIn, junosPacket]
  · rintro (⟨_, h⟩ | ⟨h, _⟩)
    · have : RangeMatch [255] 1 := h.2.2.2.2.1.2.2.2.2.2.2.2.2.2.1
      simp [RangeMatch] at this
    · exact absurd h (by decide)

/-- C65 is false for prefix lists that are only excluded: nothing matches the printed term. -/
theorem C65_refuted_prefix : ∃ (t : Term) (p : Packet) (x : Out), JAccepted "juniper" t ∧
    singleTerm "juniper" .inet false (jterm t) = .ok (some x) ∧ Packets p ∧ p.ver = .v4 ∧ Junos.Means t p ∧
    ∀ d, ¬ Acts p x d := by
  refine ⟨{ name := "t".toList, action := ["deny"], sourcePrefixExcept := ["trusted"] },
    junosPacket .v4 "tcp", .term false "t".toList (.normal (some [.block "source-prefix-list" [[.w "trusted", .w "except"]]])
      (some (true, [[.w "discard"]]))),
    by decide +kernel, by decide +kernel, junosPacket_ok, rfl, .inl ⟨by decide, ?_⟩, ?_⟩
  · simp [conditions, Matches, MatchAddrs, MatchPorts, MatchProto, MatchPrefixes, MatchMisc, MatchRest, OneOf, PortMatch,
      RangeMatch, AddrMatch, Den, junosPacket]
  · rintro d ⟨n, cs, as, e, h, _⟩
    cases e
    have := h _ rfl _ (List.mem_singleton.2 rfl)
    simp [CondMatches, PrefixLines] at this

/-- A counter with a name of one letter breaks the rendering of a term without action. -/
theorem C65_refuted_counter : singleTerm "juniper" .inet false
    { term := { name := "t".toList, protocol := ["tcp"] }, counter := "c" } = .error .typeError := by
  decide +kernel

end Verif.Props
