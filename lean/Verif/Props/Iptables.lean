import Verif.Lemmas.IptablesTerm
import Verif.Props.Cisco

/-!
Property theorems about capirca/lib/iptables.py and its subclasses.
-/

namespace Verif.Props
open Verif Verif.Spec Verif.Spec.Nf Verif.Iptables Policy Aclgenerator Nacaddr

/-- The generators. -/
def nfClasses : List Cls := [Iptables.iptables, Iptables.speedway, Iptables.ipset]

/-! ### C69: terms -/

/-- The terms rendered faithfully. `keywords` and `sane` are the checks of the tool itself; every other condition is
needed, see the refutations below. -/
structure IFits (c : Cls) (track : Bool) (af : Ver) (r : ITerm) (a : String) : Prop where
  keywords : initCheck (tables c) [([c.platform], [kterm r.term])] = .ok ()
  sane : sanityCheck r.term = .ok ()
  active : Active c.platform (kterm r.term)
  verbatim : r.term.verbatim = []
  action : r.term.action = [a]
  srcTag : r.term.sourceTag = []
  dstTag : r.term.destinationTag = []
  ttl : r.term.ttl ≠ some 0
  trafficClass : r.term.trafficClass ≠ some 0
  family : FamilyOk af r.term
  srcPrefix : r.term.sourcePrefix = []
  dstPrefix : r.term.destinationPrefix = []
  limit : r.logLimit = none
  src : ∀ n ∈ r.term.sourceAddress ++ r.term.sourceAddressExclude, WF n
  dst : ∀ n ∈ r.term.destinationAddress ++ r.term.destinationAddressExclude, WF n
  srcLeft : c.sets = false → SomeLeft af r.term.sourceAddress r.term.sourceAddressExclude
  dstLeft : c.sets = false → SomeLeft af r.term.destinationAddress r.term.destinationAddressExclude
  names : ∀ s ∈ r.term.protocol, s ∈ iana.map Prod.fst
  icmp4 : af = .v4 → "icmpv6" ∈ r.term.protocol → r.term.protocol = ["icmpv6"]
  icmp6 : af = .v6 → "icmp" ∈ r.term.protocol → r.term.protocol = ["icmp"]
  exts4 : af = .v4 → "hopopt" ∉ r.term.protocol ∧ "fragment" ∉ r.term.protocol
  ports : r.term.sourcePort ≠ [] ∨ r.term.destinationPort ≠ [] → r.term.protocol ≠ []
  code : 0 ∉ r.term.icmpCode
  noFlags : "none" ∉ r.term.option
  flags : (∃ o ∈ r.term.option, o ∈ ["syn", "ack", "fin", "rst", "urg", "psh", "all", "initial", "tcp-initial"]) →
    r.term.protocol = ["tcp"]
  est : track = false → "established" ∈ r.term.option ∨ "tcp-established" ∈ r.term.option →
    (r.term.protocol = ["tcp"] ∧ ∀ o ∈ r.term.option, o ∉ ["syn", "ack", "fin", "rst", "urg", "psh", "all"]) ∨
    (r.term.protocol ≠ [] ∧ ∀ s ∈ r.term.protocol, s = "udp")
  frag6 : af = .v6 → "first-fragment" ∉ r.term.option ∧ r.term.fragmentOffset = []
  leak : "icmpv6" ∈ r.term.protocol ∨ "hopopt" ∈ r.term.protocol ∨ "fragment" ∈ r.term.protocol →
    r.term.option = [] ∧ r.term.packetLength = [] ∧ r.term.fragmentOffset = []

/-- Attributes the keyword check refuses. -/
structure IUnsupported (t : Term) : Prop where
  address : t.address = []
  addressExclude : t.addressExclude = []
  port : t.port = []
  protocolExcept : t.protocolExcept = []
  forwardingClass : t.forwardingClass = []
  forwardingClassExcept : t.forwardingClassExcept = []
  precedence : t.precedence = []
  hopLimit : t.hopLimit = []
  etherType : t.etherType = []
  trafficType : t.trafficType = []
  dscpMatch : t.dscpMatch = []
  dscpExcept : t.dscpExcept = []
  flexible : t.flexibleMatchRange = []
  sourcePrefixExcept : t.sourcePrefixExcept = []
  destinationPrefixExcept : t.destinationPrefixExcept = []
  destinationZone : t.destinationZone = []
  sourceZone : t.sourceZone = []
  trafficClass : t.trafficClass = none ∨ t.trafficClass = some 0
  ttl : t.ttl = none ∨ t.ttl = some 0

theorem itables_ok (c : Cls) : ∀ e ∈ (tables c).subTokens, e.1 ∈ (tables c).tokens := by
  have : ∀ e ∈ (tables Iptables.iptables).subTokens, e.1 ∈ (tables Iptables.iptables).tokens := by decide
  exact this

theorem iunsupported {c : Cls} {t : Term} (ha : Active c.platform (kterm t))
    (h : initCheck (tables c) [([c.platform], [kterm t])] = .ok ()) : IUnsupported t := by
  have tok : ∀ s ∈ ["address", "address_exclude", "port", "protocol_except", "forwarding_class", "forwarding_class_except",
      "precedence", "hop_limit", "ether_type", "traffic_type", "dscp_match", "dscp_except", "flexible_match_range",
      "source_prefix_except", "destination_prefix_except", "destination_zone", "source_zone", "traffic_class", "ttl"],
    s ∉ (tables c).tokens ∧ s ∉ warnIfUnsupported ∧ startsWith "flatten" s = false := by
    have : ∀ s ∈ ["address", "address_exclude", "port", "protocol_except", "forwarding_class", "forwarding_class_except",
      "precedence", "hop_limit", "ether_type", "traffic_type", "dscp_match", "dscp_except", "flexible_match_range",
      "source_prefix_except", "destination_prefix_except", "destination_zone", "source_zone", "traffic_class", "ttl"],
      s ∉ (tables Iptables.iptables).tokens ∧ s ∉ warnIfUnsupported ∧ startsWith "flatten" s = false := by decide
    exact this
  have key : ∀ a : String × Val, a ∈ attrsOf t → a.1 ∈ ["address", "address_exclude", "port", "protocol_except",
      "forwarding_class", "forwarding_class_except",
      "precedence", "hop_limit", "ether_type", "traffic_type", "dscp_match", "dscp_except", "flexible_match_range",
      "source_prefix_except", "destination_prefix_except", "destination_zone", "source_zone", "traffic_class", "ttl"] →
      a.2.truthy = false := by
    intro a hm hs
    obtain ⟨h1, h2, h3⟩ := tok a.1 hs
    exact unknown_unset (g := tables c) (itables_ok c) rfl ha h hm h1 h2 h3
  refine ⟨?_, ?_, ?_, ?_, ?_, ?_, ?_, ?_, ?_, ?_, ?_, ?_, ?_, ?_, ?_, ?_, ?_, ?_, ?_⟩
  · exact Cisco.listVal_falsy (key ("address", listVal t.address) (by simp [attrsOf]) (by simp))
  · exact Cisco.listVal_falsy (key ("address_exclude", listVal t.addressExclude) (by simp [attrsOf]) (by simp))
  · exact Cisco.listVal_falsy (key ("port", listVal t.port) (by simp [attrsOf]) (by simp))
  · exact Cisco.wordsVal_falsy (key ("protocol_except", wordsVal t.protocolExcept) (by simp [attrsOf]) (by simp))
  · exact Cisco.wordsVal_falsy (key ("forwarding_class", wordsVal t.forwardingClass) (by simp [attrsOf]) (by simp))
  · exact Cisco.wordsVal_falsy (key ("forwarding_class_except", wordsVal t.forwardingClassExcept) (by simp [attrsOf]) (by simp))
  · exact Cisco.wordsVal_falsy (key ("precedence", wordsVal t.precedence) (by simp [attrsOf]) (by simp))
  · exact Cisco.listVal_falsy (key ("hop_limit", listVal t.hopLimit) (by simp [attrsOf]) (by simp))
  · exact Cisco.wordsVal_falsy (key ("ether_type", wordsVal t.etherType) (by simp [attrsOf]) (by simp))
  · exact Cisco.wordsVal_falsy (key ("traffic_type", wordsVal t.trafficType) (by simp [attrsOf]) (by simp))
  · exact Cisco.wordsVal_falsy (key ("dscp_match", wordsVal t.dscpMatch) (by simp [attrsOf]) (by simp))
  · exact Cisco.wordsVal_falsy (key ("dscp_except", wordsVal t.dscpExcept) (by simp [attrsOf]) (by simp))
  · exact Cisco.wordsVal_falsy (key ("flexible_match_range", wordsVal t.flexibleMatchRange) (by simp [attrsOf]) (by simp))
  · exact Cisco.wordsVal_falsy (key ("source_prefix_except", wordsVal t.sourcePrefixExcept) (by simp [attrsOf]) (by simp))
  · exact Cisco.wordsVal_falsy (key ("destination_prefix_except", wordsVal t.destinationPrefixExcept) (by simp [attrsOf]) (by simp))
  · exact Cisco.wordsVal_falsy (key ("destination_zone", wordsVal t.destinationZone) (by simp [attrsOf]) (by simp))
  · exact Cisco.wordsVal_falsy (key ("source_zone", wordsVal t.sourceZone) (by simp [attrsOf]) (by simp))
  · exact Cisco.numVal_falsy (key ("traffic_class", numVal t.trafficClass) (by simp [attrsOf]) (by simp))
  · exact Cisco.numVal_falsy (key ("ttl", numVal t.ttl) (by simp [attrsOf]) (by simp))

theorem ioptions {c : Cls} {t : Term} (ha : Active c.platform (kterm t))
    (h : initCheck (tables c) [([c.platform], [kterm t])] = .ok ()) {o : String} (hm : o ∈ t.option) : o ∈ optionWords :=
  word_known (g := tables c) (itables_ok c) ha h (el := "option") (l := t.option) (by simp [attrsOf])
    rfl (by decide) hm

/-- The conditions of a term in the order of the rules. -/
theorem matches_iptables {t : Term} {af : Ver} (u : IUnsupported t) (h1 : t.sourceTag = []) (h2 : t.destinationTag = [])
    (h3 : t.ttl ≠ some 0) (h4 : t.trafficClass ≠ some 0) (h5 : FamilyOk af t) (h6 : t.sourcePrefix = [])
    (h7 : t.destinationPrefix = []) {p : Packet} (hv : p.ver = af) (ports : List PortRange) :
    Matches { t with destinationPort := ports } p ↔
      (AddrMatch t.sourceAddress t.sourceAddressExclude af p.src ∧
        AddrMatch t.destinationAddress t.destinationAddressExclude af p.dst) ∧
      (OneOf t.protocol p.proto ∧ OneOf t.icmpType p.icmpType ∧ OneOf t.icmpCode p.icmpCode) ∧
      (∀ o ∈ t.option, p.hasOption o = true) ∧
      (RangeMatch t.packetLength p.packetLength ∧ RangeMatch t.fragmentOffset p.fragmentOffset) ∧
      ((∀ i, t.sourceInterface = some i → p.inInterface = i) ∧ ∀ i, t.destinationInterface = some i → p.outInterface = i) ∧
      PortMatch t.sourcePort p.sport ∧ PortMatch ports p.dport := by
  have ttl : t.ttl = none := u.ttl.resolve_right h3
  have tc : t.trafficClass = none := u.trafficClass.resolve_right h4
  subst hv
  have i1 : (t.sourceInterface = none ∨ t.sourceInterface = some p.inInterface) ↔
      ∀ i, t.sourceInterface = some i → p.inInterface = i := by
    cases t.sourceInterface <;> simp [eq_comm]
  have i2 : (t.destinationInterface = none ∨ t.destinationInterface = some p.outInterface) ↔
      ∀ i, t.destinationInterface = some i → p.outInterface = i := by
    cases t.destinationInterface <;> simp [eq_comm]
  unfold FamilyOk at h5
  unfold Matches MatchAddrs MatchPorts MatchProto MatchPrefixes MatchMisc MatchRest
  rw [u.address, u.addressExclude, u.port, u.protocolExcept, u.forwardingClass, u.forwardingClassExcept, u.precedence,
    u.hopLimit, u.etherType, u.trafficType, u.dscpMatch, u.dscpExcept, u.flexible, u.sourcePrefixExcept,
    u.destinationPrefixExcept, u.destinationZone, u.sourceZone, h1, h2, h6, h7, ttl, tc, i1, i2]
  simp only [OneOf, RangeMatch, true_or, and_true, true_and, and_self, List.not_mem_nil, not_false_iff,
    false_implies, implies_true, h5]
  constructor
  · rintro ⟨⟨a1, a2⟩, ⟨b1, b2⟩, c1, ⟨d1, d2, d3, d4, d5⟩, e1, e2⟩
    exact ⟨⟨a1, a2⟩, ⟨c1, d2, d3⟩, d1, ⟨d5, d4⟩, ⟨e1, e2⟩, b1, b2⟩
  · rintro ⟨⟨a1, a2⟩, ⟨c1, d2, d3⟩, d1, ⟨d5, d4⟩, ⟨e1, e2⟩, b1, b2⟩
    exact ⟨⟨a1, a2⟩, ⟨b1, b2⟩, c1, ⟨d1, d2, d3, d4, d5⟩, e1, e2⟩

theorem protoText_inj : ∀ s ∈ iana.map Prod.fst, ∀ q ∈ iana.map Prod.fst, protoText s = protoText q → s = q := by
  decide +kernel

theorem mem_combos {sas das : List Net} {types codes : List (Option Nat)} {protos : List String}
    {tr : List (List String × List String)} {x : Combo} :
    x ∈ combos sas das types codes protos tr ↔ x.1 ∈ sas ∧ x.2.1 ∈ das ∧ x.2.2.1 ∈ types ∧ x.2.2.2.1 ∈ codes ∧
      x.2.2.2.2.1 ∈ protos ∧ x.2.2.2.2.2 ∈ (if tr.isEmpty then [([], [])] else tr) := by
  obtain ⟨s, d, i, c, q, k⟩ := x
  unfold combos
  simp only [List.mem_flatMap, List.mem_map, Prod.mk.injEq]
  constructor
  · rintro ⟨s, h1, d, h2, i, h3, c, h4, q, h5, k, h6, rfl, rfl, rfl, rfl, rfl, rfl⟩
    exact ⟨h1, h2, h3, h4, h5, h6⟩
  · rintro ⟨h1, h2, h3, h4, h5, h6⟩
    exact ⟨s, h1, d, h2, i, h3, c, h4, q, h5, k, h6, rfl, rfl, rfl, rfl, rfl, rfl⟩

/-- What the lines of a term do, in the order they are printed. -/
structure TermLines (e : Host) (p : Packet) (c : Cls) (filter name : Str) (a : String) (m : Prop) (ls : List Iptables.Line)
    (ex main : List Iptables.Line) (tg : Target) (E M : Prop) : Prop where
  lines : ls = headLines c filter name ++ (ex ++ (main ++ tailLines c filter name))
  exActs : Acts e p (if c.inFilter then filter else chainName filter name) .ret E ex
  mainActs : Acts e p (if c.inFilter then filter else chainName filter name) tg M main
  notLog : tg ≠ .log
  notJump : ∀ ch, tg ≠ .jump ch
  ends : tg = .ret ∨ ∃ w, tg.verdict = some w
  asks : Nf.Asks a tg.verdict
  next : a = "next" ↔ tg = .ret
  exact : (M ∧ ¬ E) ↔ m
  sets : c.sets = true → ex = []

theorem term_core {c : Cls} {track : Bool} {af : Ver} {r : ITerm} {a : String} (f : IFits c track af r a) {filter name : Str}
    {ports : List PortRange} {q : Printed}
    (h : Iptables.renderTerm c filter track af
      { r with term := { r.term with name := name, destinationPort := ports } } = .ok q)
    {e : Host} {p : Packet} (hs : Sound track e p) (hv : p.ver = af)
    (e1 : ∀ s, q.srcSet = some s → e.sets s.1 = some s.2) (e2 : ∀ s, q.dstSet = some s → e.sets s.1 = some s.2) :
    (q.lines = [] ∧ ¬ Matches { r.term with destinationPort := ports } p) ∨
    ∃ ex main tg E M, TermLines e p c filter name a (Matches { r.term with destinationPort := ports } p) q.lines ex main tg E M := by
  have u := iunsupported f.active f.keywords
  have hopt : ∀ o ∈ r.term.option, o ∈ optionWords := fun o ho => ioptions f.active f.keywords ho
  rw [matches_iptables u f.srcTag f.dstTag f.ttl f.trafficClass f.family f.srcPrefix f.dstPrefix hv ports]
  unfold Iptables.renderTerm at h
  obtain ⟨ps, h1, h⟩ := bind_ok h
  dsimp only at h1
  have hps : ps.map Proto.text = r.term.protocol.map protoText := by
    rw [termProtocols_ok h1]
    simp only [List.map_map]
    rfl
  rw [hps] at h
  have special : ∀ s, s = "icmp" ∨ s = "icmpv6" ∨ s = "tcp" ∨ s = "hopopt" ∨ s = "fragment" →
      (s ∈ r.term.protocol.map protoText ↔ s ∈ r.term.protocol) := by
    intro s hsp
    rw [List.mem_map]
    constructor
    · rintro ⟨q, h1, h2⟩
      obtain ⟨k1, k2, k3, k4, k5, _⟩ := protoText_special q (f.names q h1)
      rcases hsp with rfl | rfl | rfl | rfl | rfl
      · exact k4.1 h2 ▸ h1
      · exact k3.1 h2 ▸ h1
      · exact k5.1 h2 ▸ h1
      · exact k1.1 h2 ▸ h1
      · exact k2.1 h2 ▸ h1
    · intro h
      refine ⟨s, h, ?_⟩
      rcases hsp with rfl | rfl | rfl | rfl | rfl <;> decide
  unfold printTerm at h
  dsimp only at h
  have hon : Cisco.onPlatform c.platform { r.term with name := name, destinationPort := ports } = true :=
    (Cisco.onPlatform_iff (c := { Cisco.ios with platform := c.platform })).2 f.active
  rw [hon] at h
  simp only [Bool.not_true, Bool.false_eq_true, if_false] at h
  split at h
  next hc =>
    cases h
    refine .inl ⟨rfl, ?_⟩
    rintro ⟨_, ⟨hh, _⟩, _⟩
    rcases hc with ⟨ha, hm⟩ | ⟨ha, hm⟩
    · have hm := (special "icmp" (by simp)).1 (List.contains_iff_mem.1 hm)
      have hp := f.icmp6 ha hm
      rw [hp] at hh
      rcases hh with hh | hh
      · cases hh
      · exact hs.icmp6 (hv.trans ha) (List.mem_singleton.1 hh)
    · have hm := (special "icmpv6" (by simp)).1 (List.contains_iff_mem.1 hm)
      have hp := f.icmp4 ha hm
      rw [hp] at hh
      rcases hh with hh | hh
      · cases hh
      · exact hs.icmp4 (hv.trans ha) (List.mem_singleton.1 hh)
  next hc =>
    rw [if_neg (by rw [f.verbatim]; simp)] at h
    split at h
    · rename_i h1
      rw [f.action] at h1; cases h1
    rename_i a' rest ha'
    have ha' : a = a' := by
      rw [f.action] at ha'
      exact (List.cons.inj ha').1
    subst ha'
    rw [if_neg (by rw [f.srcPrefix, f.dstPrefix]; simp)] at h
    have hprot : ∀ s ∈ protoList (r.term.protocol.map protoText),
        (s = "all" ∧ r.term.protocol = []) ∨ ∃ n ∈ r.term.protocol, s = protoText n := by
      intro s hsm
      unfold protoList at hsm
      split at hsm
      next h0 =>
        exact .inl ⟨List.mem_singleton.1 hsm, by simpa using h0⟩
      next h0 =>
        obtain ⟨n, h1, h2⟩ := List.mem_map.1 hsm
        exact .inr ⟨n, h1, h2.symm⟩
    split at h
    next hh =>
      exfalso
      have := List.contains_iff_mem.1 hh.2
      rcases hprot _ this with ⟨h1, _⟩ | ⟨n, h1, h2⟩
      · exact absurd h1 (by decide)
      · have := (protoText_special n (f.names n h1)).1.1 h2.symm
        exact (f.exts4 hh.1).1 (this ▸ h1)
    next hh =>
      obtain ⟨ad, had, h⟩ := bind_ok h
      have hset : q.srcSet = ad.2.1 ∧ q.dstSet = ad.2.2 := by
        unfold body at h
        split at h
        · cases h; exact ⟨rfl, rfl⟩
        · obtain ⟨_, _, h⟩ := bind_ok h
          obtain ⟨_, _, h⟩ := bind_ok h
          dsimp only at h
          split at h
          · cases h
          · cases h; exact ⟨rfl, rfl⟩
      rw [hset.1] at e1
      rw [hset.2] at e2
      have hx : p.src < 2 ^ af.bits := hv ▸ hs.src
      have hy : p.dst < 2 ^ af.bits := hv ▸ hs.dst
      obtain ⟨S, D, hS, hD⟩ := addresses_spec had f.src f.dst f.srcLeft f.dstLeft hv hx hy e1 e2
      dsimp only at hS hD
      have hsx : c.sets = true → ad.1.1.exc = [] ∧ ad.1.2.exc = [] := by
        intro hcs
        unfold addresses at had
        rw [if_pos hcs] at had
        obtain ⟨_, _, had⟩ := bind_ok had
        obtain ⟨_, _, had⟩ := bind_ok had
        cases had
        exact ⟨rfl, rfl⟩
      unfold body at h
      split at h
      next h0 =>
        cases h
        refine .inl ⟨rfl, ?_⟩
        rintro ⟨⟨m1, m2⟩, _⟩
        rw [Bool.or_eq_true, List.isEmpty_iff, List.isEmpty_iff] at h0
        rcases h0 with h0 | h0
        · obtain ⟨⟨n, hn, _⟩, _⟩ := hS.exact.2 m1
          rw [h0] at hn; cases hn
        · obtain ⟨⟨n, hn, _⟩, _⟩ := hD.exact.2 m2
          rw [h0] at hn; cases hn
      next h0 =>
        obtain ⟨types, ht, h⟩ := bind_ok h
        obtain ⟨o, ho, h⟩ := bind_ok h
        dsimp only at h ht ho
        have htcp : protoList (r.term.protocol.map protoText) = ["tcp"] ↔ r.term.protocol = ["tcp"] := by
          constructor
          · intro hl
            have : ∀ n ∈ r.term.protocol, n = "tcp" := by
              intro n hn
              have hm : protoText n ∈ protoList (r.term.protocol.map protoText) := by
                unfold protoList
                rw [if_neg]
                · exact List.mem_map.2 ⟨n, hn, rfl⟩
                · simp; intro h; rw [h] at hn; cases hn
              rw [hl] at hm
              exact (protoText_special n (f.names n hn)).2.2.2.2.1.1 (List.mem_singleton.1 hm)
            cases hpl : r.term.protocol with
            | nil => rw [hpl] at hl; exact absurd hl (by decide)
            | cons n ns =>
              rw [hpl] at hl this
              cases ns with
              | nil => rw [this n (by simp)]
              | cons m ms =>
                unfold protoList at hl
                simp at hl
          · intro hl; rw [hl]; decide
        obtain ⟨o1, o2, o3, o4⟩ := optLoop_spec r.term.option hopt ho
        rw [List.nil_append] at o1 o2
        rw [htcp] at o3
        simp only [htcp] at o4
        cases hact : actionArgs af a with
        | none => rw [hact] at h; cases h
        | some act =>
          rw [hact] at h
          dsimp only at h
          obtain ⟨tg, v, t1, t2, t3, t4, t5, t6, t7⟩ := actionArgs_reads hact
          subst t6
          generalize hxd : (Ctx.mk c filter af track name (!r.term.logging.isEmpty) r.logLimit r.term.sourceInterface
            r.term.destinationInterface (ad.2.1.map Prod.fst) (ad.2.2.map Prod.fst)) = x at h
          have xaf : x.af = af := by rw [← hxd]
          have xs : x.srcSet = ad.2.1.map Prod.fst := by rw [← hxd]
          have xd : x.dstSet = ad.2.2.map Prod.fst := by rw [← hxd]
          have xtop : x.top = if c.inFilter then filter else chainName filter name := by rw [← hxd]; rfl
          have xlim : x.logLimit = none := by rw [← hxd]; exact f.limit
          have xif : ifaceCond p x ↔ (∀ i, r.term.sourceInterface = some i → p.inInterface = i) ∧
              ∀ i, r.term.destinationInterface = some i → p.outInterface = i := by rw [← hxd]; exact Iff.rfl
          have hex := excludeRules_spec (e := e) (p := p) (x := x) (s := ad.1.1) (d := ad.1.2) (ss := ad.2.1) (ds := ad.2.2)
            (xaf ▸ hS) (xaf ▸ hD) xs xd (xaf ▸ hv) (xaf ▸ hx) (xaf ▸ hy) hs.state
          have hO : Says e p (o.options ++ spanOpts { r.term with name := name, destinationPort := ports }).flatten
              ((∀ w ∈ r.term.option, optCond e p track w) ∧ RangeMatch r.term.packetLength p.packetLength ∧
                RangeMatch r.term.fragmentOffset p.fragmentOffset) := by
            rw [o1, List.flatten_append]
            exact says_append (optArgs_all _ hopt)
              (spanOpts_says { r.term with name := name, destinationPort := ports } fun h6 => (f.frag6 (hv.symm.trans h6)).2)
          have hmain := comboRules_spec (e := e) (p := p) (x := x)
            (t := { r.term with name := name, destinationPort := ports }) (action := act) (tf := o.tcpFlags) (tg := tg)
            (S := S) (D := D) (P := fun s => s = "all" ∨ protoText p.proto = s)
            (I := fun s i c => (∀ k, i = some k → p.proto = s ∧ (p.icmpType, k) ∈ Spec.icmpNumbers af) ∧
              ∀ k, c = some k → p.icmpCode = k)
            t1 t3 (fun _ => xlim) hs.state
            (combos ad.1.1.inc ad.1.2.inc types (Iptables.icmpCodes { r.term with name := name, destinationPort := ports })
              (protoList (r.term.protocol.map protoText)) o.track)
            (fun cb hc => hS.says x xaf xs _ (mem_combos.1 hc).1)
            (fun cb hc => hD.says x xaf xd _ (mem_combos.1 hc).2.1)
            (fun cb hc => by
              obtain ⟨_, _, c3, c4, c5, _⟩ := mem_combos.1 hc
              exact icmpArgs_says ht (sane_codes (t := r.term) f.sane) f.code c3 c4 c5)
            (fun cb hc => by
              obtain ⟨_, _, _, _, c5, _⟩ := mem_combos.1 hc
              rcases hprot _ c5 with ⟨g1, _⟩ | ⟨n, g1, g2⟩
              · rw [g1]
                refine ⟨_, says_of (m := .proto "all") (seg_one (by decide) rfl), fun _ => .inl rfl, ?_⟩
                simp [Match.Holds, u32Cond]
              · rw [g2]
                obtain ⟨P0, p1, p2⟩ := proto_says (e := e) (f.names n g1) hs.proto (by
                  intro hh6
                  cases haf : af with
                  | v6 => rw [hv, haf]
                  | v4 =>
                    rcases hh6 with rfl | rfl
                    · exact absurd g1 (f.exts4 haf).1
                    · exact absurd g1 (f.exts4 haf).2)
                have hna := (protoText_special n (f.names n g1)).2.2.2.2.2.2.2
                refine ⟨P0, p1, fun h => absurd h hna, ?_⟩
                rw [p2]
                constructor
                · rintro rfl; exact .inr rfl
                · rintro (h | h)
                  · exact absurd h hna
                  · exact protoText_inj _ hs.proto _ (f.names n g1) h)
            _ hO (by
              by_cases hsp : "icmpv6" ∈ r.term.protocol ∨ "hopopt" ∈ r.term.protocol ∨ "fragment" ∈ r.term.protocol
              · obtain ⟨l1, l2, l3⟩ := f.leak hsp
                left
                rw [o1, l1]
                unfold spanOpts
                dsimp only
                rw [l2, l3]
                rfl
              · right
                intro cb hc hspec
                obtain ⟨_, _, _, _, c5, _⟩ := mem_combos.1 hc
                rcases hprot _ c5 with ⟨g1, _⟩ | ⟨n, g1, g2⟩
                · rw [g1] at hspec
                  rcases hspec with h | h | h <;> exact absurd h (by decide)
                · rw [g2] at hspec
                  obtain ⟨k1, k2, k3, _⟩ := protoText_special n (f.names n g1)
                  refine hsp ?_
                  rcases hspec with h | h | h
                  · exact .inl (k3.1 h ▸ g1)
                  · exact .inr (.inl (k1.1 h ▸ g1))
                  · exact .inr (.inr (k2.1 h ▸ g1)))
          cases h
          refine .inr ⟨_, _, tg, _, _, ⟨rfl, xtop ▸ hex, xtop ▸ hmain, t3, t4, t5, t2, t7, ?_, ?_⟩⟩
          · -- exactness
            rw [xif, xaf, o2]
            have hicmp := icmpTypes_spec ht p
            have hmean : OneOf r.term.protocol p.proto →
                (((∃ k ∈ (if o.track.isEmpty then [([], [])] else o.track),
                    flagCond e p (r.term.option.flatMap optFlags) k) ∧
                  ∀ w ∈ r.term.option, optCond e p track w) ↔ ∀ w ∈ r.term.option, p.hasOption w = true) := fun hone =>
              options_mean (protocol := r.term.protocol) hs hopt f.noFlags
                (fun ⟨w, w1, w2⟩ => f.flags ⟨w, w1, by
                  rcases w2 with w2 | rfl | rfl
                  · have : ∀ w ∈ flagWords,
                        w ∈ ["syn", "ack", "fin", "rst", "urg", "psh", "all", "initial", "tcp-initial"] := by decide
                    exact this w w2
                  · simp
                  · simp⟩)
                f.est (fun h6 => (f.frag6 (hv.symm.trans h6)).1) o3 o4 hone
            constructor
            · rintro ⟨⟨⟨s, d, i, co, pr, k⟩, hc, ⟨b1, ⟨b2, b2'⟩, b3, b4, b5⟩, ⟨b6, b7⟩, b8, b9, b10⟩, hne⟩
              obtain ⟨c1, c2, c3, c4, c5, c6⟩ := mem_combos.1 hc
              rw [not_or] at hne
              have hone : OneOf r.term.protocol p.proto := by
                rcases hprot _ c5 with ⟨_, g1⟩ | ⟨n, g1, g2⟩
                · exact .inl g1
                · dsimp only at g2
                  rcases b1 with b1 | b1
                  · exact absurd (g2.symm.trans b1) (protoText_special n (f.names n g1)).2.2.2.2.2.2.2
                  · have := protoText_inj _ hs.proto _ (f.names n g1) (b1.trans g2)
                    exact .inr (this ▸ g1)
              exact ⟨⟨hS.exact.1 ⟨⟨s, c1, b4⟩, hne.1⟩, hD.exact.1 ⟨⟨d, c2, b5⟩, hne.2⟩⟩,
                ⟨hone, hicmp.1.1 ⟨i, c3, fun k hk => (b2 k hk).2⟩, icmpCodes_spec.1 ⟨co, c4, b2'⟩⟩,
                (hmean hone).1 ⟨⟨k, c6, b3⟩, b6⟩, b7, b8, b9, b10⟩
            · rintro ⟨⟨m1, m2⟩, ⟨hone, m3, m4⟩, m5, m6, m7, m8, m9⟩
              obtain ⟨⟨s, c1, b4⟩, n1⟩ := hS.exact.2 m1
              obtain ⟨⟨d, c2, b5⟩, n2⟩ := hD.exact.2 m2
              obtain ⟨i, c3, b2⟩ := hicmp.1.2 m3
              obtain ⟨co, c4, b2'⟩ := (icmpCodes_spec
                (t := { r.term with name := name, destinationPort := ports })).2 m4
              obtain ⟨⟨k, c6, b3⟩, b6⟩ := (hmean hone).2 m5
              have : ∃ pr ∈ protoList (r.term.protocol.map protoText), pr = "all" ∨ protoText p.proto = pr := by
                unfold protoList
                rcases hone with hone | hone
                · rw [hone]; exact ⟨"all", by simp, .inl rfl⟩
                · rw [if_neg]
                  · exact ⟨_, List.mem_map.2 ⟨_, hone, rfl⟩, .inr rfl⟩
                  · simp; intro h; rw [h] at hone; cases hone
              obtain ⟨pr, c5, b1⟩ := this
              refine ⟨⟨(s, d, i, co, pr, k), mem_combos.2 ⟨c1, c2, c3, c4, c5, c6⟩,
                ⟨b1, ⟨fun k hk => ⟨?_, b2 k hk⟩, b2'⟩, b3, b4, b5⟩, ⟨b6, m6⟩, m7, m8, m9⟩, not_or.2 ⟨n1, n2⟩⟩
              have hty : r.term.icmpType ≠ [] := by
                intro h0
                have := hicmp.2.1 h0
                rw [this] at c3
                rw [List.mem_singleton.1 c3] at hk
                cases hk
              have hpt := protoText_special _ hs.proto
              rcases (hicmp.2.2 hty).2 with ⟨_, g⟩ | ⟨_, g⟩
              · rw [g] at c5
                have c5 := List.mem_singleton.1 c5
                subst c5
                rcases b1 with b1 | b1
                · exact absurd b1 (by decide)
                · exact hpt.2.2.2.1.1 b1
              · rw [g] at c5
                have c5 := List.mem_singleton.1 c5
                subst c5
                rcases b1 with b1 | b1
                · exact absurd b1 (by decide)
                · exact hpt.2.2.1.1 b1
          · intro hcs
            obtain ⟨x1, x2⟩ := hsx hcs
            unfold excludeRules
            rw [x1, x2]
            rfl

theorem renderTerm_nosets {c : Cls} (hc : c.sets = false) {filter : Str} {track : Bool} {af : Ver} {r : ITerm} {q : Printed}
    (h : Iptables.renderTerm c filter track af r = .ok q) : q.srcSet = none ∧ q.dstSet = none := by
  unfold Iptables.renderTerm at h
  obtain ⟨ps, _, h⟩ := bind_ok h
  unfold printTerm at h
  split at h
  · cases h; exact ⟨rfl, rfl⟩
  split at h
  · cases h; exact ⟨rfl, rfl⟩
  split at h
  · cases h; exact ⟨rfl, rfl⟩
  split at h
  · cases h
  split at h
  · split at h
    · cases h; exact ⟨rfl, rfl⟩
    · cases h
  split at h
  · cases h; exact ⟨rfl, rfl⟩
  obtain ⟨ad, had, h⟩ := bind_ok h
  unfold addresses at had
  rw [if_neg (by simp [hc])] at had
  obtain ⟨_, _, had⟩ := bind_ok had
  cases had
  unfold body at h
  split at h
  · cases h; exact ⟨rfl, rfl⟩
  · obtain ⟨_, _, h⟩ := bind_ok h
    obtain ⟨_, _, h⟩ := bind_ok h
    dsimp only at h
    split at h
    · cases h
    · cases h; exact ⟨rfl, rfl⟩

/-- The lines of a term in its own chain. -/
theorem termLines_walk {chains : Str → List (List Arg)} {e : Host} {p : Packet} {c : Cls} {filter name : Str} {a : String}
    {m : Prop} {ls ex main : List Iptables.Line} {tg : Target} {E M : Prop}
    (h : TermLines e p c filter name a m ls ex main tg E M) {top : Str}
    (htop : top = if c.inFilter then filter else chainName filter name) :
    (m → Walk chains e p (rulesOf (ex ++ main) top) tg.verdict) ∧
    (¬ m → Walk chains e p (rulesOf (ex ++ main) top) none) := by
  have hr : rulesOf (ex ++ main) top = rulesOf ex top ++ (rulesOf main top ++ []) := by
    unfold rulesOf; rw [List.filterMap_append, List.append_nil]
  rw [hr]
  obtain ⟨x1, _, x3⟩ := acts_walk (chains := chains) (htop ▸ h.exActs) (by simp) (by simp) (rulesOf main top ++ [])
  obtain ⟨y1, y2, y3⟩ := acts_walk (chains := chains) (htop ▸ h.mainActs) h.notJump h.notLog []
  refine ⟨fun hm => ?_, fun hm => ?_⟩
  · obtain ⟨hM, hE⟩ := h.exact.2 hm
    refine x3 hE _ ?_
    rcases h.ends with ht | ⟨w, hw⟩
    · rw [ht]; exact y1 hM ht
    · rw [hw]; exact y2 hM w hw
  · by_cases hE : E
    · exact x1 hE rfl
    · refine x3 hE _ (y3 (fun hM => hm (h.exact.1 ⟨hM, hE⟩)) _ .done)

/-- The rules of a chain of its own, and the jump. -/
theorem termLines_rules {e : Host} {p : Packet} {c : Cls} {filter name : Str} {a : String}
    {m : Prop} {ls ex main : List Iptables.Line} {tg : Target} {E M : Prop}
    (h : TermLines e p c filter name a m ls ex main tg E M) (hc : c = Iptables.iptables ∨ c = Iptables.speedway)
    (hne : filter ≠ chainName filter name) :
    rulesOf ls (chainName filter name) = rulesOf (ex ++ main) (chainName filter name) ∧
    rulesOf ls filter = [[.w "-j", .name (chainName filter name)]] ∧
    (∀ l ∈ ls, ∀ d args, l = .rule d args → d = filter ∨ d = chainName filter name) ∧
    .newChain (chainName filter name) ∈ ls := by
  have hin : c.inFilter = false := by rcases hc with rfl | rfl <;> rfl
  have hform : ∀ l ∈ ex ++ main, ∃ args, l = .rule (chainName filter name) args := by
    intro l hl
    rcases List.mem_append.1 hl with hl | hl
    · obtain ⟨args, _, _, h1, _⟩ := h.exActs.form l hl
      rw [hin] at h1
      exact ⟨args, h1⟩
    · obtain ⟨args, _, _, h1, _⟩ := h.mainActs.form l hl
      rw [hin] at h1
      exact ⟨args, h1⟩
  have hf : rulesOf (ex ++ main) filter = [] := by
    unfold rulesOf
    rw [List.filterMap_eq_nil_iff]
    intro l hl
    obtain ⟨args, rfl⟩ := hform l hl
    simp [Ne.symm hne]
  have hlines : ls = headLines c filter name ++ ((ex ++ main) ++ tailLines c filter name) := by
    rw [h.lines, List.append_assoc]
  have hr : ∀ d, rulesOf ls d = rulesOf (headLines c filter name) d ++ (rulesOf (ex ++ main) d ++
      rulesOf (tailLines c filter name) d) := by
    intro d
    rw [hlines]
    unfold rulesOf
    rw [List.filterMap_append, List.filterMap_append]
  refine ⟨?_, ?_, ?_, ?_⟩
  · rw [hr]
    rcases hc with rfl | rfl <;> simp [headLines, tailLines, Iptables.iptables, Iptables.speedway, rulesOf, hne]
  · rw [hr, hf]
    rcases hc with rfl | rfl <;> simp [headLines, tailLines, Iptables.iptables, Iptables.speedway, rulesOf]
  · intro l hl d args hd
    rw [hlines] at hl
    rcases List.mem_append.1 hl with hl | hl
    · subst hd
      rcases hc with rfl | rfl <;>
        simp [headLines, Iptables.iptables, Iptables.speedway] at hl
      exact .inl hl.1
    · rcases List.mem_append.1 hl with hl | hl
      · obtain ⟨args', h1⟩ := hform l hl
        rw [h1] at hd
        cases hd
        exact .inr rfl
      · subst hd
        rcases hc with rfl | rfl <;>
          simp [tailLines, Iptables.iptables, Iptables.speedway] at hl
        exact .inl hl.1
  · rw [hlines]
    rcases hc with rfl | rfl <;> simp [headLines, Iptables.iptables, Iptables.speedway]

/-- C69 (partial): the chain of a term of `iptables` or `speedway` gives a packet of the family of the filter the verdict
of the term's action if the term matches it, and else returns without a verdict. The chain is created, and the filter
jumps to it exactly once; a term without lines matches no packet. Missing: the terms outside `IFits`, see the
refutations, and names that make the chain the filter itself. -/
theorem C69_term_partial {c : Cls} (hc : c = Iptables.iptables ∨ c = Iptables.speedway) {track : Bool} {af : Ver} {r : ITerm}
    {a : String} (f : IFits c track af r a) {filter : Str} (hne : filter ≠ filter.take 1 ++ '_' :: r.term.name) {q : Printed}
    (h : Iptables.renderTerm c filter track af r = .ok q) {e : Host} {p : Packet} (hs : Sound track e p) (hv : p.ver = af)
    (chains : Str → List (List Arg)) :
    ∃ v, Walk chains e p (rulesOf q.lines (filter.take 1 ++ '_' :: r.term.name)) v ∧
      ((Matches r.term p ∧ Nf.Asks a v) ∨ (¬ Matches r.term p ∧ v = none)) ∧
      ((q.lines = [] ∧ ¬ Matches r.term p) ∨
        (.newChain (filter.take 1 ++ '_' :: r.term.name) ∈ q.lines ∧
          rulesOf q.lines filter = [[.w "-j", .name (filter.take 1 ++ '_' :: r.term.name)]])) := by
  have hset : c.sets = false := by rcases hc with rfl | rfl <;> rfl
  have hin : c.inFilter = false := by rcases hc with rfl | rfl <;> rfl
  have hq : q.srcSet = none ∧ q.dstSet = none := renderTerm_nosets hset h
  rcases term_core f (name := r.term.name) (ports := r.term.destinationPort) h hs hv (by simp [hq.1]) (by simp [hq.2]) with
    ⟨h0, h1⟩ | ⟨ex, main, tg, E, M, hl⟩
  · exact ⟨none, by rw [h0]; exact .done, .inr ⟨h1, rfl⟩, .inl ⟨h0, h1⟩⟩
  · obtain ⟨r1, r2, _, r4⟩ := termLines_rules hl hc hne
    obtain ⟨w1, w2⟩ := termLines_walk (chains := chains) hl (top := chainName filter r.term.name) (by rw [hin]; rfl)
    by_cases hm : Matches r.term p
    · exact ⟨tg.verdict, by rw [show filter.take 1 ++ '_' :: r.term.name = chainName filter r.term.name from rfl, r1]; exact w1 hm,
        .inl ⟨hm, hl.asks⟩, .inr ⟨r4, r2⟩⟩
    · exact ⟨none, by rw [show filter.take 1 ++ '_' :: r.term.name = chainName filter r.term.name from rfl, r1]; exact w2 hm,
        .inr ⟨hm, rfl⟩, .inr ⟨r4, r2⟩⟩

/-! ### C46: addresses -/

/-- C46 (partial): the addresses and excluded addresses chosen for a term select exactly the pairs of the term, whichever
encoding is chosen. Missing: lists of which everything is excluded, see `C46_refuted`. -/
theorem C46_partial {af : Ver} {sa sx da dx : List Net} (hs : ∀ n ∈ sa ++ sx, WF n) (hd : ∀ n ∈ da ++ dx, WF n)
    (ns : SomeLeft af sa sx) (nd : SomeLeft af da dx) :
    ∃ s d, Iptables.calculate af sa sx da dx = .ok (s, d) ∧ (∀ n ∈ s.inc ++ s.exc ++ (d.inc ++ d.exc), WF n ∧ n.ver = af) ∧
      ∀ x y, x < 2 ^ af.bits → y < 2 ^ af.bits →
        ((Den s.inc af x ∧ Den d.inc af y ∧ ¬ Den s.exc af x ∧ ¬ Den d.exc af y) ↔
          AddrMatch sa sx af x ∧ AddrMatch da dx af y) := by
  obtain ⟨⟨s, d⟩, h, g1, g2, hv, h1, h2⟩ := calculate_spec (af := af) hs hd
    (fun hne => by
      obtain ⟨v, x, hx, hn⟩ := ns hne
      exact ⟨v, x, den_orAll.2 hx, hn⟩)
    (fun hne => by
      obtain ⟨v, x, hx, hn⟩ := nd hne
      exact ⟨v, x, den_orAll.2 hx, hn⟩)
  refine ⟨s, d, h, fun n hn => ⟨?_, hv n hn⟩, fun x y hx hy => ?_⟩
  · rcases List.mem_append.1 hn with hn | hn
    · exact g1 n hn
    · exact g2 n hn
  · rw [← h1 x hx, ← h2 y hy]
    unfold Side.Has
    constructor
    · rintro ⟨a, b, c, d⟩; exact ⟨⟨a, c⟩, b, d⟩
    · rintro ⟨⟨a, c⟩, b, d⟩; exact ⟨a, b, c, d⟩

/-- C46 is false if everything is excluded: the addresses are used as if nothing were. -/
theorem C46_refuted : ∃ (sa sx : List Net) (s d : Side), (∀ n ∈ sa ++ sx, WF n) ∧
    Iptables.calculate .v4 sa sx [] [] = .ok (s, d) ∧ Den s.inc .v4 (10 * 2 ^ 24) ∧ s.exc = [] ∧
    ¬ AddrMatch sa sx .v4 (10 * 2 ^ 24) := by
  refine ⟨[ip4 10 0 0 0 8], [ip4 10 0 0 0 8], ⟨[ip4 10 0 0 0 8], []⟩, ⟨[allIps .v4], []⟩, ?_, by decide +kernel, ?_, rfl, ?_⟩
  · intro n hn
    simp at hn
    subst hn
    constructor <;> decide
  · exact ⟨_, List.mem_singleton.2 rfl, rfl, by decide, by decide⟩
  · rintro ⟨_, h⟩
    exact h ⟨_, List.mem_singleton.2 rfl, rfl, by decide, by decide⟩

/-! ### C47: ports -/

/-- C47: the port statements hold exactly the given ranges in order, none of them takes more than the 15 ports of the
kernel, and only a single port or range is written without the multiport match. -/
theorem C47 (ps : List PortRange) :
    (Iptables.portStatements ps).flatMap Prod.snd = ps ∧
    (∀ x, PMem ps x ↔ ∃ s ∈ Iptables.portStatements ps, PMem s.2 x) ∧
    ∀ s ∈ Iptables.portStatements ps, portCount s.2 ≤ 15 ∧ s.2 ≠ [] ∧ (s.1 = false → ∃ r, s.2 = [r]) := by
  obtain ⟨h1, h2, _⟩ := portStatements_spec ps
  refine ⟨h1, fun x => ?_, h2⟩
  conv => lhs; rw [← h1]
  unfold PMem
  constructor
  · rintro ⟨r, hr, hx⟩
    obtain ⟨s, hs, hr⟩ := List.mem_flatMap.1 hr
    exact ⟨s, hs, r, hr, hx⟩
  · rintro ⟨s, hs, r, hr, hx⟩
    exact ⟨r, List.mem_flatMap.2 ⟨s, hs, hr⟩, hx⟩

/-- Nine ranges and three ports need two statements. -/
example : (Iptables.portStatements ((List.range 9).map (fun i => (10 * i, 10 * i + 5)) ++ [(200, 200), (201, 201), (202, 202)])).map
    (fun s => portCount s.2) = [14, 7] := by decide +kernel

end Verif.Props
