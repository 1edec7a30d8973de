import Verif.Lemmas.Gce
import Verif.Props.Policy

/-!
Properties of the model of capirca/lib/gce.py: C79, C80.
-/

namespace Verif.Props
open Verif Verif.Spec Verif.Spec.Gce Verif.Gce Policy Aclgenerator Nacaddr

/-- The addresses of one direction are rendered faithfully. -/
def GSide (af : String) (inc exc : List Net) : Prop :=
  (exc = [] ∧ ∀ n ∈ inc, n.ver = .v6 → ¬ Embedded n.addr) ∨
  (exc ≠ [] ∧ af ≠ "mixed" ∧ (∀ a ∈ inc, ∀ b ∈ inc, a.ver = b.ver) ∧ (∀ a ∈ exc, ∀ b ∈ exc, a.ver = b.ver) ∧
    Disjoint inc ∧ ∀ x, Den inc .v6 x → ¬ Embedded x)

/-- The terms that are rendered faithfully in a filter of the family and direction, apart from the keywords. -/
structure GceShape (af dir : String) (g : GTerm) : Prop where
  sane : sanityCheck g.term = .ok ()
  action : ∃ a, g.term.action = [a]
  family : g.term.restrictAddressFamily = none
  ttl : g.term.ttl ≠ some 0
  trafficClass : g.term.trafficClass ≠ some 0
  src : ∀ n ∈ g.term.sourceAddress ++ g.term.sourceAddressExclude, WF n
  dst : ∀ n ∈ g.term.destinationAddress ++ g.term.destinationAddressExclude, WF n
  srcSide : GSide af g.term.sourceAddress g.term.sourceAddressExclude
  dstSide : GSide af g.term.destinationAddress g.term.destinationAddressExclude
  ingress : dir = "INGRESS" → g.term.destinationAddressExclude = [] ∧
    ((g.term.sourceAddress ≠ [] ∧ g.term.sourceTag = []) ∨
      (g.term.sourceAddress = [] ∧ g.term.sourceTag ≠ [] ∧ (af = "mixed" → "icmpv6" ∉ g.term.protocol)))
  egress : dir = "EGRESS" → g.term.destinationAddress ≠ []
  accounts : g.srcAccounts = []
  tags : "" ∉ g.term.sourceTag ++ g.term.destinationTag
  protos : ∀ s ∈ g.term.protocol, s ∈ iana.map Prod.fst
  igmp : "igmp" ∈ g.term.protocol → af = "inet"
  ports : g.term.destinationPort ≠ [] → g.term.protocol ≠ []

/-- The terms that are rendered faithfully in a filter of the family and direction. For what happens without the conditions
beyond the tool's own checks, see the refutations. -/
structure GceFits (af dir : String) (g : GTerm) : Prop extends GceShape af dir g where
  keywords : initCheck Gce.tables [(["gce"], [kterm g.term])] = .ok ()

theorem gtables_ok : ∀ e ∈ Gce.tables.subTokens, e.1 ∈ Gce.tables.tokens := by decide

/-- The term without its tags. -/
def untag (t : Term) : Term := { t with sourceTag := [], destinationTag := [] }

theorem matches_untag {t : Term} {p : Packet} :
    Matches t p ↔ Matches (untag t) p ∧ OneOf t.sourceTag p.srcTag ∧ OneOf t.destinationTag p.dstTag := by
  unfold Matches MatchPrefixes
  have h1 : OneOf (untag t).sourceTag p.srcTag := .inl rfl
  have h2 : OneOf (untag t).destinationTag p.dstTag := .inl rfl
  constructor
  · rintro ⟨a, b, c, ⟨d1, d2, d3, d4, d5, d6⟩, e, f⟩
    exact ⟨⟨a, b, c, ⟨d1, d2, d3, d4, h1, h2⟩, e, f⟩, d5, d6⟩
  · rintro ⟨⟨a, b, c, ⟨d1, d2, d3, d4, _, _⟩, e, f⟩, d5, d6⟩
    exact ⟨a, b, c, ⟨d1, d2, d3, d4, d5, d6⟩, e, f⟩

theorem live_active {g : GTerm} (h : Live g) : Active "gce" (kterm g.term) := ⟨h.2.2.1, h.2.2.2⟩

theorem gplain {af dir : String} {g : GTerm} (f : GceFits af dir g) (hl : Live g) : g.term.verbatim = [] :=
  Cisco.listVal_falsy (unset (g := Gce.tables) gtables_ok rfl (live_active hl) f.keywords "verbatim" (by simp [attrsOf]) (by decide))

theorem gmatches {af dir : String} {g : GTerm} (f : GceFits af dir g) (hl : Live g) (ho : g.term.option = [])
    (hsp : g.term.sourcePort = []) {p : Packet} :
    Matches g.term p ↔ (AddrMatch g.term.sourceAddress g.term.sourceAddressExclude p.ver p.src ∧
        AddrMatch g.term.destinationAddress g.term.destinationAddressExclude p.ver p.dst) ∧
      OneOf g.term.protocol p.proto ∧ PortMatch g.term.destinationPort p.dport ∧
      OneOf g.term.sourceTag p.srcTag ∧ OneOf g.term.destinationTag p.dstTag := by
  have un := fun (s : String) {v : Val} => unset (g := Gce.tables) gtables_ok rfl (live_active hl) f.keywords s (v := v)
  have b : Basic g.term := basic_of (g := Gce.tables) gtables_ok rfl (by decide) (live_active hl) f.keywords
  have b' : Basic (untag g.term) := ⟨b.1, b.2, b.3, b.4, b.5, b.6, b.7, b.8, b.9, b.10, b.11, b.12, b.13, b.14, b.15, b.16,
    b.17, b.18, b.19, b.20, b.21, b.22, b.23, b.24⟩
  have h5 : (untag g.term).protocolExcept = [] :=
    Cisco.wordsVal_falsy (un "protocol_except" (by simp [attrsOf, untag]) (by decide))
  have h8 : (untag g.term).icmpType = [] :=
    Cisco.wordsVal_falsy (un "icmp_type" (by simp [attrsOf, untag]) (by decide))
  have h9 : (untag g.term).icmpCode = [] :=
    Cisco.listVal_falsy (un "icmp_code" (by simp [attrsOf, untag]) (by decide))
  have h10 : (untag g.term).option = [] := ho
  have h11 : (untag g.term).sourcePort = [] := hsp
  rw [matches_untag, matches_basic b' ⟨rfl, rfl, f.ttl, f.trafficClass⟩ (.inl f.family)]
  unfold MatchProto
  rw [h5, h8, h9, h10, h11]
  constructor
  · rintro ⟨⟨a, c, d, _, _⟩, e⟩
    exact ⟨a, c.1, d.2, e⟩
  · rintro ⟨a, c, d, e⟩
    exact ⟨⟨a, ⟨c, by simp⟩, ⟨.inl rfl, d⟩, ⟨.inl rfl, .inl rfl⟩, by simp⟩, e⟩

/-! ### flattening -/

theorem embedded_iff {n : Net} : embedded n = true ↔ n.ver = .v6 ∧ Embedded n.addr := by
  unfold embedded Embedded
  simp [or_assoc]

/-- A list of networks that stands for the included addresses without the excluded ones. -/
structure Stands (inc exc l : List Net) : Prop where
  wf : ∀ n ∈ l, WF n
  plain : ∀ n ∈ l, embedded n = false
  den : ∀ v x, Den l v x ↔ Den inc v x ∧ ¬ Den exc v x
  nil : inc = [] → l = []

theorem wf_self {n : Net} (_ : WF n) : Mem n n.ver n.addr :=
  ⟨rfl, Nat.le_refl _, Nat.lt_add_of_pos_right (Nat.pow_pos (by decide))⟩

theorem gside_plain {af : String} {inc : List Net} (w : ∀ n ∈ inc, WF n) (f : GSide af inc []) : Stands inc [] inc := by
  rcases f with ⟨_, h⟩ | ⟨h, _⟩
  · refine ⟨w, fun n hn => ?_, fun v x => by simp [Den], fun h => h⟩
    cases he : embedded n with
    | false => rfl
    | true => exact absurd (embedded_iff.1 he).2 (h n hn (embedded_iff.1 he).1)
  · exact absurd rfl h

theorem flattenField_stands {af : String} {inc exc : List Net} {old : Option (List Net)} {r : List Net × Option (List Net)}
    (w : ∀ n ∈ inc ++ exc, WF n) (f : GSide af inc exc) (h : flattenField inc exc old = .ok r) : Stands inc exc r.1 := by
  obtain ⟨wi, we⟩ := addrMatch_wf w
  by_cases he : exc = []
  · subst he
    cases h
    exact gside_plain wi f
  · unfold flattenField at h
    rw [if_neg (by simpa using he)] at h
    obtain ⟨l, h1, h⟩ := bind_ok h
    cases h
    rcases f with ⟨h, _⟩ | ⟨_, _, f1, f2, f3, f4⟩
    · exact absurd h he
    · obtain ⟨l', e, wl, dl⟩ := addressListExclude_nocollapse_spec inc exc wi we f1 f2 f3
      rw [h1] at e
      cases e
      refine ⟨wl, fun n hn => ?_, dl, ?_⟩
      · cases he : embedded n with
        | false => rfl
        | true =>
          obtain ⟨h2, h3⟩ := embedded_iff.1 he
          have := ((dl _ _).1 ⟨n, hn, wf_self (wl n hn)⟩).1
          rw [h2] at this
          exact absurd h3 (f4 _ this)
      · rintro rfl
        refine List.eq_nil_iff_forall_not_mem.2 fun n hn => ?_
        obtain ⟨m, hm, _⟩ := ((dl _ _).1 ⟨n, hn, wf_self (wl n hn)⟩).1
        cases hm

/-- What flattening leaves of a term. -/
structure Flattened (dir : String) (t t' : Term) : Prop where
  src : Stands t.sourceAddress t.sourceAddressExclude t'.sourceAddress
  dst : Stands t.destinationAddress t.destinationAddressExclude t'.destinationAddress
  same : t'.sourceTag = t.sourceTag ∧ t'.destinationTag = t.destinationTag ∧ t'.destinationPort = t.destinationPort ∧
    t'.action = t.action
  left : dir = "INGRESS" → t.sourceAddress ≠ [] → t'.sourceAddress ≠ []
  right : dir = "EGRESS" → t.destinationAddress ≠ [] → t'.destinationAddress ≠ []
  plain : t.sourceAddressExclude = [] → t.destinationAddressExclude = [] → t' = t

theorem flatten_spec {af dir : String} {t t' : Term} (ws : ∀ n ∈ t.sourceAddress ++ t.sourceAddressExclude, WF n)
    (wd : ∀ n ∈ t.destinationAddress ++ t.destinationAddressExclude, WF n)
    (fs : GSide af t.sourceAddress t.sourceAddressExclude) (fd : GSide af t.destinationAddress t.destinationAddressExclude)
    (h : flatten dir t = .ok t') : Flattened dir t t' := by
  unfold flatten at h
  split at h
  next hx =>
    obtain ⟨o, h1, h2⟩ := bind_ok h
    obtain ⟨sa, da, ad, f1, f2, f3, rfl, hh⟩ := flattenAll_shape h1
    unfold checkLeft at h2
    split at h2
    · cases h2
    next hn =>
      have e := Except.ok.inj h2
      subst e
      simp only [Bool.or_eq_true, Bool.and_eq_true, List.isEmpty_iff, beq_iff_eq, not_or, not_and] at hn
      rcases hh with ⟨e1, e2, _⟩ | ⟨_, g1, g2, _⟩
      · unfold excludes at hx
        rw [e1, e2] at hx
        simp at hx
      · refine ⟨flattenField_stands ws fs g1, flattenField_stands wd fd g2, ⟨rfl, rfl, rfl, rfl⟩, fun hd _ h => hn.1 h hd,
          fun hd _ h => hn.2 h hd, fun e1 e2 => ?_⟩
        unfold excludes at hx
        rw [e1, e2] at hx
        simp at hx
  next hx =>
    cases h
    have key : ∀ inc exc, (∀ n ∈ inc ++ exc, WF n) → GSide af inc exc → (exc = [] ∨ inc = []) → Stands inc exc inc := by
      intro inc exc w f h
      rcases h with rfl | rfl
      · exact gside_plain (addrMatch_wf w).1 f
      · exact ⟨by simp, by simp, fun v x => by simp [Den], fun h => h⟩
    unfold excludes at hx
    simp only [Bool.or_eq_true, Bool.and_eq_true, Bool.not_eq_true', List.isEmpty_eq_false_iff, not_or, not_and,
      Classical.not_not] at hx
    refine ⟨key _ _ ws fs ?_, key _ _ wd fd ?_, ⟨rfl, rfl, rfl, rfl⟩, fun _ h => h, fun _ h => h, fun _ _ => rfl⟩
    · by_cases h : t.sourceAddressExclude = []
      · exact .inl h
      · exact .inr (hx.1 h)
    · by_cases h : t.destinationAddressExclude = []
      · exact .inl h
      · exact .inr (hx.2 h)

theorem refused_false {dir : String} {t : Term} (h : refused dir t = false) :
    (dir = "INGRESS" → (t.sourceAddress ≠ [] ∨ t.sourceTag ≠ []) ∧ t.destinationAddress = []) ∧
    (dir = "EGRESS" → t.sourceAddress = [] ∧ t.destinationAddress ≠ [] ∧ ∀ s ∈ t.destinationTag, s = "") ∧
    (t.sourceAddressExclude = [] ∨ t.sourceAddress ≠ []) ∧ t.sourcePort = [] := by
  unfold refused tagsPresent at h
  simp only [Bool.or_eq_false_iff, Bool.and_eq_false_iff, List.isEmpty_eq_false_iff, beq_eq_false_iff_ne,
    List.isEmpty_iff, Bool.not_eq_false', List.any_eq_false, bne_iff_ne, ne_eq, Classical.not_not] at h
  obtain ⟨⟨⟨h1, h2⟩, h3⟩, h4⟩ := h
  refine ⟨fun hd => ?_, fun hd => ?_, h3, h4⟩
  · rcases h1 with h1 | h1
    · exact absurd hd h1
    · exact h1
  · rcases h2 with h2 | ⟨⟨h2, h5⟩, h6⟩
    · exact absurd hd h2
    · exact ⟨h2, h5, h6⟩

/-! ### one pass over a term -/

theorem gport {t : Term} {p : Packet} (hsane : sanityCheck t = .ok ()) (hv : t.verbatim = []) (hr : t.destinationPort ≠ [] → t.protocol ≠ [])
    (hp : OneOf t.protocol p.proto) :
    (t.destinationPort = [] ∨ ∃ r ∈ t.destinationPort, Flat.PortIn p p.dport r) ↔ PortMatch t.destinationPort p.dport := by
  unfold PortMatch
  by_cases h0 : t.destinationPort = []
  · simp [h0]
  · simp only [h0, false_or]
    have hin : p.proto ∈ Flat.portProtos := by
      rcases hp with h | h
      · exact absurd h (hr h0)
      · exact sane_ports hsane hv (.inr h0) h
    constructor
    · rintro ⟨r, hr, _, h⟩
      exact ⟨r, hr, h⟩
    · rintro ⟨r, hr, h⟩
      exact ⟨r, hr, hin, h⟩

theorem notag {l : List String} (h : "" ∉ l) : (l.filter fun s => s != "") = l := by
  rw [List.filter_eq_self]
  intro s hm
  simp only [bne_iff_ne, ne_eq]
  rintro rfl
  exact h hm

/-- The versions of packets a pass renders the term for. -/
def Sel (c : Ctx) (v : Ver) (g : GTerm) (w : Ver) : Prop :=
  if c.direction = "INGRESS" ∧ g.term.sourceAddress = [] then ¬ (c.mixed = true ∧ v = .v6) else w = v

/-- What the checks of the keywords leave of the meaning of a term. -/
def GceSimple (t : Term) : Prop :=
  t.verbatim = [] ∧ ∀ p, Matches t p ↔ (AddrMatch t.sourceAddress t.sourceAddressExclude p.ver p.src ∧
      AddrMatch t.destinationAddress t.destinationAddressExclude p.ver p.dst) ∧
    OneOf t.protocol p.proto ∧ PortMatch t.destinationPort p.dport ∧
    OneOf t.sourceTag p.srcTag ∧ OneOf t.destinationTag p.dstTag

theorem pass_iff {af : String} {c : Ctx} {v : Ver} {g : GTerm} {t' : Term} {name desc : Str} {ps : List Proto} {rs : List Rule}
    {fl : Flow} (f : GceShape af c.direction g) (hsimple : GceSimple g.term) (hr : refused c.direction g.term = false)
    (hf : Flattened c.direction g.term t') (hps : ps = (g.term.protocol.map Proto.str).map Verif.Gce.protoNumber)
    (h : convert c v g t' name desc ps = .ok rs) (hdir : c.direction = "INGRESS" ∨ c.direction = "EGRESS")
    (haf : af = "inet" ∨ af = "inet6" ∨ af = "mixed")
    (hv : v ∈ families af) (hm : c.mixed = (af == "mixed")) (hc : Coherent fl.packet) (hof : OfFamily af fl) :
    (∃ r ∈ rs, Hits r fl) ↔ Sel c v g fl.packet.ver ∧ (c.network = fl.network ∧ c.direction = fl.direction) ∧
      Matches g.term fl.packet ∧ OneOf g.dstAccounts fl.account := by
  obtain ⟨r1, r2, r3, r4⟩ := refused_false hr
  by_cases hq : c.network = fl.network ∧ c.direction = fl.direction
  case neg =>
    refine iff_of_false ?_ (fun h => hq h.2.1)
    rintro ⟨r, hr, hh⟩
    obtain ⟨action, nm, s, d, _, rfl, _⟩ := convert_mem h hr
    have := hh.1
    unfold protoDict at this
    dsimp only at this
    rw [network_getD] at this
    exact hq this
  obtain ⟨hplain, hmatch⟩ := hsimple
  rw [hmatch]
  have hproto : fl.packet.proto ∈ iana.map Prod.fst := hc.proto
  obtain ⟨s1, s2, s3, s4⟩ := hf.same
  -- the parts that do not depend on the addresses
  have here : (∀ s ∈ g.term.protocol, dropped v (Verif.Gce.protoNumber (.str s)) = true → fl.packet.proto ≠ s) →
      (Here c v g t' ps fl ↔ (OneOf (targetTags c.direction t') fl.tag ∧ OneOf g.dstAccounts fl.account) ∧
        OneOf g.term.protocol fl.packet.proto ∧ PortMatch g.term.destinationPort fl.packet.dport) := by
    intro hd
    unfold Here
    rw [hps, protos_hit f.protos hproto hd, s3]
    constructor
    · rintro ⟨_, a, b, d⟩
      exact ⟨a, b, (gport f.sane hplain f.ports b).1 d⟩
    · rintro ⟨a, b, d⟩
      exact ⟨hq, a, b, (gport f.sane hplain f.ports b).2 d⟩
  have hdrop : v = fl.packet.ver → ∀ s ∈ g.term.protocol, dropped v (Verif.Gce.protoNumber (.str s)) = true → fl.packet.proto ≠ s := by
    rintro rfl s hs hd rfl
    rcases dropped_iff hproto hd with ⟨h6, h | h⟩ | ⟨h4, h⟩
    · exact hc.icmp6 h6 h
    · have := f.igmp (h ▸ hs)
      rw [hof.1 this] at h6
      cases h6
    · exact hc.icmp4 h4 h
  obtain ⟨ws, _⟩ := addrMatch_wf f.src
  have htags := fun s (h : s ∈ g.term.sourceTag ++ g.term.destinationTag) (e : s = "") => f.tags (e ▸ h)
  have hn1 : "" ∉ g.term.sourceTag := fun h => f.tags (List.mem_append_left _ h)
  have hn2 : "" ∉ g.term.destinationTag := fun h => f.tags (List.mem_append_right _ h)
  rcases hdir with hI | hE
  · obtain ⟨i1, i2⟩ := f.ingress hI
    have hdst : g.term.destinationAddress = [] := (r1 hI).2
    have hfd : fl.direction = "INGRESS" := hq.2 ▸ hI
    have ed : t'.destinationAddress = [] := hf.dst.nil hdst
    have etag : targetTags c.direction t' = g.term.destinationTag := by
      unfold targetTags
      rw [hI, if_neg (by decide), if_pos rfl, s2, notag hn2]
    have eflow : fl.tag = fl.packet.dstTag := by unfold Flow.tag; rw [if_pos hfd]
    have hdm : AddrMatch g.term.destinationAddress g.term.destinationAddressExclude fl.packet.ver fl.packet.dst := by
      rw [hdst, i1]
      exact ⟨.inl rfl, by simp [Den]⟩
    rcases i2 with ⟨hsa, hst⟩ | ⟨hsa, hst, h6⟩
    · have hsel : Sel c v g fl.packet.ver ↔ fl.packet.ver = v := by
        unfold Sel
        rw [if_neg (fun h => hsa h.2)]
      rw [hsel, convert_source h hfd (hf.left hI hsa) ed (s1.trans hst) f.accounts hf.src.wf,
        addresses_den hf.src.plain]
      by_cases hver : fl.packet.ver = v
      case neg => exact iff_of_false (fun h => hver h.2.1) (fun h => hver h.1)
      rw [here (hdrop hver.symm), etag, eflow, ← hver, hf.src.den, hst]
      constructor
      · rintro ⟨⟨⟨a, b⟩, d, e⟩, _, e1, e2⟩
        exact ⟨rfl, hq, ⟨⟨⟨.inr e1, e2⟩, hdm⟩, d, e, .inl rfl, a⟩, b⟩
      · rintro ⟨_, _, ⟨⟨⟨e1, e2⟩, _⟩, d, e, _, a⟩, b⟩
        exact ⟨⟨⟨a, b⟩, d, e⟩, rfl, e1.resolve_left hsa, e2⟩
    · have hsx : g.term.sourceAddressExclude = [] := r3.resolve_right (fun h => h hsa)
      have hsel : Sel c v g fl.packet.ver ↔ ¬ (c.mixed = true ∧ v = .v6) := by
        unfold Sel
        rw [if_pos ⟨hI, hsa⟩]
      rw [hsel, convert_tags h hI hfd (hf.src.nil hsa) ed (by rw [s1]; exact hst) (by rw [s1]; exact hn1) f.accounts]
      by_cases hnm : c.mixed = true ∧ v = .v6
      case pos => exact iff_of_false (fun h => h.1 hnm) (fun h => h.1 hnm)
      simp only [hnm, not_false_iff, true_and]
      have hd : ∀ s ∈ g.term.protocol, dropped v (Verif.Gce.protoNumber (.str s)) = true → fl.packet.proto ≠ s := by
        by_cases hmx : af = "mixed"
        · rintro s hs hd rfl
          rcases dropped_iff hproto hd with ⟨h1, _⟩ | ⟨_, h⟩
          · exact hnm ⟨by rw [hm, hmx]; rfl, h1⟩
          · exact h6 hmx (h ▸ hs)
        · apply hdrop
          unfold families at hv
          rw [if_neg hmx] at hv
          split at hv
          next h => rw [List.mem_singleton.1 hv, hof.2 h]
          next h =>
            rw [List.mem_singleton.1 hv, hof.1 ((haf.resolve_right (fun h' => h'.elim h hmx)))]
      rw [here hd, etag, eflow, s1, hsa, hsx]
      constructor
      · rintro ⟨⟨⟨a, b⟩, d, e⟩, e1⟩
        exact ⟨hq, ⟨⟨⟨.inl rfl, by simp [Den]⟩, hdm⟩, d, e, .inr e1, a⟩, b⟩
      · rintro ⟨_, ⟨_, d, e, e1, a⟩, b⟩
        exact ⟨⟨⟨a, b⟩, d, e⟩, e1.resolve_left hst⟩
  · obtain ⟨e1, e2, e3⟩ := r2 hE
    have hfd : fl.direction ≠ "INGRESS" := by rw [← hq.2, hE]; decide
    have hsx : g.term.sourceAddressExclude = [] := r3.resolve_right (fun h => h e1)
    have edt : g.term.destinationTag = [] := List.eq_nil_iff_forall_not_mem.2 fun s hs =>
      htags s (List.mem_append_right _ hs) (e3 s hs)
    have etag : targetTags c.direction t' = g.term.sourceTag := by
      unfold targetTags
      rw [hE, if_pos rfl, s1, notag hn1]
    have eflow : fl.tag = fl.packet.srcTag := by unfold Flow.tag; rw [if_neg hfd]
    have hsel : Sel c v g fl.packet.ver ↔ fl.packet.ver = v := by
      unfold Sel
      rw [hE, if_neg (fun h => absurd h.1 (by decide))]
    rw [hsel, convert_destination h hfd (hf.right hE e2) (hf.src.nil e1) hf.dst.wf, addresses_den hf.dst.plain]
    by_cases hver : fl.packet.ver = v
    case neg => exact iff_of_false (fun h => hver h.2.1) (fun h => hver h.1)
    rw [here (hdrop hver.symm), etag, eflow, ← hver, hf.dst.den, edt, e1, hsx]
    constructor
    · rintro ⟨⟨⟨a, b⟩, d, e⟩, _, x1, x2⟩
      exact ⟨rfl, hq, ⟨⟨⟨.inl rfl, by simp [Den]⟩, .inr x1, x2⟩, d, e, a, .inl rfl⟩, b⟩
    · rintro ⟨_, _, ⟨⟨_, x1, x2⟩, d, e, a, _⟩, b⟩
      exact ⟨⟨⟨a, b⟩, d, e⟩, rfl, x1.resolve_left e2, x2⟩

/-! ### one term -/

/-- The names of the actions. -/
theorem actionOf_ok {t : Term} {a w : String} (ha : t.action = [w]) (h : actionOf t = .ok a) :
    (w = "accept" ∧ a = "allowed") ∨ (w = "deny" ∧ a = "denied") := by
  unfold actionOf at h
  rw [ha] at h
  dsimp only at h
  split at h
  next s hs =>
    cases h
    have : (w, a) ∈ actionMap := Cisco.mem_of_lookup' hs
    simpa [actionMap] using this
  · cases h

theorem famLoop_cons {c : Ctx} {limit : Nat} {g : GTerm} {name : Str} {v : Ver} {vs : List Ver} {t : Term} {ps : List Proto}
    {comment : List Str} {n : Nat} {o : Out} (h : famLoop c limit g name (v :: vs) t ps comment n = .ok o) :
    ∃ q rs m o', newTerm c.direction t ps = .ok q ∧ convert c v g q.1 name (describe (withOwner g comment)) q.2 = .ok rs ∧
      famLoop c limit g name vs q.1 q.2 (withOwner g comment) m = .ok o' ∧ o.rules = rs ++ o'.rules := by
  rw [famLoop] at h
  obtain ⟨q, h1, h⟩ := bind_ok h
  obtain ⟨rs, h2, h⟩ := bind_ok h
  obtain ⟨m, _, h⟩ := bind_ok h
  obtain ⟨o', h3, h⟩ := bind_ok h
  cases h
  exact ⟨q, rs, m, o', h1, h2, h3, rfl⟩

theorem oneTerm_live {c : Ctx} {limit : Nat} {vs : List Ver} {header : List Str} {n : Nat} {g : GTerm} {name : Str} {o : Out}
    (h : oneTerm c limit vs header n g name = .ok o) (hl : Live g) : g.term.option = [] ∧ ∃ comment o',
    famLoop c limit g name vs g.term (g.term.protocol.map .str) comment n = .ok o' ∧ o'.rules = o.rules := by
  unfold oneTerm at h
  rw [if_neg (by simp [hl.1])] at h
  split at h
  · cases h
  next ho =>
    have he : elsewhere g.term = false := by
      unfold elsewhere
      obtain ⟨_, _, h1, h2⟩ := hl
      rcases h1 with h1 | h1 <;> simp [h1, h2]
    rw [he, if_neg (by simp)] at h
    obtain ⟨o', h1, h⟩ := bind_ok h
    cases h
    exact ⟨by simpa using ho, _, o', h1, rfl⟩

theorem oneTerm_dead {c : Ctx} {limit : Nat} {vs : List Ver} {header : List Str} {n : Nat} {g : GTerm} {name : Str} {o : Out}
    (h : oneTerm c limit vs header n g name = .ok o) (hr : g.reply = false) (hl : ¬ Live g) : o.rules = [] := by
  unfold oneTerm at h
  split at h
  · cases h; rfl
  next h0 =>
    split at h
    · cases h
    · split at h
      · cases h; rfl
      next h1 =>
        refine absurd ⟨by simpa using h0, hr, ?_⟩ hl
        unfold elsewhere at h1
        simp only [Bool.or_eq_true, Bool.and_eq_true, Bool.not_eq_true', List.isEmpty_eq_false_iff, not_or, not_and,
          List.contains_iff_mem] at h1
        refine ⟨?_, fun h2 => ?_⟩
        · by_cases h2 : g.term.platform = []
          · exact .inl h2
          · have := h1.1 h2
            simp only [← Bool.not_eq_true, List.contains_iff_mem] at this
            exact .inr (Classical.not_not.1 this)
        · exact h1.2 (by rintro e; rw [e] at h2; cases h2) h2

theorem sel_families {af : String} {c : Ctx} {g : GTerm} {fl : Flow} (haf : af = "inet" ∨ af = "inet6" ∨ af = "mixed")
    (hm : c.mixed = (af == "mixed")) (hof : OfFamily af fl) : ∃ v ∈ families af, Sel c v g fl.packet.ver := by
  unfold Sel
  rcases haf with rfl | rfl | rfl
  · refine ⟨.v4, by decide, ?_⟩
    rw [hof.1 rfl]
    split
    · simp
    · rfl
  · refine ⟨.v6, by decide, ?_⟩
    rw [hof.2 rfl]
    split
    · simp [hm]
    · rfl
  · by_cases h : c.direction = "INGRESS" ∧ g.term.sourceAddress = []
    · refine ⟨.v4, by decide, ?_⟩
      rw [if_pos h]
      simp
    · refine ⟨fl.packet.ver, by cases fl.packet.ver <;> decide, ?_⟩
      rw [if_neg h]

/-- The rules of a term match what the term matches. -/
theorem term_hits {af : String} {c : Ctx} {limit : Nat} {header : List Str} {n : Nat} {g : GTerm} {name : Str} {o : Out}
    {fl : Flow} (f : GceFits af c.direction g) (hl : Live g) (h : oneTerm c limit (families af) header n g name = .ok o)
    (hdir : c.direction = "INGRESS" ∨ c.direction = "EGRESS") (haf : af = "inet" ∨ af = "inet6" ∨ af = "mixed")
    (hm : c.mixed = (af == "mixed")) (hc : Coherent fl.packet) (hof : OfFamily af fl) :
    (∃ r ∈ o.rules, Hits r fl) ↔ (c.network = fl.network ∧ c.direction = fl.direction) ∧
      Matches g.term fl.packet ∧ OneOf g.dstAccounts fl.account := by
  obtain ⟨ho, comment, o', h1, e⟩ := oneTerm_live h hl
  rw [← e]
  obtain ⟨v0, hv0, hsel⟩ := sel_families (g := g) haf hm hof
  by_cases hmx : af = "mixed"
  · have hex : g.term.sourceAddressExclude = [] ∧ g.term.destinationAddressExclude = [] :=
      ⟨f.srcSide.elim (·.1) (fun h => absurd hmx h.2.1), f.dstSide.elim (·.1) (fun h => absurd hmx h.2.1)⟩
    have efam : families af = [.v4, .v6] := by rw [hmx]; rfl
    rw [efam] at h1 hv0
    obtain ⟨q, rs, m, o1, g1, g2, g3, g4⟩ := famLoop_cons h1
    obtain ⟨q', rs', m', o2, k1, k2, k3, k4⟩ := famLoop_cons g3
    cases k3
    obtain ⟨p1, p2, p3⟩ := newTerm_ok g1
    have F := flatten_spec f.src f.dst f.srcSide f.dstSide p3
    have eq := F.plain hex.1 hex.2
    obtain ⟨p1', p2', p3'⟩ := newTerm_ok k1
    rw [eq] at p2' p3'
    have F' := flatten_spec f.src f.dst f.srcSide f.dstSide p3'
    have eps : q'.2 = (g.term.protocol.map Proto.str).map Verif.Gce.protoNumber := by
      rw [p1', p1, List.map_map]
      refine List.map_congr_left fun x _ => protoNumber_idem x
    have hsimple : GceSimple g.term := ⟨gplain f hl, fun p => gmatches f hl ho (refused_false p2).2.2.2⟩
    have a1 := pass_iff f.toGceShape hsimple p2 F p1 g2 hdir haf (by rw [efam]; simp) hm hc hof
    have a2 := pass_iff f.toGceShape hsimple p2' F' eps k2 hdir haf (by rw [efam]; simp) hm hc hof
    rw [g4, k4]
    simp only [List.append_nil, List.mem_append, or_and_right, exists_or, a1, a2]
    constructor
    · rintro (h | h) <;> exact h.2
    · intro h
      rcases List.mem_cons.1 hv0 with rfl | hv0
      · exact .inl ⟨hsel, h⟩
      · rw [List.mem_singleton.1 hv0] at hsel
        exact .inr ⟨hsel, h⟩
  · have efam : families af = [v0] := by
      unfold families at hv0 ⊢
      rw [if_neg hmx] at hv0 ⊢
      split at hv0
      all_goals
        rw [List.mem_singleton.1 hv0]
        simp [*]
    have hv := hv0
    rw [efam] at h1
    obtain ⟨q, rs, m, o1, g1, g2, g3, g4⟩ := famLoop_cons h1
    cases g3
    obtain ⟨p1, p2, p3⟩ := newTerm_ok g1
    have F := flatten_spec f.src f.dst f.srcSide f.dstSide p3
    have hsimple : GceSimple g.term := ⟨gplain f hl, fun p => gmatches f hl ho (refused_false p2).2.2.2⟩
    rw [g4, List.append_nil, pass_iff f.toGceShape hsimple p2 F p1 g2 hdir haf hv hm hc hof]
    simp only [hsel, true_and]

/-- What the rules of a term have in common. -/
theorem term_mem {c : Ctx} {limit : Nat} {vs : List Ver} {header : List Str} {n : Nat} {g : GTerm} {name : Str} {o : Out}
    (hl : Live g) (h : oneTerm c limit vs header n g name = .ok o) {r : Rule} (hr : r ∈ o.rules) :
    actionOf g.term = .ok r.action ∧ r.priority = g.priority ∧ r.network.getD "" = c.network ∧ r.direction = c.direction := by
  obtain ⟨_, comment, o', h1, e⟩ := oneTerm_live h hl
  rw [← e] at hr
  obtain ⟨v, _, t0, t', cm, ps', rs, _, _, h6, h7, h8⟩ := famLoop_mem h1 r hr
  obtain ⟨action, nm, s, d, ha, rfl, _⟩ := convert_mem h7 h8
  refine ⟨?_, rfl, network_getD _, rfl⟩
  unfold actionOf at ha ⊢
  rw [h6] at ha
  exact ha

/-! ### terms that deny everything -/

theorem catchAll_default {g : GTerm} (h : CatchAll g) : isDefaultDeny g = true := by
  obtain ⟨h1, h2, h3, h4, h5, h6⟩ := h
  unfold isDefaultDeny
  rw [h1, h2, h3, h4, h5, h6]
  simp [attrsOf, Val.truthy, listVal, wordsVal, flagVal, numVal]

theorem fits_default {af dir : String} {g : GTerm} (hdir : dir = "INGRESS" ∨ dir = "EGRESS") (f : GceShape af dir g) :
    isDefaultDeny g = false := by
  have key : ∀ s, ∀ v : Val, (s, v) ∈ attrsOf g.term → v.truthy = true →
      ["flattened", "action", "name", "logging", "ttl", "traffic_class"].contains s = false → isDefaultDeny g = false := by
    intro s v hm hv hs
    cases hd : isDefaultDeny g with
    | false => rfl
    | true =>
      unfold isDefaultDeny at hd
      simp only [Bool.and_eq_true, List.all_eq_true] at hd
      have := hd.1.1.1.1.1.2 _ hm
      rw [hs, hv] at this
      cases this
  have truthy : ∀ {α : Type} (l : List α), l ≠ [] → (listVal l).truthy = true := by
    intro α l h
    cases l with
    | nil => exact absurd rfl h
    | cons => rfl
  rcases hdir with h | h
  · rcases (f.ingress h).2 with h | h
    · exact key "source_address" (listVal g.term.sourceAddress) (by simp [attrsOf]) (truthy _ h.1) (by decide)
    · refine key "source_tag" (wordsVal g.term.sourceTag) (by simp [attrsOf]) ?_ (by decide)
      cases hw : g.term.sourceTag with
      | nil => exact absurd hw h.2.1
      | cons => rfl
  · exact key "destination_address" (listVal g.term.destinationAddress) (by simp [attrsOf]) (truthy _ (f.egress h)) (by decide)

/-- A term that denies everything is refused unless it is the last. -/
theorem catchAll_refused {c : Ctx} {limit : Nat} {af : String} {header : List Str} {n : Nat} {g : GTerm} {name : Str} {o : Out}
    (hg : CatchAll g) (hdir : c.direction = "INGRESS" ∨ c.direction = "EGRESS") (hl : Live g)
    (h : oneTerm c limit (families af) header n g name = .ok o) : False := by
  obtain ⟨_, comment, o', h1, _⟩ := oneTerm_live h hl
  have : ∃ v vs, families af = v :: vs := by
    unfold families
    split
    · exact ⟨_, _, rfl⟩
    · split <;> exact ⟨_, _, rfl⟩
  obtain ⟨v, vs, e⟩ := this
  rw [e] at h1
  obtain ⟨q, _, _, _, g1, _⟩ := famLoop_cons h1
  obtain ⟨r1, r2, _⟩ := refused_false (newTerm_ok g1).2.1
  rw [hg.1] at r1 r2
  rcases hdir with hd | hd
  · exact (r1 hd).1.elim (fun h => h rfl) (fun h => h rfl)
  · exact (r2 hd).2.1 rfl

theorem anyIp_den {l : List Ver} {v w : Ver} {x : Nat} (hx : x < 2 ^ w.bits) :
    Den (addresses v (l.map anyIp)) w x ↔ w = v ∧ v ∈ l := by
  rw [addresses_den]
  · constructor
    · rintro ⟨h1, n, hn, h⟩
      obtain ⟨u, hu, rfl⟩ := List.mem_map.1 hn
      exact ⟨h1, h.1 ▸ hu⟩
    · rintro ⟨rfl, h⟩
      refine ⟨rfl, anyIp w, List.mem_map.2 ⟨w, h, rfl⟩, rfl, Nat.zero_le _, ?_⟩
      simpa [anyIp] using hx
  · intro n hn
    obtain ⟨u, _, rfl⟩ := List.mem_map.1 hn
    cases u <;> decide

theorem catchAll_matches {g : GTerm} (h : CatchAll g) (p : Packet) : Matches g.term p := by
  rw [h.1]
  simp [Matches, MatchPrefixes, MatchProto, MatchAddrs, MatchPorts, MatchMisc, MatchRest, AddrMatch, PortMatch, OneOf, Den, RangeMatch]

theorem catchAll_pass {af : String} {c : Ctx} {v : Ver} {g : GTerm} {name desc : Str} {ps : List Proto} {rs : List Rule}
    {fl : Flow} (hg : CatchAll g) (hps : ps = [.str "all"])
    (h : convert c v (asDefault c.direction af g) (asDefault c.direction af g).term name desc ps = .ok rs)
    (hdir : c.direction = "INGRESS" ∨ c.direction = "EGRESS") (hv : v ∈ families af) (hc : Coherent fl.packet) :
    (∃ r ∈ rs, Hits r fl) ↔ fl.packet.ver = v ∧ c.network = fl.network ∧ c.direction = fl.direction := by
  by_cases hq : c.network = fl.network ∧ c.direction = fl.direction
  case neg =>
    refine iff_of_false ?_ (fun h => hq h.2)
    rintro ⟨r, hr, hh⟩
    obtain ⟨action, nm, s, d, _, rfl, _⟩ := convert_mem h hr
    have := hh.1
    unfold protoDict at this
    dsimp only at this
    rw [network_getD] at this
    exact hq this
  have hne : families af ≠ [] := fun h => by rw [h] at hv; cases hv
  have hfp : filteredProtocols v ps = [.str "all"] := by
    rw [hps]
    cases v <;> decide
  have hw : ∀ n ∈ (families af).map anyIp, WF n := by
    intro n hn
    obtain ⟨u, _, rfl⟩ := List.mem_map.1 hn
    cases u <;> decide
  obtain ⟨h1, h2, h3, h4, h5, h6⟩ := hg
  have key : ∀ t : Term, t.sourceTag = [] → t.destinationTag = [] → t.destinationPort = [] →
      (asDefault c.direction af g).dstAccounts = [] → Here c v (asDefault c.direction af g) t ps fl := by
    intro t ht1 ht2 ht3 ht4
    refine ⟨hq, ⟨.inl ?_, .inl ht4⟩, ?_, .inl ht3⟩
    · unfold targetTags
      rw [ht1, ht2]
      simp
    · rw [hfp]
      exact ⟨.str "all", by simp, Or.inl rfl⟩
  rcases hdir with hd | hd
  · have hfd : fl.direction = "INGRESS" := hq.2 ▸ hd
    have et : (asDefault c.direction af g).term = { g.term with protocol := ["all"], sourceAddress := (families af).map anyIp } := by
      unfold asDefault
      rw [hd, if_neg (by decide)]
    have H : Here c v (asDefault c.direction af g) (asDefault c.direction af g).term ps fl := by
      apply key
      all_goals first | exact h5 | (rw [et, h1])
    rw [convert_source h hfd (by rw [et]; simpa using hne) (by rw [et, h1]) (by rw [et, h1]) h4 (by rw [et]; exact hw)]
    rw [show (asDefault c.direction af g).term.sourceAddress = (families af).map anyIp by rw [et], anyIp_den hc.src]
    exact ⟨fun h => ⟨h.2.1, hq⟩, fun h => ⟨H, h.1, hv⟩⟩
  · have hfd : fl.direction ≠ "INGRESS" := by rw [← hq.2, hd]; decide
    have et : (asDefault c.direction af g).term = { g.term with protocol := ["all"], destinationAddress := (families af).map anyIp } := by
      unfold asDefault
      rw [if_pos hd]
    have H : Here c v (asDefault c.direction af g) (asDefault c.direction af g).term ps fl := by
      apply key
      all_goals first | exact h5 | (rw [et, h1])
    rw [convert_destination h hfd (by rw [et]; simpa using hne) (by rw [et, h1]) (by rw [et]; exact hw)]
    rw [show (asDefault c.direction af g).term.destinationAddress = (families af).map anyIp by rw [et], anyIp_den hc.dst]
    exact ⟨fun h => ⟨h.2.1, hq⟩, fun h => ⟨H, h.1, hv⟩⟩

/-- The rules of a term that denies everything, in the last place, match everything. -/
theorem catchAll_hits {af : String} {c : Ctx} {limit : Nat} {header : List Str} {n : Nat} {g : GTerm} {name : Str} {o : Out}
    {fl : Flow} (hg : CatchAll g) (hl : Live (asDefault c.direction af g))
    (h : oneTerm c limit (families af) header n (asDefault c.direction af g) name = .ok o)
    (hdir : c.direction = "INGRESS" ∨ c.direction = "EGRESS") (haf : af = "inet" ∨ af = "inet6" ∨ af = "mixed")
    (hc : Coherent fl.packet) (hof : OfFamily af fl) :
    (∃ r ∈ o.rules, Hits r fl) ↔ c.network = fl.network ∧ c.direction = fl.direction := by
  obtain ⟨_, comment, o', h1, e⟩ := oneTerm_live h hl
  rw [← e]
  have hx : (asDefault c.direction af g).term.sourceAddressExclude = [] ∧
      (asDefault c.direction af g).term.destinationAddressExclude = [] ∧ (asDefault c.direction af g).term.protocol = ["all"] := by
    unfold asDefault
    rw [hg.1]
    split <;> exact ⟨rfl, rfl, rfl⟩
  have hflat : ∀ t', flatten c.direction (asDefault c.direction af g).term = .ok t' → t' = (asDefault c.direction af g).term := by
    intro t' h
    unfold flatten excludes at h
    rw [hx.1, hx.2.1] at h
    exact (Except.ok.inj h).symm
  rw [hx.2.2] at h1
  have eall : ([Proto.str "all"] : List Proto).map Verif.Gce.protoNumber = [.str "all"] := by decide
  rcases haf with rfl | rfl | rfl
  · obtain ⟨q, rs, m, o1, g1, g2, g3, g4⟩ := famLoop_cons h1
    cases g3
    obtain ⟨p1, p2, p3⟩ := newTerm_ok g1
    rw [hflat _ p3] at g2
    rw [g4, List.append_nil, catchAll_pass hg (p1.trans eall) g2 hdir (by decide) hc, hof.1 rfl]
    simp
  · obtain ⟨q, rs, m, o1, g1, g2, g3, g4⟩ := famLoop_cons h1
    cases g3
    obtain ⟨p1, p2, p3⟩ := newTerm_ok g1
    rw [hflat _ p3] at g2
    rw [g4, List.append_nil, catchAll_pass hg (p1.trans eall) g2 hdir (by decide) hc, hof.2 rfl]
    simp
  · obtain ⟨q, rs, m, o1, g1, g2, g3, g4⟩ := famLoop_cons h1
    obtain ⟨q', rs', m', o2, k1, k2, k3, k4⟩ := famLoop_cons g3
    cases k3
    obtain ⟨p1, p2, p3⟩ := newTerm_ok g1
    obtain ⟨p1', p2', p3'⟩ := newTerm_ok k1
    rw [hflat _ p3] at g2 p3'
    rw [hflat _ p3'] at k2
    have p1 := p1.trans eall
    rw [p1] at p1'
    have a1 := catchAll_pass hg p1 g2 hdir (by decide) hc (fl := fl)
    have a2 := catchAll_pass hg (p1'.trans eall) k2 hdir (by decide) hc (fl := fl)
    rw [g4, k4]
    simp only [List.append_nil, List.mem_append, or_and_right, exists_or, a1, a2]
    cases fl.packet.ver <;> simp

/-! ### a filter -/

theorem prepare_blocks {dir af : String} : ∀ {gs : List GTerm} {bs : List (GTerm × List Rule)}, bs.map Prod.fst = prepare dir af gs →
    ∃ bs' : List (GTerm × List Rule), bs'.flatMap Prod.snd = bs.flatMap Prod.snd ∧ bs'.map Prod.fst = gs ∧
      ∀ b' ∈ bs', ∃ b ∈ bs, b.2 = b'.2 ∧ (b.1 = b'.1 ∨ (isDefaultDeny b'.1 = true ∧ b.1 = asDefault dir af b'.1))
  | [], bs, h => by
    have : bs = [] := by simpa [prepare] using h
    subst this
    exact ⟨[], rfl, rfl, by simp⟩
  | [g], bs, h => by
    rw [prepare] at h
    obtain ⟨b, bs1, rfl, h1, h2⟩ := List.map_eq_cons_iff.1 h
    have : bs1 = [] := by simpa using h2
    subst this
    refine ⟨[(g, b.2)], rfl, rfl, ?_⟩
    intro b' hb'
    rw [List.mem_singleton.1 hb']
    refine ⟨b, by simp, rfl, ?_⟩
    by_cases hd : isDefaultDeny g = true
    · rw [if_pos hd] at h1
      exact .inr ⟨hd, h1⟩
    · rw [if_neg hd] at h1
      exact .inl h1
  | g :: h' :: gs, bs, h => by
    rw [prepare] at h
    obtain ⟨b, bs1, rfl, h1, h2⟩ := List.map_eq_cons_iff.1 h
    obtain ⟨bs2, k1, k2, k3⟩ := prepare_blocks h2
    refine ⟨b :: bs2, by rw [List.flatMap_cons, List.flatMap_cons, k1], by rw [List.map_cons, k2, h1], fun b' hb' => ?_⟩
    rcases List.mem_cons.1 hb' with rfl | hb'
    · exact ⟨b', by simp, rfl, .inl rfl⟩
    · obtain ⟨b0, m0, x⟩ := k3 b' hb'
      exact ⟨b0, List.mem_cons_of_mem _ m0, x⟩

theorem live_default {dir af : String} {g : GTerm} : Live (asDefault dir af g) ↔ Live g := by
  unfold Live asDefault
  split <;> exact Iff.rfl

/-- A rule that matches has this action. -/
def HitsAs (fl : Flow) (r : Rule) (a : String) : Prop := Hits r fl ∧ r.action = a

/-- In a list in order of priority the first rule that matches decides. -/
theorem decides_first {fl : Flow} {a : String} {rs : List Rule} (hord : rs.Pairwise Beats)
    (hact : ∀ r ∈ rs, r.action = "allowed" ∨ r.action = "denied") : Decides rs fl a ↔ First (HitsAs fl) rs a := by
  have anti : ∀ r ∈ rs, ∀ s ∈ rs, Beats r s → Beats s r → r.action = s.action := by
    intro r hr s hs h1 h2
    unfold Beats at h1 h2
    have h3 := hact r hr
    have h4 := hact s hs
    rcases h1 with h1 | ⟨_, h1⟩
    · rcases h2 with h2 | h2 <;> omega
    · rcases h2 with h2 | ⟨_, h2⟩
      · omega
      · rcases h3 with h3 | h3 <;> rcases h4 with h4 | h4 <;> simp_all
  have refl : ∀ r ∈ rs, Beats r r := fun r hr => .inr ⟨rfl, (hact r hr).symm⟩
  constructor
  · rintro ⟨r, hr, hh, ha, hb⟩
    -- the first that matches
    have : ∀ l : List Rule, (∃ r ∈ l, Hits r fl) → ∃ pre x post, l = pre ++ x :: post ∧ Hits x fl ∧ ∀ m ∈ pre, ¬ Hits m fl := by
      intro l
      induction l with
      | nil => rintro ⟨_, h, _⟩; cases h
      | cons y ys ih =>
        intro hx
        by_cases hy : Hits y fl
        · exact ⟨[], y, ys, rfl, hy, by simp⟩
        · obtain ⟨z, hz, hh⟩ := hx
          rcases List.mem_cons.1 hz with rfl | hz
          · exact absurd hh hy
          · obtain ⟨pre, x, post, rfl, h1, h2⟩ := ih ⟨z, hz, hh⟩
            refine ⟨y :: pre, x, post, rfl, h1, fun m hm => ?_⟩
            rcases List.mem_cons.1 hm with rfl | hm
            · exact hy
            · exact h2 m hm
    obtain ⟨pre, x, post, rfl, hx, hn⟩ := this rs ⟨r, hr, hh⟩
    refine ⟨pre, x, post, rfl, ⟨hx, ?_⟩, fun m hm w hw => hn m hm hw.1⟩
    rcases List.mem_append.1 hr with h | h
    · exact absurd hh (hn r h)
    · rcases List.mem_cons.1 h with rfl | h
      · exact ha
      · have h1 := (List.pairwise_cons.1 (List.pairwise_append.1 hord).2.1).1 r h
        rw [← ha]
        exact anti x (by simp) r hr h1 (hb x (by simp) hx)
  · rintro ⟨pre, x, post, rfl, ⟨hx, ha⟩, hn⟩
    refine ⟨x, by simp, hx, ha, fun s hs hh => ?_⟩
    rcases List.mem_append.1 hs with h | h
    · exact absurd ⟨hh, rfl⟩ (hn s h _)
    · rcases List.mem_cons.1 h with rfl | h
      · exact refl _ (by simp)
      · exact (List.pairwise_cons.1 (List.pairwise_append.1 hord).2.1).1 s h

theorem pairwise_flatMap {L T : Type} {R : L → L → Prop} {S : T → T → Prop} : ∀ {bs : List (T × List L)},
    (bs.map Prod.fst).Pairwise S → (∀ b ∈ bs, b.2.Pairwise R) →
    (∀ b ∈ bs, ∀ b' ∈ bs, S b.1 b'.1 → ∀ x ∈ b.2, ∀ y ∈ b'.2, R x y) → (bs.flatMap Prod.snd).Pairwise R
  | [], _, _, _ => by simp
  | b :: bs, h1, h2, h3 => by
    rw [List.map_cons, List.pairwise_cons] at h1
    rw [List.flatMap_cons, List.pairwise_append]
    refine ⟨h2 b (by simp), pairwise_flatMap h1.2 (fun c hc => h2 c (List.mem_cons_of_mem _ hc))
      (fun c hc d hd => h3 c (List.mem_cons_of_mem _ hc) d (List.mem_cons_of_mem _ hd)), fun x hx y hy => ?_⟩
    obtain ⟨d, hd, hy⟩ := List.mem_flatMap.1 hy
    exact h3 b (by simp) d (List.mem_cons_of_mem _ hd) (h1.1 _ (List.mem_map.2 ⟨d, hd, rfl⟩)) x hx y hy

theorem pairwise_all {L : Type} {R : L → L → Prop} : ∀ {l : List L}, (∀ a ∈ l, ∀ b ∈ l, R a b) → l.Pairwise R
  | [], _ => .nil
  | x :: xs, h => List.pairwise_cons.2 ⟨fun y hy => h x (by simp) y (List.mem_cons_of_mem _ hy),
      pairwise_all fun a ha b hb => h a (List.mem_cons_of_mem _ ha) b (List.mem_cons_of_mem _ hb)⟩

/-- The rules of a filter decide like its terms. -/
theorem filter_decides {af : String} {c : Ctx} {limit n : Nat} {header : List Str} {gs : List GTerm} {o : Out} {fl : Flow} {a : String}
    (h : termsLoop c limit (families af) [] header n (prepare c.direction af gs) = .ok o)
    (hfit : ∀ g ∈ gs, Live g → GceFits af c.direction g ∨ CatchAll g)
    (hord : gs.Pairwise fun g h => Live g → Live h → Ordered g h)
    (hdir : c.direction = "INGRESS" ∨ c.direction = "EGRESS") (haf : af = "inet" ∨ af = "inet6" ∨ af = "mixed")
    (hm : c.mixed = (af == "mixed")) (hc : Coherent fl.packet) (hof : OfFamily af fl)
    (hn : c.network = fl.network) (hd : c.direction = fl.direction) :
    Decides o.rules fl a ↔ PolicyDecides gs fl a := by
  obtain ⟨bs0, e1, e2, e3⟩ := termsLoop_blocks h
  obtain ⟨bs, k1, k2, k3⟩ := prepare_blocks e2
  rw [e1, ← k1]
  -- every block: what it wants and how it ranks
  have key : ∀ b ∈ bs, (∀ w, (∃ r ∈ b.2, HitsAs fl r w) ↔ Wants fl b.1 w) ∧
      ∀ r ∈ b.2, Live b.1 ∧ ((b.1.term.action = ["accept"] ∧ r.action = "allowed") ∨ (b.1.term.action = ["deny"] ∧ r.action = "denied")) ∧
        Rank b.1 (prio r) := by
    intro b hb
    obtain ⟨b0, hb0, x1, x2⟩ := k3 b hb
    have hbg : b.1 ∈ gs := by rw [← k2]; exact List.mem_map.2 ⟨b, hb, rfl⟩
    have hlive : Live b0.1 ↔ Live b.1 := by
      rcases x2 with x2 | ⟨_, x2⟩
      · rw [x2]
      · rw [x2]; exact live_default
    rw [← x1]
    rcases e3 b0 hb0 with ⟨y1, y2⟩ | ⟨y1, name, hdr, n', o', y2, y3, y4⟩
    · have : ¬ Live b.1 := fun hl => by
        have := (hlive.2 hl).2.1
        rw [y1] at this
        cases this
      rw [y2]
      exact ⟨fun w => iff_of_false (by simp) (fun h => this h.1), by simp⟩
    · by_cases hl : Live b.1
      case neg =>
        rw [← y4, oneTerm_dead y3 y1 (fun h => hl (hlive.1 h))]
        exact ⟨fun w => iff_of_false (by simp) (fun h => hl h.1), by simp⟩
      -- the action
      have hact : b0.1.term.action = b.1.term.action := by
        rcases x2 with x2 | ⟨_, x2⟩
        · rw [x2]
        · rw [x2]
          unfold asDefault
          split <;> rfl
      have hone : ∃ w, b.1.term.action = [w] := by
        rcases hfit _ hbg hl with f | f
        · exact f.action
        · exact ⟨"deny", by rw [f.1]⟩
      obtain ⟨w0, hw0⟩ := hone
      have hmem : ∀ r ∈ b0.2, ((b.1.term.action = ["accept"] ∧ r.action = "allowed") ∨ (b.1.term.action = ["deny"] ∧ r.action = "denied")) := by
        intro r hr
        rw [← y4] at hr
        obtain ⟨m1, _⟩ := term_mem (hlive.2 hl) y3 hr
        rcases actionOf_ok (hact.trans hw0) m1 with ⟨rfl, h⟩ | ⟨rfl, h⟩
        · exact .inl ⟨hw0, h⟩
        · exact .inr ⟨hw0, h⟩
      have hhits : (∃ r ∈ b0.2, Hits r fl) ↔
          Matches b.1.term fl.packet ∧ OneOf b.1.dstAccounts fl.account ∧ OneOf b.1.srcAccounts fl.peer := by
        rw [← y4]
        rcases hfit _ hbg hl with f | f
        · have hnd := fits_default hdir f.toGceShape
          rcases x2 with x2 | ⟨x2, _⟩
          · rw [x2] at y3
            rw [term_hits f hl y3 hdir haf hm hc hof]
            have : OneOf b.1.srcAccounts fl.peer := .inl f.accounts
            simp [hn, hd, this]
          · rw [hnd] at x2
            cases x2
        · rcases x2 with x2 | ⟨_, x2⟩
          · rw [x2] at y3
            exact (catchAll_refused f hdir hl y3).elim
          · rw [x2] at y3
            rw [catchAll_hits f (live_default.2 hl) y3 hdir haf hc hof]
            exact iff_of_true ⟨hn, hd⟩ ⟨catchAll_matches f _, .inl f.2.2.2.2.1, .inl f.2.2.2.1⟩
      refine ⟨fun w => ?_, fun r hr => ⟨hl, hmem r hr, ?_⟩⟩
      · unfold HitsAs Wants
        constructor
        · rintro ⟨r, hr, h1, rfl⟩
          exact ⟨hl, hhits.1 ⟨r, hr, h1⟩, hmem r hr⟩
        · rintro ⟨_, h1, h2⟩
          obtain ⟨r, hr, h3⟩ := hhits.2 h1
          refine ⟨r, hr, h3, ?_⟩
          rcases hmem r hr with ⟨h4, h5⟩ | ⟨h4, h5⟩ <;> rcases h2 with ⟨h6, h7⟩ | ⟨h6, h7⟩
          · rw [h5, h7]
          · rw [h4] at h6; exact absurd h6 (by decide)
          · rw [h4] at h6; exact absurd h6 (by decide)
          · rw [h5, h7]
      · rw [← y4] at hr
        obtain ⟨_, m2, _⟩ := term_mem (hlive.2 hl) y3 hr
        unfold prio
        rw [m2]
        rcases hfit _ hbg hl with f | f
        · have hnd := fits_default hdir f.toGceShape
          rcases x2 with x2 | ⟨x2, _⟩
          · rw [x2]
            exact .inr ⟨fun h => absurd (hnd.symm.trans (catchAll_default h)) (by decide), rfl⟩
          · rw [hnd] at x2
            cases x2
        · rcases x2 with x2 | ⟨_, x2⟩
          · rw [x2] at y3
            exact (catchAll_refused f hdir hl y3).elim
          · rw [x2]
            exact .inl ⟨f, rfl⟩
  have hact : ∀ r ∈ bs.flatMap Prod.snd, r.action = "allowed" ∨ r.action = "denied" := by
    intro r hr
    obtain ⟨b, hb, hr⟩ := List.mem_flatMap.1 hr
    exact ((key b hb).2 r hr).2.1.imp (·.2) (·.2)
  have hrank : ∀ {g : GTerm} {m n : Nat}, Rank g m → Rank g n → m = n := by
    rintro g m n (⟨h1, rfl⟩ | ⟨h1, rfl⟩) (⟨h2, rfl⟩ | ⟨h2, rfl⟩)
    · rfl
    · exact absurd h1 h2
    · exact absurd h2 h1
    · rfl
  have hpair : (bs.flatMap Prod.snd).Pairwise Beats := by
    refine pairwise_flatMap (by rw [k2]; exact hord) (fun b hb => pairwise_all fun r hr s hs => ?_) ?_
    · obtain ⟨_, p2, p3⟩ := (key b hb).2 r hr
      obtain ⟨_, q2, q3⟩ := (key b hb).2 s hs
      refine .inr ⟨hrank p3 q3, ?_⟩
      rcases p2 with p2 | p2
      · rcases q2 with q2 | q2
        · exact .inr q2.2
        · rw [p2.1] at q2; exact absurd q2.1 (by decide)
      · exact .inl p2.2
    · intro b hb b' hb' hS r hr s hs
      obtain ⟨p1, p2, p3⟩ := (key b hb).2 r hr
      obtain ⟨q1, q2, q3⟩ := (key b' hb').2 s hs
      rcases hS p1 q1 _ _ p3 q3 with h | ⟨h, h'⟩
      · exact .inl h
      · refine .inr ⟨h, h'.imp (fun h' => ?_) (fun h' => ?_)⟩
        · rcases p2 with p2 | p2
          · rw [p2.1] at h'; exact absurd h' (by decide)
          · exact p2.2
        · rcases q2 with q2 | q2
          · exact q2.2
          · rw [q2.1] at h'; exact absurd h' (by decide)
  rw [decides_first hpair hact]
  unfold PolicyDecides
  rw [← k2]
  refine Lemmas.first_blocks ?_ (fun b hb => (key b hb).1)
  rintro g v w ⟨_, _, h1⟩ ⟨_, _, h2⟩
  rcases h1 with ⟨h1, h3⟩ | ⟨h1, h3⟩ <;> rcases h2 with ⟨h2, h4⟩ | ⟨h2, h4⟩
  · rw [h3, h4]
  · rw [h1] at h2; exact absurd h2 (by decide)
  · rw [h1] at h2; exact absurd h2 (by decide)
  · rw [h3, h4]

/-! ### headers -/

theorem pick_none : ∀ {l : List String} {a : String} {o : List String}, (∀ s ∈ l, s ∉ o) → l.foldl pick (a, o) = (a, o)
  | [], _, _, _ => rfl
  | s :: l, a, o, h => by
    rw [List.foldl_cons]
    have : pick (a, o) s = (a, o) := by
      unfold pick
      rw [if_neg (by simpa using h s (by simp))]
    rw [this]
    exact pick_none fun x hx => h x (List.mem_cons_of_mem _ hx)

theorem pick_one : ∀ {l : List String} {a s : String} {o : List String}, s ∈ l → s ∈ o → o.Nodup →
    (∀ x ∈ l, x ≠ s → x ∉ o) → l.foldl pick (a, o) = (s, o.erase s)
  | [], _, _, _, h, _, _, _ => by cases h
  | x :: l, a, s, o, h1, h2, h3, h4 => by
    rw [List.foldl_cons]
    by_cases hx : x = s
    · subst hx
      have : pick (a, o) x = (x, o.erase x) := by
        unfold pick
        rw [if_pos (by simpa using h2)]
      rw [this]
      refine pick_none fun y hy hm => ?_
      by_cases e : y = x
      · subst e
        exact ((h3.mem_erase_iff).1 hm).1 rfl
      · exact h4 y (List.mem_cons_of_mem _ hy) e (List.mem_of_mem_erase hm)
    · have : pick (a, o) x = (a, o) := by
        unfold pick
        rw [if_neg (by simpa using h4 x (by simp) hx)]
      rw [this]
      rcases List.mem_cons.1 h1 with e | h1
      · exact absurd e.symm hx
      · exact pick_one h1 h2 h3 fun y hy => h4 y (List.mem_cons_of_mem _ hy)

theorem natOf_iff {s : String} : (natOf s).isSome = true ↔ Number s := by
  unfold natOf Number
  split
  next h =>
    simp only [Bool.and_eq_true, Bool.not_eq_true', List.isEmpty_eq_false_iff, List.all_eq_true] at h
    simpa using h
  next h =>
    simp only [Bool.and_eq_true, Bool.not_eq_true', List.isEmpty_eq_false_iff, List.all_eq_true] at h
    simpa using h

theorem same_nil_or_one {l : List String} (h : l.Nodup) (hs : ∀ a ∈ l, ∀ b ∈ l, a = b) : l = [] ∨ ∃ s, l = [s] := by
  cases l with
  | nil => exact .inl rfl
  | cons x l =>
    refine .inr ⟨x, ?_⟩
    have : l = [] := List.eq_nil_iff_forall_not_mem.2 fun y hy => by
      have := hs x (by simp) y (List.mem_cons_of_mem _ hy)
      subst this
      exact (List.nodup_cons.1 h).1 hy
    rw [this]

/-- What the tool takes the header for is what it says. -/
theorem head_header {limit : Nat} {f : Filter} {d a n : String} (h : Header f.options d a n)
    (ho : f.order.Perm ["inet", "inet6", "mixed"]) :
    (head limit f).direction = d ∧ (head limit f).family = a ∧ (head limit f).network = n := by
  obtain ⟨hd, ha, hn, hnd, huniq⟩ := h
  have mo : ∀ s, s ∈ f.order ↔ s = "inet" ∨ s = "inet6" ∨ s = "mixed" := by
    intro s
    rw [ho.mem_iff]
    simp
  -- the direction
  have e1 : ["INGRESS", "EGRESS"].foldl pick ("INGRESS", f.options) = (d, (f.options.erase "INGRESS").erase "EGRESS") := by
    have : pick ("INGRESS", f.options) "INGRESS" = ("INGRESS", f.options.erase "INGRESS") := by
      unfold pick
      split
      · rfl
      next h => rw [List.erase_of_not_mem (by simpa using h)]
    rw [List.foldl_cons, this, List.foldl_cons, List.foldl_nil, hd]
    unfold pick
    dsimp only
    by_cases hE : "EGRESS" ∈ f.options
    · have : "EGRESS" ∈ f.options.erase "INGRESS" := (hnd.mem_erase_iff).2 ⟨by decide, hE⟩
      rw [if_pos (by simpa using this), if_pos hE]
    · have : "EGRESS" ∉ f.options.erase "INGRESS" := fun h => hE (List.mem_of_mem_erase h)
      rw [if_neg (by simpa using this), if_neg hE, List.erase_of_not_mem this]
  generalize ho1 : (f.options.erase "INGRESS").erase "EGRESS" = o1 at e1
  have m1 : ∀ s, s ∈ o1 ↔ s ∈ f.options ∧ s ≠ "INGRESS" ∧ s ≠ "EGRESS" := by
    intro s
    rw [← ho1, (hnd.erase _).mem_erase_iff, hnd.mem_erase_iff]
    constructor
    · rintro ⟨a, b, c⟩; exact ⟨c, b, a⟩
    · rintro ⟨c, b, a⟩; exact ⟨a, b, c⟩
  have f1 : o1 = f.options.filter fun s => s != "INGRESS" && s != "EGRESS" := by
    rw [← ho1, (hnd.erase _).erase_eq_filter, hnd.erase_eq_filter, List.filter_filter]
    refine List.filter_congr fun s _ => ?_
    rw [Bool.and_comm]
  have nd1 : o1.Nodup := by rw [f1]; exact hnd.filter _
  -- the family
  have e2 : f.order.foldl pick ("inet", o1) = (a, f.options.filter fun s => !headerWords.contains s) := by
    have fin : ∀ s, s ∈ o1 → (∀ x, x = "inet" ∨ x = "inet6" ∨ x = "mixed" → x ≠ s → x ∉ f.options) →
        (s = "inet" ∨ s = "inet6" ∨ s = "mixed") → o1.erase s = f.options.filter fun s => !headerWords.contains s := by
      intro s hs hx hk
      rw [nd1.erase_eq_filter, f1, List.filter_filter]
      refine List.filter_congr fun x hx' => ?_
      rw [Bool.eq_iff_iff]
      simp only [headerWords, Bool.and_eq_true, bne_iff_ne, ne_eq, Bool.not_eq_true', List.contains_eq_mem,
        decide_eq_false_iff_not, List.mem_cons, List.not_mem_nil, or_false, not_or]
      constructor
      · rintro ⟨h1, h2, h3⟩
        refine ⟨h2, h3, ?_, ?_, ?_⟩
        all_goals
          rintro rfl
          exact hx _ (by simp) h1 hx'
      · rintro ⟨h1, h2, h3, h4, h5⟩
        refine ⟨?_, h1, h2⟩
        rintro rfl
        rcases hk with h | h | h
        · exact h3 h
        · exact h4 h
        · exact h5 h
    have one : ∀ s, s ∈ f.options → (s = "inet" ∨ s = "inet6" ∨ s = "mixed") →
        (∀ x, x = "inet" ∨ x = "inet6" ∨ x = "mixed" → x ≠ s → x ∉ f.options) →
        f.order.foldl pick ("inet", o1) = (s, f.options.filter fun s => !headerWords.contains s) := by
      intro s hs hk hx
      have hs1 : s ∈ o1 := (m1 s).2 ⟨hs, by rcases hk with rfl | rfl | rfl <;> decide, by rcases hk with rfl | rfl | rfl <;> decide⟩
      rw [pick_one ((mo s).2 hk) hs1 nd1 (fun x h1 h2 h3 => hx x ((mo x).1 h1) h2 ((m1 x).1 h3).1), fin s hs1 hx hk]
    rcases ha with ⟨rfl, h1, h2⟩ | ⟨rfl, h1, h2, h3⟩ | ⟨rfl, h1, h2, h3⟩
    · by_cases hi : "inet" ∈ f.options
      · refine one _ hi (by simp) ?_
        rintro x (rfl | rfl | rfl) hx
        · exact absurd rfl hx
        · exact h1
        · exact h2
      · rw [pick_none]
        · rw [f1]
          congr 1
          refine List.filter_congr fun x hx' => ?_
          rw [Bool.eq_iff_iff]
          simp only [headerWords, Bool.and_eq_true, bne_iff_ne, ne_eq, Bool.not_eq_true', List.contains_eq_mem,
            decide_eq_false_iff_not, List.mem_cons, List.not_mem_nil, or_false, not_or]
          constructor
          · rintro ⟨k1, k2⟩
            refine ⟨k1, k2, ?_, ?_, ?_⟩
            · rintro rfl; exact hi hx'
            · rintro rfl; exact h1 hx'
            · rintro rfl; exact h2 hx'
          · rintro ⟨k1, k2, _⟩
            exact ⟨k1, k2⟩
        · intro s hs hm
          have := ((m1 s).1 hm).1
          rcases (mo s).1 hs with rfl | rfl | rfl
          · exact hi this
          · exact h1 this
          · exact h2 this
    · refine one _ h1 (by simp) ?_
      rintro x (rfl | rfl | rfl) hx
      · exact h2
      · exact absurd rfl hx
      · exact h3
    · refine one _ h1 (by simp) ?_
      rintro x (rfl | rfl | rfl) hx
      · exact h2
      · exact h3
      · exact absurd rfl hx
  -- the network
  have e3 : (pickLimit limit (f.options.filter fun s => !headerWords.contains s)).2.head?.getD "" = n := by
    have word : ∀ {l : List String} {x}, x ∈ l.filter (fun s => !headerWords.contains s) → x ∈ l ∧ x ∉ headerWords := by
      intro l x hx
      obtain ⟨h1, h2⟩ := List.mem_filter.1 hx
      exact ⟨h1, by simpa using h2⟩
    rcases hn with ⟨hall, rfl⟩ | ⟨p, q, hpq, hw, hnum, hpre⟩
    · have hnum : ∀ x ∈ f.options.filter (fun s => !headerWords.contains s), x ∈ f.options ∧ Number x := fun x hx =>
        ⟨(word hx).1, (hall x (word hx).1).resolve_left (word hx).2⟩
      rcases same_nil_or_one (hnd.filter _) (fun x hx y hy =>
        huniq x (hnum x hx).1 y (hnum y hy).1 (hnum x hx).2 (hnum y hy).2) with e | ⟨s, e⟩
      · rw [e]
        rfl
      · have : Number s := (hnum s (by rw [e]; simp)).2
        rw [e]
        unfold pickLimit
        rw [List.find?_cons_of_pos (p := fun s => (natOf s).isSome) (natOf_iff.2 this)]
        simp
    · have hnp : (p.filter fun s => !headerWords.contains s).Nodup := by
        rw [hpq] at hnd
        exact (List.nodup_append.1 hnd).1.filter _
      have hpm : ∀ x ∈ p.filter (fun s => !headerWords.contains s), x ∈ f.options ∧ Number x := fun x hx =>
        ⟨by rw [hpq]; exact List.mem_append_left _ (word hx).1, (hpre x (word hx).1).resolve_left (word hx).2⟩
      have ef : f.options.filter (fun s => !headerWords.contains s) =
          p.filter (fun s => !headerWords.contains s) ++ n :: q.filter (fun s => !headerWords.contains s) := by
        rw [hpq, List.filter_append, List.filter_cons_of_pos (by simpa using hw)]
      have hnn : ¬ (natOf n).isSome = true := fun h => hnum (natOf_iff.1 h)
      rw [ef]
      unfold pickLimit
      rcases same_nil_or_one hnp (fun x hx y hy =>
        huniq x (hpm x hx).1 y (hpm y hy).1 (hpm x hx).2 (hpm y hy).2) with e | ⟨s, e⟩
      · rw [e, List.nil_append, List.find?_cons_of_neg (p := fun s => (natOf s).isSome) hnn]
        split
        · rfl
        next s hs =>
          have := List.find?_some hs
          have hne : n ≠ s := by
            rintro rfl
            exact hnn this
          rw [List.erase_cons_tail (by simpa using hne)]
          rfl
      · have : Number s := (hpm s (by rw [e]; simp)).2
        rw [e, List.singleton_append, List.find?_cons_of_pos (p := fun s => (natOf s).isSome) (natOf_iff.2 this)]
        simp
  unfold head
  rw [e1]
  dsimp only
  rw [e2]
  exact ⟨rfl, rfl, e3⟩

/-! ### the policy -/

theorem filtersLoop_split : ∀ {pre : List Filter} {f0 : Filter} {post : List Filter} {limit n : Nat} {rs : List Rule},
    filtersLoop limit n (pre ++ f0 :: post) = .ok rs →
    ∃ r1 r2 r3 : List Rule, rs = r1 ++ r2 ++ r3 ∧
      (∀ r ∈ r1 ++ r3, ∃ f ∈ pre ++ post, ∃ limit n o, termsLoop ⟨(head limit f).direction, (head limit f).network, (head limit f).family == "mixed"⟩
        (head limit f).limit (families (head limit f).family) [] f.comment n
        (prepare (head limit f).direction (head limit f).family f.terms) = .ok o ∧ r ∈ o.rules) ∧
      ∃ limit n o, termsLoop ⟨(head limit f0).direction, (head limit f0).network, (head limit f0).family == "mixed"⟩
        (head limit f0).limit (families (head limit f0).family) [] f0.comment n
        (prepare (head limit f0).direction (head limit f0).family f0.terms) = .ok o ∧ r2 = o.rules := by
  have rest : ∀ {fs : List Filter} {limit n : Nat} {rs : List Rule}, filtersLoop limit n fs = .ok rs →
      ∀ r ∈ rs, ∃ f ∈ fs, ∃ limit n o, termsLoop ⟨(head limit f).direction, (head limit f).network, (head limit f).family == "mixed"⟩
        (head limit f).limit (families (head limit f).family) [] f.comment n
        (prepare (head limit f).direction (head limit f).family f.terms) = .ok o ∧ r ∈ o.rules := by
    intro fs
    induction fs with
    | nil => intro limit n rs h r hr; cases h; cases hr
    | cons f fs ih =>
      intro limit n rs h r hr
      rw [filtersLoop] at h
      split at h
      · cases h
      · obtain ⟨o, h1, h⟩ := bind_ok h
        obtain ⟨rs', h2, h⟩ := bind_ok h
        cases h
        rcases List.mem_append.1 hr with hr | hr
        · exact ⟨f, by simp, limit, n, o, h1, hr⟩
        · obtain ⟨f', hf', x⟩ := ih h2 r hr
          exact ⟨f', List.mem_cons_of_mem _ hf', x⟩
  intro pre
  induction pre with
  | nil =>
    intro f0 post limit n rs h
    rw [List.nil_append, filtersLoop] at h
    split at h
    · cases h
    · obtain ⟨o, h1, h⟩ := bind_ok h
      obtain ⟨rs', h2, h⟩ := bind_ok h
      cases h
      exact ⟨[], o.rules, rs', by simp, fun r hr => rest h2 r (by simpa using hr), limit, n, o, h1, rfl⟩
  | cons f pre ih =>
    intro f0 post limit n rs h
    rw [List.cons_append, filtersLoop] at h
    split at h
    · cases h
    · obtain ⟨o, h1, h⟩ := bind_ok h
      obtain ⟨rs', h2, h⟩ := bind_ok h
      cases h
      obtain ⟨r1, r2, r3, e, h3, h4⟩ := ih h2
      refine ⟨o.rules ++ r1, r2, r3, by rw [e]; simp, fun r hr => ?_, h4⟩
      rw [List.append_assoc] at hr
      rcases List.mem_append.1 hr with hr | hr
      · exact ⟨f, by simp, limit, n, o, h1, hr⟩
      · obtain ⟨f', hf', x⟩ := h3 r hr
        exact ⟨f', List.mem_cons_of_mem _ hf', x⟩

theorem termsLoop_rules {c : Ctx} {limit : Nat} {vs : List Ver} {gs : List GTerm} {names header : List Str} {n : Nat} {o : Out}
    (h : termsLoop c limit vs names header n gs = .ok o) {r : Rule} (hr : r ∈ o.rules) :
    r.network.getD "" = c.network ∧ r.direction = c.direction := by
  obtain ⟨bs, e1, _, e3⟩ := termsLoop_blocks h
  rw [e1] at hr
  obtain ⟨b, hb, hr⟩ := List.mem_flatMap.1 hr
  rcases e3 b hb with ⟨_, e⟩ | ⟨y1, name, hdr, n', o', _, y3, y4⟩
  · rw [e] at hr; cases hr
  · by_cases hl : Live b.1
    · rw [← y4] at hr
      exact (term_mem hl y3 hr).2.2
    · rw [← y4, oneTerm_dead y3 y1 hl] at hr
      cases hr

theorem decides_part {r1 r2 r3 : List Rule} {fl : Flow} {a : String} (h : ∀ r ∈ r1 ++ r3, ¬ Hits r fl) :
    Decides (r1 ++ r2 ++ r3) fl a ↔ Decides r2 fl a := by
  have key : ∀ r ∈ r1 ++ r2 ++ r3, Hits r fl → r ∈ r2 := by
    intro r hr hh
    simp only [List.mem_append] at hr h
    rcases hr with (hr | hr) | hr
    · exact absurd hh (h r (.inl hr))
    · exact hr
    · exact absurd hh (h r (.inr hr))
  constructor
  · rintro ⟨r, hr, hh, ha, hb⟩
    exact ⟨r, key r hr hh, hh, ha, fun s hs => hb s (by simp [hs])⟩
  · rintro ⟨r, hr, hh, ha, hb⟩
    exact ⟨r, by simp [hr], hh, ha, fun s hs hh => hb s (key s hs hh) hh⟩

/-- C79, for terms that are rendered faithfully and whose priorities are in line with their order. The flow is at a network
and in a direction for which the policy has one filter. Not proved, and refuted below: the same without these conditions. -/
theorem C79_policy_partial {pre post : List Filter} {f0 : Filter} {rs : List Rule} {fl : Flow} {af a : String}
    (h : translate (pre ++ f0 :: post) = .ok rs)
    (hperm : ∀ f ∈ pre ++ f0 :: post, f.order.Perm ["inet", "inet6", "mixed"])
    (hhead : Header f0.options fl.direction af fl.network)
    (hother : ∀ f ∈ pre ++ post, ∃ d a n, Header f.options d a n ∧ (d ≠ fl.direction ∨ n ≠ fl.network))
    (hfit : ∀ g ∈ f0.terms, Live g → GceFits af fl.direction g ∨ CatchAll g)
    (hord : f0.terms.Pairwise fun g h => Live g → Live h → Ordered g h)
    (hc : Coherent fl.packet) (hof : OfFamily af fl) :
    Decides rs fl a ↔ PolicyDecides f0.terms fl a := by
  obtain ⟨r1, r2, r3, rfl, h1, limit, n, o, h2, rfl⟩ := filtersLoop_split h
  rw [decides_part]
  · obtain ⟨e1, e2, e3⟩ := head_header (limit := limit) hhead (hperm f0 (by simp))
    have hdir : fl.direction = "INGRESS" ∨ fl.direction = "EGRESS" := by
      rw [hhead.direction]
      split
      · exact .inr rfl
      · exact .inl rfl
    have haf : af = "inet" ∨ af = "inet6" ∨ af = "mixed" := by
      rcases hhead.family with h | h | h
      · exact .inl h.1
      · exact .inr (.inl h.1)
      · exact .inr (.inr h.1)
    rw [e1, e2, e3] at h2
    exact filter_decides (c := ⟨fl.direction, fl.network, af == "mixed"⟩) h2 hfit hord hdir haf rfl hc hof rfl rfl
  · intro r hr hh
    obtain ⟨f, hf, limit', n', o', k1, k2⟩ := h1 r hr
    obtain ⟨d, a', n'', k3, k4⟩ := hother f hf
    have hf' : f ∈ pre ++ f0 :: post := by
      rcases List.mem_append.1 hf with hf | hf
      · exact List.mem_append_left _ hf
      · exact List.mem_append_right _ (List.mem_cons_of_mem _ hf)
    obtain ⟨e1, e2, e3⟩ := head_header (limit := limit') k3 (hperm f hf')
    obtain ⟨m1, m2⟩ := termsLoop_rules k1 k2
    dsimp only at m1 m2
    obtain ⟨⟨x1, x2⟩, _⟩ := hh
    rcases k4 with k4 | k4
    · exact k4 (e1.symm.trans (m2.symm.trans x2))
    · exact k4 (e3.symm.trans (m1.symm.trans x1))

end Verif.Props
