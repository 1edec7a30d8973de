import Verif.Spec.K8s
import Verif.Lemmas.Basic
import Verif.Lemmas.Flat
import Verif.Lemmas.FirstMatch
import Verif.Props.Policy

/-!
Properties of the model of capirca/lib/k8s.py: C83 to C86.
-/

namespace Verif.Props
open Verif Verif.Spec Verif.Spec.K8s Verif.K8s Policy Aclgenerator Nacaddr Lemmas

/-- The terms that are rendered faithfully in a filter of the direction. For what happens without the conditions
beyond the tool's own checks, see the refutations. -/
structure K8sFits (d : String) (g : PTerm) : Prop where
  keywords : initCheck K8s.tables [(["k8s"], [kterm g.term])] = .ok ()
  sane : sanityCheck g.term = .ok ()
  action : g.term.action = ["accept"] ∨ g.term.action = ["deny"]
  family : g.term.restrictAddressFamily = none
  untagged : Untagged g.term
  src : ∀ n ∈ g.term.sourceAddress ++ g.term.sourceAddressExclude, WF n
  dst : ∀ n ∈ g.term.destinationAddress ++ g.term.destinationAddressExclude, WF n
  other : (d = "INGRESS" → g.term.destinationAddressExclude = []) ∧ (d = "EGRESS" → g.term.sourceAddressExclude = [])
  protos : ∀ s ∈ g.term.protocol, s ∈ iana.map Prod.fst
  ports : g.term.destinationPort ≠ [] → g.term.protocol ≠ []

theorem k8s_tables : ∀ e ∈ K8s.tables.subTokens, e.1 ∈ K8s.tables.tokens := by decide

theorem k8s_active {g : PTerm} (h : Live g) : Active "k8s" (kterm g.term) := ⟨h.2.2.1, h.2.2.2⟩

theorem k8s_matches {d : String} {g : PTerm} (f : K8sFits d g) (hl : Live g) (ho : g.term.option = [])
    (hsp : g.term.sourcePort = []) {p : Packet} :
    Matches g.term p ↔ (AddrMatch g.term.sourceAddress g.term.sourceAddressExclude p.ver p.src ∧
        AddrMatch g.term.destinationAddress g.term.destinationAddressExclude p.ver p.dst) ∧
      OneOf g.term.protocol p.proto ∧ PortMatch g.term.destinationPort p.dport := by
  have un := fun (s : String) {v : Val} => unset (g := K8s.tables) k8s_tables rfl (k8s_active hl) f.keywords s (v := v)
  have b : Basic g.term := basic_of (g := K8s.tables) k8s_tables rfl (by decide) (k8s_active hl) f.keywords
  have h5 : g.term.protocolExcept = [] := Cisco.wordsVal_falsy (un "protocol_except" (by simp [attrsOf]) (by decide))
  have h8 : g.term.icmpType = [] := Cisco.wordsVal_falsy (un "icmp_type" (by simp [attrsOf]) (by decide))
  have h9 : g.term.icmpCode = [] := Cisco.listVal_falsy (un "icmp_code" (by simp [attrsOf]) (by decide))
  rw [matches_basic b f.untagged (.inl f.family)]
  unfold MatchProto
  rw [h5, h8, h9, ho, hsp]
  constructor
  · rintro ⟨a, c, d, _, _⟩
    exact ⟨a, c.1, d.2⟩
  · rintro ⟨a, c, d⟩
    exact ⟨a, ⟨c, by simp⟩, ⟨.inl rfl, d⟩, ⟨.inl rfl, .inl rfl⟩, by simp⟩

/-! ### flattening -/

theorem k8s_refused {d : String} {t : Term} (h : K8s.refused d t = false) :
    (d = "INGRESS" → t.sourceAddress ≠ [] ∧ t.destinationAddress = []) ∧
    (d = "EGRESS" → t.sourceAddress = [] ∧ t.destinationAddress ≠ []) ∧ t.sourcePort = [] := by
  unfold K8s.refused at h
  simp only [Bool.or_eq_false_iff, Bool.and_eq_false_iff, List.isEmpty_eq_false_iff, beq_eq_false_iff_ne,
    List.isEmpty_iff, Bool.not_eq_false', ne_eq] at h
  obtain ⟨⟨h1, h2⟩, h3⟩ := h
  exact ⟨fun hd => h1.resolve_left (fun h => h hd), fun hd => h2.resolve_left (fun h => h hd), h3⟩

theorem field_empty {inc exc sa : List Net} {old fs : Option (List Net)} (w : ∀ n ∈ inc ++ exc, WF n) (hx : exc ≠ [])
    (hi : inc ≠ []) (h : flattenField inc exc old = .ok (sa, fs)) (he : (fs.getD []).isEmpty = true) (v : Ver) (x : Nat) :
    ¬ AddrMatch inc exc v x := by
  unfold flattenField at h
  rw [if_neg (by simpa using hx)] at h
  obtain ⟨r, h1, h⟩ := bind_ok h
  cases h
  obtain ⟨wi, we⟩ := addrMatch_wf w
  have he : sa = [] := by simpa using he
  subst he
  rintro ⟨h2, h3⟩
  obtain ⟨n, hn, _⟩ := (addressListExclude_over inc exc wi we h1).2.2 v x ⟨h2.resolve_left hi, h3⟩
  cases hn

/-- A term of which no addresses are left matches nothing. -/
theorem left_false {d : String} {t : Term} (ws : ∀ n ∈ t.sourceAddress ++ t.sourceAddressExclude, WF n)
    (wd : ∀ n ∈ t.destinationAddress ++ t.destinationAddressExclude, WF n) (hr : K8s.refused d t = false)
    (h : left d t = .ok false) (p : Packet) : ¬ (AddrMatch t.sourceAddress t.sourceAddressExclude p.ver p.src ∧
      AddrMatch t.destinationAddress t.destinationAddressExclude p.ver p.dst) := by
  obtain ⟨r1, r2, _⟩ := k8s_refused hr
  unfold left at h
  split at h
  next hx =>
    obtain ⟨o, h1, h2⟩ := bind_ok h
    obtain ⟨sa, da, ad, fs, fd, fa, rfl, hh⟩ := flattenAll_shape h1
    have h2 := Except.ok.inj h2
    simp only [Bool.and_eq_false_iff, Bool.not_eq_false', Bool.and_eq_true, beq_iff_eq] at h2
    unfold K8s.excludes at hx
    simp only [Bool.or_eq_true, Bool.and_eq_true, Bool.not_eq_true', List.isEmpty_eq_false_iff] at hx
    rcases hh with ⟨e1, e2, _⟩ | ⟨_, g1, g2, _⟩
    · rcases hx with hx | hx
      · exact absurd e1 hx.1
      · exact absurd e2 hx.1
    · rcases h2 with ⟨h2, hd⟩ | ⟨h2, hd⟩
      · obtain ⟨a, b⟩ := r1 hd
        rcases hx with hx | hx
        · exact fun h => field_empty ws hx.1 a g1 h2 _ _ h.1
        · exact absurd b hx.2
      · obtain ⟨a, b⟩ := r2 hd
        rcases hx with hx | hx
        · exact absurd a hx.2
        · exact fun h => field_empty wd hx.1 b g2 h2 _ _ h.2
  next => cases h

/-! ### one term -/

theorem upper_names : ∀ s ∈ ["tcp", "udp", "sctp"], ∃ e ∈ iana, e.1 = s ∧ (upper s, e.2) ∈ selNames := by decide

theorem sel_number : ∀ s ∈ ["tcp", "udp", "sctp"], ∀ q ∈ iana, (∃ e ∈ selNames, e.1 = upper s ∧ q.2 = e.2) ↔ q.1 = s := by
  decide

theorem known_proto {s : String} (h : unknownProtocol s = false) (hs : s ∈ iana.map Prod.fst) : s ∈ ["tcp", "udp", "sctp"] := by
  have key : ∀ s ∈ iana.map Prod.fst, unknownProtocol s = false → s ∈ ["tcp", "udp", "sctp"] := by decide
  exact key s hs h

theorem selNumber_iff {s : String} {p : Packet} (hs : s ∈ ["tcp", "udp", "sctp"]) :
    (∃ k, (upper s, k) ∈ selNames ∧ Flat.NumberIs p (k : Int)) ↔ p.proto = s := by
  constructor
  · rintro ⟨k, hk, n, hn, e⟩
    have e : k = n := by exact_mod_cast e
    exact (sel_number s hs _ hn).1 ⟨_, hk, rfl, e.symm⟩
  · rintro rfl
    obtain ⟨⟨q, k⟩, h1, rfl, h2⟩ := upper_names _ hs
    exact ⟨k, h2, k, h1, rfl⟩

theorem selectors_iff {protos : List String} {ports : List PortRange} {p : Packet} (h : ∀ s ∈ protos, s ∈ ["tcp", "udp", "sctp"])
    (hr : ports ≠ [] → protos ≠ []) :
    (portSelectors protos ports = [] ∨ ∃ s ∈ portSelectors protos ports, SelHits s p) ↔
      OneOf protos p.proto ∧ PortMatch ports p.dport := by
  unfold portSelectors OneOf PortMatch
  by_cases h0 : protos = []
  · have h1 : ports = [] := Classical.byContradiction fun h => hr h h0
    simp [h0, h1]
  · have hne : (protos.flatMap fun s => if ports.isEmpty then [(⟨upper s, none⟩ : PortSel)]
        else ports.map fun r => ⟨upper s, some r⟩) ≠ [] := by
      intro he
      rw [List.flatMap_eq_nil_iff] at he
      obtain ⟨s, l⟩ := protos
      · exact h0 rfl
      · have := he _ List.mem_cons_self
        split at this
        · cases this
        · rename_i hq
          exact hq (by simpa using this)
    simp only [hne, h0, false_or]
    constructor
    · rintro ⟨s, hs, h1, h2⟩
      obtain ⟨q, hq, hs⟩ := List.mem_flatMap.1 hs
      split at hs
      next he =>
        rw [List.mem_singleton.1 hs] at h1
        rw [(selNumber_iff (h q hq)).1 h1]
        exact ⟨hq, .inl (by simpa using he)⟩
      next he =>
        obtain ⟨r, hr, rfl⟩ := List.mem_map.1 hs
        rw [(selNumber_iff (h q hq)).1 h1]
        exact ⟨hq, .inr ⟨r, hr, h2 r rfl⟩⟩
    · rintro ⟨hq, h2⟩
      by_cases hn : ports = []
      · refine ⟨⟨upper p.proto, none⟩, List.mem_flatMap.2 ⟨_, hq, ?_⟩, (selNumber_iff (h _ hq)).2 rfl, Flat.ifSet_none⟩
        rw [if_pos (by simpa using hn)]
        exact List.mem_singleton.2 rfl
      · obtain ⟨r, hr, h3⟩ := h2.resolve_left hn
        refine ⟨⟨upper p.proto, some r⟩, List.mem_flatMap.2 ⟨_, hq, ?_⟩, (selNumber_iff (h _ hq)).2 rfl, Flat.ifSet_some.2 h3⟩
        rw [if_neg (by simpa using hn)]
        exact List.mem_map_of_mem hr

theorem peers_iff {inc exc : List Net} (w : ∀ n ∈ inc ++ exc, WF n) (hi : inc ≠ []) (v : Ver) (x : Nat) :
    (peerSelectors inc exc = [] ∨ ∃ b ∈ peerSelectors inc exc, PeerHits b v x) ↔ AddrMatch inc exc v x := by
  obtain ⟨wi, we⟩ := addrMatch_wf w
  have hne : peerSelectors inc exc ≠ [] := by simpa [peerSelectors] using hi
  unfold AddrMatch
  simp only [hne, hi, false_or]
  constructor
  · rintro ⟨b, hb, h1, h2⟩
    obtain ⟨n, hn, rfl⟩ := List.mem_map.1 hb
    refine ⟨⟨n, hn, (Flat.covers_iff (wi n hn) v x).1 h1⟩, ?_⟩
    rintro ⟨e, he, h⟩
    exact h2 e he ((Flat.covers_iff (we e he) v x).2 h)
  · rintro ⟨⟨n, hn, h1⟩, h2⟩
    refine ⟨⟨n, exc⟩, List.mem_map_of_mem hn, (Flat.covers_iff (wi n hn) v x).2 h1, fun e he h => h2 ⟨e, he, ?_⟩⟩
    exact (Flat.covers_iff (we e he) v x).1 h

theorem elsewhere_live {g : PTerm} (h1 : g.expired = false) (h2 : g.reply = false) : elsewhere g.term = false ↔ Live g := by
  unfold elsewhere Live
  simp only [Bool.or_eq_false_iff, Bool.and_eq_false_iff, Bool.not_eq_false', List.isEmpty_iff, List.contains_iff_mem,
    h1, h2, true_and]
  constructor
  · rintro ⟨a, b⟩
    refine ⟨a, fun hm => ?_⟩
    rcases b with b | b
    · rw [b] at hm
      cases hm
    · rw [List.contains_iff_mem.2 hm] at b
      cases b
  · rintro ⟨a, b⟩
    refine ⟨a, .inr ?_⟩
    rw [Bool.eq_false_iff]
    exact fun h => b (List.contains_iff_mem.1 h)

/-- What a term is rendered to. -/
theorem oneTerm_shape {d : String} {hdr : List Str} {g : PTerm} {name : Str} {os : List Object}
    (h : oneTerm d hdr g name = .ok os) (hr : g.reply = false) : (¬ Live g ∧ os = []) ∨ (Live g ∧ g.term.option = [] ∧
      ((newTerm d g = .ok false ∧ os = []) ∨ (newTerm d g = .ok true ∧ nameOk name = true ∧
        os = [⟨name, if (if g.comment.isEmpty then hdr else g.comment).isEmpty then none
            else some (joinBlank (if g.comment.isEmpty then hdr else g.comment)), g.owner, d, ruleOf d g.term⟩]))) := by
  unfold oneTerm at h
  split at h
  next he =>
    cases h
    exact .inl ⟨fun hl => (by rw [hl.1] at he; cases he), rfl⟩
  next he =>
    split at h
    · cases h
    next ho =>
      split at h
      next hx =>
        cases h
        refine .inl ⟨fun hl => ?_, rfl⟩
        rw [(elsewhere_live (by simpa using he) hr).2 hl] at hx
        cases hx
      next hx =>
        have hl := (elsewhere_live (by simpa using he) hr).1 (by simpa using hx)
        refine .inr ⟨hl, by simpa using ho, ?_⟩
        obtain ⟨b, h1, h⟩ := bind_ok h
        cases b with
        | false => cases h; exact .inl ⟨h1, rfl⟩
        | true =>
          rw [if_pos rfl] at h
          obtain ⟨o, h2, h⟩ := bind_ok h
          cases h
          unfold convert at h2
          split at h2
          next hn =>
            have := Except.ok.inj h2
            exact .inr ⟨h1, hn, by rw [← this]⟩
          next => cases h2

theorem newTerm_accept {d : String} {g : PTerm} {b : Bool} (ha : g.term.action = ["accept"]) (h : newTerm d g = .ok b) :
    (∀ s ∈ g.term.protocol, unknownProtocol s = false) ∧ K8s.refused d g.term = false ∧ left d g.term = .ok b := by
  unfold newTerm at h
  split at h
  · cases h
  next hp =>
    rw [if_neg (by rw [ha]; decide)] at h
    split at h
    · cases h
    next hr =>
      refine ⟨fun s hs => ?_, by simpa using hr, h⟩
      simp only [List.any_eq_true, not_exists, not_and, Bool.not_eq_true] at hp
      exact hp s hs

/-- The objects of a term of the direction match what the term matches. -/
theorem oneTerm_iff {d : String} {hdr : List Str} {g : PTerm} {name : Str} {os : List Object} {fl : Flow}
    (h : oneTerm d hdr g name = .ok os) (hl : Live g) (f : K8sFits d g) (hact : g.term.action = ["accept"]) (hd : d = "INGRESS" ∨ d = "EGRESS")
    (hf : fl.direction = d) :
    (∃ o ∈ os, ∃ r, o.rule = some r ∧ RuleHits r fl) ↔ Matches g.term fl.packet := by
  rcases oneTerm_shape h hl.2.1 with ⟨hn, _⟩ | ⟨_, ho, ⟨h1, rfl⟩ | ⟨h1, _, rfl⟩⟩
  · exact absurd hl hn
  · obtain ⟨n1, n2, n3⟩ := newTerm_accept hact h1
    rw [k8s_matches f hl ho (k8s_refused n2).2.2]
    exact iff_of_false (by simp) fun hm => left_false f.src f.dst n2 n3 _ hm.1
  · obtain ⟨n1, n2, n3⟩ := newTerm_accept hact h1
    obtain ⟨r1, r2, r3⟩ := k8s_refused n2
    rw [k8s_matches f hl ho r3]
    have hrule : ruleOf d g.term = some ⟨portSelectors g.term.protocol g.term.destinationPort,
        if d = "INGRESS" then peerSelectors g.term.sourceAddress g.term.sourceAddressExclude
        else peerSelectors g.term.destinationAddress g.term.destinationAddressExclude⟩ := by
      unfold ruleOf
      rw [if_neg (by rw [hact]; decide)]
    have hsel := selectors_iff (p := fl.packet) (fun s hs => known_proto (n1 s hs) (f.protos s hs)) f.ports
    have one : (∃ o ∈ [(⟨name, if (if g.comment.isEmpty then hdr else g.comment).isEmpty then none
            else some (joinBlank (if g.comment.isEmpty then hdr else g.comment)), g.owner, d, ruleOf d g.term⟩ : Object)],
        ∃ r, o.rule = some r ∧ RuleHits r fl) ↔ ∃ r, ruleOf d g.term = some r ∧ RuleHits r fl := by simp
    rw [one, hrule]
    have two : (∃ r, some (⟨portSelectors g.term.protocol g.term.destinationPort,
        if d = "INGRESS" then peerSelectors g.term.sourceAddress g.term.sourceAddressExclude
        else peerSelectors g.term.destinationAddress g.term.destinationAddressExclude⟩ : Rule) = some r ∧ RuleHits r fl) ↔
        RuleHits ⟨portSelectors g.term.protocol g.term.destinationPort,
        if d = "INGRESS" then peerSelectors g.term.sourceAddress g.term.sourceAddressExclude
        else peerSelectors g.term.destinationAddress g.term.destinationAddressExclude⟩ fl := by simp
    rw [two]
    unfold RuleHits Flow.peer
    dsimp only
    rw [hsel, hf]
    rcases hd with rfl | rfl
    · obtain ⟨a, b⟩ := r1 rfl
      rw [if_pos rfl, if_pos rfl, peers_iff f.src a, b, f.other.1 rfl]
      constructor
      · rintro ⟨x, y⟩
        exact ⟨⟨y, .inl rfl, by simp [Den]⟩, x⟩
      · rintro ⟨⟨y, _⟩, x⟩
        exact ⟨x, y⟩
    · obtain ⟨a, b⟩ := r2 rfl
      rw [if_neg (by decide), if_neg (by decide), peers_iff f.dst b, a, f.other.2 rfl]
      constructor
      · rintro ⟨x, y⟩
        exact ⟨⟨⟨.inl rfl, by simp [Den]⟩, y⟩, x⟩
      · rintro ⟨⟨_, y⟩, x⟩
        exact ⟨x, y⟩

/-- A deny term that is rendered matches everything. -/
theorem newTerm_deny {d : String} {g : PTerm} {b : Bool} (f : K8sFits d g) (hl : Live g) (ho : g.term.option = [])
    (ha : g.term.action = ["deny"]) (hn : newTerm d g = .ok b) : b = true ∧ ∀ p, Matches g.term p := by
  unfold newTerm at hn
  have ha : g.term.action.contains "deny" = true := by rw [ha]; rfl
  simp only [ha, if_true] at hn
  split at hn
  · cases hn
  · split at hn
    next hd =>
      refine ⟨(Except.ok.inj hn).symm, fun p => ?_⟩
      unfold isDefaultDeny at hd
      simp only [Bool.and_eq_true, List.all_eq_true, Bool.or_eq_true, Bool.not_eq_true', List.contains_iff_mem] at hd
      have key : ∀ (s : String) {v : Val}, (s, v) ∈ attrsOf g.term →
          s ∉ ["flattened", "action", "name", "logging", "ttl", "traffic_class"] → v.truthy = false :=
        fun s v hm hs => (hd.1.1.2 _ hm).resolve_left hs
      have e1 : g.term.sourceAddress = [] := Cisco.listVal_falsy (key "source_address" (by simp [attrsOf]) (by decide))
      have e2 : g.term.destinationAddress = [] := Cisco.listVal_falsy (key "destination_address" (by simp [attrsOf]) (by decide))
      have e3 : g.term.sourceAddressExclude = [] := Cisco.listVal_falsy (key "source_address_exclude" (by simp [attrsOf]) (by decide))
      have e4 : g.term.destinationAddressExclude = [] := Cisco.listVal_falsy (key "destination_address_exclude" (by simp [attrsOf]) (by decide))
      have e5 : g.term.protocol = [] := Cisco.wordsVal_falsy (key "protocol" (by simp [attrsOf]) (by decide))
      have e6 : g.term.sourcePort = [] := Cisco.listVal_falsy (key "source_port" (by simp [attrsOf]) (by decide))
      have e7 : g.term.destinationPort = [] := Cisco.listVal_falsy (key "destination_port" (by simp [attrsOf]) (by decide))
      rw [k8s_matches f hl ho e6, e1, e2, e3, e4, e5, e7]
      simp [AddrMatch, Den, OneOf, PortMatch]
    · cases hn

/-! ### the terms of a filter -/

theorem k8s_fixName {d : String} {name out : Str} (h : K8s.fixName d name = .ok out) : NameOf d name out := by
  unfold K8s.fixName at h
  have key : ∀ s : Str, fixTermLength abbreviations 62 s false false = .ok out → out = s := by
    intro s hs
    unfold fixTermLength truncateName at hs
    simp only [Bool.false_eq_true, if_false] at hs
    split at hs
    · exact (Except.ok.inj hs).symm
    · cases hs
  unfold NameOf
  rw [key _ h]
  split <;> simp

theorem oneTerm_name {d : String} {hdr : List Str} {g : PTerm} {name : Str} {os : List Object}
    (h : oneTerm d hdr g name = .ok os) (hr : g.reply = false) : os = [] ∨ ∃ o, os = [o] ∧ o.name = name ∧ o.direction = d := by
  rcases oneTerm_shape h hr with ⟨_, rfl⟩ | ⟨_, _, ⟨_, rfl⟩ | ⟨_, _, rfl⟩⟩
  · exact .inl rfl
  · exact .inl rfl
  · exact .inr ⟨_, rfl, rfl, rfl⟩

theorem termsLoop_blocks {d : String} {hdr : List Str} : ∀ {gs : List PTerm} {names : List Str} {os : List Object},
    termsLoop d hdr names gs = .ok os → ∃ bs : List (PTerm × List Object), bs.map Prod.fst = gs ∧
      bs.flatMap Prod.snd = os ∧ (∀ b ∈ bs, (b.1.reply = true ∧ b.2 = []) ∨ (b.1.reply = false ∧
        ∃ name, NameOf d b.1.term.name name ∧ oneTerm d hdr b.1 name = .ok b.2)) ∧
      (os.map Object.name).Nodup ∧ (∀ o ∈ os, o.name ∉ names) ∧ ∀ o ∈ os, o.direction = d
  | [], _, os, h => by
    cases h
    exact ⟨[], rfl, rfl, by simp, List.nodup_nil, by simp, by simp⟩
  | g :: gs, names, os, h => by
    unfold termsLoop at h
    split at h
    next hr =>
      obtain ⟨bs, b1, b2, b3, b4, b5, b6⟩ := termsLoop_blocks h
      refine ⟨(g, []) :: bs, by simp [b1], by simp [b2], ?_, b4, b5, b6⟩
      intro b hb
      rcases List.mem_cons.1 hb with rfl | hb
      · exact .inl ⟨hr, rfl⟩
      · exact b3 b hb
    next hr =>
      obtain ⟨name, hn, h⟩ := bind_ok h
      split at h
      · cases h
      next hc =>
        obtain ⟨a, ha, h⟩ := bind_ok h
        obtain ⟨q, hq, h⟩ := bind_ok h
        cases h
        obtain ⟨bs, b1, b2, b3, b4, b5, b6⟩ := termsLoop_blocks hq
        have hr : g.reply = false := by simpa using hr
        have hc : name ∉ names := fun h => hc (List.contains_iff_mem.2 h)
        have hne : ∀ o ∈ q, o.name ≠ name := fun o ho e => b5 o ho (by simp [e])
        refine ⟨(g, a) :: bs, by simp [b1], by simp [b2], ?_, ?_⟩
        · intro b hb
          rcases List.mem_cons.1 hb with rfl | hb
          · exact .inr ⟨hr, name, k8s_fixName hn, ha⟩
          · exact b3 b hb
        · have b5' : ∀ o ∈ q, o.name ∉ names := fun o ho h => b5 o ho (List.mem_cons_of_mem _ h)
          rcases oneTerm_name ha hr with rfl | ⟨o, rfl, o1, o2⟩
          · exact ⟨b4, b5', b6⟩
          · refine ⟨?_, ?_, ?_⟩
            · rw [List.map_append]
              refine List.nodup_cons.2 ⟨?_, b4⟩
              intro hm
              obtain ⟨o', ho', e⟩ := List.mem_map.1 hm
              exact hne o' ho' (e.trans o1)
            · intro x hx
              rcases List.mem_append.1 hx with hx | hx
              · rw [List.mem_singleton.1 hx, o1]
                exact hc
              · exact b5' x hx
            · intro x hx
              rcases List.mem_append.1 hx with hx | hx
              · rw [List.mem_singleton.1 hx, o2]
              · exact b6 x hx

/-! ### several filters -/

theorem translate_append : ∀ {fs fs' : List Filter} {os : List Object}, translate (fs ++ fs') = .ok os →
    ∃ a b, translate fs = .ok a ∧ translate fs' = .ok b ∧ os = a ++ b
  | [], _, os, h => ⟨[], os, rfl, h, rfl⟩
  | f :: fs, fs', os, h => by
    obtain ⟨a, h1, h⟩ := bind_ok (x := termsLoop (directionOf f.options) f.comment [] f.terms) h
    obtain ⟨q, h2, h⟩ := bind_ok h
    cases h
    obtain ⟨x, y, h3, h4, rfl⟩ := translate_append h2
    refine ⟨a ++ x, y, ?_, h4, by simp⟩
    simp [translate, h1, h3, bind, Except.bind]

theorem direction_iff {options : List String} {d : String} (h : Direction options d) : directionOf options = d := by
  rw [h]
  unfold directionOf
  simp only [List.foldl_cons, List.foldl_nil, List.contains_iff_mem]
  by_cases h1 : "EGRESS" ∈ options <;> simp [h1]

theorem direction_spec (options : List String) : Direction options (directionOf options) := by
  have := direction_iff (options := options) rfl
  rw [this]
  rfl

/-- Every object of the output comes from a live term of a filter. -/
theorem translate_from : ∀ {fs : List Filter} {os : List Object}, translate fs = .ok os → ∀ o ∈ os,
    ∃ f ∈ fs, ∃ g ∈ f.terms, Live g ∧ newTerm (directionOf f.options) g = .ok true ∧ nameOk o.name = true ∧
      NameOf (directionOf f.options) g.term.name o.name ∧
      o = ⟨o.name, if (if g.comment.isEmpty then f.comment else g.comment).isEmpty then none
            else some (joinBlank (if g.comment.isEmpty then f.comment else g.comment)), g.owner, directionOf f.options,
            ruleOf (directionOf f.options) g.term⟩
  | [], os, h => by cases h; simp
  | f :: fs, os, h => by
    obtain ⟨a, h1, h⟩ := bind_ok (x := termsLoop (directionOf f.options) f.comment [] f.terms) h
    obtain ⟨q, h2, h⟩ := bind_ok h
    cases h
    intro o ho
    rcases List.mem_append.1 ho with ho | ho
    · obtain ⟨bs, b1, b2, b3, _⟩ := termsLoop_blocks h1
      rw [← b2] at ho
      obtain ⟨b, hb, ho⟩ := List.mem_flatMap.1 ho
      have hg : b.1 ∈ f.terms := b1 ▸ List.mem_map_of_mem hb
      rcases b3 b hb with ⟨_, e⟩ | ⟨hr, name, hn, h3⟩
      · rw [e] at ho
        cases ho
      · rcases oneTerm_shape h3 hr with ⟨_, e⟩ | ⟨hl, _, ⟨_, e⟩ | ⟨hx, hok, e⟩⟩
        · rw [e] at ho
          cases ho
        · rw [e] at ho
          cases ho
        · rw [e] at ho
          rw [List.mem_singleton.1 ho]
          exact ⟨f, by simp, b.1, hg, hl, hx, hok, hn, rfl⟩
    · obtain ⟨f', hf', x⟩ := translate_from h2 o ho
      exact ⟨f', by simp [hf'], x⟩

theorem stays_mem {o : Object} {os : List Object} (h : Stays o os) : o ∈ os := by
  obtain ⟨a, b, rfl, _⟩ := h
  simp

theorem stays_middle {a b os : List Object} {o : Object} (ho : o ∈ os) (hn : (os.map Object.name).Nodup)
    (hb : ∀ q ∈ b, q.name ≠ o.name) : Stays o (a ++ (os ++ b)) := by
  obtain ⟨x, y, rfl⟩ := List.append_of_mem ho
  refine ⟨a ++ x, y ++ b, by simp, fun q hq => ?_⟩
  rcases List.mem_append.1 hq with hq | hq
  · rw [List.map_append, List.map_cons, List.nodup_append] at hn
    have := (List.nodup_cons.1 hn.2.1).1
    exact fun e => this (e ▸ List.mem_map_of_mem hq)
  · exact hb q hq

/-- Terms that deny come last, so that any accepting term that matches decides. -/
theorem accepts_iff {p : Packet} : ∀ {gs : List PTerm},
    (gs.Pairwise fun g h => Live g → Live h → g.term.action = ["deny"] → h.term.action ≠ ["accept"]) →
    (∀ g ∈ gs, Live g → g.term.action = ["accept"] ∨ g.term.action = ["deny"]) →
    (Accepts gs p ↔ ∃ g ∈ gs, Live g ∧ g.term.action = ["accept"] ∧ Matches g.term p)
  | [], _, _ => iff_of_false first_nil (by simp)
  | g :: gs, h, hk => by
    obtain ⟨h1, h2⟩ := List.pairwise_cons.1 h
    have ih : Accepts gs p ↔ _ := accepts_iff (p := p) h2 fun x hx => hk x (List.mem_cons_of_mem _ hx)
    unfold Accepts at ih ⊢
    rw [first_cons, ih]
    constructor
    · rintro (⟨a, b, c⟩ | ⟨_, x, hx, hh⟩)
      · exact ⟨g, by simp, a, c, b⟩
      · exact ⟨x, by simp [hx], hh⟩
    · rintro ⟨x, hx, l, a, m⟩
      rcases List.mem_cons.1 hx with rfl | hx
      · exact .inl ⟨l, m, a⟩
      · by_cases hg : Live g ∧ Matches g.term p
        · rcases hk g (by simp) hg.1 with e | e
          · exact .inl ⟨hg.1, hg.2, e⟩
          · exact absurd a (h1 x hx hg.1 l e)
        · exact .inr ⟨fun w hw => hg ⟨hw.1, hw.2.1⟩, x, hx, l, a, m⟩

/-- C83, for a filter whose live terms are rendered faithfully, no term accepting after one that denies everything, and of
which something is left; other filters have the other direction and other names. Not proved, and refuted below: the same without these
conditions. -/
theorem C83_policy_partial {pre post : List Filter} {f : Filter} {os : List Object} {fl : Flow}
    (h : translate (pre ++ f :: post) = .ok os) (hd : Direction f.options fl.direction)
    (hother : ∀ f' ∈ pre ++ post, ∃ d', Direction f'.options d' ∧ d' ≠ fl.direction ∧
      ∀ g ∈ f.terms, ∀ g' ∈ f'.terms, ∀ n n', NameOf fl.direction g.term.name n → NameOf d' g'.term.name n' → n ≠ n')
    (hfit : ∀ g ∈ f.terms, Live g → K8sFits fl.direction g)
    (hlast : f.terms.Pairwise fun g h => Live g → Live h → g.term.action = ["deny"] → (∀ p, Matches g.term p) →
      h.term.action ≠ ["accept"])
    (hleft : ∃ g ∈ f.terms, Live g ∧ ∃ p, Matches g.term p) :
    Allowed os fl ↔ Accepts f.terms fl.packet := by
  obtain ⟨a, r, ha, h', rfl⟩ := translate_append h
  obtain ⟨m, hm, h⟩ := bind_ok (x := termsLoop (directionOf f.options) f.comment [] f.terms) h'
  obtain ⟨b, hb, h⟩ := bind_ok h
  cases h
  rw [direction_iff hd] at hm
  have hdir : fl.direction = "INGRESS" ∨ fl.direction = "EGRESS" := by
    rw [hd]
    split
    · exact .inr rfl
    · exact .inl rfl
  have hact : ∀ g ∈ f.terms, Live g → g.term.action = ["accept"] ∨ g.term.action = ["deny"] := by
    exact fun g hg hl => (hfit g hg hl).action
  obtain ⟨bs, b1, b2, b3, b4, _, b6⟩ := termsLoop_blocks hm
  have hmid : ∀ o ∈ m, ∃ g ∈ f.terms, NameOf fl.direction g.term.name o.name := by
    intro o ho
    rw [← b2] at ho
    obtain ⟨x, hx, ho⟩ := List.mem_flatMap.1 ho
    rcases b3 x hx with ⟨_, e⟩ | ⟨hr, name, hn, h3⟩
    · rw [e] at ho
      cases ho
    · refine ⟨x.1, b1 ▸ List.mem_map_of_mem hx, ?_⟩
      rcases oneTerm_name h3 hr with e | ⟨o', e, e1, _⟩
      · rw [e] at ho
        cases ho
      · rw [e] at ho
        rw [List.mem_singleton.1 ho, e1]
        exact hn
  have hout : ∀ {fs : List Filter} {l : List Object}, translate fs = .ok l → (∀ f' ∈ fs, f' ∈ pre ++ post) → ∀ o ∈ l,
      o.direction ≠ fl.direction ∧ ∀ q ∈ m, o.name ≠ q.name := by
    intro fs l hl hsub o ho
    obtain ⟨f', hf', g', hg', _, _, _, hn, e⟩ := translate_from hl o ho
    obtain ⟨d', hd', hne, hnm⟩ := hother f' (hsub f' hf')
    rw [direction_iff hd'] at hn e
    refine ⟨by rw [e]; exact hne, fun q hq => ?_⟩
    obtain ⟨g, hg, hq⟩ := hmid q hq
    exact fun he => hnm g hg g' hg' _ _ hq hn he.symm
  have hA := hout ha fun f' h => List.mem_append_left _ h
  have hB := hout hb fun f' h => List.mem_append_right _ h
  have hstay : ∀ o, (Stays o (a ++ (m ++ b)) ∧ o.direction = fl.direction) ↔ o ∈ m := by
    intro o
    constructor
    · rintro ⟨h1, h2⟩
      rcases List.mem_append.1 (stays_mem h1) with h | h
      · exact absurd h2 (hA o h).1
      · rcases List.mem_append.1 h with h | h
        · exact h
        · exact absurd h2 (hB o h).1
    · intro ho
      exact ⟨stays_middle ho b4 fun q hq => (hB q hq).2 o ho, b6 o ho⟩
  have hsome : m ≠ [] := by
    obtain ⟨g, hg, hl, p, hp⟩ := hleft
    rw [← b1] at hg
    obtain ⟨x, hx, rfl⟩ := List.mem_map.1 hg
    have hxf : x.1 ∈ f.terms := b1 ▸ List.mem_map_of_mem hx
    rcases b3 x hx with ⟨hr, _⟩ | ⟨hr, name, hn, h3⟩
    · rw [hl.2.1] at hr
      cases hr
    · rcases oneTerm_shape h3 hr with ⟨hnl, _⟩ | ⟨_, ho, ⟨h4, _⟩ | ⟨_, _, e⟩⟩
      · exact absurd hl hnl
      · have k := hfit x.1 hxf hl
        rcases k.action with ka | ka
        · obtain ⟨n1, n2, n3⟩ := newTerm_accept ka h4
          rw [k8s_matches k hl ho (k8s_refused n2).2.2] at hp
          exact absurd hp.1 (left_false k.src k.dst n2 n3 _)
        · exact absurd (newTerm_deny k hl ho ka h4).1 (by decide)
      · intro he
        rw [← b2, List.flatMap_eq_nil_iff] at he
        have := he x hx
        rw [e] at this
        cases this
  have hall : f.terms.Pairwise fun g h => Live g → Live h → g.term.action = ["deny"] → h.term.action ≠ ["accept"] := by
    refine List.Pairwise.imp_of_mem ?_ hlast
    intro g h hg _ hgh lg lh ha
    rw [← b1] at hg
    obtain ⟨x, hx, rfl⟩ := List.mem_map.1 hg
    refine hgh lg lh ha ?_
    rcases b3 x hx with ⟨hr, _⟩ | ⟨hr, name, hn, h3⟩
    · rw [lg.2.1] at hr
      cases hr
    · have k := hfit x.1 (b1 ▸ List.mem_map_of_mem hx) lg
      rcases oneTerm_shape h3 hr with ⟨hnl, _⟩ | ⟨_, ho, ⟨h4, _⟩ | ⟨h4, _, e⟩⟩
      · exact absurd lg hnl
      · exact (newTerm_deny k lg ho ha h4).2
      · exact (newTerm_deny k lg ho ha h4).2
  rw [accepts_iff (p := fl.packet) hall hact]
  have hfirst : ¬ ∀ o, Stays o (a ++ (m ++ b)) → o.direction ≠ fl.direction := by
    intro hall
    obtain ⟨o, ho⟩ := List.exists_mem_of_ne_nil m hsome
    obtain ⟨h1, h2⟩ := (hstay o).2 ho
    exact hall o h1 h2
  unfold Allowed
  simp only [hfirst, false_or]
  constructor
  · rintro ⟨o, h1, h2, r, h3, h4⟩
    have ho := (hstay o).1 ⟨h1, h2⟩
    rw [← b2] at ho
    obtain ⟨x, hx, ho⟩ := List.mem_flatMap.1 ho
    have hxf : x.1 ∈ f.terms := b1 ▸ List.mem_map_of_mem hx
    rcases b3 x hx with ⟨_, e⟩ | ⟨hr, name, hn, h5⟩
    · rw [e] at ho
      cases ho
    · rcases oneTerm_shape h5 hr with ⟨_, e⟩ | ⟨hl, _, ⟨_, e⟩ | ⟨_, _, e⟩⟩
      · rw [e] at ho
        cases ho
      · rw [e] at ho
        cases ho
      · have k := hfit x.1 hxf hl
        rcases k.action with ka | ka
        · exact ⟨x.1, hxf, hl, ka, (oneTerm_iff h5 hl k ka hdir rfl).1 ⟨o, ho, r, h3, h4⟩⟩
        · rw [e] at ho
          rw [List.mem_singleton.1 ho] at h3
          dsimp only at h3
          unfold ruleOf at h3
          rw [if_pos (by rw [ka]; rfl)] at h3
          cases h3
  · rintro ⟨g, hg, hl, hac, hm⟩
    rw [← b1] at hg
    obtain ⟨x, hx, rfl⟩ := List.mem_map.1 hg
    have hxf : x.1 ∈ f.terms := b1 ▸ List.mem_map_of_mem hx
    rcases b3 x hx with ⟨hr, _⟩ | ⟨hr, name, hn, h5⟩
    · rw [hl.2.1] at hr
      cases hr
    · obtain ⟨o, ho, r, h3, h4⟩ := (oneTerm_iff (fl := fl) h5 hl (hfit x.1 hxf hl) hac hdir rfl).2 hm
      have : o ∈ m := b2 ▸ List.mem_flatMap.2 ⟨x, hx, ho⟩
      obtain ⟨s1, s2⟩ := (hstay o).2 this
      exact ⟨o, s1, s2, r, h3, h4⟩

theorem alnum_of {c : Char} (h : lowerOrDigit c = true) : Alnum c := by
  unfold lowerOrDigit at h
  simp only [Bool.or_eq_true, Char.isLower, Char.isDigit, Bool.and_eq_true, decide_eq_true_eq] at h
  exact h

/-- The conditions under which an accepting term of the direction becomes an object the cluster takes. -/
structure K8sSound (d : String) (g : PTerm) : Prop where
  name : '.' ∉ g.term.name
  protos : ∀ s ∈ g.term.protocol, s ∈ iana.map Prod.fst
  ports : ∀ r ∈ g.term.destinationPort, 1 ≤ r.1 ∧ r.1 ≤ r.2 ∧ r.2 ≤ 65535
  src : d = "INGRESS" → ∀ n ∈ g.term.sourceAddress, ∀ e ∈ g.term.sourceAddressExclude,
    n.plen < e.plen ∧ Flat.Covers (n.ver, n.addr, n.plen) e.ver e.addr
  dst : d = "EGRESS" → ∀ n ∈ g.term.destinationAddress, ∀ e ∈ g.term.destinationAddressExclude,
    n.plen < e.plen ∧ Flat.Covers (n.ver, n.addr, n.plen) e.ver e.addr

/-- C84, for terms whose names have no dots, whose protocols are named, whose ports are not 0, and whose excluded addresses
are inside every included one. Not proved, and refuted below: the same without these conditions. -/
theorem C84_valid_partial {fs : List Filter} {os : List Object} (h : translate fs = .ok os)
    (hs : ∀ f ∈ fs, ∀ d, Direction f.options d → ∀ g ∈ f.terms, Live g → K8sSound d g) : ∀ o ∈ os, Valid o := by
  intro o ho
  obtain ⟨f, hf, g, hg, hl, hnew, hok, hn, e⟩ := translate_from h o ho
  have hdir : directionOf f.options = "INGRESS" ∨ directionOf f.options = "EGRESS" := by
    rw [direction_spec f.options]
    split
    · exact .inr rfl
    · exact .inl rfl
  have s := hs f hf _ (direction_spec _) g hg hl
  have hrule : o.rule = ruleOf (directionOf f.options) g.term := by rw [e]
  have hproto : ∀ s ∈ g.term.protocol, unknownProtocol s = false := by
    unfold newTerm at hnew
    split at hnew
    · cases hnew
    next hp =>
      simp only [List.any_eq_true, not_exists, not_and, Bool.not_eq_true] at hp
      exact hp
  refine ⟨?_, ?_, ?_, ?_⟩
  · unfold nameOk at hok
    simp only [Bool.and_eq_true, decide_eq_true_eq, List.all_eq_true, Bool.or_eq_true, beq_iff_eq] at hok
    obtain ⟨⟨⟨⟨_, h2⟩, h3⟩, h4⟩, h5⟩ := hok
    have hdot : '.' ∉ o.name := by
      rw [hn]
      intro hm
      rcases List.mem_append.1 hm with hm | hm
      · exact s.name hm
      · revert hm
        split <;> decide
    refine ⟨.one ⟨?_, ?_, ?_⟩, h2⟩
    · intro c hc
      rcases h5 c hc with (x | x) | x
      · exact .inl (alnum_of x)
      · exact .inr x
      · exact absurd (x ▸ hc) hdot
    · cases hh : o.name.head? with
      | none => rw [hh] at h3; cases h3
      | some c => rw [hh] at h3; exact ⟨c, rfl, alnum_of h3⟩
    · cases hh : o.name.getLast? with
      | none => rw [hh] at h4; cases h4
      | some c => rw [hh] at h4; exact ⟨c, rfl, alnum_of h4⟩
  · rw [e]
    exact hdir
  · intro r hr b hb
    rw [hrule] at hr
    unfold ruleOf at hr
    split at hr
    · cases hr
    · rw [← Option.some.inj hr] at hb
      dsimp only at hb
      rcases hdir with hd | hd
      · rw [hd, if_pos rfl] at hb
        obtain ⟨n, hn, rfl⟩ := List.mem_map.1 hb
        exact fun x hx => s.src hd n hn x hx
      · rw [hd, if_neg (by decide)] at hb
        obtain ⟨n, hn, rfl⟩ := List.mem_map.1 hb
        exact fun x hx => s.dst hd n hn x hx
  · intro r hr b hb
    rw [hrule] at hr
    unfold ruleOf at hr
    split at hr
    · cases hr
    · rw [← Option.some.inj hr] at hb
      dsimp only at hb
      unfold portSelectors at hb
      obtain ⟨x, hx, hb⟩ := List.mem_flatMap.1 hb
      have hname : upper x ∈ selNames.map Prod.fst := by
        have key : ∀ x ∈ ["tcp", "udp", "sctp"], upper x ∈ selNames.map Prod.fst := by decide
        exact key x (known_proto (hproto x hx) (s.protos x hx))
      split at hb
      · rw [List.mem_singleton.1 hb]
        exact ⟨hname, Flat.ifSet_none⟩
      · obtain ⟨q, hq, rfl⟩ := List.mem_map.1 hb
        exact ⟨hname, Flat.ifSet_some.2 (s.ports q hq)⟩

/-- C85, for one filter. Not proved, and refuted below: the same for several filters. -/
theorem C85_names_partial {f : Filter} {os : List Object} (h : translate [f] = .ok os) : (os.map Object.name).Nodup := by
  obtain ⟨m, hm, h⟩ := bind_ok (x := termsLoop (directionOf f.options) f.comment [] f.terms) h
  cases h
  obtain ⟨_, _, _, _, h, _⟩ := termsLoop_blocks hm
  rw [List.append_nil]
  exact h

theorem k8s_join : ∀ l : List Str, joinBlank l = [' '].intercalate l
  | [] => rfl
  | [a] => by simp [joinBlank, List.intercalate]
  | a :: b :: l => by
    have := k8s_join (b :: l)
    simp only [joinBlank, this, List.intercalate, List.intersperse_cons₂, List.flatten_cons]
    simp

/-- C86: every object bears the name of a live term, its comment or that of the header, and its owner. -/
theorem C86_own {fs : List Filter} {os : List Object} (h : translate fs = .ok os) : ∀ o ∈ os, ∃ f ∈ fs, ∃ g ∈ f.terms,
    Live g ∧ Direction f.options o.direction ∧ NameOf o.direction g.term.name o.name ∧ o.owner = g.owner ∧
    (g.comment ≠ [] → o.comment = some ([' '].intercalate g.comment)) ∧
    (g.comment = [] → f.comment ≠ [] → o.comment = some ([' '].intercalate f.comment)) ∧
    (g.comment = [] → f.comment = [] → o.comment = none) := by
  intro o ho
  obtain ⟨f, hf, g, hg, hl, _, _, hn, e⟩ := translate_from h o ho
  refine ⟨f, hf, g, hg, hl, ?_⟩
  rw [e]
  dsimp only
  refine ⟨direction_spec _, hn, rfl, fun hc => ?_, fun hc hf => ?_, fun hc hf => ?_⟩
  · have : g.comment.isEmpty = false := by simpa using hc
    simp [this, k8s_join]
  · have : f.comment.isEmpty = false := by simpa using hf
    simp [hc, this, k8s_join]
  · simp [hc, hf]

end Verif.Props
