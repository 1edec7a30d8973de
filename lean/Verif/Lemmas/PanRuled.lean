import Verif.Lemmas.PanApp

/-!
The rules of a term of the Palo Alto generator match what the term does, apart from the addresses.
-/

namespace Verif.Pan
open Verif Verif.Spec Policy Aclgenerator Nacaddr
open Verif.Spec.Pan (ServiceHits AppHits ServiceOk)

theorem options_are {k : Kept} {ps apps : List String} {svcs : List Str} {x : Options} (h : optionsOf k ps apps svcs = .ok x) :
    x.source = tokensOf k.src ∧ x.destination = tokensOf k.dst ∧ x.apps = protoApps apps ps ∧ x.services = svcs ∧
      (∃ a rest, k.term.action = a :: rest ∧ actions.lookup a = some x.action) ∧ x.logs = logsOf k.term.logging := by
  unfold optionsOf at h
  split at h
  · cases h
  next a rest ha =>
    split at h
    · cases h
    next act hl =>
      cases h
      exact ⟨rfl, rfl, rfl, rfl, ⟨a, rest, ha, hl⟩, rfl⟩

theorem check_spec {t : Term} (h : protoCheck t = .ok ()) :
    (∀ s ∈ t.protocol, s ∈ protoNames) ∧ (t.icmpType ≠ [] → t.protocol = ["icmp"] ∨ t.protocol = ["icmpv6"]) := by
  unfold protoCheck at h
  split at h
  · cases h
  · split at h
    · cases h
    next h1 =>
      split at h
      · cases h
      next h2 =>
        refine ⟨fun s hs => ?_, fun hne => ?_⟩
        · rw [Bool.not_eq_true, List.any_eq_false] at h1
          have := h1 s hs
          simpa using this
        · apply Classical.byContradiction
          intro hn
          rw [not_or] at hn
          apply h2
          simp [hn.1, hn.2, hne]

theorem mem_services {t : Term} {q : String} : q ∈ services t ↔ q ∈ t.protocol ∧ (q = "tcp" ∨ q = "udp") := by
  unfold services
  rw [List.mem_eraseDups, List.mem_filter, decide_eq_true_eq]

theorem mem_others {t : Term} {q : String} : q ∈ others t ↔ q ∈ t.protocol ∧ q ≠ "tcp" ∧ q ≠ "udp" := by
  unfold others
  rw [List.mem_eraseDups, List.mem_filter, decide_eq_true_eq]

/-- The options match the packet. -/
def Fit (o : Output) (p : Packet) (x : Options) : Prop := ServiceOk o p (serviceField x) ∧ (x.apps = [] ∨ ∃ a ∈ x.apps, AppHits o p a)

/-- A rule for protocols with applications. -/
theorem app_rule {o : Output} (hr : RefsOk o.refs) {p : Packet} (hc : p.proto ∈ iana.map Prod.fst) {t : Term} {apps ps : List String}
    (only : ∀ a ∈ apps, ∃ v6, ForIcmp o.refs t v6 a) (each : ∀ v6, icmpName v6 ∈ t.protocol → AllIcmp o.refs t v6 apps)
    (check : protoCheck t = .ok ()) (hps : ∀ q, q ∈ ps ↔ q ∈ t.protocol ∧ q ≠ "tcp" ∧ q ≠ "udp") (hne : ps ≠ []) {x : Options}
    (hx : x.apps = protoApps apps ps) (hs : x.services = []) :
    Fit o p x ↔ p.proto ∈ ps ∧ OneOf t.icmpType p.icmpType := by
  obtain ⟨known, types⟩ := check_spec check
  have split : ∀ q ∈ ps, (∃ v6, q = icmpName v6) ∨ q ∈ appProtos := by
    intro q hq
    obtain ⟨h1, h2, h3⟩ := (hps q).1 hq
    have h4 := known q h1
    simp only [protoNames, List.mem_cons, List.not_mem_nil, or_false] at h4
    rcases h4 with rfl | rfl | rfl | rfl | rfl | rfl | rfl | rfl | rfl
    · exact absurd rfl h2
    · exact absurd rfl h3
    · exact .inl ⟨false, rfl⟩
    · exact .inl ⟨true, rfl⟩
    all_goals exact .inr (by decide)
  have icmps : ∀ v6, icmpName v6 ∈ t.protocol → icmpName v6 ∈ ps := by
    intro v6 h
    exact (hps _).2 ⟨h, by cases v6 <;> decide, by cases v6 <;> decide⟩
  have hnil : x.apps ≠ [] := by
    rw [hx]
    intro e
    obtain ⟨e1, e2⟩ := apps_nil.1 e
    obtain ⟨q, hq⟩ := List.exists_mem_of_ne_nil _ hne
    rcases split q hq with ⟨v6, rfl⟩ | h
    · obtain ⟨a1, a2⟩ := each v6 ((hps _).1 hq).1
      by_cases hi : t.icmpType = []
      · have := a1 hi
        rw [e1] at this
        cases this
      · obtain ⟨ty, hty⟩ := List.exists_mem_of_ne_nil _ hi
        obtain ⟨k, a, _, _, h⟩ := a2 ty hty
        rw [e1] at h
        cases h
    · exact e2 q hq h
  have hsf : serviceField x = .appDefault := by
    unfold serviceField
    rw [hs]
    simpa using hnil
  unfold Fit
  rw [hsf, or_iff_right hnil, hx, apps_hit hr hc, icmp_apps hr hc only each]
  constructor
  · rintro ⟨_, ⟨⟨h1, v6, h2⟩, h3⟩ | ⟨h1, h2⟩⟩
    · refine ⟨?_, h3⟩
      rw [h2] at h1 ⊢
      exact icmps v6 h1
    · refine ⟨h1, .inl ?_⟩
      apply Classical.byContradiction
      intro hi
      have hm := ((hps _).1 h1).1
      generalize p.proto = q at *
      rcases types hi with e | e <;> rw [e, List.mem_singleton] at hm <;> subst hm <;> revert h2 <;> decide
  · rintro ⟨h1, h2⟩
    refine ⟨trivial, ?_⟩
    rcases split _ h1 with ⟨v6, h3⟩ | h
    · exact .inl ⟨⟨((hps _).1 h1).1, v6, h3⟩, h2⟩
    · exact .inr ⟨h1, h⟩

/-- A rule for protocols with services. -/
theorem service_rule {o : Output} (hr : RefsOk o.refs) (hs : Sound o.services) {p : Packet} (hc : p.proto ∈ iana.map Prod.fst)
    (hp : p.dport ≤ 65535) {sp dp : List PortRange} {ps : List String} {ns : List Str}
    (hn : Named o.services sp (if dp.isEmpty then allPorts else dp) ps ns) (hk : ∀ q ∈ ps, q ∈ ["tcp", "udp", "sctp"]) (hne : ps ≠ [])
    (alone : "sctp" ∈ ps → ∀ q ∈ ps, q = "sctp") {x : Options} (hx : x.apps = protoApps [] ps) (hsv : x.services = ns) :
    Fit o p x ↔ p.proto ∈ ps ∧ PortMatch sp p.sport ∧ PortMatch dp p.dport := by
  have hns : ns ≠ [] := by
    obtain ⟨q, hq⟩ := List.exists_mem_of_ne_nil _ hne
    obtain ⟨n, h, _⟩ := hn.each q hq
    intro e
    rw [e] at h
    cases h
  have hsf : serviceField x = .names ns := by
    unfold serviceField
    rw [hsv, if_neg (by simpa using hns)]
  have known : ∀ q ∈ ["tcp", "udp", "sctp"], q ∈ Flat.portProtos ∧ (q ∈ appProtos → q = "sctp") := by decide
  have happ : p.proto ∈ ps → (x.apps = [] ∨ ∃ a ∈ x.apps, AppHits o p a) := by
    intro h
    rw [hx, apps_hit hr hc, apps_nil]
    by_cases h1 : "sctp" ∈ ps
    · refine .inr (.inr ⟨h, ?_⟩)
      rw [alone h1 _ h]
      decide
    · refine .inl ⟨rfl, fun q hq hq' => h1 ?_⟩
      rw [← (known q (hk q hq)).2 hq']
      exact hq
  unfold Fit
  rw [hsf]
  show (∃ s ∈ ns, ServiceHits o p s) ∧ _ ↔ _
  rw [services_hit hs hn hc]
  constructor
  · rintro ⟨⟨⟨h1, h2⟩, h3, h4⟩, _⟩
    obtain ⟨h5, _⟩ := known _ h2
    refine ⟨h1, (Props.nsx_port fun _ => h5).1 h3, ?_⟩
    by_cases hd : dp = []
    · exact .inl hd
    · rw [if_neg (by simpa using hd)] at h4
      exact (Props.nsx_port fun _ => h5).1 (.inr h4)
  · rintro ⟨h1, h3, h4⟩
    have h2 := hk _ h1
    obtain ⟨h5, _⟩ := known _ h2
    refine ⟨⟨⟨h1, h2⟩, (Props.nsx_port fun _ => h5).2 h3, ?_⟩, happ h1⟩
    by_cases hd : dp = []
    · rw [if_pos (by simpa using hd)]
      exact ⟨(0, 65535), by simp [allPorts], h5, Nat.zero_le _, hp⟩
    · rw [if_neg (by simpa using hd)]
      exact ((Props.nsx_port fun _ => h5).2 h4).resolve_left hd

/-- The rules of a term match what the term does. -/
theorem ruled_hits {o : Output} (hr : RefsOk o.refs) (hs : Sound o.services) {p : Packet} (hc : p.proto ∈ iana.map Prod.fst)
    (hp : p.dport ≤ 65535) {k : Kept} {os : List Options} (h : Ruled o.services k os)
    (only : ∀ a ∈ k.apps, ∃ v6, ForIcmp o.refs k.term v6 a) (each : ∀ v6, icmpName v6 ∈ k.term.protocol → AllIcmp o.refs k.term v6 k.apps)
    (check : protoCheck k.term = .ok ())
    (ports : k.term.sourcePort ≠ [] ∨ k.term.destinationPort ≠ [] → k.term.protocol ≠ [] ∧ (∀ s ∈ k.term.protocol, s ∈ protosWithPorts) ∧
      ("sctp" ∈ k.term.protocol → ∀ s ∈ k.term.protocol, s = "sctp")) :
    (∃ x ∈ os, Fit o p x) ↔ OneOf k.term.protocol p.proto ∧
      (PortMatch k.term.sourcePort p.sport ∧ PortMatch k.term.destinationPort p.dport) ∧ OneOf k.term.icmpType p.icmpType := by
  obtain ⟨known, types⟩ := check_spec check
  have noTypes : (∃ s ∈ k.term.protocol, s ≠ "icmp" ∧ s ≠ "icmpv6") → k.term.icmpType = [] := by
    rintro ⟨s, hs, h1, h2⟩
    apply Classical.byContradiction
    intro hi
    rcases types hi with e | e <;> rw [e, List.mem_singleton] at hs
    · exact h1 hs
    · exact h2 hs
  have noApps : (∀ s ∈ k.term.protocol, s ≠ "icmp" ∧ s ≠ "icmpv6") → k.apps = [] := by
    intro h
    rw [List.eq_nil_iff_forall_not_mem]
    intro a ha
    obtain ⟨v6, h1, _⟩ := only a ha
    obtain ⟨h2, h3⟩ := h _ h1
    cases v6
    · exact h2 rfl
    · exact h3 rfl
  cases h with
  | @ports ns x h1 h2 h3 =>
    obtain ⟨hne, hk, alone⟩ := ports h1
    obtain ⟨_, _, ha, hsv, _, _⟩ := options_are h3
    have tus : ∀ q ∈ k.term.protocol, q ∈ ["tcp", "udp", "sctp"] := by
      intro q hq
      have a := hk q hq
      have b := known q hq
      have : ∀ q ∈ protosWithPorts, q ∈ protoNames → q ∈ ["tcp", "udp", "sctp"] := by decide
      exact this q a b
    have plain : ∀ q ∈ ["tcp", "udp", "sctp"], q ≠ "icmp" ∧ q ≠ "icmpv6" := by decide
    rw [noApps fun s hs => plain s (tus s hs)] at ha
    have hi := noTypes (by
      obtain ⟨q, hq⟩ := List.exists_mem_of_ne_nil _ hne
      exact ⟨q, hq, plain q (tus q hq)⟩)
    simp only [List.mem_singleton, exists_eq_left]
    rw [service_rule hr hs hc hp h2 tus hne alone ha hsv, hi]
    unfold OneOf
    rw [or_iff_right hne]
    simp
  | @plain x h1 h2 h3 h4 =>
    obtain ⟨_, _, ha, hsv, _, _⟩ := options_are h4
    simp only [List.mem_singleton, exists_eq_left]
    rw [h1, h2]
    by_cases hne : k.term.protocol = []
    · have hi : k.term.icmpType = [] := by
        apply Classical.byContradiction
        intro hi
        rcases types hi with e | e <;> rw [hne] at e <;> cases e
      rw [noApps (by rw [hne]; simp), hne] at ha
      rw [hne, hi]
      refine iff_of_true ⟨?_, .inl ha⟩ (by simp [OneOf, PortMatch])
      unfold serviceField
      rw [hsv, ha]
      exact trivial
    · rw [app_rule hr hc only each check (fun q => ?_) hne ha hsv]
      · unfold OneOf
        rw [or_iff_right hne]
        simp [PortMatch]
      · refine ⟨fun h => ⟨h, ?_, ?_⟩, fun h => h.1⟩
        · rintro rfl
          have : "tcp" ∈ services k.term := mem_services.2 ⟨h, .inl rfl⟩
          rw [h3] at this
          cases this
        · rintro rfl
          have : "udp" ∈ services k.term := mem_services.2 ⟨h, .inr rfl⟩
          rw [h3] at this
          cases this
  | @words ns x h1 h2 h3 h4 h5 h6 =>
    obtain ⟨_, _, ha, hsv, _, _⟩ := options_are h6
    have tu : ∀ q ∈ k.term.protocol, q = "tcp" ∨ q = "udp" := by
      intro q hq
      apply Classical.byContradiction
      intro hn
      rw [not_or] at hn
      have : q ∈ others k.term := mem_others.2 ⟨hq, hn⟩
      rw [h4] at this
      cases this
    have hne : k.term.protocol ≠ [] := by
      obtain ⟨q, hq⟩ := List.exists_mem_of_ne_nil _ h3
      intro e
      have := (mem_services.1 hq).1
      rw [e] at this
      cases this
    have plain : ∀ q ∈ k.term.protocol, q ≠ "icmp" ∧ q ≠ "icmpv6" := by
      intro q hq
      rcases tu q hq with rfl | rfl <;> decide
    rw [noApps plain] at ha
    have hi := noTypes (by
      obtain ⟨q, hq⟩ := List.exists_mem_of_ne_nil _ hne
      exact ⟨q, hq, plain q hq⟩)
    simp only [List.mem_singleton, exists_eq_left]
    rw [service_rule (dp := []) hr hs hc hp h5 (fun q hq => ?_) hne (fun hq => ?_) ha hsv, hi, h1, h2]
    · unfold OneOf
      rw [or_iff_right hne]
      simp
    · rcases tu q hq with rfl | rfl <;> decide
    · exact absurd (tu _ hq) (by decide)
  | @both ns x y h1 h2 h3 h4 h5 h6 h7 =>
    obtain ⟨_, _, ha, hsv, _, _⟩ := options_are h6
    obtain ⟨_, _, ha', hsv', _, _⟩ := options_are h7
    have hne : k.term.protocol ≠ [] := by
      obtain ⟨q, hq⟩ := List.exists_mem_of_ne_nil _ h3
      intro e
      have := (mem_services.1 hq).1
      rw [e] at this
      cases this
    have hi := noTypes (by
      obtain ⟨q, hq⟩ := List.exists_mem_of_ne_nil _ h3
      obtain ⟨a, b⟩ := mem_services.1 hq
      exact ⟨q, a, by rcases b with rfl | rfl <;> decide⟩)
    simp only [List.mem_cons, List.not_mem_nil, or_false, exists_eq_or_imp, exists_eq_left]
    rw [service_rule (dp := []) hr hs hc hp h5 (fun q hq => ?_) h3 (fun hq => ?_) ha hsv,
      app_rule hr hc only each check (fun q => mem_others) h4 ha' hsv', hi, h1, h2, mem_services, mem_others]
    · unfold OneOf PortMatch
      rw [or_iff_right hne]
      constructor
      · rintro (⟨h, _⟩ | ⟨h, _⟩)
        · exact ⟨h.1, ⟨.inl rfl, .inl rfl⟩, .inl rfl⟩
        · exact ⟨h.1, ⟨.inl rfl, .inl rfl⟩, .inl rfl⟩
      · rintro ⟨h, _⟩
        by_cases ht : p.proto = "tcp" ∨ p.proto = "udp"
        · exact .inl ⟨⟨h, ht⟩, .inl rfl, .inl rfl⟩
        · exact .inr ⟨⟨h, not_or.1 ht⟩, .inl rfl⟩
    · obtain ⟨_, b⟩ := mem_services.1 hq
      rcases b with rfl | rfl <;> decide
    · exact absurd (mem_services.1 hq).2 (by decide)

end Verif.Pan
