import Verif.Lemmas.PanRule
import Verif.Props.Nsx

/-!
The services and applications of the rules of the Palo Alto generator.
-/

namespace Verif.Pan
open Verif Verif.Spec Policy Aclgenerator Nacaddr
open Verif.Spec.Pan (serviceProtos ServiceHits knownApps AppHits ServiceOk)

/-! ### services -/

theorem key_unique {α β : Type} {f : α → β} {l : List α} (hn : (l.map f).Nodup) {s t : α} (hs : s ∈ l) (ht : t ∈ l) (e : f s = f t) :
    s = t := by
  induction l with
  | nil => cases hs
  | cons a l ih =>
    rw [List.map_cons, List.nodup_cons] at hn
    rcases List.mem_cons.1 hs with e1 | hs <;> rcases List.mem_cons.1 ht with e2 | ht
    · rw [e1, e2]
    · rw [e1] at e
      exact absurd (List.mem_map.2 ⟨_, ht, e.symm⟩) hn.1
    · rw [e2] at e
      exact absurd (List.mem_map.2 ⟨_, hs, e⟩) hn.1
    · exact ih hn.2 hs ht

theorem service_proto {p : Packet} (hc : p.proto ∈ iana.map Prod.fst) {s : String} :
    (∃ n, (s, n) ∈ serviceProtos ∧ Flat.NumberIs p n) ↔ s ∈ ["tcp", "udp", "sctp"] ∧ p.proto = s := by
  have key : ∀ e ∈ serviceProtos, protoMap.lookup e.1 = some e.2 ∧ e.1 ∈ ["tcp", "udp", "sctp"] := by decide
  have back : ∀ s ∈ ["tcp", "udp", "sctp"], ∃ e ∈ serviceProtos, e.1 = s := by decide
  constructor
  · rintro ⟨n, h1, h2⟩
    obtain ⟨h3, h4⟩ := key _ h1
    exact ⟨h4, (Flat.numberIs_iff h3 hc).1 h2⟩
  · rintro ⟨h1, h2⟩
    obtain ⟨⟨_, n⟩, h3, rfl⟩ := back s h1
    exact ⟨n, h3, (Flat.numberIs_iff (key _ h3).1 hc).2 h2⟩

/-- The services of a rule match the ports and protocols. -/
theorem services_hit {o : Output} (hs : Sound o.services) {sp dp : List PortRange} {ps : List String} {ns : List Str}
    (h : Named o.services sp dp ps ns) {p : Packet} (hc : p.proto ∈ iana.map Prod.fst) :
    (∃ s ∈ ns, ServiceHits o p s) ↔ (p.proto ∈ ps ∧ p.proto ∈ ["tcp", "udp", "sctp"]) ∧
      (sp = [] ∨ ∃ r ∈ sp, Flat.PortIn p p.sport r) ∧ ∃ r ∈ dp, Flat.PortIn p p.dport r := by
  constructor
  · rintro ⟨n, hn, s, h1, rfl, h2, h3, h4⟩
    obtain ⟨q, hq, hm⟩ := h.only _ hn
    have e := key_unique hs.names h1 hm rfl
    rw [e] at h2 h3 h4
    obtain ⟨h5, h6⟩ := (service_proto hc).1 h2
    dsimp only at h5 h6
    rw [h6]
    exact ⟨⟨hq, h5⟩, h3, h4⟩
  · rintro ⟨⟨h1, h2⟩, h3, h4⟩
    obtain ⟨n, hn, hm⟩ := h.each _ h1
    exact ⟨n, hn, _, hm, rfl, (service_proto hc).2 ⟨h2, rfl⟩, h3, h4⟩

/-! ### applications -/

theorem icmp_number {p : Packet} (hc : p.proto ∈ iana.map Prod.fst) (v6 : Bool) :
    Flat.NumberIs p (if v6 then 58 else 1) ↔ p.proto = icmpName v6 := by
  cases v6
  · exact Flat.numberIs_iff (by decide) hc
  · exact Flat.numberIs_iff (by decide) hc

theorem custom_unknown : ∀ e ∈ appTable, ∀ k ∈ knownApps, k.1 ≠ e.2 := by decide

/-- A custom application matches its type. -/
theorem custom_hits {o : Output} (hr : RefsOk o.refs) {r : IcmpApp} (hm : r ∈ o.refs) {p : Packet} (hc : p.proto ∈ iana.map Prod.fst) :
    AppHits o p r.name ↔ p.proto = icmpName r.v6 ∧ (p.icmpType, r.type) ∈ Spec.icmpNumbers (if r.v6 then .v6 else .v4) := by
  unfold AppHits
  obtain ⟨t, h1, h2⟩ := hr.each r hm
  have hk := app_known h2 h1
  constructor
  · rintro (⟨n, h3, _⟩ | ⟨a, h3, h4, h5, h6⟩)
    · exact absurd rfl (custom_unknown _ hk _ h3)
    · obtain rfl := key_unique hr.names h3 hm h4
      exact ⟨(icmp_number hc _).1 h5, h6⟩
  · rintro ⟨h3, h4⟩
    exact .inr ⟨r, hm, rfl, (icmp_number hc _).2 h3, h4⟩

/-- An application of the device matches its protocol. -/
theorem known_hits {o : Output} (hr : RefsOk o.refs) {p : Packet} (hc : p.proto ∈ iana.map Prod.fst) {a s : String} {n : Int}
    (ha : (a, n) ∈ knownApps) (hs : protoMap.lookup s = some n) : AppHits o p a ↔ p.proto = s := by
  have uniq : ∀ e ∈ knownApps, ∀ e' ∈ knownApps, e.1 = e'.1 → e.2 = e'.2 := by decide
  unfold AppHits
  constructor
  · rintro (⟨m, h1, h2⟩ | ⟨r, h1, h2, _⟩)
    · have := uniq _ h1 _ ha rfl
      dsimp only at this
      rw [this] at h2
      exact (Flat.numberIs_iff hs hc).1 h2
    · obtain ⟨t, h3, h4⟩ := hr.each r h1
      have hk := app_known h4 h3
      exact absurd h2.symm (custom_unknown _ hk _ ha)
  · intro h
    exact .inl ⟨n, ha, (Flat.numberIs_iff hs hc).2 h⟩

theorem types_table : (∀ e ∈ icmpTypes4, ∀ i ∈ icmpV4, i.2 = e.2 ↔ i.1 = e.1) ∧ (∀ e ∈ icmpTypes6, ∀ i ∈ icmpV6, i.2 = e.2 ↔ i.1 = e.1) ∧
    (∀ e ∈ icmpTypes4, e ∈ icmpV4) ∧ ∀ e ∈ icmpTypes6, e ∈ icmpV6 := by decide

theorem type_is {v6 : Bool} {ty : String} {k : Nat} (h : (if v6 then icmpTypes6 else icmpTypes4).lookup ty = some k) (s : String) :
    (s, k) ∈ Spec.icmpNumbers (if v6 then .v6 else .v4) ↔ s = ty := by
  obtain ⟨t1, t2, t3, t4⟩ := types_table
  cases v6 with
  | false =>
    have hm := Cisco.mem_of_lookup' h
    show (s, k) ∈ icmpV4 ↔ _
    constructor
    · intro hs
      exact (t1 _ hm _ hs).1 rfl
    · rintro rfl
      exact t3 _ hm
  | true =>
    have hm := Cisco.mem_of_lookup' h
    show (s, k) ∈ icmpV6 ↔ _
    constructor
    · intro hs
      exact (t2 _ hm _ hs).1 rfl
    · rintro rfl
      exact t4 _ hm

theorem icmp_app_number (v6 : Bool) : ∃ n, (icmpApp v6, n) ∈ knownApps ∧ protoMap.lookup (icmpName v6) = some n := by
  cases v6
  · exact ⟨1, by decide, by decide⟩
  · exact ⟨58, by decide, by decide⟩

/-- The applications for icmp packets match them. -/
theorem icmp_apps {o : Output} (hr : RefsOk o.refs) {p : Packet} (hc : p.proto ∈ iana.map Prod.fst) {t : Term} {apps : List String}
    (only : ∀ a ∈ apps, ∃ v6, ForIcmp o.refs t v6 a) (each : ∀ v6, icmpName v6 ∈ t.protocol → AllIcmp o.refs t v6 apps) :
    (∃ a ∈ apps, AppHits o p a) ↔ (p.proto ∈ t.protocol ∧ ∃ v6, p.proto = icmpName v6) ∧ OneOf t.icmpType p.icmpType := by
  constructor
  · rintro ⟨a, ha, h⟩
    obtain ⟨v6, h1, ⟨h2, rfl⟩ | ⟨ty, h2, k, h3, h4⟩⟩ := only a ha
    · obtain ⟨n, h3, h4⟩ := icmp_app_number v6
      have := (known_hits hr hc h3 h4).1 h
      rw [this]
      exact ⟨⟨h1, v6, rfl⟩, .inl h2⟩
    · obtain ⟨h5, h6⟩ := (custom_hits hr h4 hc).1 h
      dsimp only at h5 h6
      rw [h5]
      refine ⟨⟨h1, v6, rfl⟩, .inr ?_⟩
      rw [(type_is h3 _).1 h6]
      exact h2
  · rintro ⟨⟨h1, v6, h2⟩, h3⟩
    rw [h2] at h1
    obtain ⟨e1, e2⟩ := each v6 h1
    rcases h3 with h3 | h3
    · obtain ⟨n, h4, h5⟩ := icmp_app_number v6
      exact ⟨_, e1 h3, (known_hits hr hc h4 h5).2 h2⟩
    · obtain ⟨k, a, h4, h5, h6⟩ := e2 _ h3
      exact ⟨a, h6, (custom_hits hr h5 hc).2 ⟨h2, (type_is h4 _).2 rfl⟩⟩

/-- The application for a protocol without ports. -/
def protoApp (q a : String) : Prop := (q ∈ ["igmp", "sctp", "gre"] ∧ a = q) ∨ (q ∈ ["ah", "esp"] ∧ a = "ipsec-" ++ q)

theorem mem_protoApps {a : String} : ∀ {ps apps : List String}, a ∈ protoApps apps ps ↔ a ∈ apps ∨ ∃ q ∈ ps, protoApp q a
  | [], apps => by simp [protoApps]
  | q :: ps, apps => by
    have key : protoApps apps (q :: ps) = protoApps (if ["igmp", "sctp", "gre"].contains q && !apps.contains q then apps ++ [q]
      else if ["ah", "esp"].contains q then if apps.contains ("ipsec-" ++ q) then apps else apps ++ ["ipsec-" ++ q] else apps) ps := rfl
    rw [key, mem_protoApps]
    have : a ∈ (if ["igmp", "sctp", "gre"].contains q && !apps.contains q then apps ++ [q]
      else if ["ah", "esp"].contains q then if apps.contains ("ipsec-" ++ q) then apps else apps ++ ["ipsec-" ++ q] else apps) ↔
        a ∈ apps ∨ protoApp q a := by
      unfold protoApp
      have disj : q ∈ ["igmp", "sctp", "gre"] → q ∉ ["ah", "esp"] := by
        intro h
        simp only [List.mem_cons, List.not_mem_nil, or_false] at h ⊢
        rcases h with rfl | rfl | rfl <;> decide
      by_cases h1 : q ∈ ["igmp", "sctp", "gre"]
      · have h2 := disj h1
        have h2' : ["ah", "esp"].contains q = false := by rw [← Bool.not_eq_true, List.contains_iff_mem]; exact h2
        rw [List.contains_iff_mem.2 h1, h2']
        by_cases h3 : q ∈ apps
        · rw [List.contains_iff_mem.2 h3]
          simp only [Bool.not_true, Bool.and_false, Bool.false_eq_true, if_false]
          constructor
          · exact .inl
          · rintro (h | ⟨_, rfl⟩ | ⟨h, _⟩)
            · exact h
            · exact h3
            · exact absurd h h2
        · have h3' : apps.contains q = false := by rw [← Bool.not_eq_true, List.contains_iff_mem]; exact h3
          rw [h3']
          simp only [Bool.not_false, Bool.and_self, if_true, List.mem_append, List.mem_singleton]
          refine or_congr_right ?_
          constructor
          · exact fun h => .inl ⟨h1, h⟩
          · rintro (⟨_, h⟩ | ⟨h, _⟩)
            · exact h
            · exact absurd h h2
      · have h1' : ["igmp", "sctp", "gre"].contains q = false := by rw [← Bool.not_eq_true, List.contains_iff_mem]; exact h1
        rw [h1', Bool.false_and, if_neg (by simp)]
        by_cases h2 : q ∈ ["ah", "esp"]
        · rw [List.contains_iff_mem.2 h2, if_pos rfl]
          by_cases h3 : "ipsec-" ++ q ∈ apps
          · rw [List.contains_iff_mem.2 h3, if_pos rfl]
            constructor
            · exact .inl
            · rintro (h | ⟨h, _⟩ | ⟨_, rfl⟩)
              · exact h
              · exact absurd h h1
              · exact h3
          · rw [if_neg (by rw [List.contains_iff_mem]; exact h3), List.mem_append, List.mem_singleton]
            refine or_congr_right ?_
            constructor
            · exact fun h => .inr ⟨h2, h⟩
            · rintro (⟨h, _⟩ | ⟨_, h⟩)
              · exact absurd h h1
              · exact h
        · rw [if_neg (by rw [List.contains_iff_mem]; exact h2)]
          constructor
          · exact .inl
          · rintro (h | ⟨h, _⟩ | ⟨h, _⟩)
            · exact h
            · exact absurd h h1
            · exact absurd h h2
    rw [this]
    simp only [List.mem_cons, exists_eq_or_imp, or_assoc]

/-- The protocols with an application of the device. -/
def appProtos : List String := ["igmp", "sctp", "gre", "ah", "esp"]

theorem proto_app {o : Output} (hr : RefsOk o.refs) {p : Packet} (hc : p.proto ∈ iana.map Prod.fst) {q a : String} (h : protoApp q a) :
    AppHits o p a ↔ p.proto = q := by
  rcases h with ⟨h, rfl⟩ | ⟨h, rfl⟩
  · simp only [List.mem_cons, List.not_mem_nil, or_false] at h
    rcases h with rfl | rfl | rfl
    · exact known_hits hr hc (n := 2) (by decide) (by decide)
    · exact known_hits hr hc (n := 132) (by decide) (by decide)
    · exact known_hits hr hc (n := 47) (by decide) (by decide)
  · simp only [List.mem_cons, List.not_mem_nil, or_false] at h
    rcases h with rfl | rfl
    · exact known_hits hr hc (n := 51) (by decide) (by decide)
    · exact known_hits hr hc (n := 50) (by decide) (by decide)

/-- The applications of a rule match the packets of those of the term and of the protocols with an application. -/
theorem apps_hit {o : Output} (hr : RefsOk o.refs) {p : Packet} (hc : p.proto ∈ iana.map Prod.fst) {apps ps : List String} :
    (∃ a ∈ protoApps apps ps, AppHits o p a) ↔ (∃ a ∈ apps, AppHits o p a) ∨ (p.proto ∈ ps ∧ p.proto ∈ appProtos) := by
  have has : ∀ q ∈ appProtos, ∃ a, protoApp q a := by
    intro q hq
    unfold protoApp
    simp only [appProtos, List.mem_cons, List.not_mem_nil, or_false] at hq
    rcases hq with rfl | rfl | rfl | rfl | rfl
    · exact ⟨_, .inl ⟨by decide, rfl⟩⟩
    · exact ⟨_, .inl ⟨by decide, rfl⟩⟩
    · exact ⟨_, .inl ⟨by decide, rfl⟩⟩
    · exact ⟨_, .inr ⟨by decide, rfl⟩⟩
    · exact ⟨_, .inr ⟨by decide, rfl⟩⟩
  have of : ∀ {q a}, protoApp q a → q ∈ appProtos := by
    rintro q a (⟨h, _⟩ | ⟨h, _⟩)
    · simp only [List.mem_cons, List.not_mem_nil, or_false] at h
      rcases h with rfl | rfl | rfl <;> decide
    · simp only [List.mem_cons, List.not_mem_nil, or_false] at h
      rcases h with rfl | rfl <;> decide
  constructor
  · rintro ⟨a, ha, h⟩
    rcases mem_protoApps.1 ha with h1 | ⟨q, h1, h2⟩
    · exact .inl ⟨a, h1, h⟩
    · have := (proto_app hr hc h2).1 h
      rw [this]
      exact .inr ⟨h1, of h2⟩
  · rintro (⟨a, ha, h⟩ | ⟨h1, h2⟩)
    · exact ⟨a, mem_protoApps.2 (.inl ha), h⟩
    · obtain ⟨a, h3⟩ := has _ h2
      exact ⟨a, mem_protoApps.2 (.inr ⟨_, h1, h3⟩), (proto_app hr hc h3).2 rfl⟩

/-- No applications at all. -/
theorem apps_nil {apps ps : List String} : protoApps apps ps = [] ↔ apps = [] ∧ ∀ q ∈ ps, q ∉ appProtos := by
  rw [List.eq_nil_iff_forall_not_mem, List.eq_nil_iff_forall_not_mem]
  constructor
  · intro h
    refine ⟨fun a ha => h a (mem_protoApps.2 (.inl ha)), fun q hq hm => ?_⟩
    simp only [appProtos, List.mem_cons, List.not_mem_nil, or_false] at hm
    have : ∃ a, protoApp q a := by
      unfold protoApp
      rcases hm with rfl | rfl | rfl | rfl | rfl
      · exact ⟨_, .inl ⟨by decide, rfl⟩⟩
      · exact ⟨_, .inl ⟨by decide, rfl⟩⟩
      · exact ⟨_, .inl ⟨by decide, rfl⟩⟩
      · exact ⟨_, .inr ⟨by decide, rfl⟩⟩
      · exact ⟨_, .inr ⟨by decide, rfl⟩⟩
    obtain ⟨a, ha⟩ := this
    exact h a (mem_protoApps.2 (.inr ⟨q, hq, ha⟩))
  · rintro ⟨h1, h2⟩ a ha
    rcases mem_protoApps.1 ha with h | ⟨q, hq, h | h⟩
    · exact h1 a h
    · refine h2 q hq ?_
      have h := h.1
      simp only [List.mem_cons, List.not_mem_nil, or_false] at h
      rcases h with rfl | rfl | rfl <;> decide
    · refine h2 q hq ?_
      have h := h.1
      simp only [List.mem_cons, List.not_mem_nil, or_false] at h
      rcases h with rfl | rfl <;> decide

end Verif.Pan
