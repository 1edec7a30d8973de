import Verif.Lemmas.PanBook
import Verif.Lemmas.Exclude

/-!
The loops of the Palo Alto generator over terms and filters, and what each term leaves behind.
-/

namespace Verif.Pan
open Verif Verif.Spec Policy Aclgenerator Nacaddr
open Verif.Srx (Zones upsert look Tidy removeAll)

/-! ### custom applications -/

/-- The names of the custom applications for the types. -/
def appTable : List ((Bool × String) × String) :=
  [((false, "echo-reply"), "icmp-echo-reply"), ((false, "unreachable"), "icmp-unreachable"),
   ((false, "source-quench"), "icmp-source-quench"), ((false, "redirect"), "icmp-redirect"),
   ((false, "alternate-address"), "icmp-alternate-address"), ((false, "echo-request"), "icmp-echo-request"),
   ((false, "router-advertisement"), "icmp-router-advertisement"),
   ((false, "router-solicitation"), "icmp-router-solicitation"), ((false, "time-exceeded"), "icmp-time-exceeded"),
   ((false, "parameter-problem"), "icmp-parameter-problem"), ((false, "timestamp-request"), "icmp-timestamp-request"),
   ((false, "timestamp-reply"), "icmp-timestamp-reply"), ((false, "information-request"), "icmp-information-request"),
   ((false, "information-reply"), "icmp-information-reply"), ((false, "mask-request"), "icmp-mask-request"),
   ((false, "mask-reply"), "icmp-mask-reply"), ((false, "conversion-error"), "icmp-conversion-error"),
   ((false, "mobile-redirect"), "icmp-mobile-redirect"),
   ((true, "destination-unreachable"), "icmp6-destination-unreachable"), ((true, "packet-too-big"), "icmp6-packet-too-big"),
   ((true, "time-exceeded"), "icmp6-time-exceeded"), ((true, "parameter-problem"), "icmp6-parameter-problem"),
   ((true, "echo-request"), "icmp6-echo-request"), ((true, "echo-reply"), "icmp6-echo-reply"),
   ((true, "multicast-listener-query"), "icmp6-multicast-listener-query"),
   ((true, "multicast-listener-report"), "icmp6-multicast-listener-report"),
   ((true, "multicast-listener-done"), "icmp6-multicast-listener-done"), ((true, "router-solicit"), "icmp6-router-solicit"),
   ((true, "router-advertisement"), "icmp6-router-advertisement"), ((true, "neighbor-solicit"), "icmp6-neighbor-solicit"),
   ((true, "neighbor-advertisement"), "icmp6-neighbor-advertisement"),
   ((true, "redirect-message"), "icmp6-redirect-message"), ((true, "router-renumbering"), "icmp6-router-renumbering"),
   ((true, "icmp-node-information-query"), "icmp6-icmp-node-information-que"),
   ((true, "icmp-node-information-response"), "icmp6-icmp-node-information-res"),
   ((true, "inverse-neighbor-discovery-solicitation"), "icmp6-INV-NBR-DSCVR-SOL"),
   ((true, "inverse-neighbor-discovery-advertisement"), "icmp6-INV-NBR-DSCVR-ADV"),
   ((true, "version-2-multicast-listener-report"), "icmp6-version-2-MCAST-LSNR-repo"),
   ((true, "home-agent-address-discovery-request"), "icmp6-home-agent-ADDR-DSCVR-REQ"),
   ((true, "home-agent-address-discovery-reply"), "icmp6-home-agent-ADDR-DSCVR-RPL"),
   ((true, "mobile-prefix-solicitation"), "icmp6-mobile-prefix-SOL"),
   ((true, "mobile-prefix-advertisement"), "icmp6-mobile-prefix-ADV"),
   ((true, "certification-path-solicitation"), "icmp6-certification-path-SOL"),
   ((true, "certification-path-advertisement"), "icmp6-certification-path-ADV"),
   ((true, "multicast-router-advertisement"), "icmp6-multicast-RTR-ADV"),
   ((true, "multicast-router-solicitation"), "icmp6-multicast-RTR-SOL"),
   ((true, "multicast-router-termination"), "icmp6-multicast-RTR-termination")]

theorem app_table : ((icmpTypes4.map fun e => (false, e.1)) ++ icmpTypes6.map fun e => (true, e.1)).map
    (fun e => (e, (appName e.1 e.2).toOption)) = appTable.map fun e => (e.1, some e.2) := by decide +kernel

theorem app_known {v6 : Bool} {t name : String} {k : Nat} (hk : (if v6 then icmpTypes6 else icmpTypes4).lookup t = some k)
    (h : appName v6 t = .ok name) : ((v6, t), name) ∈ appTable := by
  have hm := Cisco.mem_of_lookup' hk
  have : ((v6, t), some name) ∈ ((icmpTypes4.map fun e => (false, e.1)) ++ icmpTypes6.map fun e => (true, e.1)).map
      (fun e => (e, (appName e.1 e.2).toOption)) := by
    refine List.mem_map.2 ⟨(v6, t), ?_, by dsimp only; rw [h]; rfl⟩
    cases v6 with
    | false => exact List.mem_append_left _ (List.mem_map.2 ⟨(t, k), hm, rfl⟩)
    | true => exact List.mem_append_right _ (List.mem_map.2 ⟨(t, k), hm, rfl⟩)
  rw [app_table] at this
  obtain ⟨e, he, h1⟩ := List.mem_map.1 this
  simp only [Prod.mk.injEq, Option.some.injEq] at h1
  obtain ⟨e1, e2⟩ := e
  obtain ⟨h2, h3⟩ := h1
  dsimp only at h2 h3
  rw [← h2, ← h3]
  exact he

theorem app_nodup : (appTable.map Prod.snd).Nodup := by decide +kernel

theorem app_inj {a b : (Bool × String) × String} (ha : a ∈ appTable) (hb : b ∈ appTable) (h : a.2 = b.2) : a = b := by
  have key : ∀ {l : List ((Bool × String) × String)}, (l.map Prod.snd).Nodup → a ∈ l → b ∈ l → a = b := by
    intro l
    induction l with
    | nil => intro _ h; cases h
    | cons c l ih =>
      intro hn h1 h2
      rw [List.map_cons, List.nodup_cons] at hn
      rcases List.mem_cons.1 h1 with e1 | h1 <;> rcases List.mem_cons.1 h2 with e2 | h2
      · rw [e1, e2]
      · rw [e1] at h
        exact absurd (List.mem_map.2 ⟨b, h2, h.symm⟩) hn.1
      · rw [e2] at h
        exact absurd (List.mem_map.2 ⟨a, h1, h⟩) hn.1
      · exact ih hn.2 h1 h2
  exact key app_nodup ha hb

/-- The custom applications are named after their types. -/
structure RefsOk (refs : List IcmpApp) : Prop where
  names : (refs.map IcmpApp.name).Nodup
  each : ∀ r ∈ refs, ∃ t, appName r.v6 t = .ok r.name ∧ (if r.v6 then icmpTypes6 else icmpTypes4).lookup t = some r.type

theorem refs_of {refs : List IcmpApp} (hr : RefsOk refs) {v6 : Bool} {t name : String} {k : Nat}
    (hk : (if v6 then icmpTypes6 else icmpTypes4).lookup t = some k) (h : appName v6 t = .ok name) {r : IcmpApp} (hm : r ∈ refs)
    (e : r.name = name) : r = ⟨name, v6, k⟩ := by
  obtain ⟨t', h1, h2⟩ := hr.each r hm
  have a := app_known h2 h1
  have b := app_known hk h
  have c := app_inj a b e
  simp only [Prod.mk.injEq] at c
  obtain ⟨⟨c1, c2⟩, c3⟩ := c
  obtain ⟨rn, rv, rt⟩ := r
  dsimp only at c1 c2 c3 h2
  subst c1 c2 c3
  rw [hk] at h2
  rw [Option.some.inj h2]

theorem icmp_loop {v6 : Bool} : ∀ {ts : List String} {refs refs' : List IcmpApp} {apps apps' : List String}, RefsOk refs →
    icmpLoop v6 refs apps ts = .ok (refs', apps') →
    RefsOk refs' ∧ (∀ r ∈ refs, r ∈ refs') ∧ (∀ a ∈ apps, a ∈ apps') ∧
    (∀ a ∈ apps', a ∈ apps ∨ ∃ t ∈ ts, ∃ k, (if v6 then icmpTypes6 else icmpTypes4).lookup t = some k ∧ (⟨a, v6, k⟩ : IcmpApp) ∈ refs') ∧
    ∀ t ∈ ts, ∃ k a, (if v6 then icmpTypes6 else icmpTypes4).lookup t = some k ∧ (⟨a, v6, k⟩ : IcmpApp) ∈ refs' ∧ a ∈ apps'
  | [], refs, refs', apps, apps', hr, h => by
    cases h
    exact ⟨hr, fun _ h => h, fun _ h => h, fun _ h => .inl h, fun _ h => by cases h⟩
  | t :: ts, refs, refs', apps, apps', hr, h => by
    rw [icmpLoop] at h
    obtain ⟨name, hn, h⟩ := bind_ok h
    split at h
    · cases h
    next k hk =>
      have h1 : RefsOk (if refs.any fun r => r.name == name then refs else refs ++ [⟨name, v6, k⟩]) := by
        split
        · exact hr
        next hne =>
          refine ⟨?_, ?_⟩
          · rw [List.map_append, List.nodup_append]
            refine ⟨hr.names, by simp, ?_⟩
            intro a ha b hb e
            simp only [List.map_cons, List.map_nil, List.mem_singleton] at hb
            obtain ⟨r, hr, rfl⟩ := List.mem_map.1 ha
            exact hne (List.any_eq_true.2 ⟨r, hr, by rw [e, hb]; exact beq_self_eq_true _⟩)
          · intro r hm
            rcases List.mem_append.1 hm with hm | hm
            · exact hr.each r hm
            · rw [List.mem_singleton.1 hm]
              exact ⟨t, hn, hk⟩
      have h2 : ∀ r ∈ refs, r ∈ (if refs.any fun r => r.name == name then refs else refs ++ [⟨name, v6, k⟩]) := by
        intro r hm
        split
        · exact hm
        · exact List.mem_append_left _ hm
      have h3 : (⟨name, v6, k⟩ : IcmpApp) ∈ (if refs.any fun r => r.name == name then refs else refs ++ [⟨name, v6, k⟩]) := by
        split
        next ha =>
          obtain ⟨r, hm, e⟩ := List.any_eq_true.1 ha
          have := refs_of hr hk hn hm (by simpa using e)
          rw [← this]
          exact hm
        · simp
      obtain ⟨i1, i2, i3, i4, i5⟩ := icmp_loop h1 h
      have h4 : ∀ a ∈ apps, a ∈ (if apps.contains name then apps else apps ++ [name]) := by
        intro a ha
        split
        · exact ha
        · exact List.mem_append_left _ ha
      have h5 : name ∈ (if apps.contains name then apps else apps ++ [name]) := by
        split
        next hc => exact List.contains_iff_mem.1 hc
        · simp
      have h6 : ∀ a ∈ (if apps.contains name then apps else apps ++ [name]), a ∈ apps ∨ a = name := by
        intro a ha
        split at ha
        · exact .inl ha
        · simpa using ha
      refine ⟨i1, fun r hm => i2 r (h2 r hm), fun a ha => i3 a (h4 a ha), ?_, ?_⟩
      · intro a ha
        rcases i4 a ha with ha | ⟨t', ht', k', hk', hm⟩
        · rcases h6 a ha with ha | rfl
          · exact .inl ha
          · exact .inr ⟨t, List.mem_cons_self, k, hk, i2 _ h3⟩
        · exact .inr ⟨t', List.mem_cons_of_mem _ ht', k', hk', hm⟩
      · intro t' ht'
        rcases List.mem_cons.1 ht' with rfl | ht'
        · exact ⟨k, name, hk, i2 _ h3, i3 _ h5⟩
        · exact i5 t' ht'

/-- What the protocol is called, and the application for all of it. -/
def icmpName (v6 : Bool) : String := if v6 then "icmpv6" else "icmp"

/-- The application for all of the protocol. -/
def icmpApp (v6 : Bool) : String := if v6 then "ipv6-icmp" else "icmp"

/-- The application is for icmp packets of the term. -/
def ForIcmp (refs : List IcmpApp) (t : Term) (v6 : Bool) (a : String) : Prop :=
  icmpName v6 ∈ t.protocol ∧ ((t.icmpType = [] ∧ a = icmpApp v6) ∨
    ∃ ty ∈ t.icmpType, ∃ k, (if v6 then icmpTypes6 else icmpTypes4).lookup ty = some k ∧ (⟨a, v6, k⟩ : IcmpApp) ∈ refs)

/-- The applications are for all icmp packets of the term. -/
def AllIcmp (refs : List IcmpApp) (t : Term) (v6 : Bool) (apps : List String) : Prop :=
  (t.icmpType = [] → icmpApp v6 ∈ apps) ∧ ∀ ty ∈ t.icmpType, ∃ k a, (if v6 then icmpTypes6 else icmpTypes4).lookup ty = some k ∧
    (⟨a, v6, k⟩ : IcmpApp) ∈ refs ∧ a ∈ apps

theorem icmp_step {h : Header} {t : Term} {flows : List String} {v6 : Bool} {refs refs' : List IcmpApp} {apps apps' : List String}
    (hr : RefsOk refs) (he : icmpStep h t flows v6 refs apps = .ok (refs', apps')) :
    RefsOk refs' ∧ (∀ r ∈ refs, r ∈ refs') ∧ (∀ a ∈ apps, a ∈ apps') ∧ (∀ a ∈ apps', a ∈ apps ∨ ForIcmp refs' t v6 a) ∧
    (icmpName v6 ∈ t.protocol → (if v6 then "ip6-ip6" else "ip4-ip4") ∈ flows → h.af ≠ (if v6 then "inet" else "inet6") →
      AllIcmp refs' t v6 apps') := by
  have hm : (∀ r ∈ refs, r ∈ refs) ∧ ∀ a ∈ apps, a ∈ apps := ⟨fun _ h => h, fun _ h => h⟩
  unfold icmpStep at he
  unfold ForIcmp AllIcmp icmpName icmpApp
  generalize hP : (if v6 = true then "icmpv6" else "icmp") = P at he ⊢
  generalize hF : (if v6 = true then "ip6-ip6" else "ip4-ip4") = F at he ⊢
  generalize hA : (if v6 = true then "inet" else "inet6") = A at he ⊢
  generalize hK : (if v6 = true then "ipv6-icmp" else "icmp") = K at he ⊢
  split at he
  next h1 =>
    cases he
    refine ⟨hr, hm.1, hm.2, fun _ h => .inl h, fun hp => ?_⟩
    rw [Bool.not_eq_true', ← Bool.not_eq_true, List.contains_iff_mem] at h1
    exact absurd hp h1
  next h1 =>
    rw [Bool.not_eq_true', Bool.not_eq_false, List.contains_iff_mem] at h1
    split at he
    next h2 =>
      cases he
      refine ⟨hr, hm.1, hm.2, fun _ h => .inl h, fun _ hf => ?_⟩
      rw [Bool.not_eq_true', ← Bool.not_eq_true, List.contains_iff_mem] at h2
      exact absurd hf h2
    · split at he
      next h3 =>
        cases he
        exact ⟨hr, hm.1, hm.2, fun _ h => .inl h, fun _ _ ha => absurd h3 ha⟩
      · split at he
        next h4 =>
          cases he
          have h4 := List.isEmpty_iff.1 h4
          refine ⟨hr, hm.1, fun _ h => List.mem_append_left _ h, ?_, ?_⟩
          · intro a ha
            rcases List.mem_append.1 ha with ha | ha
            · exact .inl ha
            · exact .inr ⟨h1, .inl ⟨h4, List.mem_singleton.1 ha⟩⟩
          · intro _ _ _
            refine ⟨fun _ => by simp, fun ty hty => ?_⟩
            rw [h4] at hty
            cases hty
        next h4 =>
          obtain ⟨i1, i2, i3, i4, i5⟩ := icmp_loop hr he
          refine ⟨i1, i2, i3, ?_, ?_⟩
          · intro a ha
            rcases i4 a ha with ha | ha
            · exact .inl ha
            · exact .inr ⟨h1, .inr ha⟩
          · intro _ _ _
            exact ⟨fun e => absurd (List.isEmpty_iff.2 e) h4, i5⟩

/-- The applications of a term. -/
structure Apps (h : Header) (refs : List IcmpApp) (g : PTerm) (flows apps : List String) : Prop where
  own : ∀ a ∈ g.apps, a ∈ apps
  only : ∀ a ∈ apps, a ∈ g.apps ∨ ∃ v6, ForIcmp refs g.term v6 a
  each : ∀ v6, icmpName v6 ∈ g.term.protocol → (if v6 then "ip6-ip6" else "ip4-ip4") ∈ flows →
    h.af ≠ (if v6 then "inet" else "inet6") → AllIcmp refs g.term v6 apps

theorem forIcmp_mono {refs refs' : List IcmpApp} (hs : ∀ r ∈ refs, r ∈ refs') {t : Term} {v6 : Bool} {a : String}
    (h : ForIcmp refs t v6 a) : ForIcmp refs' t v6 a := by
  obtain ⟨h1, h2 | ⟨ty, hty, k, hk, hm⟩⟩ := h
  · exact ⟨h1, .inl h2⟩
  · exact ⟨h1, .inr ⟨ty, hty, k, hk, hs _ hm⟩⟩

theorem allIcmp_mono {refs refs' : List IcmpApp} (hs : ∀ r ∈ refs, r ∈ refs') {t : Term} {v6 : Bool} {apps apps' : List String}
    (ha : ∀ a ∈ apps, a ∈ apps') (h : AllIcmp refs t v6 apps) : AllIcmp refs' t v6 apps' := by
  refine ⟨fun e => ha _ (h.1 e), fun ty hty => ?_⟩
  obtain ⟨k, a, h1, h2, h3⟩ := h.2 ty hty
  exact ⟨k, a, h1, hs _ h2, ha _ h3⟩

theorem Apps.mono {h : Header} {refs refs' : List IcmpApp} (hs : ∀ r ∈ refs, r ∈ refs') {g : PTerm} {flows apps : List String}
    (ha : Apps h refs g flows apps) : Apps h refs' g flows apps := by
  refine ⟨ha.own, fun a h => ?_, fun v6 h1 h2 h3 => allIcmp_mono hs (fun _ h => h) (ha.each v6 h1 h2 h3)⟩
  rcases ha.only a h with h | ⟨v6, h⟩
  · exact .inl h
  · exact .inr ⟨v6, forIcmp_mono hs h⟩

/-! ### one term -/

/-- What became of a term. -/
structure Done where
  g : PTerm
  src : List Net
  dst : List Net
  ex : Option (List Ver)
  kept : Option Kept

/-- The networks a term enters. -/
def Done.sides (h : Header) (d : Done) : List (String × List Net) :=
  match d.ex with
  | none => []
  | some ex => [(h.fromZone, (d.src.flatMap subnets3).filter fun a => !ex.contains a.ver),
      (h.toZone, (d.dst.flatMap subnets3).filter fun a => !ex.contains a.ver)]

/-- The term is treated as the generator does. -/
structure DoneOk (hex : String → Str) (h : Header) (refs : List IcmpApp) (d : Done) : Prop where
  src : removeAll d.g.term.sourceAddress d.g.term.sourceAddressExclude = .ok d.src
  dst : removeAll d.g.term.destinationAddress d.g.term.destinationAddressExclude = .ok d.dst
  route : route h.af d.g.term.protocol (flowsOf d.src d.dst) = d.ex
  dropped : d.ex = none → d.kept = none
  kept : d.ex ≠ none → ∃ apps, d.kept = some ⟨longName hex h d.g.term.name, d.g.term, d.src.flatMap subnets3, d.dst.flatMap subnets3, apps⟩ ∧
    Apps h refs d.g (flowsOf d.src d.dst) apps ∧ protoCheck d.g.term = .ok ()
  name : (longName hex h d.g.term.name).length ≤ 63

theorem step_ok {hex : String → Str} {h : Header} {st st' : State} {g : PTerm} {ko : Option Kept} (hr : RefsOk st.refs)
    (hn : (longName hex h g.term.name).length ≤ 63)
    (he : step h st g (longName hex h g.term.name) = .ok (st', ko)) : ∃ d : Done, d.g = g ∧ d.kept = ko ∧ DoneOk hex h st'.refs d ∧
      RefsOk st'.refs ∧ (∀ r ∈ st.refs, r ∈ st'.refs) ∧ st'.books = (d.sides h).foldl enterSide st.books := by
  unfold step at he
  obtain ⟨src, hsrc, he⟩ := bind_ok he
  obtain ⟨dst, hdst, he⟩ := bind_ok he
  unfold finish at he
  split at he
  next hroute =>
    cases he
    exact ⟨⟨g, src, dst, none, none⟩, rfl, rfl, ⟨hsrc, hdst, hroute, fun _ => rfl, fun h => absurd rfl h, hn⟩, hr, fun _ h => h, rfl⟩
  next ex hroute =>
    obtain ⟨x, hx, he⟩ := bind_ok he
    obtain ⟨y, hy, he⟩ := bind_ok he
    obtain ⟨u, hp, he⟩ := bind_ok he
    cases he
    obtain ⟨x1, x2⟩ := x
    obtain ⟨y1, y2⟩ := y
    obtain ⟨a1, a2, a3, a4, a5⟩ := icmp_step hr hx
    obtain ⟨b1, b2, b3, b4, b5⟩ := icmp_step a1 hy
    refine ⟨⟨g, src, dst, some ex, some ⟨_, g.term, src.flatMap subnets3, dst.flatMap subnets3, y2⟩⟩, rfl, rfl,
      ⟨hsrc, hdst, hroute, (fun h => by cases h), (fun _ => ⟨y2, rfl, ⟨?_, ?_, ?_⟩, hp⟩), hn⟩, b1, fun r h => b2 r (a2 r h), rfl⟩
    · exact fun a h => b3 a (a3 a h)
    · intro a ha
      rcases b4 a ha with ha | ha
      · rcases a4 a ha with ha | ha
        · exact .inl ha
        · exact .inr ⟨false, forIcmp_mono b2 ha⟩
      · exact .inr ⟨true, ha⟩
    · intro v6 h1 h2 h3
      cases v6 with
      | false => exact allIcmp_mono b2 b3 (a5 h1 h2 h3)
      | true => exact b5 h1 h2 h3

theorem DoneOk.mono {hex : String → Str} {h : Header} {refs refs' : List IcmpApp} (hs : ∀ r ∈ refs, r ∈ refs') {d : Done}
    (hd : DoneOk hex h refs d) : DoneOk hex h refs' d := by
  refine ⟨hd.src, hd.dst, hd.route, hd.dropped, fun hne => ?_, hd.name⟩
  obtain ⟨apps, h1, h2, h3⟩ := hd.kept hne
  exact ⟨apps, h1, h2.mono hs, h3⟩

/-- Does the term count? -/
def counts (g : PTerm) : Bool := !skipped g && !g.expired

theorem name_same {limit : Nat} {name out : Str} (h : fixTermLength abbreviations limit name false false = .ok out) :
    out = name ∧ out.length ≤ limit := by
  have : (if name.length ≤ limit then Except.ok name else Except.error (Err.raised "TermNameTooLongError")) = .ok out := h
  split at this
  next hl =>
    cases this
    exact ⟨rfl, hl⟩
  · cases this

theorem terms_loop {hex : String → Str} {h : Header} : ∀ {gs : List PTerm} {names : List Str} {st st' : State} {ks : List Kept},
    RefsOk st.refs → termsLoop hex h names st gs = .ok (st', ks) →
    ∃ ds : List Done, ds.map Done.g = gs.filter counts ∧ ks = ds.filterMap Done.kept ∧
      st'.books = (ds.flatMap (Done.sides h)).foldl enterSide st.books ∧ RefsOk st'.refs ∧ (∀ r ∈ st.refs, r ∈ st'.refs) ∧
      (∀ d ∈ ds, DoneOk hex h st'.refs d ∧ longName hex h d.g.term.name ∉ names) ∧
      (ds.map fun d => longName hex h d.g.term.name).Nodup
  | [], names, st, st', ks, hr, he => by
    cases he
    exact ⟨[], rfl, rfl, rfl, hr, fun _ h => h, (fun _ h => by cases h), List.nodup_nil⟩
  | g :: gs, names, st, st', ks, hr, he => by
    rw [termsLoop] at he
    split at he
    next hs =>
      obtain ⟨ds, h1, h⟩ := terms_loop hr he
      refine ⟨ds, ?_, h⟩
      rw [List.filter_cons_of_neg (by simp [counts, hs]), h1]
    next hs =>
      obtain ⟨name, hname, he⟩ := bind_ok he
      obtain ⟨rfl, hlen⟩ := name_same hname
      split at he
      · cases he
      next hnew =>
        rw [List.contains_iff_mem] at hnew
        split at he
        · cases he
        · split at he
          next hx =>
            obtain ⟨ds, h1, h2, h3, h4, h5, h6, h7⟩ := terms_loop hr he
            refine ⟨ds, ?_, h2, h3, h4, h5, fun d hd => ⟨(h6 d hd).1, fun hm => (h6 d hd).2 (List.mem_cons_of_mem _ hm)⟩, h7⟩
            rw [List.filter_cons_of_neg (by simp [counts, hx]), h1]
          next hx =>
            obtain ⟨x, hx1, he⟩ := bind_ok he
            obtain ⟨q, hq, he⟩ := bind_ok he
            cases he
            obtain ⟨d, e1, e2, d1, d2, d3, d4⟩ := step_ok hr hlen hx1
            obtain ⟨ds, h1, h2, h3, h4, h5, h6, h7⟩ := terms_loop d2 hq
            refine ⟨d :: ds, ?_, ?_, ?_, h4, fun r h => h5 r (d3 r h), ?_, ?_⟩
            · have hs : skipped g = false := Bool.eq_false_iff.2 hs
              have hx : g.expired = false := Bool.eq_false_iff.2 hx
              rw [List.filter_cons_of_pos (by simp [counts, hs, hx]), List.map_cons, h1, e1]
            · rw [List.filterMap_cons, e2, h2]
              cases x.2 <;> rfl
            · rw [List.flatMap_cons, List.foldl_append, ← d4, h3]
            · intro d' hd'
              rcases List.mem_cons.1 hd' with rfl | hd'
              · exact ⟨d1.mono h5, by rw [e1]; exact hnew⟩
              · exact ⟨(h6 d' hd').1, fun hm => (h6 d' hd').2 (List.mem_cons_of_mem _ hm)⟩
            · rw [List.map_cons, List.nodup_cons]
              refine ⟨fun hm => ?_, h7⟩
              obtain ⟨d', hd', e⟩ := List.mem_map.1 hm
              refine (h6 d' hd').2 ?_
              rw [e, e1]
              exact List.mem_cons_self

/-! ### services -/

/-- Services have names of their own that are not too long. -/
structure Sound (svcs : List Service) : Prop where
  names : (svcs.map Service.name).Nodup
  length : ∀ s ∈ svcs, s.name.length ≤ 63

theorem service_name {svcs svcs' : List Service} {pre term n : Str} {sp dp : List PortRange} {proto : String}
    (h : serviceName svcs pre term sp dp proto = .ok (n, svcs')) :
    (⟨n, sp, dp, proto⟩ : Service) ∈ svcs' ∧ (∀ s ∈ svcs, s ∈ svcs') ∧ (Sound svcs → Sound svcs') := by
  unfold serviceName at h
  split at h
  next s hs =>
    cases h
    have h1 := List.mem_of_find?_eq_some hs
    have h2 := List.find?_some hs
    simp only [decide_eq_true_eq] at h2
    obtain ⟨e1, e2, e3⟩ := h2
    refine ⟨?_, fun _ h => h, fun h => h⟩
    rw [← e1, ← e2, ← e3]
    exact h1
  · dsimp only at h
    split at h
    · cases h
    next hl =>
      split at h
      · cases h
      next hd =>
        cases h
        refine ⟨by simp, fun s hs => List.mem_append_left _ hs, fun hs => ⟨?_, ?_⟩⟩
        · rw [List.map_append, List.nodup_append]
          refine ⟨hs.names, by simp, ?_⟩
          intro a ha b hb e
          simp only [List.map_cons, List.map_nil, List.mem_singleton] at hb
          obtain ⟨r, hr, rfl⟩ := List.mem_map.1 ha
          exact hd (List.any_eq_true.2 ⟨r, hr, by rw [e, hb]; exact beq_self_eq_true _⟩)
        · intro s hm
          rcases List.mem_append.1 hm with hm | hm
          · exact hs.length s hm
          · rw [List.mem_singleton.1 hm]
            dsimp only
            omega

theorem service_loop {pre term : Str} {sp dp : List PortRange} : ∀ {ps : List String} {svcs svcs' : List Service} {acc ns : List Str},
    serviceLoop pre term sp dp svcs acc ps = .ok (ns, svcs') →
    (∀ s ∈ svcs, s ∈ svcs') ∧ (Sound svcs → Sound svcs') ∧ (∀ n ∈ acc, n ∈ ns) ∧
    (∀ p ∈ ps, ∃ n ∈ ns, (⟨n, sp, dp, p⟩ : Service) ∈ svcs') ∧
    ∀ n ∈ ns, n ∈ acc ∨ ∃ p ∈ ps, (⟨n, sp, dp, p⟩ : Service) ∈ svcs'
  | [], svcs, svcs', acc, ns, h => by
    cases h
    exact ⟨fun _ h => h, fun h => h, fun _ h => h, (fun _ h => by cases h), fun _ h => .inl h⟩
  | p :: ps, svcs, svcs', acc, ns, h => by
    rw [serviceLoop] at h
    obtain ⟨⟨n, svcs1⟩, hx, h⟩ := bind_ok h
    dsimp only at h
    obtain ⟨a1, a2, a3⟩ := service_name hx
    obtain ⟨b1, b2, b3, b4, b5⟩ := service_loop h
    have c1 : ∀ m ∈ acc, m ∈ (if acc.contains n then acc else acc ++ [n]) := by
      intro m hm
      split
      · exact hm
      · exact List.mem_append_left _ hm
    have c2 : n ∈ (if acc.contains n then acc else acc ++ [n]) := by
      split
      next hc => exact List.contains_iff_mem.1 hc
      · simp
    have c3 : ∀ m ∈ (if acc.contains n then acc else acc ++ [n]), m ∈ acc ∨ m = n := by
      intro m hm
      split at hm
      · exact .inl hm
      · simpa using hm
    refine ⟨fun s hs => b1 s (a2 s hs), fun hs => b2 (a3 hs), fun m hm => b3 m (c1 m hm), ?_, ?_⟩
    · intro q hq
      rcases List.mem_cons.1 hq with rfl | hq
      · exact ⟨n, b3 n c2, b1 _ a1⟩
      · exact b4 q hq
    · intro m hm
      rcases b5 m hm with hm | ⟨q, hq, hm⟩
      · rcases c3 m hm with hm | rfl
        · exact .inl hm
        · exact .inr ⟨p, List.mem_cons_self, b1 _ a1⟩
      · exact .inr ⟨q, List.mem_cons_of_mem _ hq, hm⟩

/-- The services are for the protocols. -/
structure Named (svcs : List Service) (sp dp : List PortRange) (ps : List String) (ns : List Str) : Prop where
  each : ∀ p ∈ ps, ∃ n ∈ ns, (⟨n, sp, dp, p⟩ : Service) ∈ svcs
  only : ∀ n ∈ ns, ∃ p ∈ ps, (⟨n, sp, dp, p⟩ : Service) ∈ svcs

theorem Named.mono {svcs svcs' : List Service} (hs : ∀ s ∈ svcs, s ∈ svcs') {sp dp : List PortRange} {ps : List String} {ns : List Str}
    (h : Named svcs sp dp ps ns) : Named svcs' sp dp ps ns := by
  refine ⟨fun p hp => ?_, fun n hn => ?_⟩
  · obtain ⟨n, hn, hm⟩ := h.each p hp
    exact ⟨n, hn, hs _ hm⟩
  · obtain ⟨p, hp, hm⟩ := h.only n hn
    exact ⟨p, hp, hs _ hm⟩

/-- The options of the rules of a term. -/
inductive Ruled (svcs : List Service) (k : Kept) : List Options → Prop
  | ports {ns : List Str} {o : Options} : k.term.sourcePort ≠ [] ∨ k.term.destinationPort ≠ [] →
      Named svcs k.term.sourcePort (if k.term.destinationPort.isEmpty then allPorts else k.term.destinationPort) k.term.protocol ns →
      optionsOf k k.term.protocol k.apps ns = .ok o → Ruled svcs k [o]
  | plain {o : Options} : k.term.sourcePort = [] → k.term.destinationPort = [] → services k.term = [] →
      optionsOf k k.term.protocol k.apps [] = .ok o → Ruled svcs k [o]
  | words {ns : List Str} {o : Options} : k.term.sourcePort = [] → k.term.destinationPort = [] → services k.term ≠ [] →
      others k.term = [] → Named svcs [] allPorts k.term.protocol ns → optionsOf k k.term.protocol k.apps ns = .ok o → Ruled svcs k [o]
  | both {ns : List Str} {o o' : Options} : k.term.sourcePort = [] → k.term.destinationPort = [] → services k.term ≠ [] →
      others k.term ≠ [] → Named svcs [] allPorts (services k.term) ns → optionsOf k (services k.term) [] ns = .ok o →
      optionsOf k (others k.term) k.apps [] = .ok o' → Ruled svcs k [o, o']

theorem Ruled.mono {svcs svcs' : List Service} (hs : ∀ s ∈ svcs, s ∈ svcs') {k : Kept} {os : List Options} (h : Ruled svcs k os) :
    Ruled svcs' k os := by
  cases h with
  | ports h1 h2 h3 => exact .ports h1 (h2.mono hs) h3
  | plain h1 h2 h3 h4 => exact .plain h1 h2 h3 h4
  | words h1 h2 h3 h4 h5 h6 => exact .words h1 h2 h3 h4 (h5.mono hs) h6
  | both h1 h2 h3 h4 h5 h6 h7 => exact .both h1 h2 h3 h4 (h5.mono hs) h6 h7

theorem named_loop {pre term : Str} {sp dp : List PortRange} {ps : List String} {svcs : List Service} {x : List Str × List Service}
    (h : serviceLoop pre term sp dp svcs [] ps = .ok x) :
    Named x.2 sp dp ps x.1 ∧ (∀ s ∈ svcs, s ∈ x.2) ∧ (Sound svcs → Sound x.2) := by
  obtain ⟨ns, svcs'⟩ := x
  obtain ⟨a1, a2, _, a4, a5⟩ := service_loop h
  refine ⟨⟨a4, fun n hn => ?_⟩, a1, a2⟩
  rcases a5 n hn with h | h
  · cases h
  · exact h

theorem rule_options {svcs : List Service} {k : Kept} {x : List Options × List Service} (h : ruleOptions svcs k = .ok x) :
    Ruled x.2 k x.1 ∧ (∀ s ∈ svcs, s ∈ x.2) ∧ (Sound svcs → Sound x.2) := by
  unfold ruleOptions at h
  split at h
  next hp =>
    obtain ⟨y, hy, h⟩ := bind_ok h
    obtain ⟨o, ho, h⟩ := bind_ok h
    cases h
    obtain ⟨h1, h2, h3⟩ := named_loop hy
    refine ⟨.ports ?_ h1 ho, h2, h3⟩
    rw [Bool.or_eq_true, Bool.not_eq_true', Bool.not_eq_true', List.isEmpty_eq_false_iff, List.isEmpty_eq_false_iff] at hp
    exact hp
  next hp =>
    rw [Bool.or_eq_true, Bool.not_eq_true', Bool.not_eq_true', List.isEmpty_eq_false_iff, List.isEmpty_eq_false_iff, not_or,
      Classical.not_not, Classical.not_not] at hp
    split at h
    next hs =>
      obtain ⟨o, ho, h⟩ := bind_ok h
      cases h
      exact ⟨.plain hp.1 hp.2 (List.isEmpty_iff.1 hs) ho, fun _ h => h, fun h => h⟩
    next hs =>
      have hs : services k.term ≠ [] := fun e => hs (List.isEmpty_iff.2 e)
      split at h
      next ho =>
        obtain ⟨y, hy, h⟩ := bind_ok h
        obtain ⟨o, ho', h⟩ := bind_ok h
        cases h
        obtain ⟨h1, h2, h3⟩ := named_loop hy
        exact ⟨.words hp.1 hp.2 hs (List.isEmpty_iff.1 ho) h1 ho', h2, h3⟩
      next ho =>
        obtain ⟨y, hy, h⟩ := bind_ok h
        obtain ⟨o, ho1, h⟩ := bind_ok h
        obtain ⟨o', ho2, h⟩ := bind_ok h
        cases h
        obtain ⟨h1, h2, h3⟩ := named_loop hy
        exact ⟨.both hp.1 hp.2 hs (fun e => ho (List.isEmpty_iff.2 e)) h1 ho1 ho2, h2, h3⟩

/-! ### rulesets -/

theorem put_new {β : Type} {k : Str} {v : β} : ∀ {rs : List (Str × β)}, k ∉ rs.map Prod.fst → put k v rs = rs ++ [(k, v)]
  | [], _ => rfl
  | e :: es, h => by
    rw [List.map_cons, List.mem_cons, not_or] at h
    rw [put, if_neg fun e => h.1 e.symm, put_new h.2]
    rfl

theorem put_mem {β : Type} {k : Str} {v : β} : ∀ {rs : List (Str × β)}, ∀ e ∈ put k v rs, e = (k, v) ∨ e ∈ rs
  | [], e, h => .inl (List.mem_singleton.1 h)
  | x :: xs, e, h => by
    rw [put] at h
    split at h
    · rcases List.mem_cons.1 h with h | h
      · exact .inl h
      · exact .inr (List.mem_cons_of_mem _ h)
    · rcases List.mem_cons.1 h with rfl | h
      · exact .inr List.mem_cons_self
      · rcases put_mem e h with h | h
        · exact .inl h
        · exact .inr (List.mem_cons_of_mem _ h)

theorem put_keys {β : Type} {k : Str} {v : β} : ∀ {rs : List (Str × β)}, (rs.map Prod.fst).Nodup →
    ((put k v rs).map Prod.fst).Nodup ∧ ∀ x ∈ (put k v rs).map Prod.fst, x = k ∨ x ∈ rs.map Prod.fst
  | [], _ => ⟨by simp [put], by simp [put]⟩
  | e :: es, h => by
    rw [List.map_cons, List.nodup_cons] at h
    rw [put]
    split
    next hk =>
      refine ⟨?_, fun x hx => ?_⟩
      · rw [List.map_cons, List.nodup_cons]
        exact ⟨by rw [← hk]; exact h.1, h.2⟩
      · rw [List.map_cons, List.mem_cons] at hx
        rcases hx with hx | hx
        · exact .inl hx
        · exact .inr (List.mem_cons_of_mem _ hx)
    next hk =>
      obtain ⟨h1, h2⟩ := put_keys (k := k) (v := v) h.2
      refine ⟨?_, fun x hx => ?_⟩
      · rw [List.map_cons, List.nodup_cons]
        refine ⟨fun hm => ?_, h1⟩
        rcases h2 _ hm with hm | hm
        · exact hk hm
        · exact h.1 hm
      · rw [List.map_cons, List.mem_cons] at hx
        rcases hx with hx | hx
        · exact .inr (by rw [hx]; exact List.mem_cons_self)
        · rcases h2 _ hx with hx | hx
          · exact .inl hx
          · exact .inr (List.mem_cons_of_mem _ hx)

/-- The rules of a term have its name, or its name and a number. -/
def NamesOf (name : Str) (b : List (Str × Options)) : Prop :=
  (∃ o, b = [(name, o)]) ∨ ∃ o o', b = [(name ++ "-1".toList, o), (name ++ "-2".toList, o')] ∧ (name ++ "-2".toList).length ≤ 63

theorem put_rules {svcs : List Service} {k : Kept} {rs rs' : List (Str × Options)} {os : List Options} (hr : Ruled svcs k os)
    (h : putRules k.name rs os = .ok rs') :
    ∃ b : List (Str × Options), b.map Prod.snd = os ∧ NamesOf k.name b ∧ rs' = b.foldl (fun rs e => put e.1 e.2 rs) rs := by
  have one : ∀ o, os = [o] → ∃ b : List (Str × Options), b.map Prod.snd = os ∧ NamesOf k.name b ∧
      rs' = b.foldl (fun rs e => put e.1 e.2 rs) rs := by
    rintro o rfl
    rw [putRules] at h
    cases h
    exact ⟨[(k.name, o)], rfl, .inl ⟨o, rfl⟩, rfl⟩
  cases hr with
  | ports _ _ _ => exact one _ rfl
  | plain _ _ _ _ => exact one _ rfl
  | words _ _ _ _ _ _ => exact one _ rfl
  | @both ns o o' _ _ _ _ _ _ _ =>
    have : putRules k.name rs [o, o'] = (do
      let names ← listM (fun i => fixTermLength abbreviations 63 (k.name ++ '-' :: (toString (i + 1)).toList) false false)
        (List.range [o, o'].length)
      .ok ((names.zip [o, o']).foldl (fun rs e => put e.1 e.2 rs) rs)) := rfl
    rw [this] at h
    obtain ⟨names, hn, h⟩ := bind_ok h
    have e2 : List.range [o, o'].length = [0, 1] := rfl
    rw [e2, listM] at hn
    obtain ⟨x, hx, hn⟩ := bind_ok hn
    obtain ⟨y, hy, hn⟩ := bind_ok hn
    cases hn
    rw [listM] at hy
    obtain ⟨z, hz, hy⟩ := bind_ok hy
    obtain ⟨w, hw, hy⟩ := bind_ok hy
    cases hy
    cases hw
    obtain ⟨rfl, _⟩ := name_same hx
    obtain ⟨rfl, hl⟩ := name_same hz
    cases h
    exact ⟨[(k.name ++ "-1".toList, o), (k.name ++ "-2".toList, o')], rfl, .inr ⟨o, o', rfl, hl⟩, rfl⟩

theorem puts_new {β : Type} : ∀ {b rs : List (Str × β)}, ((rs ++ b).map Prod.fst).Nodup →
    b.foldl (fun rs e => put e.1 e.2 rs) rs = rs ++ b
  | [], rs, _ => by simp
  | e :: b, rs, h => by
    have h1 : e.1 ∉ rs.map Prod.fst := by
      rw [List.map_append, List.nodup_append] at h
      intro hm
      exact h.2.2 e.1 hm e.1 (by simp) rfl
    rw [List.foldl_cons, put_new h1, puts_new (by simpa using h)]
    simp

theorem puts_mem {β : Type} : ∀ {b rs : List (Str × β)}, ∀ e ∈ b.foldl (fun rs e => put e.1 e.2 rs) rs, e ∈ rs ∨ e ∈ b
  | [], rs, e, h => .inl h
  | x :: b, rs, e, h => by
    rcases puts_mem (b := b) e h with h | h
    · rcases put_mem e h with h | h
      · exact .inr (by rw [h]; exact List.mem_cons_self)
      · exact .inl h
    · exact .inr (List.mem_cons_of_mem _ h)

theorem puts_keys {β : Type} : ∀ {b rs : List (Str × β)}, (rs.map Prod.fst).Nodup →
    ((b.foldl (fun rs e => put e.1 e.2 rs) rs).map Prod.fst).Nodup
  | [], _, h => h
  | _ :: b, _, h => puts_keys (b := b) (put_keys h).1

theorem rules_loop {h : Header} : ∀ {ks : List Kept} {svcs svcs' : List Service} {rs rs' : List (Str × Options)},
    rulesLoop h svcs rs ks = .ok (rs', svcs') →
    ∃ bs : List (Kept × List (Str × Options)), bs.map Prod.fst = ks ∧ (∀ b ∈ bs, Ruled svcs' b.1 (b.2.map Prod.snd) ∧ NamesOf b.1.name b.2) ∧
      (∀ s ∈ svcs, s ∈ svcs') ∧ (Sound svcs → Sound svcs') ∧ (ks ≠ [] → zonesOk h = .ok ()) ∧
      (∀ e ∈ rs', e ∈ rs ∨ ∃ b ∈ bs, e ∈ b.2) ∧ ((rs.map Prod.fst).Nodup → (rs'.map Prod.fst).Nodup) ∧
      (((rs ++ bs.flatMap Prod.snd).map Prod.fst).Nodup → rs' = rs ++ bs.flatMap Prod.snd)
  | [], svcs, svcs', rs, rs', he => by
    cases he
    exact ⟨[], rfl, (fun _ h => by cases h), fun _ h => h, fun h => h, fun h => absurd rfl h, fun _ h => .inl h, fun h => h, fun _ => by simp⟩
  | k :: ks, svcs, svcs', rs, rs', he => by
    rw [rulesLoop] at he
    obtain ⟨u, hz, he⟩ := bind_ok he
    obtain ⟨x, hx, he⟩ := bind_ok he
    obtain ⟨rs1, hp, he⟩ := bind_ok he
    obtain ⟨a1, a2, a3⟩ := rule_options hx
    obtain ⟨b, b1, b2, b3⟩ := put_rules a1 hp
    obtain ⟨bs, c1, c2, c3, c4, _, c6, c7, c8⟩ := rules_loop he
    refine ⟨(k, b) :: bs, by rw [List.map_cons, c1], ?_, fun s hs => c3 s (a2 s hs), fun hs => c4 (a3 hs), fun _ => hz, ?_, ?_, ?_⟩
    · intro y hy
      rcases List.mem_cons.1 hy with rfl | hy
      · exact ⟨by rw [b1]; exact a1.mono c3, b2⟩
      · exact c2 y hy
    · intro e he'
      rcases c6 e he' with h1 | ⟨y, hy, h1⟩
      · rw [b3] at h1
        rcases puts_mem e h1 with h1 | h1
        · exact .inl h1
        · exact .inr ⟨(k, b), List.mem_cons_self, h1⟩
      · exact .inr ⟨y, List.mem_cons_of_mem _ hy, h1⟩
    · intro hn
      refine c7 ?_
      rw [b3]
      exact puts_keys hn
    · intro hn
      rw [List.flatMap_cons] at hn ⊢
      dsimp only at hn ⊢
      rw [← List.append_assoc] at hn ⊢
      have h1 : rs1 = rs ++ b := by
        rw [b3]
        refine puts_new ?_
        rw [List.map_append, List.nodup_append] at hn
        exact hn.1
      rw [← h1] at hn ⊢
      exact c8 hn

end Verif.Pan
