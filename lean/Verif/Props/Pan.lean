import Verif.Lemmas.IptablesFilter
import Verif.Lemmas.PanRuled

/-!
C132: what the rules of capirca/lib/paloaltofw.py make the firewall do.
-/

namespace Verif.Props
open Verif Verif.Spec Verif.Lemmas Policy Aclgenerator Nacaddr
open Verif.Pan (PTerm Filter Header Kept Output PRule Options Entry Done Made State translate)
open Verif.Spec.Pan (Live Use Side About Between Neat Steady Aligned Plain Wants PolicyDecides Decides Hits)

/-- The terms that are rendered faithfully, as far as the tools do not refuse others. For what happens without the conditions
beyond their own checks, see the refutations. -/
structure PanFits (f : Filter) (p : Packet) (g : PTerm) : Prop where
  keywords : initCheck Verif.Pan.tables [([Verif.Pan.tables.platform], [kterm g.term])] = .ok ()
  sane : sanityCheck g.term = .ok ()
  untagged : Untagged g.term
  family : FamilyOk p.ver g.term
  action : ∃ w, g.term.action = [w]
  apps : g.apps = []
  src : Neat g.term.sourceAddress g.term.sourceAddressExclude
  dst : Neat g.term.destinationAddress g.term.destinationAddressExclude
  ports : g.term.sourcePort ++ g.term.destinationPort ≠ [] → g.term.protocol ≠ []
  sctp : g.term.sourcePort ++ g.term.destinationPort ≠ [] → "sctp" ∈ g.term.protocol → ∀ s ∈ g.term.protocol, s = "sctp"
  lone6 : "icmpv6" ∈ g.term.protocol →
    (∀ s ∈ g.term.protocol, s = "icmpv6") ∨ ((Use.src f g).Carries .v4 → (Use.src f g).Carries .v6)
  lone4 : "icmp" ∈ g.term.protocol →
    (∀ s ∈ g.term.protocol, s = "icmp") ∨ ((Use.src f g).Carries .v6 → (Use.src f g).Carries .v4)

theorem pan_tables_ok : ∀ e ∈ Verif.Pan.tables.subTokens, e.1 ∈ Verif.Pan.tables.tokens := by decide

theorem pan_rare : ∀ s ∈ rareWords, s ∉ Verif.Pan.tables.tokens := by decide

theorem pan_active {g : PTerm} (h : Live g) : Active Verif.Pan.tables.platform (kterm g.term) := ⟨h.2.2.1, h.2.2.2.1⟩

theorem pan_matches {f : Filter} {p : Packet} {g : PTerm} (fit : PanFits f p g) (hl : Live g) : Matches g.term p ↔
      (AddrMatch g.term.sourceAddress g.term.sourceAddressExclude p.ver p.src ∧
        AddrMatch g.term.destinationAddress g.term.destinationAddressExclude p.ver p.dst) ∧
      OneOf g.term.protocol p.proto ∧ (PortMatch g.term.sourcePort p.sport ∧ PortMatch g.term.destinationPort p.dport) ∧
      OneOf g.term.icmpType p.icmpType := by
  have ha := pan_active hl
  have un := fun (s : String) {v : Val} => unset (g := Verif.Pan.tables) pan_tables_ok rfl ha fit.keywords s (v := v)
  have b := basic_of (g := Verif.Pan.tables) pan_tables_ok rfl pan_rare ha fit.keywords
  have h5 : g.term.protocolExcept = [] := Cisco.wordsVal_falsy (un "protocol_except" (by simp [attrsOf]) (by decide))
  have h9 : g.term.icmpCode = [] := Cisco.listVal_falsy (un "icmp_code" (by simp [attrsOf]) (by decide))
  have ho : g.term.option = [] := by
    rw [List.eq_nil_iff_forall_not_mem]
    intro w hw
    have : w ∈ ["established", "tcp-established"] :=
      word_known (g := Verif.Pan.tables) pan_tables_ok ha fit.keywords (el := "option") (l := g.term.option) (by simp [attrsOf]) rfl
        (by decide) hw
    simp only [List.mem_cons, List.not_mem_nil, or_false] at this
    rcases this with rfl | rfl
    · exact hl.2.2.2.2.1 hw
    · exact hl.2.2.2.2.2 hw
  rw [matches_basic b fit.untagged fit.family]
  unfold MatchProto
  rw [h5, h9, ho]
  constructor
  · rintro ⟨a, ⟨c, _⟩, d, ⟨e, _⟩, _⟩
    exact ⟨a, c, d, e⟩
  · rintro ⟨a, c, d, e⟩
    exact ⟨a, ⟨c, by simp⟩, d, ⟨e, .inl rfl⟩, by simp⟩

theorem pan_ports {f : Filter} {p : Packet} {g : PTerm} (fit : PanFits f p g) (hl : Live g)
    (h : g.term.sourcePort ≠ [] ∨ g.term.destinationPort ≠ []) : g.term.protocol ≠ [] ∧ (∀ s ∈ g.term.protocol, s ∈ protosWithPorts) ∧
      ("sctp" ∈ g.term.protocol → ∀ s ∈ g.term.protocol, s = "sctp") := by
  have hne : g.term.sourcePort ++ g.term.destinationPort ≠ [] := by
    intro e
    rw [List.append_eq_nil_iff] at e
    rcases h with h | h
    · exact h e.1
    · exact h e.2
  have hv : g.term.verbatim = [] := Cisco.listVal_falsy (unset (g := Verif.Pan.tables) pan_tables_ok rfl (pan_active hl) fit.keywords
    "verbatim" (by simp [attrsOf]) (by decide))
  exact ⟨fit.ports hne, fun s hs => sane_ports fit.sane hv h hs, fit.sctp hne⟩

/-! ### the list of rules -/

theorem listM_nested {α β γ : Type} {f : α → β → Except Err γ} : ∀ {xs : List (α × List β)} {l : List (List γ)},
    listM (fun x => listM (f x.1) x.2) xs = .ok l → listM (fun y : α × β => f y.1 y.2) (xs.flatMap fun x => x.2.map fun r => (x.1, r)) =
      .ok l.flatten
  | [], l, h => by
    cases h
    rfl
  | x :: xs, l, h => by
    rw [listM] at h
    obtain ⟨a, ha, h⟩ := bind_ok h
    obtain ⟨as, has, h⟩ := bind_ok h
    cases h
    have ih := listM_nested has
    rw [List.flatMap_cons, List.flatten_cons]
    have one : ∀ {bs : List β} {cs : List γ}, listM (f x.1) bs = .ok cs →
        listM (fun y : α × β => f y.1 y.2) (bs.map (fun r => (x.1, r)) ++ (xs.flatMap fun x => x.2.map fun r => (x.1, r))) =
          .ok (cs ++ as.flatten) := by
      intro bs
      induction bs with
      | nil =>
        intro cs h
        cases h
        exact ih
      | cons b bs ihb =>
        intro cs h
        rw [listM] at h
        obtain ⟨c, hc, h⟩ := bind_ok h
        obtain ⟨cs', hcs, h⟩ := bind_ok h
        cases h
        have := ihb hcs
        rw [List.map_cons, List.cons_append, listM, this]
        dsimp only
        rw [hc]
        rfl
    exact one ha

theorem listM_parts {α β γ δ : Type} {f : α → β → Except Err γ} {g : δ → α} {h : δ → List β} : ∀ {es : List δ} {r : List γ},
    listM (fun y : α × β => f y.1 y.2) (es.flatMap fun e => (h e).map fun b => (g e, b)) = .ok r →
    ∃ bs : List (δ × List γ), bs.map Prod.fst = es ∧ bs.flatMap Prod.snd = r ∧
      ∀ c ∈ bs, (∀ x, x ∈ c.2 ↔ ∃ b ∈ h c.1, f (g c.1) b = .ok x) ∧ ∀ b ∈ h c.1, ∃ x, f (g c.1) b = .ok x
  | [], r, he => by
    cases he
    exact ⟨[], rfl, rfl, fun _ h => by cases h⟩
  | e :: es, r, he => by
    rw [List.flatMap_cons] at he
    obtain ⟨r1, r2, rfl, h1, h2⟩ := Iptables.listM_append _ _ he
    obtain ⟨bs, b1, b2, b3⟩ := listM_parts h2
    refine ⟨(e, r1) :: bs, by rw [List.map_cons, b1], by rw [List.flatMap_cons, b2], fun c hc => ?_⟩
    rcases List.mem_cons.1 hc with rfl | hc
    · refine ⟨fun x => ?_, fun b hb => ?_⟩
      rw [listM_mem h1 x]
      constructor
      · rintro ⟨y, hy, hx⟩
        obtain ⟨b, hb, rfl⟩ := List.mem_map.1 hy
        exact ⟨b, hb, hx⟩
      · rintro ⟨b, hb, hx⟩
        exact ⟨_, List.mem_map.2 ⟨b, hb, rfl⟩, hx⟩
      · exact Cisco.listM_each h1 _ (List.mem_map.2 ⟨b, hb, rfl⟩)
    · exact b3 c hc

/-! ### one term -/

theorem pan_about {opts : List String} {h : Verif.Pan.Header} (hh : Verif.Pan.parseHeader opts = .ok h) {v : Ver} :
    About opts v ↔ Verif.Pan.AfIs h.af v := by
  unfold About Verif.Pan.AfIs
  rw [(Verif.Pan.header_spec hh).2.2.1]

theorem pan_known {hex : String → Str} {fs : List Filter} {mode : Option Bool} {st : State} {svcs : List Verif.Pan.Service} {m : Verif.Pan.Made}
    {es : List Entry} (mk : Verif.Pan.MadeOk hex fs mode st svcs m es)
    (neat : ∀ f ∈ fs, f.here = true → ∀ g ∈ f.terms, Live g → Neat g.term.sourceAddress g.term.sourceAddressExclude ∧
      Neat g.term.destinationAddress g.term.destinationAddressExclude) : Verif.Pan.Known fs es := by
  have here : ∀ e ∈ es, e.f ∈ fs ∧ e.f.here = true ∧ e.d.g ∈ e.f.terms ∧ Live e.d.g := by
    intro e he
    have : (e.f, e.d.g) ∈ es.map fun e => (e.f, e.d.g) := List.mem_map.2 ⟨e, he, rfl⟩
    rw [mk.terms] at this
    obtain ⟨f, hf, h⟩ := List.mem_flatMap.1 this
    obtain ⟨g, hg, h⟩ := List.mem_map.1 h
    obtain ⟨e1, e2⟩ := Prod.mk.inj h
    rw [← e1, ← e2]
    rw [List.mem_filter] at hf hg
    exact ⟨hf.1, hf.2, hg.1, Verif.Pan.counts_live.1 hg.2⟩
  have src : ∀ e ∈ es, Verif.Pan.SideIs e.d.g.term.sourceAddress e.d.g.term.sourceAddressExclude e.d.src := by
    intro e he
    obtain ⟨h1, h2, h3, h4⟩ := here e he
    exact Verif.Pan.side_is (neat _ h1 h2 _ h3 h4).1 (mk.each e he).done.src
  have dst : ∀ e ∈ es, Verif.Pan.SideIs e.d.g.term.destinationAddress e.d.g.term.destinationAddressExclude e.d.dst := by
    intro e he
    obtain ⟨h1, h2, h3, h4⟩ := here e he
    exact Verif.Pan.side_is (neat _ h1 h2 _ h3 h4).2 (mk.each e he).done.dst
  refine ⟨here, fun e he => (mk.each e he).header, src, dst, fun e he h => ?_, fun e he h => ?_, fun e he ex hex v => ?_⟩
  · have := (mk.each e he).done.src
    rw [h] at this
    exact (Except.ok.inj this).symm
  · have := (mk.each e he).done.dst
    rw [h] at this
    exact (Except.ok.inj this).symm
  · have hh := (mk.each e he).header
    rw [Verif.Pan.carries_iff hh (src e he) (dst e he)]
    have hr := (mk.each e he).done.route
    rw [hex] at hr
    exact ((Verif.Pan.route_spec (Verif.Pan.header_spec hh).2.2.2).1 ex hr).1 v

theorem pan_names : (∀ w a, (w, a) ∈ Spec.Pan.names ↔ Verif.Pan.actions.lookup w = some a) := by
  have uniq : ∀ e ∈ Spec.Pan.names, Verif.Pan.actions.lookup e.1 = some e.2 := by decide
  have back : ∀ e ∈ Verif.Pan.actions, e ∈ Spec.Pan.names := by decide
  exact fun w a => ⟨fun h => uniq _ h, fun h => back _ (Cisco.mem_of_lookup' h)⟩

/-- The rules of a term match what the term does, and have its action. -/
theorem pan_entry {hex : String → Str} {fs : List Filter} {m : Verif.Pan.Made} {es : List Entry}
    (mk : Verif.Pan.MadeOk hex fs none {} [] m es) (k : Verif.Pan.Known fs es) (hst : Steady fs) (hal : Aligned fs) (hpl : Plain fs)
    {o : Output} (hrefs : o.refs = m.state.refs) (hsvc : o.services = m.services)
    (hg : ∀ e ∈ es, e.h.noObj = false → o.groups = Verif.Pan.groupsDict m.state.books ∧ o.addresses = Verif.Pan.namesDict m.state.books)
    (hany : ∀ r ∈ o.rules, Verif.Pan.Member.anyIpv4 ∈ r.src → o.anyIpv4 = true) {p : Packet} (hc : Coherent p) (hp : p.dport ≤ 65535)
    {e : Entry} (he : e ∈ es) (fit : PanFits e.f p e.d.g) {rs : List PRule} (hsub : ∀ r ∈ rs, r ∈ o.rules)
    (hrs : ∀ x, x ∈ rs ↔ ∃ b ∈ e.rules, Verif.Pan.ruleOf e.h m.state.books b = .ok x) (htot : ∀ b ∈ e.rules, ∃ R, Verif.Pan.ruleOf e.h m.state.books b = .ok R) (a : String) :
    (∃ r ∈ rs, Hits o r p ∧ r.action = a) ↔ Wants p (e.f, e.d.g) a := by
  obtain ⟨h1, h2, h3, h4⟩ := k.here e he
  have ok := mk.each e he
  have hb : Verif.Pan.BooksOf es m.state.books := mk.books
  have hh := k.header e he
  obtain ⟨z1, z2, _, haf⟩ := Verif.Pan.header_spec hh
  have hr : Verif.Pan.RefsOk o.refs := by rw [hrefs]; exact mk.refs
  have hs : Verif.Pan.Sound o.services := by
    rw [hsvc]
    exact mk.services ⟨List.nodup_nil, (fun _ h => by cases h)⟩
  unfold Wants
  dsimp only
  rw [pan_matches fit h4]
  obtain ⟨r1, r2⟩ := Verif.Pan.route_spec (protocol := e.d.g.term.protocol) (src := e.d.src) (dst := e.d.dst) haf
  have goes : AddrMatch e.d.g.term.sourceAddress e.d.g.term.sourceAddressExclude p.ver p.src →
      AddrMatch e.d.g.term.destinationAddress e.d.g.term.destinationAddressExclude p.ver p.dst →
      Verif.Pan.Good e.d.src p.ver ∧ Verif.Pan.Good e.d.dst p.ver := fun a b => ⟨(k.src e he).goes a, (k.dst e he).goes b⟩
  have carry := Verif.Pan.carries_iff hh (k.src e he) (k.dst e he)
  cases hx : e.d.ex with
  | none =>
    have hnone := ok.none (ok.done.dropped hx)
    have hempty : rs = [] := by
      rw [List.eq_nil_iff_forall_not_mem]
      intro x hx
      obtain ⟨b, hb, _⟩ := (hrs x).1 hx
      rw [hnone] at hb
      cases hb
    rw [hempty]
    refine iff_of_false (by simp) ?_
    rintro ⟨_, _, hab, ⟨⟨ms, md⟩, mp, _⟩, _⟩
    obtain ⟨g1, g2⟩ := goes ms md
    have ha := (pan_about hh).1 hab
    have route := ok.done.route
    rw [hx] at route
    rcases r2 route p.ver ha g1 g2 with ⟨e1, e2, e3⟩ | ⟨e1, e2, e3⟩
    · have hin : p.proto ∈ e.d.g.term.protocol := mp.resolve_left fun h => by rw [h] at e2; cases e2
      rcases fit.lone6 e2 with h | h
      · exact hc.icmp4 e1 (h _ hin)
      · rw [e1] at ha g1 g2
        exact e3 ((carry .v6).1 (h ((carry .v4).2 ⟨ha, g1, g2⟩)))
    · have hin : p.proto ∈ e.d.g.term.protocol := mp.resolve_left fun h => by rw [h] at e2; cases e2
      rcases fit.lone4 e2 with h | h
      · exact hc.icmp6 e1 (h _ hin)
      · rw [e1] at ha g1 g2
        exact e3 ((carry .v4).1 (h ((carry .v6).2 ⟨ha, g1, g2⟩)))
  | some ex =>
    obtain ⟨apps, hk, happs, hcheck⟩ := ok.done.kept (by rw [hx]; simp)
    obtain ⟨ruled, _, _⟩ := ok.some _ hk
    have route := ok.done.route
    rw [hx] at route
    obtain ⟨_, i6, i4⟩ := r1 ex route
    obtain ⟨f4, f6, _, _⟩ := Verif.Pan.flows_spec e.d.src e.d.dst
    have only : ∀ x ∈ apps, ∃ v6, Verif.Pan.ForIcmp o.refs e.d.g.term v6 x := by
      intro x hx
      rw [hrefs]
      rcases happs.only x hx with h | h
      · rw [fit.apps] at h
        cases h
      · exact h
    have each : ∀ v6, Verif.Pan.icmpName v6 ∈ e.d.g.term.protocol → Verif.Pan.AllIcmp o.refs e.d.g.term v6 apps := by
      intro v6 hv
      rw [hrefs]
      cases v6 with
      | false =>
        obtain ⟨a1, a2⟩ := i4 hv
        refine happs.each false hv (List.contains_iff_mem.1 (f4.2 a2)) fun e1 => ?_
        rw [e1] at a1
        revert a1
        unfold Verif.Pan.AfIs
        decide
      | true =>
        obtain ⟨a1, a2⟩ := i6 hv
        refine happs.each true hv (List.contains_iff_mem.1 (f6.2 a2)) fun e1 => ?_
        rw [e1] at a1
        revert a1
        unfold Verif.Pan.AfIs
        decide
    rw [← hsvc] at ruled
    have fits := Verif.Pan.ruled_hits hr hs hc.proto hp ruled only each hcheck (pan_ports fit h4)
    dsimp only at fits
    -- all options of the term share addresses and action
    have share : ∀ x ∈ e.rules.map Prod.snd, x.source = Verif.Pan.tokensOf (e.d.src.flatMap Verif.Pan.subnets3) ∧
        x.destination = Verif.Pan.tokensOf (e.d.dst.flatMap Verif.Pan.subnets3) ∧
        ∃ w rest, e.d.g.term.action = w :: rest ∧ Verif.Pan.actions.lookup w = some x.action := by
      have one : ∀ {ps aps : List String} {sv : List Str} {x : Options}, Verif.Pan.optionsOf ⟨Verif.Pan.longName hex e.h e.d.g.term.name,
          e.d.g.term, e.d.src.flatMap Verif.Pan.subnets3, e.d.dst.flatMap Verif.Pan.subnets3, apps⟩ ps aps sv = .ok x →
          x.source = Verif.Pan.tokensOf (e.d.src.flatMap Verif.Pan.subnets3) ∧
          x.destination = Verif.Pan.tokensOf (e.d.dst.flatMap Verif.Pan.subnets3) ∧
          ∃ w rest, e.d.g.term.action = w :: rest ∧ Verif.Pan.actions.lookup w = some x.action := by
        intro ps aps sv x h
        obtain ⟨a1, a2, _, _, a3, _⟩ := Verif.Pan.options_are h
        exact ⟨a1, a2, a3⟩
      intro x hx
      generalize e.rules.map Prod.snd = os at *
      cases ruled with
      | ports _ _ h => rw [List.mem_singleton] at hx; rw [hx]; exact one h
      | plain _ _ _ h => rw [List.mem_singleton] at hx; rw [hx]; exact one h
      | words _ _ _ _ _ h => rw [List.mem_singleton] at hx; rw [hx]; exact one h
      | both _ _ _ _ _ h h' =>
        simp only [List.mem_cons, List.not_mem_nil, or_false] at hx
        rcases hx with hx | hx
        · rw [hx]; exact one h
        · rw [hx]; exact one h'
    have hits : ∀ b ∈ e.rules, ∀ R ∈ rs, Verif.Pan.ruleOf e.h m.state.books b = .ok R →
        (Hits o R p ↔ (Between e.f.options p.srcZone p.dstZone ∧ About e.f.options p.ver ∧
          AddrMatch e.d.g.term.sourceAddress e.d.g.term.sourceAddressExclude p.ver p.src ∧
          AddrMatch e.d.g.term.destinationAddress e.d.g.term.destinationAddressExclude p.ver p.dst) ∧ Verif.Pan.Fit o p b.2) ∧
        R.action = b.2.action := by
      intro b hbm R hR hro
      obtain ⟨s1, s2, _⟩ := share b.2 (List.mem_map.2 ⟨b, hbm, rfl⟩)
      have sides := Verif.Pan.rule_sides k hb hal hpl hst he (hg e he) hx (nm := b.1) (opts := b.2) hro s1 s2
        (hany R (hsub R hR)) (v := p.ver) (x := p.src) (y := p.dst)
      have shape : R.fromZone = e.h.fromZone ∧ R.toZone = e.h.toZone ∧ R.service = Verif.Pan.serviceField b.2 ∧ R.apps = b.2.apps ∧
          R.action = b.2.action := by
        unfold Verif.Pan.ruleOf at hro
        obtain ⟨_, _, hro⟩ := bind_ok hro
        obtain ⟨_, _, hro⟩ := bind_ok hro
        cases hro
        exact ⟨rfl, rfl, rfl, rfl, rfl⟩
      obtain ⟨q1, q2, q3, q4, q5⟩ := shape
      have zones : Between e.f.options p.srcZone p.dstZone ↔
          (e.h.fromZone = "any" ∨ e.h.fromZone = p.srcZone) ∧ (e.h.toZone = "any" ∨ e.h.toZone = p.dstZone) := by
        unfold Between
        rw [z1, z2]
        simp only [Option.some.injEq]
      refine ⟨?_, q5⟩
      rw [zones, ← sides]
      unfold Verif.Pan.Fit
      rw [← q1, ← q2, ← q3, ← q4]
      constructor
      · rintro ⟨c1, c2, c3, c4, c5, c6⟩
        exact ⟨⟨⟨c1, c2⟩, c3, c4⟩, c5, c6⟩
      · rintro ⟨⟨⟨c1, c2⟩, c3, c4⟩, c5, c6⟩
        exact ⟨c1, c2, c3, c4, c5, c6⟩
    obtain ⟨w, hw⟩ := fit.action
    have act : ∀ b ∈ e.rules, Verif.Pan.actions.lookup w = some b.2.action := by
      intro b hbm
      obtain ⟨_, _, w', rest, hw', hl⟩ := share b.2 (List.mem_map.2 ⟨b, hbm, rfl⟩)
      rw [hw] at hw'
      cases hw'
      exact hl
    constructor
    · rintro ⟨R, hR, hhit, rfl⟩
      obtain ⟨b, hbm, hro⟩ := (hrs R).1 hR
      obtain ⟨c1, c2⟩ := hits b hbm R hR hro
      obtain ⟨⟨d1, d2, d3, d4⟩, d5⟩ := c1.1 hhit
      refine ⟨h4, d1, d2, ⟨⟨d3, d4⟩, fits.1 ⟨b.2, List.mem_map.2 ⟨b, hbm, rfl⟩, d5⟩⟩, w, hw, ?_⟩
      rw [pan_names, c2]
      exact act b hbm
    · rintro ⟨_, d1, d2, ⟨⟨d3, d4⟩, d5⟩, w', hw', hn⟩
      rw [hw] at hw'
      cases hw'
      obtain ⟨x, hx, hfit⟩ := fits.2 d5
      obtain ⟨b, hbm, rfl⟩ := List.mem_map.1 hx
      obtain ⟨R, hro⟩ := htot b hbm
      have hR := (hrs R).2 ⟨b, hbm, hro⟩
      obtain ⟨c1, c2⟩ := hits b hbm R hR hro
      refine ⟨R, hR, c1.2 ⟨⟨d1, d2, d3, d4⟩, hfit⟩, ?_⟩
      rw [c2]
      rw [pan_names, act b hbm] at hn
      exact Option.some.inj hn

/-! ### all terms -/

theorem pan_refs : Verif.Pan.RefsOk ({} : State).refs := ⟨List.nodup_nil, (fun _ h => by cases h)⟩

/-- C132: the firewall does with a packet what the first term of the filters that matches says. -/
theorem C132_partial {hex : String → Str} {fs : List Filter} {o : Output} (h : translate hex fs = .ok o) {p : Packet}
    (fits : ∀ f ∈ fs, f.here = true → ∀ g ∈ f.terms, Live g → PanFits f p g) (steady : Steady fs) (aligned : Aligned fs) (plain : Plain fs)
    (apart : Spec.Pan.Apart fs) (hc : Coherent p) (hp : p.dport ≤ 65535) (a : String) : Decides o p a ↔ PolicyDecides fs p a := by
  unfold translate at h
  obtain ⟨m, hm, h⟩ := bind_ok h
  obtain ⟨rules, hrules, h⟩ := bind_ok h
  obtain ⟨es, mk⟩ := Verif.Pan.filters_loop pan_refs hm
  have k := pan_known mk fun f hf hh g hg hl => ⟨(fits f hf hh g hg hl).src, (fits f hf hh g hg hl).dst⟩
  split at h
  · cases h
  next hd _ hlast =>
    cases h
    unfold Verif.Pan.rulesOf at hrules
    obtain ⟨l, hl, hrules⟩ := bind_ok hrules
    cases hrules
    have flat := listM_nested (f := fun h => Verif.Pan.ruleOf h m.state.books) hl
    have apart' : ∀ f ∈ fs, f.here = true → Verif.Pan.Apart f := fun f hf hh g hg g' hg' c c' =>
      apart f hf hh g hg g' hg' (Verif.Pan.counts_live.1 c) (Verif.Pan.counts_live.1 c')
    rw [mk.rules apart'] at flat
    obtain ⟨bs, b1, b2, b3⟩ := listM_parts (f := fun h => Verif.Pan.ruleOf h m.state.books) (g := Entry.h) (h := Entry.rules) flat
    have noObj : ∀ e ∈ es, e.h.noObj = hd.noObj := by
      intro e he
      obtain ⟨x, hx, hxe⟩ := mk.modes e he
      rw [← hxe]
      exact (mk.headers x hx).2 _ (List.mem_of_getLast? hlast)
    unfold Decides PolicyDecides
    dsimp only
    rw [← b2]
    rw [first_blocks (want := fun e : Entry => Wants p (e.f, e.d.g))]
    · rw [b1, ← first_map (want' := Wants p) (f := fun e : Entry => (e.f, e.d.g)) (fun _ _ _ => Iff.rfl), mk.terms]
      have filtered : ((fs.filter Filter.here).flatMap fun f => (f.terms.filter Verif.Pan.counts).map fun g => (f, g)) =
          ((fs.filter Filter.here).flatMap fun f => f.terms.map fun g => (f, g)).filter fun x => Verif.Pan.counts x.2 := by
        rw [List.filter_flatMap]
        congr 1
        funext f
        rw [List.filter_map]
        rfl
      rw [filtered]
      refine first_filter fun t _ hk w hw => ?_
      rw [Verif.Pan.counts_live.2 hw.1] at hk
      cases hk
    · rintro e v w ⟨_, _, _, _, x, hx, hv⟩ ⟨_, _, _, _, y, hy, hw⟩
      dsimp only at hx hy
      rw [hx] at hy
      cases hy
      rw [pan_names] at hv hw
      rw [hv] at hw
      exact Option.some.inj hw
    · intro c hcb w
      have he : c.1 ∈ es := by
        rw [← b1]
        exact List.mem_map.2 ⟨c, hcb, rfl⟩
      obtain ⟨h1, h2, h3, h4⟩ := k.here _ he
      refine pan_entry mk k steady aligned plain ?_ ?_ ?_ ?_ hc hp he (fits _ h1 h2 _ h3 h4) ?_ (b3 c hcb).1 (b3 c hcb).2 w
      · rfl
      · rfl
      · intro e he hn
        rw [noObj e he] at hn
        dsimp only
        rw [hn]
        exact ⟨rfl, rfl⟩
      · intro r hr ha
        exact List.any_eq_true.2 ⟨r, hr, List.contains_iff_mem.2 ha⟩
      · intro r hr
        exact List.mem_flatMap.2 ⟨c, hcb, hr⟩

end Verif.Props
