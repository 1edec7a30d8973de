import Verif.Lemmas.IptablesFilter
import Verif.Props.Iptables

/-!
Property theorems about the filters of capirca/lib/iptables.py and its subclasses.
-/

namespace Verif.Props
open Verif Verif.Spec Verif.Spec.Nf Verif.Iptables Policy Aclgenerator Nacaddr

/-! ### C70: filters -/

theorem nf_est {t : Term} (h : ∀ o ∈ t.option, o ∈ optionWords) : HasEstablished t ↔ "established" ∈ t.option := by
  constructor
  · rintro ⟨o, ho, r, hr⟩
    have hp : "established".toList <+: o.toList := ⟨r, hr.symm⟩
    have : ∀ o ∈ optionWords, "established".toList <+: o.toList → o = "established" := by decide
    exact this o (h o ho) hp ▸ ho
  · intro h
    exact ⟨_, h, [], by simp⟩

/-- With connection tracking the ports are the same set. -/
theorem stateful_ports {hc : HighPorts} {t u : Term} {af : String} (h : fixHighPorts hc t af true = .ok u)
    (hw : PWF t.destinationPort) (x : Nat) : PortMatch u.destinationPort x ↔ PortMatch t.destinationPort x := by
  unfold fixHighPorts at h
  split at h
  · cases h
  split at h
  · cases h
  unfold fixEstablished at h
  split at h
  · split at h
    · cases h
      simp only [if_true]
      by_cases he : t.destinationPort = []
      · rw [he]; exact Iff.rfl
      · unfold PortMatch
        simp only [he, collapsePortList_ne_nil hw he, false_or]
        exact (collapsePortList_spec _ hw).2.1 x
    · split at h
      · cases h; exact Iff.rfl
      · cases h
  · cases h; exact Iff.rfl

/-- What the host is asked for, with the ports of the prepared term. -/
theorem wants_ports {t u : Term} {name : Str} {af : Ver} {st : Bool} (opts : ∀ o ∈ t.option, o ∈ optionWords)
    (hw : PWF t.destinationPort)
    (h : fixHighPorts { defaultProtocol := "all" } { t with name := name } (if af = .v6 then "inet6" else "inet") st = .ok u)
    (p : Packet) :
    ∃ ports, u = { t with name := name, destinationPort := ports } ∧
      (Matches { t with destinationPort := ports } p ↔ Wants st t p) := by
  obtain ⟨ports, hu⟩ := restrict_fixHighPorts h
  refine ⟨ports, hu, ?_⟩
  cases st with
  | true =>
    have := stateful_ports h hw
    rw [hu] at this
    unfold Wants
    simp only [true_and, reduceCtorEq, false_and, or_false]
    exact matches_ports (t := t) (name := t.name) (this p.dport)
  | false =>
    unfold Wants
    simp only [reduceCtorEq, false_and, true_and, false_or]
    have hsup : (if af = .v6 then "inet6" else "inet") ∈ ({ defaultProtocol := "all" } : HighPorts).supportedAf := by
      cases af <;> decide
    have hbl : ∀ l, ({ defaultProtocol := "all" } : HighPorts).blacklist.lookup (if af = .v6 then "inet6" else "inet") = some l →
        ∀ q ∈ l, ¬ TermProto { defaultProtocol := "all" } { t with name := name } q := by
      intro l h; cases h
    by_cases he : "established" ∈ t.option
    · have he' : HasEstablished { t with name := name } := (nf_est (t := { t with name := name }) opts).2 he
      obtain ⟨e1, e2⟩ := C32_established (t := { t with name := name }) false hsup hbl he' hw
      by_cases hall : ∀ q, TermProto { defaultProtocol := "all" } { t with name := name } q → q = "tcp" ∨ q = "udp"
      · obtain ⟨ports', e, hx⟩ := e1 hall
        rw [e] at h
        have : ports' = ports := by
          have := (Except.ok.inj h).trans hu
          exact congrArg Term.destinationPort this
        subst this
        have hnz : ports' ≠ [] := by
          intro e0
          have := (hx 1024).2 (.inr ⟨rfl, by omega, by omega⟩)
          rw [e0] at this
          obtain ⟨_, h, _⟩ := this
          cases h
        unfold Ios.Means
        simp only [he, not_true, false_and, true_and, false_or]
        refine matches_ports (t := t) (name := t.name) ?_
        unfold PortMatch
        rw [hx]
        constructor
        · rintro (h | ⟨q, hq, h⟩ | ⟨_, h⟩)
          · exact absurd h hnz
          · exact .inr ⟨q, List.mem_append_left _ hq, h⟩
          · exact .inr ⟨(1024, 65535), by simp, h⟩
        · rintro (h | ⟨q, hq, h⟩)
          · simp at h
          · rcases List.mem_append.1 hq with hq | hq
            · exact .inr (.inl ⟨q, hq, h⟩)
            · rw [List.mem_singleton.1 hq] at h
              exact .inr (.inr ⟨rfl, h⟩)
      · have hex : ∃ q, TermProto { defaultProtocol := "all" } { t with name := name } q ∧ q ≠ "tcp" ∧ q ≠ "udp" := by
          refine Classical.byContradiction fun hn => hall fun q hq => ?_
          refine Classical.byContradiction fun hne => hn ⟨q, hq, fun h => hne (.inl h), fun h => hne (.inr h)⟩
        rw [e2 hex] at h
        cases h
    · have he' : ¬ HasEstablished { t with name := name } := fun h => he ((nf_est (t := { t with name := name }) opts).1 h)
      rw [C32_unchanged false hsup hbl he'] at h
      have : t.destinationPort = ports := by
        have := (Except.ok.inj h).trans hu
        exact congrArg Term.destinationPort this
      subst this
      unfold Ios.Means
      simp only [he, not_false_iff, false_and, true_and, or_false]

theorem prepared {options : List String} {st : Bool} {af : Ver} {r : ITerm} {k : Option ITerm}
    (h : prepare options st af r = .ok k) :
    (r.expired = true ∧ k = none) ∨
    ∃ name u, r.expired = false ∧ k = some { r with term := u } ∧
      fixHighPorts { defaultProtocol := "all" } { r.term with name := name } (if af = .v6 then "inet6" else "inet") st = .ok u := by
  unfold prepare at h
  obtain ⟨name, h1, h⟩ := bind_ok h
  split at h
  · cases h
  · obtain ⟨t, h2, h⟩ := bind_ok h
    split at h
    next he => cases h; exact .inl ⟨he, rfl⟩
    next he => cases h; exact .inr ⟨name, t, by simpa using he, rfl, h2⟩

theorem decides_skip {platform : String} {track : Bool} {r : ITerm} {ts : List ITerm} {p : Packet} {v : Option Nf.Verdict}
    (h : ¬ Settles platform track p r) (k : Decides platform track ts p v) : Decides platform track (r :: ts) p v := by
  rcases k with ⟨pre, s, post, a, rfl, h1, h2, h3, h4⟩ | ⟨h1, h2⟩
  · refine .inl ⟨r :: pre, s, post, a, rfl, h1, h2, h3, ?_⟩
    intro x hx
    rcases List.mem_cons.1 hx with rfl | hx
    · exact h
    · exact h4 x hx
  · refine .inr ⟨h1, ?_⟩
    intro x hx
    rcases List.mem_cons.1 hx with rfl | hx
    · exact h
    · exact h2 x hx

/-- A term of another platform prints nothing. -/
theorem renderTerm_off {c : Cls} {filter : Str} {track : Bool} {af : Ver} {r : ITerm} {q : Printed}
    (h : Iptables.renderTerm c filter track af r = .ok q) (hoff : Cisco.onPlatform c.platform r.term = false) : q.lines = [] := by
  unfold Iptables.renderTerm at h
  obtain ⟨ps, _, h⟩ := bind_ok h
  unfold printTerm at h
  rw [hoff] at h
  cases h
  rfl

theorem onPlatform_live {platform : String} {r : ITerm} (he : r.expired = false) :
    Cisco.onPlatform platform r.term = true ↔ Nf.Live platform r := by
  unfold Cisco.onPlatform Nf.Live
  simp only [he, true_and, Bool.and_eq_true, Bool.or_eq_true, List.isEmpty_iff, List.contains_iff_mem, Bool.not_eq_true',
    Bool.and_eq_false_iff]
  refine and_congr Iff.rfl ?_
  by_cases h : r.term.platformExclude = []
  · simp [h]
  · simp [h]

theorem filterMap_some {α : Type} (x : α) (l : List (Option α)) : (some x :: l).filterMap id = x :: l.filterMap id := rfl

theorem terms_walk {c : Cls} (hc : c = Iptables.iptables ∨ c = Iptables.speedway) {filter : Str} {options : List String} {st : Bool}
    {af : Ver} {e : Host} {p : Packet} (hs : Sound st e p) (hv : p.ver = af) (chains : Str → List (List Arg)) (ts : List ITerm) :
    ∀ {kept : List (Option ITerm)} {qs : List Printed}, listM (prepare options st af) ts = .ok kept →
      listM (Iptables.renderTerm c filter st af) (kept.filterMap id) = .ok qs →
      (∀ r ∈ ts, Nf.Live c.platform r → (∃ a, IFits c st af r a) ∧ PWF r.term.destinationPort) →
      (∀ r q, (r, q) ∈ (kept.filterMap id).zip qs → created q.lines ≠ [] →
        filter ≠ chainName filter r.term.name ∧
        chains (chainName filter r.term.name) = rulesOf q.lines (chainName filter r.term.name)) →
      ∃ v, Walk chains e p (rulesOf (qs.flatMap Printed.lines) filter) v ∧ Decides c.platform st ts p v := by
  have hset : c.sets = false := by rcases hc with rfl | rfl <;> rfl
  have hin : c.inFilter = false := by rcases hc with rfl | rfl <;> rfl
  induction ts with
  | nil =>
    intro kept qs hk hq _ _
    cases hk
    cases hq
    exact ⟨none, .done, .inr ⟨rfl, by simp⟩⟩
  | cons r rs ih =>
    intro kept qs hk hq hf hch
    rw [listM] at hk
    obtain ⟨k, h1, hk⟩ := bind_ok hk
    obtain ⟨kept', h2, hk⟩ := bind_ok hk
    cases hk
    have hf' : ∀ r ∈ rs, Nf.Live c.platform r → (∃ a, IFits c st af r a) ∧ PWF r.term.destinationPort :=
      fun s hs => hf s (List.mem_cons_of_mem _ hs)
    rcases prepared h1 with ⟨hex, rfl⟩ | ⟨name, u, hex, rfl, hu⟩
    · obtain ⟨v, w1, w2⟩ := ih h2 hq hf' hch
      refine ⟨v, w1, decides_skip ?_ w2⟩
      rintro ⟨⟨h, _⟩, _⟩
      rw [hex] at h
      cases h
    · rw [filterMap_some, listM] at hq
      obtain ⟨q, h3, hq⟩ := bind_ok hq
      obtain ⟨qs', h4, hq⟩ := bind_ok hq
      cases hq
      obtain ⟨v, w1, w2⟩ := ih h2 h4 hf' (fun r' q' hm => hch r' q' (by
        rw [filterMap_some, List.zip_cons_cons]
        exact List.mem_cons_of_mem _ hm))
      have hlines : rulesOf ((q :: qs').flatMap Printed.lines) filter =
          rulesOf q.lines filter ++ rulesOf (qs'.flatMap Printed.lines) filter := by
        rw [List.flatMap_cons, rulesOf_append]
      rw [hlines]
      obtain ⟨ports, hu'⟩ := restrict_fixHighPorts hu
      by_cases hl : Nf.Live c.platform r
      · obtain ⟨⟨a, f⟩, hw⟩ := hf r List.mem_cons_self hl
        have hopt : ∀ o ∈ r.term.option, o ∈ optionWords := fun o ho => ioptions f.active f.keywords ho
        obtain ⟨ports, rfl, hm⟩ := wants_ports hopt hw hu p
        have hqs := renderTerm_nosets hset h3
        rcases term_core f (name := name) (ports := ports) h3 hs hv (by simp [hqs.1]) (by simp [hqs.2]) with
          ⟨h0, hno⟩ | ⟨ex, main, tg, E, M, hl'⟩
        · rw [h0]
          exact ⟨v, w1, decides_skip (fun h => hno (hm.2 h.2.1)) w2⟩
        · have hcr : created q.lines ≠ [] := by
            have : chainName filter name ∈ created q.lines := by
              rw [mem_created, hl'.lines]
              rcases hc with rfl | rfl <;> simp [headLines, Iptables.iptables, Iptables.speedway]
            intro h0
            rw [h0] at this
            cases this
          obtain ⟨hne, hchain⟩ := hch _ q (by
            rw [filterMap_some, List.zip_cons_cons]
            exact List.mem_cons_self) hcr
          dsimp only at hne hchain
          obtain ⟨r1, r2, _, _⟩ := termLines_rules hl' hc hne
          obtain ⟨t1, t2⟩ := termLines_walk (chains := chains) hl' (top := chainName filter name) (by rw [hin]; rfl)
          rw [r2, List.cons_append, List.nil_append]
          have hp : parse [.w "-j", .name (chainName filter name)] = some ([], .jump (chainName filter name)) := by
            simp [parse, readTarget]
          have ha : All e p [] := by intro m hm; cases hm
          by_cases hmt : Matches { r.term with destinationPort := ports } p
          · have t1 := t1 hmt
            rw [← r1, ← hchain] at t1
            rcases hl'.ends with ht | ⟨w, hw'⟩
            · rw [ht] at t1
              refine ⟨v, .back hp ha t1 w1, decides_skip ?_ w2⟩
              rintro ⟨_, _, hn⟩
              exact hn (by rw [f.action, hl'.next.2 ht])
            · have hask := hl'.asks
              rw [hw'] at t1 hask
              refine ⟨some w, .call hp ha t1, .inl ⟨[], r, rs, a, rfl, ⟨hl, hm.1 hmt, ?_⟩, f.action, hask, by simp⟩⟩
              intro hn
              rw [f.action] at hn
              have ht := hl'.next.1 (by simpa using hn)
              rw [ht] at hw'
              cases hw'
          · have t2 := t2 hmt
            rw [← r1, ← hchain] at t2
            exact ⟨v, .back hp ha t2 w1, decides_skip (fun h => hmt (hm.2 h.2.1)) w2⟩
      · have hoff : Cisco.onPlatform c.platform ({ r with term := u } : ITerm).term = false := by
          rw [hu']
          have : ¬ Cisco.onPlatform c.platform r.term = true := fun h => hl ((onPlatform_live hex).1 h)
          simpa [Cisco.onPlatform] using this
        rw [renderTerm_off h3 hoff]
        exact ⟨v, w1, decides_skip (fun h => hl h.1) w2⟩

theorem zip_split {α β : Type} {f : α → Except Err β} (l : List α) : ∀ {m : List β}, listM f l = .ok m → ∀ {x : α} {y : β},
    (x, y) ∈ l.zip m → ∃ a b c d, l = a ++ x :: b ∧ m = c ++ y :: d ∧ listM f a = .ok c ∧ f x = .ok y ∧ listM f b = .ok d := by
  induction l with
  | nil => intro m _ x y h; cases h
  | cons z l ih =>
    intro m hm x y h
    rw [listM] at hm
    obtain ⟨w, h1, hm⟩ := bind_ok hm
    obtain ⟨ws, h2, hm⟩ := bind_ok hm
    cases hm
    rw [List.zip_cons_cons] at h
    rcases List.mem_cons.1 h with h | h
    · cases h
      exact ⟨[], l, [], ws, rfl, rfl, rfl, h1, h2⟩
    · obtain ⟨a, b, c, d, rfl, rfl, h3, h4, h5⟩ := ih h2 h
      exact ⟨z :: a, b, w :: c, d, rfl, rfl, by rw [listM, h1, h3]; rfl, h4, h5⟩

theorem translate_names {c : Cls} (fs : List Filter) : ∀ {st : TState} {os : List Out}, Iptables.translate c st fs = .ok os →
    os.map Out.name = fs.map Filter.name := by
  induction fs with
  | nil => intro st os h; cases h; rfl
  | cons f fs ih =>
    intro st os h
    rw [Iptables.translate] at h
    obtain ⟨⟨st', o⟩, h1, h⟩ := bind_ok h
    obtain ⟨os', h2, h⟩ := bind_ok h
    cases h
    rw [List.map_cons, List.map_cons, ih h2]
    congr 1
    unfold Iptables.translateFilter at h1
    split at h1
    · cases h1
    · obtain ⟨_, _, h1⟩ := bind_ok h1
      obtain ⟨_, _, h1⟩ := bind_ok h1
      obtain ⟨_, _, h1⟩ := bind_ok h1
      split at h1
      · cases h1
      · cases h1; rfl

/-- The filter with its options, among the translated ones. -/
theorem translate_split {c : Cls} {f : Filter} {post : List Filter} (pre : List Filter) : ∀ {st : TState} {os : List Out},
    st.stateful = true → (∀ g ∈ pre, "nostate" ∉ g.options) → Iptables.translate c st (pre ++ f :: post) = .ok os →
    ∃ a o b kept, os = a ++ o :: b ∧ o.name = f.name ∧ o.stateful = decide ("nostate" ∉ f.options) ∧
      o.af = (if "inet6" ∈ f.options then .v6 else .v4) ∧
      listM (prepare f.options o.stateful o.af) f.terms = .ok kept ∧ o.terms = kept.filterMap id := by
  induction pre with
  | nil =>
    intro st os hst _ h
    rw [List.nil_append, Iptables.translate] at h
    obtain ⟨⟨st', o⟩, h1, h⟩ := bind_ok h
    obtain ⟨os', h2, h⟩ := bind_ok h
    cases h
    unfold Iptables.translateFilter at h1
    split at h1
    · cases h1
    · obtain ⟨af, h3, h1⟩ := bind_ok h1
      obtain ⟨kept, h4, h1⟩ := bind_ok h1
      obtain ⟨_, _, h1⟩ := bind_ok h1
      split at h1
      · cases h1
      · cases h1
        have haf : af = if "inet6" ∈ f.options then .v6 else .v4 := by
          unfold filterType at h3
          split at h3
          · cases h3
          · cases h3; simp
        refine ⟨[], _, os', kept, rfl, rfl, ?_, haf, h4, rfl⟩
        rw [hst]; simp
  | cons g pre ih =>
    intro st os hst hn h
    rw [List.cons_append, Iptables.translate] at h
    obtain ⟨⟨st', o⟩, h1, h⟩ := bind_ok h
    obtain ⟨os', h2, h⟩ := bind_ok h
    cases h
    have hst' : st'.stateful = true := by
      unfold Iptables.translateFilter at h1
      split at h1
      · cases h1
      · obtain ⟨_, _, h1⟩ := bind_ok h1
        obtain ⟨_, _, h1⟩ := bind_ok h1
        obtain ⟨_, _, h1⟩ := bind_ok h1
        split at h1
        · cases h1
        · cases h1
          have := hn g List.mem_cons_self
          simp [hst, this]
    obtain ⟨a, o', b, kept, rfl, h3⟩ := ih hst' (fun x hx => hn x (List.mem_cons_of_mem _ hx)) h2
    exact ⟨o :: a, o', b, kept, rfl, h3⟩

/-- C70 (partial): a packet of the family of a filter of `iptables` or `speedway` that enters the chain of the filter gets
the verdict of the first term that is live, matches it and does not pass it on, and falls through the chain if there is
none. Missing: the terms outside `IFits` and the chain names that collide, see the refutations, and the filters after
one with `nostate`, see C71. -/
theorem C70_partial {c : Cls} (hc : c = Iptables.iptables ∨ c = Iptables.speedway) {pre post : List Filter} {f : Filter}
    {ls : List Iptables.Line} {sets : List IpSet} (h : Iptables.render c (pre ++ f :: post) = .ok (ls, sets))
    (hn : ((pre ++ f :: post).map Filter.name).Nodup) (hcr : (created ls).Nodup)
    (hst : ∀ g ∈ pre, "nostate" ∉ g.options) {track : Bool} (ht : track = true ↔ "nostate" ∉ f.options) {af : Ver}
    (haf : af = .v6 ↔ "inet6" ∈ f.options)
    (fits : ∀ r ∈ f.terms, Nf.Live c.platform r → (∃ a, IFits c track af r a) ∧ PWF r.term.destinationPort)
    {e : Host} {p : Packet} (hs : Sound track e p) (hv : p.ver = af) :
    ∃ v, Walk (rulesOf ls) e p (rulesOf ls f.name) v ∧ (∀ w, Walk (rulesOf ls) e p (rulesOf ls f.name) w → w = v) ∧
      Decides c.platform track f.terms p v := by
  unfold Iptables.render at h
  obtain ⟨os, h1, h⟩ := bind_ok h
  obtain ⟨rs, h2, h⟩ := bind_ok h
  cases h
  rw [← translate_names _ h1] at hn
  obtain ⟨a, o, b, kept, rfl, o1, o2, o3, o4, o5⟩ := translate_split pre rfl hst h1
  have e2 : o.stateful = track := by
    rw [o2, Bool.eq_iff_iff, ht]; simp
  have e3 : o.af = af := by
    rw [o3]
    cases af with
    | v4 => rw [if_neg (fun hm => by cases haf.2 hm)]
    | v6 => rw [if_pos (haf.1 rfl)]
  rw [e2, e3] at o4
  obtain ⟨qs, q1, q2, q3⟩ := chains_local hc h2 hn hcr
  unfold filterTerms at q1
  rw [e2, e3] at q1 q3
  rw [o1] at q1 q2 q3
  rw [o5] at q1 q3
  obtain ⟨v, w1, w2⟩ := terms_walk hc hs hv (rulesOf (rs.flatMap Prod.fst)) f.terms o4 q1 fits (by
    intro r q hm hne
    obtain ⟨x, y, z, w, e1, e2, k1, k2, k3⟩ := zip_split _ q1 hm
    exact q3 x y r z w q e1 e2 k1 k2 k3 hne)
  rw [q2]
  exact ⟨v, w1, fun w hw => walk_unique hw w1, w2⟩

theorem hasDup_nodup (l : List Str) (h : Cisco.hasDup l = false) : l.Nodup := by
  induction l with
  | nil => exact List.nodup_nil
  | cons a l ih =>
    unfold Cisco.hasDup at h
    rw [Bool.or_eq_false_iff] at h
    rw [List.nodup_cons]
    refine ⟨fun hm => ?_, ih h.2⟩
    rw [List.contains_iff_mem.2 hm] at h
    cases h.1

theorem kept_names {options : List String} {st : Bool} {af : Ver} (ts : List ITerm) :
    ∀ {kept : List (Option ITerm)} {names : List Str}, listM (prepare options st af) ts = .ok kept →
      listM (fun r : ITerm => fixTermLength abbreviations 24 r.term.name (options.contains "abbreviateterms")
        (options.contains "truncateterms")) ts = .ok names →
      ((kept.filterMap id).map fun r => r.term.name).Sublist names := by
  induction ts with
  | nil => intro kept names h k; cases h; cases k; exact List.Sublist.slnil
  | cons r rs ih =>
    intro kept names h k
    rw [listM] at h k
    obtain ⟨x, h1, h⟩ := bind_ok h
    obtain ⟨kept', h2, h⟩ := bind_ok h
    obtain ⟨n, k1, k⟩ := bind_ok k
    obtain ⟨names', k2, k⟩ := bind_ok k
    cases h
    cases k
    have := ih h2 k2
    unfold prepare at h1
    rw [k1] at h1
    obtain ⟨n', hn, h1⟩ := bind_ok h1
    cases hn
    split at h1
    · cases h1
    · obtain ⟨t, h3, h1⟩ := bind_ok h1
      obtain ⟨ports, rfl⟩ := restrict_fixHighPorts h3
      split at h1
      · cases h1
        exact List.Sublist.cons _ this
      · cases h1
        rw [filterMap_some, List.map_cons]
        exact List.Sublist.cons_cons _ this

theorem created_terms {c : Cls} (hc : c = Iptables.iptables ∨ c = Iptables.speedway) {filter : Str} {track : Bool} {af : Ver}
    (ts : List ITerm) : ∀ {qs : List Printed}, listM (Iptables.renderTerm c filter track af) ts = .ok qs →
      (created (qs.flatMap Printed.lines)).Sublist (ts.map fun r => chainName filter r.term.name) := by
  induction ts with
  | nil => intro qs h; cases h; exact List.Sublist.slnil
  | cons r rs ih =>
    intro qs h
    rw [listM] at h
    obtain ⟨q, h1, h⟩ := bind_ok h
    obtain ⟨qs', h2, h⟩ := bind_ok h
    cases h
    rw [List.flatMap_cons, created_append, List.map_cons]
    rcases (renderTerm_owned hc h1).2 with ⟨h, _⟩ | h
    · rw [h, List.nil_append]
      exact List.Sublist.cons _ (ih h2)
    · rw [h]
      exact List.Sublist.cons_cons _ (ih h2)

/-- C70: the chains of one filter never collide, if its name cannot be mistaken for one of them. -/
theorem C70_chains {c : Cls} (hc : c = Iptables.iptables ∨ c = Iptables.speedway) {f : Filter} {ls : List Iptables.Line}
    {sets : List IpSet} (h : Iptables.render c [f] = .ok (ls, sets)) (hn : ∀ x, f.name ≠ f.name.take 1 ++ '_' :: x) :
    (created ls).Nodup := by
  unfold Iptables.render at h
  obtain ⟨os, h1, h⟩ := bind_ok h
  obtain ⟨rs, h2, h⟩ := bind_ok h
  cases h
  rw [Iptables.translate] at h1
  obtain ⟨⟨st', o⟩, h3, h1⟩ := bind_ok h1
  cases h1
  rw [listM] at h2
  obtain ⟨x, h4, h2⟩ := bind_ok h2
  cases h2
  unfold Iptables.translateFilter at h3
  split at h3
  · cases h3
  obtain ⟨af, h5, h3⟩ := bind_ok h3
  obtain ⟨kept, h6, h3⟩ := bind_ok h3
  obtain ⟨names, h7, h3⟩ := bind_ok h3
  split at h3
  · cases h3
  next hd =>
  cases h3
  unfold printFilter filterTerms at h4
  obtain ⟨qs, h8, h4⟩ := bind_ok h4
  cases h4
  dsimp only at h8
  have hsub := created_terms hc _ h8
  have hnd : ((kept.filterMap id).map fun r => chainName f.name r.term.name).Nodup := by
    have h9 := (kept_names _ h6 h7).nodup (hasDup_nodup _ (by simpa using hd))
    have : ((kept.filterMap id).map fun r => chainName f.name r.term.name) =
        ((kept.filterMap id).map fun r => r.term.name).map (chainName f.name) := by rw [List.map_map]; rfl
    rw [this]
    unfold List.Nodup at h9 ⊢
    rw [List.pairwise_map]
    refine h9.imp ?_
    intro a b hab he
    refine hab ?_
    unfold chainName at he
    have := List.append_cancel_left he
    simpa using this
  simp only [List.flatMap_cons, List.flatMap_nil, List.append_nil]
  rw [created_append, List.nodup_append]
  have hh : created (filterHead c ⟨f.name, af, defaultAction c f none, true && !f.options.contains "nostate", kept.filterMap id⟩) = []
      ∨ created (filterHead c ⟨f.name, af, defaultAction c f none, true && !f.options.contains "nostate", kept.filterMap id⟩) =
        [f.name] := by
    unfold filterHead
    split
    · left
      dsimp only
      split
      · rfl
      · split <;> rfl
    · right; rfl
  refine ⟨?_, hsub.nodup hnd, ?_⟩
  · rcases hh with h | h <;> rw [h] <;> simp
  · intro a ha b hb he
    rcases hh with h | h
    · rw [h] at ha; cases ha
    · rw [h] at ha
      have hb' := hsub.subset hb
      obtain ⟨r, _, hr⟩ := List.mem_map.1 hb'
      rw [List.mem_singleton.1 ha] at he
      exact hn r.term.name (he.trans hr.symm)

/-! ### C48: sets -/

theorem sets_walk {c : Cls} (hc : c = Iptables.ipset) {filter : Str} {options : List String} {st : Bool}
    {af : Ver} {e : Host} {p : Packet} (hs : Sound st e p) (hv : p.ver = af) (chains : Str → List (List Arg)) (ts : List ITerm) :
    ∀ {kept : List (Option ITerm)} {qs : List Printed}, listM (prepare options st af) ts = .ok kept →
      listM (Iptables.renderTerm c filter st af) (kept.filterMap id) = .ok qs →
      (∀ r ∈ ts, Nf.Live c.platform r → (∃ a, a ≠ "next" ∧ IFits c st af r a) ∧ PWF r.term.destinationPort) →
      (∀ q ∈ qs, (∀ s, q.srcSet = some s → e.sets s.1 = some s.2) ∧ (∀ s, q.dstSet = some s → e.sets s.1 = some s.2)) →
      ∃ v, Walk chains e p (rulesOf (qs.flatMap Printed.lines) filter) v ∧ Decides c.platform st ts p v := by
  induction ts with
  | nil =>
    intro kept qs hk hq _ _
    cases hk
    cases hq
    exact ⟨none, .done, .inr ⟨rfl, by simp⟩⟩
  | cons r rs ih =>
    intro kept qs hk hq hf hse
    rw [listM] at hk
    obtain ⟨k, h1, hk⟩ := bind_ok hk
    obtain ⟨kept', h2, hk⟩ := bind_ok hk
    cases hk
    have hf' : ∀ r ∈ rs, Nf.Live c.platform r → (∃ a, a ≠ "next" ∧ IFits c st af r a) ∧ PWF r.term.destinationPort :=
      fun s hs => hf s (List.mem_cons_of_mem _ hs)
    rcases prepared h1 with ⟨hex, rfl⟩ | ⟨name, u, hex, rfl, hu⟩
    · obtain ⟨v, w1, w2⟩ := ih h2 hq hf' hse
      refine ⟨v, w1, decides_skip ?_ w2⟩
      rintro ⟨⟨h, _⟩, _⟩
      rw [hex] at h
      cases h
    · rw [filterMap_some, listM] at hq
      obtain ⟨q, h3, hq⟩ := bind_ok hq
      obtain ⟨qs', h4, hq⟩ := bind_ok hq
      cases hq
      obtain ⟨v, w1, w2⟩ := ih h2 h4 hf' (fun q' hm => hse q' (List.mem_cons_of_mem _ hm))
      have hlines : rulesOf ((q :: qs').flatMap Printed.lines) filter =
          rulesOf q.lines filter ++ rulesOf (qs'.flatMap Printed.lines) filter := by
        rw [List.flatMap_cons, rulesOf_append]
      rw [hlines]
      obtain ⟨ports, hu'⟩ := restrict_fixHighPorts hu
      by_cases hl : Nf.Live c.platform r
      · obtain ⟨⟨a, hna, f⟩, hw⟩ := hf r List.mem_cons_self hl
        have hopt : ∀ o ∈ r.term.option, o ∈ optionWords := fun o ho => ioptions f.active f.keywords ho
        obtain ⟨ports, rfl, hm⟩ := wants_ports hopt hw hu p
        obtain ⟨s1, s2⟩ := hse q List.mem_cons_self
        rcases term_core f (name := name) (ports := ports) h3 hs hv s1 s2 with
          ⟨h0, hno⟩ | ⟨ex, main, tg, E, M, hl'⟩
        · rw [h0]
          exact ⟨v, w1, decides_skip (fun h => hno (hm.2 h.2.1)) w2⟩
        · have hex0 : ex = [] := hl'.sets (by rw [hc]; rfl)
          have hE : ¬ E := by
            intro h
            obtain ⟨_, _, h, _⟩ := hl'.exActs.hit.2 h
            rw [hex0] at h
            cases h
          have hq0 : q.lines = main := by
            rw [hl'.lines, hex0, hc]
            simp [headLines, tailLines, Iptables.ipset]
          have hmain := hl'.mainActs
          rw [if_pos (by rw [hc]; rfl)] at hmain
          obtain ⟨_, y2, y3⟩ := acts_walk (chains := chains) hmain hl'.notJump hl'.notLog
            (rulesOf (qs'.flatMap Printed.lines) filter)
          rw [hq0]
          by_cases hmt : Matches { r.term with destinationPort := ports } p
          · obtain ⟨hM, _⟩ := hl'.exact.2 hmt
            rcases hl'.ends with ht | ⟨w, hw'⟩
            · exact absurd (hl'.next.2 ht) hna
            · have hask := hl'.asks
              rw [hw'] at hask
              refine ⟨some w, y2 hM w hw', .inl ⟨[], r, rs, a, rfl, ⟨hl, hm.1 hmt, ?_⟩, f.action, hask, by simp⟩⟩
              rw [f.action]
              simpa using hna
          · refine ⟨v, y3 (fun hM => hmt (hl'.exact.1 ⟨hM, hE⟩)) v w1, decides_skip (fun h => hmt (hm.2 h.2.1)) w2⟩
      · have hoff : Cisco.onPlatform c.platform ({ r with term := u } : ITerm).term = false := by
          rw [hu']
          have : ¬ Cisco.onPlatform c.platform r.term = true := fun h => hl ((onPlatform_live hex).1 h)
          simpa [Cisco.onPlatform] using this
        rw [renderTerm_off h3 hoff]
        exact ⟨v, w1, decides_skip (fun h => hl h.1) w2⟩

/-- The rules of a filter of `ipset` are in the chain of the filter. -/
theorem ipset_rules {o : Out} {x : List Iptables.Line × List IpSet} (h : printFilter Iptables.ipset o = .ok x) {d : Str}
    (hd : d ≠ o.name) : rulesOf x.1 d = [] := by
  unfold printFilter filterTerms at h
  obtain ⟨qs, h1, h⟩ := bind_ok h
  cases h
  dsimp only
  refine rulesOf_nil fun args hm => ?_
  rcases List.mem_append.1 hm with hm | hm
  · exact (filterHead_spec _ o).2.2 d args hm
  · obtain ⟨q, hq, hm⟩ := List.mem_flatMap.1 hm
    obtain ⟨r, _, hr⟩ := (listM_mem h1 q).1 hq
    rcases renderTerm_shape hr with h0 | ⟨mid, hl, hmid⟩
    · obtain ⟨_, hx⟩ := h0 _ hm
      cases hx
    · rw [hl] at hm
      simp only [headLines, tailLines, Iptables.ipset, Bool.false_eq_true, if_false, List.nil_append, List.append_nil] at hm
      obtain ⟨_, hx⟩ := hmid _ hm
      cases hx
      exact hd rfl

theorem ipset_filters {d : Str} (os : List Out) : ∀ {rs : List (List Iptables.Line × List IpSet)},
    listM (printFilter Iptables.ipset) os = .ok rs → d ∉ os.map Out.name → rulesOf (rs.flatMap Prod.fst) d = [] := by
  induction os with
  | nil => intro rs h _; cases h; rfl
  | cons o os ih =>
    intro rs h hd
    rw [listM] at h
    obtain ⟨x, h1, h⟩ := bind_ok h
    obtain ⟨rs', h2, h⟩ := bind_ok h
    cases h
    rw [List.map_cons, List.mem_cons, not_or] at hd
    rw [List.flatMap_cons, rulesOf_append, ipset_rules h1 hd.1, ih h2 hd.2]
    rfl

/-- C48 (partial): with the printed sets loaded, a filter of `ipset` decides like the policy, as long as no term passes
packets on. Missing: sets whose names collide and `next`, see the refutations, and the terms outside `IFits`. -/
theorem C48_partial {pre post : List Filter} {f : Filter} {ls : List Iptables.Line} {sets : List IpSet}
    (h : Iptables.render Iptables.ipset (pre ++ f :: post) = .ok (ls, sets))
    (hn : ((pre ++ f :: post).map Filter.name).Nodup) (hst : ∀ g ∈ pre, "nostate" ∉ g.options)
    {track : Bool} (ht : track = true ↔ "nostate" ∉ f.options) {af : Ver} (haf : af = .v6 ↔ "inet6" ∈ f.options)
    (fits : ∀ r ∈ f.terms, Nf.Live "ipset" r →
      (∃ a, a ≠ "next" ∧ IFits Iptables.ipset track af r a) ∧ PWF r.term.destinationPort)
    {e : Host} {p : Packet} (hs : Sound track e p) (hv : p.ver = af) (hse : ∀ s ∈ sets, e.sets s.1 = some s.2) :
    ∃ v, Walk (rulesOf ls) e p (rulesOf ls f.name) v ∧ (∀ w, Walk (rulesOf ls) e p (rulesOf ls f.name) w → w = v) ∧
      Decides "ipset" track f.terms p v := by
  unfold Iptables.render at h
  obtain ⟨os, h1, h⟩ := bind_ok h
  obtain ⟨rs, h2, h⟩ := bind_ok h
  cases h
  rw [← translate_names _ h1] at hn
  obtain ⟨a, o, b, kept, rfl, o1, o2, o3, o4, o5⟩ := translate_split pre rfl hst h1
  have e2 : o.stateful = track := by
    rw [o2, Bool.eq_iff_iff, ht]; simp
  have e3 : o.af = af := by
    rw [o3]
    cases af with
    | v4 => rw [if_neg (fun hm => by cases haf.2 hm)]
    | v6 => rw [if_pos (haf.1 rfl)]
  rw [e2, e3] at o4
  obtain ⟨r1, r2, rfl, k1, k2⟩ := listM_append _ _ h2
  rw [listM] at k2
  obtain ⟨x, k3, k2⟩ := bind_ok k2
  obtain ⟨r3, k4, k2⟩ := bind_ok k2
  cases k2
  rw [List.map_append, List.map_cons, List.nodup_append, List.nodup_cons] at hn
  have hr : rulesOf ((r1 ++ x :: r3).flatMap Prod.fst) f.name = rulesOf x.1 f.name := by
    rw [List.flatMap_append, List.flatMap_cons, rulesOf_append, rulesOf_append,
      ipset_filters _ k1 (fun hm => hn.2.2 _ hm _ List.mem_cons_self o1.symm),
      ipset_filters _ k4 (o1 ▸ hn.2.1.1), List.nil_append, List.append_nil]
  rw [hr]
  have hx : ∀ s ∈ x.2, e.sets s.1 = some s.2 := by
    intro s hm
    refine hse s ?_
    rw [List.flatMap_append, List.flatMap_cons]
    exact List.mem_append_right _ (List.mem_append_left _ hm)
  unfold printFilter filterTerms at k3
  obtain ⟨qs, q1, k3⟩ := bind_ok k3
  cases k3
  rw [e2, e3, o1, o5] at q1
  dsimp only at hx ⊢
  rw [rulesOf_append, rulesOf_nil (fun args => o1 ▸ (filterHead_spec _ o).2.2 o.name args), List.nil_append]
  obtain ⟨v, w1, w2⟩ := sets_walk rfl hs hv (rulesOf ((r1 ++ (filterHead Iptables.ipset o ++ qs.flatMap Printed.lines,
    qs.flatMap fun p => p.srcSet.toList ++ p.dstSet.toList) :: r3).flatMap Prod.fst)) f.terms o4 q1 fits (by
    intro q hq
    refine ⟨fun s hm => hx s ?_, fun s hm => hx s ?_⟩
    · exact List.mem_flatMap.2 ⟨q, hq, by rw [hm]; simp⟩
    · exact List.mem_flatMap.2 ⟨q, hq, by rw [hm]; simp⟩)
  exact ⟨v, w1, fun w hw => walk_unique hw w1, w2⟩

/-- The sets of a term. -/
theorem renderTerm_sets {filter : Str} {track : Bool} {af : Ver} {r : ITerm} {q : Printed}
    (h : Iptables.renderTerm Iptables.ipset filter track af r = .ok q) :
    (∀ s, q.srcSet = some s → s.1 = setName af r.term.name "src".toList ∧
      Iptables.setList af r.term.sourceAddress r.term.sourceAddressExclude = .ok s.2) ∧
    ∀ s, q.dstSet = some s → s.1 = setName af r.term.name "dst".toList ∧
      Iptables.setList af r.term.destinationAddress r.term.destinationAddressExclude = .ok s.2 := by
  have empty : ∀ {o : List (List Arg)} {ls : List Iptables.Line} {q : Printed}, (Except.ok ⟨ls, o, none, none⟩ : Except Err Printed) = .ok q →
      (∀ s, q.srcSet = some s → s.1 = setName af r.term.name "src".toList ∧
      Iptables.setList af r.term.sourceAddress r.term.sourceAddressExclude = .ok s.2) ∧
    ∀ s, q.dstSet = some s → s.1 = setName af r.term.name "dst".toList ∧
      Iptables.setList af r.term.destinationAddress r.term.destinationAddressExclude = .ok s.2 := by
    intro o ls q h
    cases h
    exact ⟨(by intro s hs; cases hs), (by intro s hs; cases hs)⟩
  unfold Iptables.renderTerm at h
  obtain ⟨ps, _, h⟩ := bind_ok h
  unfold printTerm at h
  split at h
  · exact empty h
  split at h
  · exact empty h
  split at h
  · exact empty h
  split at h
  · cases h
  split at h
  · split at h
    · exact empty h
    · cases h
  split at h
  · exact empty h
  obtain ⟨ad, had, h⟩ := bind_ok h
  unfold addresses at had
  rw [if_pos (by rfl)] at had
  obtain ⟨ls, h1, had⟩ := bind_ok had
  obtain ⟨ld, h2, had⟩ := bind_ok had
  cases had
  have key : ∀ {sfx : Str} {l : List Net} {s : IpSet}, setOf af r.term.name sfx l = some s →
      s.1 = setName af r.term.name sfx ∧ l = s.2 := by
    intro sfx l s hs
    unfold setOf at hs
    split at hs
    · cases hs; exact ⟨rfl, rfl⟩
    · cases hs
  have fin : q.srcSet = setOf af r.term.name "src".toList ls ∧ q.dstSet = setOf af r.term.name "dst".toList ld := by
    unfold body at h
    split at h
    · cases h; exact ⟨rfl, rfl⟩
    · obtain ⟨_, _, h⟩ := bind_ok h
      obtain ⟨_, _, h⟩ := bind_ok h
      dsimp only at h
      split at h
      · cases h
      · cases h; exact ⟨rfl, rfl⟩
  rw [fin.1, fin.2]
  refine ⟨fun s hs => ?_, fun s hs => ?_⟩
  · obtain ⟨k1, rfl⟩ := key hs
    exact ⟨k1, h1⟩
  · obtain ⟨k1, rfl⟩ := key hs
    exact ⟨k1, h2⟩

theorem setName_length (af : Ver) (name : Str) {sfx : Str} (h : sfx.length = 3) : (setName af name sfx).length ≤ 31 := by
  unfold setName
  dsimp only
  have h6 : (sfx ++ "-v6".toList).length = 6 := by rw [List.length_append, h]; rfl
  cases af with
  | v4 =>
    simp only [reduceCtorEq, if_false]
    split <;> simp only [List.length_append, List.length_take, List.length_cons, h] <;> omega
  | v6 =>
    simp only [if_true]
    generalize hv : sfx ++ "-v6".toList = v at h6
    split <;> simp only [List.length_append, List.length_take, List.length_cons, h6] <;> omega

theorem setName_short (af : Ver) {name : Str} {sfx : Str} (h : sfx.length = 3) (hn : name.length ≤ 24) :
    setName af name sfx = name ++ '-' :: (if af = .v6 then sfx ++ "-v6".toList else sfx) := by
  unfold setName
  dsimp only
  rw [if_neg]
  cases af <;> simp [h] <;> omega

theorem setName_inj {af : Ver} {m n s t : Str} (hs : s.length = 3) (ht : t.length = 3) (hm : m.length ≤ 24) (hn : n.length ≤ 24)
    (h : setName af m s = setName af n t) : m = n ∧ s = t := by
  rw [setName_short af hs hm, setName_short af ht hn] at h
  have h' := congrArg List.reverse h
  cases af with
  | v4 =>
    simp only [reduceCtorEq, if_false] at h
    have := List.append_inj' h (by simp [hs, ht])
    exact ⟨this.1, by simpa using this.2⟩
  | v6 =>
    simp only [if_true] at h
    have := List.append_inj' h (by simp [hs, ht])
    refine ⟨this.1, ?_⟩
    have := this.2
    simp only [List.cons.injEq, true_and] at this
    exact (List.append_inj this (by rw [hs, ht])).1

theorem sets_names {filter : Str} {track : Bool} {af : Ver} (ts : List ITerm) : ∀ {qs : List Printed},
    listM (Iptables.renderTerm Iptables.ipset filter track af) ts = .ok qs →
    ((qs.flatMap fun p => p.srcSet.toList ++ p.dstSet.toList).map Prod.fst).Sublist
      (ts.flatMap fun r => [setName af r.term.name "src".toList, setName af r.term.name "dst".toList]) := by
  induction ts with
  | nil => intro qs h; cases h; exact List.Sublist.slnil
  | cons r rs ih =>
    intro qs h
    rw [listM] at h
    obtain ⟨q, h1, h⟩ := bind_ok h
    obtain ⟨qs', h2, h⟩ := bind_ok h
    cases h
    rw [List.flatMap_cons, List.flatMap_cons, List.map_append]
    refine List.Sublist.append ?_ (ih h2)
    obtain ⟨k1, k2⟩ := renderTerm_sets h1
    cases hs : q.srcSet with
    | none =>
      cases hd : q.dstSet with
      | none => simp
      | some d => simp [(k2 d hd).1]
    | some s =>
      cases hd : q.dstSet with
      | none => simp [(k1 s hs).1]
      | some d => simp [(k1 s hs).1, (k2 d hd).1]

theorem sets_nodup {af : Ver} (ns : List Str) (h : ns.Nodup) (hl : ∀ n ∈ ns, n.length ≤ 24) :
    (ns.flatMap fun n => [setName af n "src".toList, setName af n "dst".toList]).Nodup := by
  induction ns with
  | nil => exact List.nodup_nil
  | cons n ns ih =>
    rw [List.nodup_cons] at h
    rw [List.flatMap_cons, List.nodup_append]
    have hn := hl n List.mem_cons_self
    have hl' : ∀ n ∈ ns, n.length ≤ 24 := fun m hm => hl m (List.mem_cons_of_mem _ hm)
    refine ⟨?_, ih h.2 hl', ?_⟩
    · simp only [List.nodup_cons, List.mem_singleton, List.not_mem_nil, not_false_iff, List.nodup_nil, and_true]
      intro he
      exact absurd (setName_inj rfl rfl hn hn he).2 (by decide)
    · intro a ha b hb he
      obtain ⟨m, hm, hb⟩ := List.mem_flatMap.1 hb
      simp only [List.mem_cons, List.not_mem_nil, or_false] at ha hb
      have hne : n ≠ m := fun e => h.1 (e ▸ hm)
      rcases ha with rfl | rfl <;> rcases hb with rfl | rfl
      all_goals exact hne (setName_inj rfl rfl hn (hl' m hm) he).1

/-- C48: the names of the sets have at most 31 characters, the limit of the kernel, and those of one filter differ. -/
theorem C48_names {f : Filter} {ls : List Iptables.Line} {sets : List IpSet}
    (h : Iptables.render Iptables.ipset [f] = .ok (ls, sets)) :
    (∀ s ∈ sets, s.1.length ≤ 31) ∧ (sets.map Prod.fst).Nodup := by
  unfold Iptables.render at h
  obtain ⟨os, h1, h⟩ := bind_ok h
  obtain ⟨rs, h2, h⟩ := bind_ok h
  cases h
  rw [Iptables.translate] at h1
  obtain ⟨⟨st', o⟩, h3, h1⟩ := bind_ok h1
  cases h1
  rw [listM] at h2
  obtain ⟨x, h4, h2⟩ := bind_ok h2
  cases h2
  unfold Iptables.translateFilter at h3
  split at h3
  · cases h3
  obtain ⟨af, h5, h3⟩ := bind_ok h3
  obtain ⟨kept, h6, h3⟩ := bind_ok h3
  obtain ⟨names, h7, h3⟩ := bind_ok h3
  split at h3
  · cases h3
  next hd =>
  cases h3
  unfold printFilter filterTerms at h4
  obtain ⟨qs, h8, h4⟩ := bind_ok h4
  cases h4
  dsimp only at h8
  simp only [List.flatMap_cons, List.flatMap_nil, List.append_nil]
  have hsub := sets_names _ h8
  have hnames := kept_names _ h6 h7
  have hnd := hnames.nodup (hasDup_nodup _ (by simpa using hd))
  have hlen : ∀ n ∈ (kept.filterMap id).map (fun r => r.term.name), n.length ≤ 24 := by
    intro n hn
    obtain ⟨r, _, hr⟩ := (listM_mem h7 n).1 (hnames.subset hn)
    exact C33_bounded hr
  have hflat : ((kept.filterMap id).flatMap fun r => [setName af r.term.name "src".toList, setName af r.term.name "dst".toList]) =
      ((kept.filterMap id).map fun r => r.term.name).flatMap
        (fun n => [setName af n "src".toList, setName af n "dst".toList]) := by
    rw [List.flatMap_map]
  rw [hflat] at hsub
  refine ⟨fun s hs => ?_, hsub.nodup (sets_nodup _ hnd hlen)⟩
  obtain ⟨n, _, hn⟩ := List.mem_flatMap.1 (hsub.subset (List.mem_map_of_mem hs))
  simp only [List.mem_cons, List.not_mem_nil, or_false] at hn
  rcases hn with hn | hn <;> rw [hn] <;> exact setName_length _ _ rfl

/-- C48: the addresses of a direction of a term of `ipset` are exactly those of the term, even if all are excluded. -/
theorem C48_addresses {af : Ver} {inc exc : List Net} (h : ∀ n ∈ inc ++ exc, WF n) :
    ∃ l, Iptables.setList af inc exc = .ok l ∧ (∀ n ∈ l, WF n ∧ n.ver = af) ∧
      ∀ x, x < 2 ^ af.bits → (Den l af x ↔ AddrMatch inc exc af x) := by
  exact setList_spec (af := af) h

/-! ### C71: default policies -/

/-- The last of the values `ACCEPT` and `DROP` in a list, or what was there before. -/
theorem lastAction_spec (l : List String) (d : Option String) :
    let r := l.foldl (fun d o => if o = "ACCEPT" ∨ o = "DROP" then some o else d) d
    (∃ x a b, r = some x ∧ l = a ++ x :: b ∧ (x = "ACCEPT" ∨ x = "DROP") ∧ "ACCEPT" ∉ b ∧ "DROP" ∉ b) ∨
    (r = d ∧ "ACCEPT" ∉ l ∧ "DROP" ∉ l) := by
  induction l generalizing d with
  | nil => exact .inr ⟨rfl, by simp, by simp⟩
  | cons o l ih =>
    intro r
    have hr : r = l.foldl (fun d o => if o = "ACCEPT" ∨ o = "DROP" then some o else d)
      (if o = "ACCEPT" ∨ o = "DROP" then some o else d) := rfl
    rw [hr]
    rcases ih (if o = "ACCEPT" ∨ o = "DROP" then some o else d) with ⟨x, a, b, h1, h2, h3, h4, h5⟩ | ⟨h1, h2, h3⟩
    · exact .inl ⟨x, o :: a, b, h1, by rw [h2]; rfl, h3, h4, h5⟩
    · rw [h1]
      by_cases ho : o = "ACCEPT" ∨ o = "DROP"
      · rw [if_pos ho]
        exact .inl ⟨o, [], l, rfl, rfl, ho, h2, h3⟩
      · rw [if_neg ho]
        rw [not_or] at ho
        exact .inr ⟨rfl, by simp [h2, Ne.symm ho.1], by simp [h3, Ne.symm ho.2]⟩

theorem translate_default {c : Cls} {f : Filter} {post : List Filter} (pre : List Filter) : ∀ {st : TState} {os : List Out},
    st.default = none → (∀ g ∈ pre, "ACCEPT" ∉ g.options ∧ "DROP" ∉ g.options ∧
      g.name ≠ "ACCEPT".toList ∧ g.name ≠ "DROP".toList ∧ (c.platform = "iptables" → g.name ≠ "FORWARD".toList)) →
    Iptables.translate c st (pre ++ f :: post) = .ok os →
    ∃ a o b, os = a ++ o :: b ∧ o.name = f.name ∧ o.default = defaultAction c f none := by
  induction pre with
  | nil =>
    intro st os hst _ h
    rw [List.nil_append, Iptables.translate] at h
    obtain ⟨⟨st', o⟩, h1, h⟩ := bind_ok h
    obtain ⟨os', h2, h⟩ := bind_ok h
    cases h
    unfold Iptables.translateFilter at h1
    split at h1
    · cases h1
    · obtain ⟨af, h3, h1⟩ := bind_ok h1
      obtain ⟨kept, h4, h1⟩ := bind_ok h1
      obtain ⟨_, _, h1⟩ := bind_ok h1
      split at h1
      · cases h1
      · cases h1
        exact ⟨[], _, os', rfl, rfl, by rw [hst]⟩
  | cons g pre ih =>
    intro st os hst hn h
    rw [List.cons_append, Iptables.translate] at h
    obtain ⟨⟨st', o⟩, h1, h⟩ := bind_ok h
    obtain ⟨os', h2, h⟩ := bind_ok h
    cases h
    have hst' : st'.default = none := by
      unfold Iptables.translateFilter at h1
      split at h1
      · cases h1
      · obtain ⟨_, _, h1⟩ := bind_ok h1
        obtain ⟨_, _, h1⟩ := bind_ok h1
        obtain ⟨_, _, h1⟩ := bind_ok h1
        split at h1
        · cases h1
        · cases h1
          dsimp only
          obtain ⟨n1, n2, n3, n4, n5⟩ := hn g List.mem_cons_self
          unfold defaultAction
          dsimp only
          have hcond : ¬ (c.platform = "iptables" ∧ g.name = "FORWARD".toList) := fun h => n5 h.1 h.2
          simp only [hst, hcond, if_false]
          split
          · rfl
          · have hname : ∀ s : String, g.name ≠ s.toList → String.ofList g.name ≠ s := by
              intro s hs he
              exact hs (by rw [← he]; simp)
            rcases lastAction_spec (String.ofList g.name :: g.options) none with ⟨x, a, b, _, hx, hx', _⟩ | ⟨hx, _⟩
            · exfalso
              have hm : x ∈ String.ofList g.name :: g.options := by rw [hx]; simp
              rcases hx' with rfl | rfl
              · rcases List.mem_cons.1 hm with hm | hm
                · exact hname _ n3 hm.symm
                · exact n1 hm
              · rcases List.mem_cons.1 hm with hm | hm
                · exact hname _ n4 hm.symm
                · exact n2 hm
            · exact hx
    obtain ⟨a, o', b, rfl, h3⟩ := ih hst' (fun x hx => hn x (List.mem_cons_of_mem _ hx)) h2
    exact ⟨o :: a, o', b, rfl, h3⟩

/-- The policy lines of the other filters are for other chains. -/
theorem policy_lines {c : Cls} {o : Out} {x : List Iptables.Line × List IpSet} (h : printFilter c o = .ok x) {d : Str} {a : String} :
    .policy d a ∈ x.1 ↔ .policy d a ∈ filterHead c o := by
  unfold printFilter filterTerms at h
  obtain ⟨qs, h1, h⟩ := bind_ok h
  cases h
  dsimp only
  rw [List.mem_append]
  refine ⟨fun h => h.elim id fun h => ?_, .inl⟩
  obtain ⟨q, hq, hm⟩ := List.mem_flatMap.1 h
  obtain ⟨r, _, hr⟩ := (listM_mem h1 q).1 hq
  rcases renderTerm_shape hr with h0 | ⟨mid, hl, hmid⟩
  · obtain ⟨_, hx⟩ := h0 _ hm
    cases hx
  · rw [hl] at hm
    rcases List.mem_append.1 hm with hm | hm
    · unfold headLines at hm
      rcases List.mem_append.1 hm with hm | hm <;> split at hm <;> simp at hm
    · rcases List.mem_append.1 hm with hm | hm
      · obtain ⟨_, hx⟩ := hmid _ hm
        cases hx
      · unfold tailLines at hm
        split at hm <;> simp at hm

theorem policy_head {c : Cls} {o : Out} {d : Str} {a : String} : .policy d a ∈ filterHead c o ↔
    d = o.name ∧ o.name ∈ builtin ∧ (o.default = some a ∨ (o.default = none ∧ c.platform = "speedway" ∧ a = "DROP")) := by
  have hb : o.name ∈ builtin ↔ o.name = "INPUT".toList ∨ o.name = "OUTPUT".toList ∨ o.name = "FORWARD".toList := by
    unfold builtin
    simp
  unfold filterHead
  split
  next h =>
    rw [← hb] at h
    cases hd : o.default with
    | some x =>
      simp only [List.mem_singleton, Line.policy.injEq, h, true_and, Option.some.injEq, reduceCtorEq, false_and, or_false]
      exact and_congr Iff.rfl eq_comm
    | none =>
      by_cases hs : c.platform = "speedway"
      · simp [h, hs]
      · simp [hs]
  next h =>
    rw [← hb] at h
    simp [h]

/-- C71 (partial): the policy set for the chain of a filter is the last default action among its own options; without one
it is DROP for `speedway` and for the filter FORWARD of `iptables`, and none is set otherwise. Missing: filters after one
with a default action, see `C71_refuted_default`; for `nostate` see C70. -/
theorem C71_partial {c : Cls} {pre post : List Filter} {f : Filter}
    {ls : List Iptables.Line} {sets : List IpSet} (h : Iptables.render c (pre ++ f :: post) = .ok (ls, sets))
    (hn : ((pre ++ f :: post).map Filter.name).Nodup) (hb : f.name ∈ builtin)
    (hpre : ∀ g ∈ pre, "ACCEPT" ∉ g.options ∧ "DROP" ∉ g.options ∧
      g.name ≠ "ACCEPT".toList ∧ g.name ≠ "DROP".toList ∧ (c.platform = "iptables" → g.name ≠ "FORWARD".toList)) (d : String) :
    .policy f.name d ∈ ls ↔
      (∃ a b, f.options = a ++ d :: b ∧ (d = "ACCEPT" ∨ d = "DROP") ∧ "ACCEPT" ∉ b ∧ "DROP" ∉ b) ∨
      ("ACCEPT" ∉ f.options ∧ "DROP" ∉ f.options ∧ d = "DROP" ∧
        (c.platform = "speedway" ∨ (c.platform = "iptables" ∧ f.name = "FORWARD".toList))) := by
  unfold Iptables.render at h
  obtain ⟨os, h1, h⟩ := bind_ok h
  obtain ⟨rs, h2, h⟩ := bind_ok h
  cases h
  rw [← translate_names _ h1] at hn
  obtain ⟨a, o, b, rfl, o1, o2⟩ := translate_default pre rfl hpre h1
  have hline : .policy f.name d ∈ rs.flatMap Prod.fst ↔ .policy f.name d ∈ filterHead c o := by
    obtain ⟨r1, r2, rfl, k1, k2⟩ := listM_append _ _ h2
    rw [listM] at k2
    obtain ⟨x, k3, k2⟩ := bind_ok k2
    obtain ⟨r3, k4, k2⟩ := bind_ok k2
    cases k2
    rw [List.map_append, List.map_cons, List.nodup_append, List.nodup_cons] at hn
    have other : ∀ {os : List Out} {rs : List (List Iptables.Line × List IpSet)}, listM (printFilter c) os = .ok rs →
        o.name ∉ os.map Out.name → .policy f.name d ∉ rs.flatMap Prod.fst := by
      intro os rs hl hno hm
      obtain ⟨y, hy, hm⟩ := List.mem_flatMap.1 hm
      obtain ⟨o', ho', hy⟩ := (listM_mem hl y).1 hy
      rw [policy_lines hy, policy_head] at hm
      exact hno (List.mem_map.2 ⟨o', ho', hm.1.symm.trans o1.symm⟩)
    rw [List.flatMap_append, List.flatMap_cons, List.mem_append, List.mem_append, policy_lines k3]
    refine ⟨fun h => ?_, fun h => .inr (.inl h)⟩
    rcases h with h | h | h
    · exact absurd h (other k1 (fun hm => hn.2.2 _ hm _ List.mem_cons_self rfl))
    · exact h
    · exact absurd h (other k4 hn.2.1.1)
  rw [hline, policy_head, o1, o2]
  simp only [hb, true_and]
  have hname : String.ofList f.name ≠ "ACCEPT" ∧ String.ofList f.name ≠ "DROP" := by
    have : ∀ n ∈ builtin, String.ofList n ≠ "ACCEPT" ∧ String.ofList n ≠ "DROP" := by decide
    exact this _ hb
  have hdef : defaultAction c f none = f.options.foldl (fun d o => if o = "ACCEPT" ∨ o = "DROP" then some o else d)
      (if c.platform = "iptables" ∧ f.name = "FORWARD".toList then some "DROP" else none) := by
    unfold defaultAction
    dsimp only
    by_cases hz : f.options = []
    · rw [hz]; rfl
    · rw [if_neg (by simpa using hz), List.foldl_cons, if_neg (by rw [not_or]; exact hname)]
  rw [hdef]
  rcases lastAction_spec f.options (if c.platform = "iptables" ∧ f.name = "FORWARD".toList then some "DROP" else none) with
    ⟨x, a, b, hx, e, h3, h4, h5⟩ | ⟨hx, h4, h5⟩
  · rw [hx]
    constructor
    · rintro (h | ⟨h, _⟩)
      · cases h
        exact .inl ⟨a, b, e, h3, h4, h5⟩
      · cases h
    · rintro (⟨a', b', e', h3', h4', h5'⟩ | ⟨n1, n2, _⟩)
      · left
        have : x = d := by
          rw [e] at e'
          rcases List.append_eq_append_iff.1 e' with ⟨l, h1, h2⟩ | ⟨l, h1, h2⟩
          · cases l with
            | nil => simp at h2; exact h2.1
            | cons y l =>
              simp only [List.cons_append, List.cons.injEq] at h2
              obtain ⟨_, rfl⟩ := h2
              exfalso
              rcases h3' with rfl | rfl
              · exact h4 (by simp)
              · exact h5 (by simp)
          · cases l with
            | nil => simp at h2; exact h2.1.symm
            | cons y l =>
              simp only [List.cons_append, List.cons.injEq] at h2
              obtain ⟨_, rfl⟩ := h2
              exfalso
              rcases h3 with rfl | rfl
              · exact h4' (by simp)
              · exact h5' (by simp)
        rw [this]
      · exfalso
        rcases h3 with rfl | rfl
        · exact n1 (by rw [e]; simp)
        · exact n2 (by rw [e]; simp)
  · rw [hx]
    constructor
    · intro h
      refine .inr ⟨h4, h5, ?_⟩
      split at h
      next hc =>
        rcases h with h | ⟨h, _⟩
        · cases h; exact ⟨rfl, .inr hc⟩
        · cases h
      next hc =>
        rcases h with h | ⟨_, h1, h2⟩
        · cases h
        · exact ⟨h2, .inl h1⟩
    · rintro (⟨a, b, e, h3, _, _⟩ | ⟨_, _, rfl, hp⟩)
      · exfalso
        rcases h3 with rfl | rfl
        · exact h4 (by rw [e]; simp)
        · exact h5 (by rw [e]; simp)
      · split
        · exact .inl rfl
        next hc =>
          rcases hp with hp | hp
          · exact .inr ⟨rfl, hp, rfl⟩
          · exact absurd hp hc

end Verif.Props
