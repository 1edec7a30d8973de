import Verif.Props.Windows

/-!
C120, C121: what the commands of capirca/lib/windows_ipsec.py set up.
-/

namespace Verif.Props
open Verif Verif.Spec Verif.Windows Policy Aclgenerator Nacaddr
open Verif.Cisco (RTerm)

/-- The terms whose filters match what they say, as far as the tool does not refuse others. For what happens without the
conditions beyond its own checks, see the refutations. -/
structure SecFits (t : Term) : Prop where
  keywords : initCheck secTables [(["windows_ipsec"], [kterm t])] = .ok ()
  sane : sanityCheck t = .ok ()
  option : t.option = []
  untagged : Untagged t
  family : FamilyOk .v4 t
  src : ∀ n ∈ t.sourceAddress, WF n
  dst : ∀ n ∈ t.destinationAddress, WF n
  protos : ∀ s ∈ t.protocol, s ∈ ["tcp", "udp", "icmp", "ipip"]
  ports : t.sourcePort ++ t.destinationPort ≠ [] → t.protocol ≠ []
  single : t.sourcePort.length ≤ 1 ∧ t.destinationPort.length ≤ 1
  nonzero : ∀ q ∈ t.sourcePort ++ t.destinationPort, q.1 ≠ 0

theorem sec_tables_ok : ∀ e ∈ secTables.subTokens, e.1 ∈ secTables.tokens := by decide

theorem sec_rare : ∀ s ∈ rareWords, s ∉ secTables.tokens := by decide

theorem sec_verbatim {t : Term} (f : SecFits t) (ha : Active "windows_ipsec" (kterm t)) : t.verbatim = [] :=
  Cisco.listVal_falsy (unset (g := secTables) sec_tables_ok rfl ha f.keywords "verbatim" (by simp [attrsOf]) (by decide))

theorem sec_matches {t : Term} (f : SecFits t) (ha : Active "windows_ipsec" (kterm t)) {p : Packet}
    (hv : p.ver = .v4) (hs : t.sourceAddressExclude = []) (hd : t.destinationAddressExclude = []) : Matches t p ↔
      ((t.sourceAddress = [] ∨ Den t.sourceAddress p.ver p.src) ∧
        (t.destinationAddress = [] ∨ Den t.destinationAddress p.ver p.dst)) ∧
      OneOf t.protocol p.proto ∧ (PortMatch t.sourcePort p.sport ∧ PortMatch t.destinationPort p.dport) := by
  have un := fun (s : String) {v : Val} => unset (g := secTables) sec_tables_ok rfl ha f.keywords s (v := v)
  have b := basic_of (g := secTables) sec_tables_ok rfl sec_rare ha f.keywords
  have h5 : t.protocolExcept = [] := Cisco.wordsVal_falsy (un "protocol_except" (by simp [attrsOf]) (by decide))
  have h8 : t.icmpType = [] := Cisco.wordsVal_falsy (un "icmp_type" (by simp [attrsOf]) (by decide))
  have h9 : t.icmpCode = [] := Cisco.listVal_falsy (un "icmp_code" (by simp [attrsOf]) (by decide))
  rw [matches_basic b f.untagged (by rw [hv]; exact f.family)]
  unfold MatchProto AddrMatch
  rw [h5, h8, h9, f.option, hs, hd]
  constructor
  · rintro ⟨⟨a, a'⟩, ⟨c, _⟩, d, _⟩
    exact ⟨⟨a.1, a'.1⟩, c, d⟩
  · rintro ⟨⟨a, a'⟩, c, d⟩
    exact ⟨⟨⟨a, by simp [Den]⟩, a', by simp [Den]⟩, ⟨c, by simp⟩, d, ⟨.inl rfl, .inl rfl⟩, by simp⟩

theorem sec_ip {l : List Net} (hw : ∀ n ∈ l, WF n) {x : Nat} (hx : x < 2 ^ Ver.v4.bits) :
    (∃ o ∈ (addresses l).filter isV4, Flat.IfSet (maskAtom o) fun n => Flat.Covers (.v4, n.1, n.2) .v4 x) ↔
      l = [] ∨ Den l .v4 x := by
  unfold addresses
  by_cases h : l = []
  · subst h
    exact iff_of_true ⟨none, by decide, Flat.ifSet_none⟩ (.inl rfl)
  · rw [if_neg (by simpa using h), or_iff_right h]
    have each : ∀ n ∈ l, n.ver = .v4 →
        ((Flat.IfSet (maskAtom (some n)) fun m => Flat.Covers (.v4, m.1, m.2) .v4 x) ↔ Mem n .v4 x) := by
      intro n hn hv
      unfold maskAtom
      dsimp only
      split
      next h0 =>
        refine iff_of_true Flat.ifSet_none ?_
        rw [← Flat.covers_iff (hw n hn)]
        have ha : n.addr < 2 ^ Ver.v4.bits := by
          have := (hw n hn).range
          rw [hv] at this
          have := Nat.two_pow_pos (Ver.v4.bits - n.plen)
          omega
        refine ⟨hv.symm, ?_⟩
        dsimp only
        rw [h0, hv, Nat.sub_zero, Nat.div_eq_of_lt hx, Nat.div_eq_of_lt ha]
      · rw [Flat.ifSet_some, ← Flat.covers_iff (hw n hn), hv]
    constructor
    · rintro ⟨o, ho, h⟩
      obtain ⟨ho, hv⟩ := List.mem_filter.1 ho
      obtain ⟨n, hn, rfl⟩ := List.mem_map.1 ho
      exact ⟨n, hn, (each n hn (by simpa [isV4] using hv)).1 h⟩
    · rintro ⟨n, hn, h⟩
      have hv : n.ver = .v4 := (((Flat.covers_iff (hw n hn) _ _).2 h).1).symm
      exact ⟨some n, List.mem_filter.2 ⟨List.mem_map_of_mem hn, by simpa [isV4] using hv⟩, (each n hn hv).2 h⟩

theorem sec_port {l : List PortRange} (h1 : l.length ≤ 1) (h0 : ∀ q ∈ l, q.1 ≠ 0) {x : Nat} :
    ((∃ o ∈ collapsePorts l, Flat.IfSet (portAtom o) fun y => x = y) ↔ PortMatch l x) ∧
    (∀ o ∈ collapsePorts l, portAtom o ≠ none → l ≠ []) := by
  match l, h1, h0 with
  | [], _, _ =>
    refine ⟨iff_of_true ⟨none, by decide, Flat.ifSet_none⟩ (.inl rfl), ?_⟩
    intro o ho
    have : o = none := by simpa [collapsePorts] using ho
    subst this
    exact fun h => absurd rfl h
  | [(a, b)], _, h0 =>
    refine ⟨?_, fun _ _ _ => by simp⟩
    have ha : a ≠ 0 := h0 (a, b) (by simp)
    have atom : ∀ y, a ≤ y → portAtom (some y) = some y := by
      intro y hy
      cases y with
      | zero => omega
      | succ y => rfl
    have mem : ∀ o, o ∈ collapsePorts [(a, b)] ↔ ∃ y, o = some y ∧ a ≤ y ∧ y ≤ b := by
      intro o
      unfold collapsePorts
      simp only [List.foldl_cons, List.foldl_nil, List.mem_map, List.mem_range'_1]
      constructor
      · rintro ⟨y, ⟨h1, h2⟩, rfl⟩
        exact ⟨y, rfl, h1, by omega⟩
      · rintro ⟨y, rfl, h1, h2⟩
        exact ⟨y, ⟨h1, by omega⟩, rfl⟩
    constructor
    · rintro ⟨o, ho, h⟩
      obtain ⟨y, rfl, h1, h2⟩ := (mem o).1 ho
      rw [atom y h1, Flat.ifSet_some] at h
      subst h
      exact .inr ⟨(a, b), by simp, h1, h2⟩
    · rintro (h | ⟨q, hq, h1, h2⟩)
      · cases h
      · have := List.mem_singleton.1 hq
        subst this
        refine ⟨some x, (mem _).2 ⟨x, rfl, h1, h2⟩, ?_⟩
        rw [atom x h1, Flat.ifSet_some]
  | _ :: _ :: _, h1, _ => simp at h1

theorem sec_word {s : String} (hs : s ∈ ["tcp", "udp", "icmp", "ipip"]) {p : Packet}
    (hp : p.proto ∈ iana.map Prod.fst) : Spec.Windows.SecProto p (rawTok (protoNumber (.str s))) ↔ p.proto = s := by
  have word : ∀ {w : String} {n : Nat}, (w, n) ∈ iana → (∀ e ∈ Spec.Windows.secNames, e.1 = w ↔ e.2 = n) → w ≠ "any" →
      (w, n) ∈ Spec.Windows.secNames → (Spec.Windows.SecProto p (.word w) ↔ p.proto = w) := by
    intro w n h1 h2 h3 h4
    unfold Spec.Windows.SecProto
    dsimp only
    rw [or_iff_right h3]
    constructor
    · rintro ⟨k, hk, h⟩
      have e := (h2 _ hk).1 rfl
      dsimp only at e
      subst e
      exact Cisco.iana_inj _ h _ h1 rfl
    · intro e
      rw [e]
      exact ⟨n, h4, h1⟩
  simp only [List.mem_cons, List.not_mem_nil, or_false] at hs
  rcases hs with rfl | rfl | rfl | rfl
  · exact word (w := "tcp") (n := 6) (by decide) (by decide) (by decide) (by decide)
  · exact word (w := "udp") (n := 17) (by decide) (by decide) (by decide) (by decide)
  · exact word (w := "icmp") (n := 1) (by decide) (by decide) (by decide) (by decide)
  · exact Flat.numberIs_iff (s := "ipip") (n := 4) (by decide) hp

theorem sec_proto {t : Term} (fit : SecFits t) {p : Packet} (hc : Coherent p) :
    (∃ k ∈ protocols ⟨t, t.protocol.map fun s => protoNumber (.str s)⟩, Spec.Windows.SecProto p (rawTok k)) ↔
      OneOf t.protocol p.proto := by
  unfold protocols OneOf
  by_cases hp : t.protocol = []
  · rw [if_pos (by simp [hp])]
    exact iff_of_true ⟨.str "any", by simp, .inl rfl⟩ (.inl hp)
  · rw [if_neg (by simpa using hp), or_iff_right hp]
    constructor
    · rintro ⟨k, hk, h⟩
      obtain ⟨s, hs, rfl⟩ := List.mem_map.1 hk
      rw [(sec_word (fit.protos s hs) hc.proto).1 h]
      exact hs
    · intro hs
      exact ⟨_, List.mem_map.2 ⟨_, hs, rfl⟩, (sec_word (fit.protos _ hs) hc.proto).2 rfl⟩

theorem sec_tcp {t : Term} (fit : SecFits t) (ha : Active "windows_ipsec" (kterm t))
    (hne : t.sourcePort ++ t.destinationPort ≠ []) :
    ∀ k ∈ protocols ⟨t, t.protocol.map fun s => protoNumber (.str s)⟩, rawTok k = .word "tcp" ∨ rawTok k = .word "udp" := by
  have hp : t.sourcePort ≠ [] ∨ t.destinationPort ≠ [] := by
    by_cases h : t.sourcePort = []
    · right
      rintro e
      rw [h, e] at hne
      exact hne rfl
    · exact .inl h
  unfold protocols
  rw [if_neg (by simpa using fit.ports hne)]
  intro k hk
  obtain ⟨s, hs, rfl⟩ := List.mem_map.1 hk
  have h1 := sane_ports fit.sane (sec_verbatim fit ha) hp hs
  have key : ∀ s ∈ ["tcp", "udp", "icmp", "ipip"], s ∈ protosWithPorts →
      rawTok (protoNumber (.str s)) = .word "tcp" ∨ rawTok (protoNumber (.str s)) = .word "udp" := by decide
  exact key s (fit.protos s hs) h1

theorem sec_conds {t : Term} (fit : SecFits t) (ha : Active "windows_ipsec" (kterm t)) {p : Packet} (hc : Coherent p)
    (hv : p.ver = .v4) (hs : t.sourceAddressExclude = []) (hd : t.destinationAddressExclude = []) :
    (∃ c ∈ conds ⟨t, t.protocol.map fun s => protoNumber (.str s)⟩, Spec.Windows.CondHits c p) ↔ Matches t p := by
  rw [sec_matches fit ha hv hs hd]
  have x1 := hc.src
  have x2 := hc.dst
  rw [hv] at x1 x2
  have z1 : ∀ q ∈ t.sourcePort, q.1 ≠ 0 := fun q hq => fit.nonzero q (List.mem_append_left _ hq)
  have z2 : ∀ q ∈ t.destinationPort, q.1 ≠ 0 := fun q hq => fit.nonzero q (List.mem_append_right _ hq)
  rw [hv, ← sec_ip fit.src x1, ← sec_ip fit.dst x2, ← sec_proto fit hc, ← (sec_port fit.single.1 z1).1,
    ← (sec_port fit.single.2 z2).1]
  unfold conds
  constructor
  · rintro ⟨c, hcm, hh⟩
    obtain ⟨s, hs, hcm⟩ := List.mem_flatMap.1 hcm
    obtain ⟨d, hd, hcm⟩ := List.mem_flatMap.1 hcm
    obtain ⟨k, hk, hcm⟩ := List.mem_flatMap.1 hcm
    obtain ⟨sp, hsp, hcm⟩ := List.mem_flatMap.1 hcm
    obtain ⟨dp, hdp, rfl⟩ := List.mem_map.1 hcm
    have q1 := hh.src
    have q2 := hh.dst
    rw [hv] at q1 q2
    exact ⟨⟨⟨s, hs, q1⟩, d, hd, q2⟩, ⟨k, hk, hh.proto⟩, ⟨sp, hsp, hh.sport⟩, dp, hdp, hh.dport⟩
  · rintro ⟨⟨⟨s, hs, q1⟩, d, hd, q2⟩, ⟨k, hk, q3⟩, ⟨sp, hsp, q4⟩, dp, hdp, q5⟩
    refine ⟨⟨maskAtom s, maskAtom d, portAtom sp, portAtom dp, rawTok k⟩, ?_, hv, by rw [hv]; exact q1, by rw [hv]; exact q2,
      q4, q5, ?_, q3⟩
    · exact List.mem_flatMap.2 ⟨s, hs, List.mem_flatMap.2 ⟨d, hd, List.mem_flatMap.2 ⟨k, hk, List.mem_flatMap.2 ⟨sp, hsp,
        List.mem_map_of_mem hdp⟩⟩⟩⟩
    · intro h
      refine sec_tcp fit ha ?_ k hk
      rcases h with h | h
      · simp [(sec_port (x := 0) fit.single.1 z1).2 sp hsp h]
      · simp [(sec_port (x := 0) fit.single.2 z2).2 dp hdp h]

/-! ### the commands -/

/-- What a term prints. -/
theorem secTerm_ok {name fam : String} {w : WTerm} {ls : List Cmd} (h : secTerm name fam w = .ok ls) :
    (ls = [] ∧ actionOf "windows_ipsec" fam w = .ok none) ∨ ∃ a act, actionOf "windows_ipsec" fam w = .ok (some a) ∧ secActions.lookup a = some act ∧
      ls = [Cmd.filterList (listName name w.term), .filterAction (actionName name w.term) act] ++
        (conds w).map (.filter (listName name w.term)) ++
        [Cmd.filterList (listName name w.term), .filterAction (actionName name w.term) act] ++
        [.rule (termName name w.term ++ "-rule".toList) name.toList (listName name w.term) (actionName name w.term)] := by
  unfold secTerm at h
  obtain ⟨o, h1, h⟩ := bind_ok h
  split at h
  · cases h
    exact .inl ⟨rfl, h1⟩
  next a =>
    split at h
    · cases h
    · split at h
      · cases h
      · split at h
        · cases h
        next act hl =>
          cases h
          exact .inr ⟨a, act, h1, hl, rfl⟩

/-- What a filter prints: its policy and its terms. -/
theorem secFilter_ok {p : Prepared} {l : List Cmd} (h : secFilter p = .ok l) :
    ∃ name ms, p.name = some name ∧ listM (secTerm name p.family) p.terms = .ok ms ∧
      l = .policy (name.toList ++ "-policy".toList) :: ms.flatMap id := by
  unfold secFilter at h
  split at h
  · cases h
  next name hn =>
    split at h
    · cases h
    · obtain ⟨ms, h1, h⟩ := bind_ok h
      cases h
      exact ⟨name, ms, hn, h1, rfl⟩

theorem sec_family {opts : List String} {fam : String} (h : familyOf ["inet"] opts = .ok fam) : fam = "inet" := by
  unfold familyOf at h
  by_cases h1 : "inet" ∈ opts <;> simp [h1] at h <;> exact h.symm

/-- A command is that of a policy or one of a term. -/
theorem sec_cmds {fs : List Windows.Filter} {out : List Cmd} (h : secTranslate fs = .ok out) (c : Cmd) :
    c ∈ out ↔ ∃ f ∈ fs, f.here = true ∧ ∃ name, f.options.head? = some name ∧
      (c = .policy (name.toList ++ "-policy".toList) ∨
      ∃ x ∈ f.terms, x.expired = false ∧ ¬ forReplies x.term ∧
      ∃ ls, secTerm name "inet" ⟨x.term, x.term.protocol.map fun s => protoNumber (.str s)⟩ = .ok ls ∧ c ∈ ls) := by
  unfold secTranslate at h
  obtain ⟨ps, h1, h⟩ := bind_ok h
  obtain ⟨ls, h2, h⟩ := bind_ok h
  cases h
  obtain ⟨m1, m2⟩ := win_prepare_mem h1
  have one : ∀ {d : Option String} {f : Windows.Filter} {q : Prepared} {l : List Cmd}, prepareFilter ["inet"] d f = .ok q →
      secFilter q = .ok l → (c ∈ l ↔ ∃ name, f.options.head? = some name ∧
      (c = .policy (name.toList ++ "-policy".toList) ∨
      ∃ x ∈ f.terms, x.expired = false ∧ ¬ forReplies x.term ∧
      ∃ ls, secTerm name "inet" ⟨x.term, x.term.protocol.map fun s => protoNumber (.str s)⟩ = .ok ls ∧ c ∈ ls)) := by
    intro d f q l hq hl
    obtain ⟨k1, k2, k3, _⟩ := prepareFilter_ok hq
    obtain ⟨name, ms, h3, h4, rfl⟩ := secFilter_ok hl
    rw [sec_family k2] at h4
    have k4 := prepareTerms_mem k3
    have k5 := fun x => listM_mem h4 (b := x)
    rw [List.mem_cons, List.mem_flatMap]
    constructor
    · rintro (e | ⟨m, hm, hr⟩)
      · exact ⟨name, by rw [← k1, h3], .inl e⟩
      · obtain ⟨w, hw, h6⟩ := (k5 m).1 hm
        obtain ⟨x, hx, h7, h8, h9⟩ := (k4 w).1 hw
        obtain ⟨n, _, e⟩ := initTerm_ok h9
        subst e
        exact ⟨name, by rw [← k1, h3], .inr ⟨x, hx, h7, h8, m, h6, hr⟩⟩
    · rintro ⟨n, hn, e | ⟨x, hx, h7, h8, m, h6, hr⟩⟩
      · rw [← k1, h3] at hn
        cases hn
        exact .inl e
      · rw [← k1, h3] at hn
        cases hn
        obtain ⟨w', hw'⟩ := prepareTerms_each k3 x hx h7 h8
        have hm := (k4 w').2 ⟨x, hx, h7, h8, hw'⟩
        obtain ⟨_, _, e⟩ := initTerm_ok hw'
        subst e
        exact .inr ⟨m, (k5 m).2 ⟨_, hm, h6⟩, hr⟩
  rw [List.mem_flatMap]
  constructor
  · rintro ⟨l, hl, hr⟩
    obtain ⟨q, hq, hl⟩ := (listM_mem h2 l).1 hl
    obtain ⟨f, hf, hh, d, hq⟩ := m1 q hq
    exact ⟨f, hf, hh, (one hq hl).1 hr⟩
  · rintro ⟨f, hf, hh, hr⟩
    obtain ⟨d, q, hq, hq'⟩ := m2 f hf hh
    obtain ⟨l, hl⟩ := Cisco.listM_each h2 q hq
    exact ⟨l, (listM_mem h2 l).2 ⟨q, hq, hl⟩, (one hq' hl).2 hr⟩

/-- A term that counts and prints something is live. -/
theorem sec_live {r : RTerm} {a fam : String} {ps : List Proto} (he : r.expired = false) (hf : ¬ forReplies r.term)
    (h : actionOf "windows_ipsec" fam ⟨r.term, ps⟩ = .ok (some a)) : Spec.Windows.Live r := by
  have hon : Cisco.onPlatform "windows_ipsec" r.term = true := by
    cases hx : Cisco.onPlatform "windows_ipsec" r.term with
    | true => rfl
    | false =>
      unfold actionOf at h
      rw [if_pos (by simp [hx])] at h
      cases h
  have ha : Active "windows_ipsec" (kterm r.term) := (Cisco.onPlatform_iff (c := ⟨"windows_ipsec", false⟩)).1 hon
  unfold forReplies at hf
  exact ⟨⟨he, ha⟩, fun h => hf (.inl h), fun h => hf (.inr h)⟩

theorem live_parts {r : RTerm} (h : Spec.Windows.Live r) :
    r.expired = false ∧ ¬ forReplies r.term ∧ Active "windows_ipsec" (kterm r.term) ∧
      Cisco.onPlatform "windows_ipsec" r.term = true :=
  ⟨h.1.1, fun g => g.elim h.2.1 h.2.2, h.1.2, (Cisco.onPlatform_iff (c := ⟨"windows_ipsec", false⟩)).2 h.1.2⟩

/-- The generator gets through all terms that count. -/
theorem sec_each {fs : List Windows.Filter} {out : List Cmd} (h : secTranslate fs = .ok out) {f : Windows.Filter} (hf : f ∈ fs)
    (hh : f.here = true) {name : String} (hn : f.options.head? = some name) {r : RTerm} (hr : r ∈ f.terms)
    (hl : Spec.Windows.Live r) :
    ∃ ls, secTerm name "inet" ⟨r.term, r.term.protocol.map fun s => protoNumber (.str s)⟩ = .ok ls := by
  unfold secTranslate at h
  obtain ⟨ps, h1, h⟩ := bind_ok h
  obtain ⟨ls, h2, h⟩ := bind_ok h
  obtain ⟨d, q, hq, hq'⟩ := (win_prepare_mem h1).2 f hf hh
  obtain ⟨l, hl'⟩ := Cisco.listM_each h2 q hq
  obtain ⟨k1, k2, k3, _⟩ := prepareFilter_ok hq'
  obtain ⟨name', ms, h3, h4, rfl⟩ := secFilter_ok hl'
  rw [sec_family k2] at h4
  rw [k1, hn] at h3
  cases h3
  obtain ⟨l1, l2, _, _⟩ := live_parts hl
  obtain ⟨w, hw⟩ := prepareTerms_each k3 r hr l1 l2
  obtain ⟨m, hm⟩ := Cisco.listM_each h4 w ((prepareTerms_mem k3 w).2 ⟨r, hr, l1, l2, hw⟩)
  obtain ⟨_, _, e⟩ := initTerm_ok hw
  subst e
  exact ⟨m, hm⟩

theorem names_eq (name : String) (t : Term) : listName name t = Spec.Windows.nameOf name t "-list" ∧
    actionName name t = Spec.Windows.nameOf name t "-action" ∧
    termName name t ++ "-rule".toList = Spec.Windows.nameOf name t "-rule" := by
  unfold listName actionName termName Spec.Windows.nameOf
  simp

/-- The terms the generator has a rule for. -/
structure SecKnown (t : Term) : Prop where
  keywords : initCheck secTables [(["windows_ipsec"], [kterm t])] = .ok ()
  protos : "icmpv6" ∉ t.protocol

theorem sec_act {t : Term} (k : SecKnown t) (ha : Active "windows_ipsec" (kterm t))
    (hon : Cisco.onPlatform "windows_ipsec" t = true) {o : Option String}
    (h : actionOf "windows_ipsec" "inet" ⟨t, t.protocol.map fun s => protoNumber (.str s)⟩ = .ok o) :
    ∃ a, o = some a ∧ t.action = [a] ∧ t.sourceAddressExclude = [] ∧ t.destinationAddressExclude = [] := by
  rcases adv_action h hon with ⟨rfl, ⟨e, _⟩ | ⟨_, hx⟩ | ⟨as, e⟩⟩ | h
  · exact absurd e (by decide)
  · exfalso
    obtain ⟨u, hu, e⟩ := List.mem_map.1 hx
    rw [protoNumber_str] at e
    split at e
    · cases e
    · cases e
      exact k.protos hu
  · exfalso
    have : "next" ∈ ["accept", "deny"] :=
      word_known (g := secTables) sec_tables_ok ha k.keywords (el := "action") (l := t.action)
        (ok := ["accept", "deny"]) (by simp [attrsOf]) rfl (by decide) (by
          have e : t.action = "next" :: as := e
          rw [e]; simp)
    exact absurd this (by decide)
  · exact h

/-- C120, for terms that fit and whose list has the filters of no other term: the list of filters of a term matches the packets
the term matches and their mirror images. Not proved, and refuted below: the same for other terms. -/
theorem C120_partial {fs : List Windows.Filter} {out : List Cmd} (h : secTranslate fs = .ok out) {f : Windows.Filter}
    (hf : f ∈ fs) (hh : f.here = true) {name : String} (hn : f.options.head? = some name) {r : RTerm} (hr : r ∈ f.terms)
    (hl : Spec.Windows.Live r) (fit : SecFits r.term)
    (huniq : ∀ f' ∈ fs, f'.here = true → ∀ name', f'.options.head? = some name' → ∀ r' ∈ f'.terms, Spec.Windows.Live r' →
      Spec.Windows.nameOf name' r'.term "-list" = Spec.Windows.nameOf name r.term "-list" → r'.term = r.term)
    {p : Packet} (hc : Coherent p) (hv : p.ver = .v4) :
    Spec.Windows.ListHits out (Spec.Windows.nameOf name r.term "-list") p ↔
      Matches r.term p ∨ Matches r.term (Spec.Windows.mirror p) := by
  obtain ⟨_, _, l3, l4⟩ := live_parts hl
  have hc' : Coherent (Spec.Windows.mirror p) := ⟨hc.dst, hc.src, hc.proto, hc.icmp4, hc.icmp6, hc.est, hc.udp, hc.nontcp, hc.frag⟩
  have known : SecKnown r.term := ⟨fit.keywords, fun h => absurd (fit.protos _ h) (by decide)⟩
  obtain ⟨ls, hls⟩ := sec_each h hf hh hn hr hl
  have hact : ∃ a act, actionOf "windows_ipsec" "inet" ⟨r.term, r.term.protocol.map fun s => protoNumber (.str s)⟩ = .ok (some a) ∧
      r.term.action = [a] ∧ r.term.sourceAddressExclude = [] ∧ r.term.destinationAddressExclude = [] ∧
      ls = [Cmd.filterList (listName name r.term), .filterAction (actionName name r.term) act] ++
        (conds ⟨r.term, r.term.protocol.map fun s => protoNumber (.str s)⟩).map (.filter (listName name r.term)) ++
        [Cmd.filterList (listName name r.term), .filterAction (actionName name r.term) act] ++
        [.rule (termName name r.term ++ "-rule".toList) name.toList (listName name r.term) (actionName name r.term)] := by
    rcases secTerm_ok hls with ⟨_, e⟩ | ⟨a, act, h1, _, e⟩
    · obtain ⟨a, e, _⟩ := sec_act known l3 l4 e
      cases e
    · obtain ⟨a', e', h2, h3, h4⟩ := sec_act known l3 l4 h1
      cases e'
      exact ⟨a, act, h1, h2, h3, h4, e⟩
  obtain ⟨a, act, h1, _, h3, h4, hcmds⟩ := hact
  have key : ∀ c, Cmd.filter (Spec.Windows.nameOf name r.term "-list") c ∈ out ↔
      c ∈ conds ⟨r.term, r.term.protocol.map fun s => protoNumber (.str s)⟩ := by
    intro c
    rw [sec_cmds h]
    constructor
    · rintro ⟨f', hf', hh', name', hn', e | ⟨x, hx, he, hre, ms, hms, hm⟩⟩
      · cases e
      · rcases secTerm_ok hms with ⟨rfl, _⟩ | ⟨a', act', h1', _, rfl⟩
        · cases hm
        · simp only [List.mem_append, List.mem_cons, List.not_mem_nil, or_false, List.mem_map, reduceCtorEq, false_or,
            Cmd.filter.injEq] at hm
          obtain ⟨c', hc', e1, rfl⟩ := hm
          have := huniq f' hf' hh' name' hn' x hx (sec_live he hre h1') (by rw [← (names_eq name' x.term).1]; exact e1)
          rw [this] at hc'
          exact hc'
    · intro hm
      obtain ⟨l1, l2, _, _⟩ := live_parts hl
      refine ⟨f, hf, hh, name, hn, .inr ⟨r, hr, l1, l2, ls, hls, ?_⟩⟩
      rw [hcmds, (names_eq name r.term).1]
      simp only [List.mem_append, List.mem_map]
      exact .inl (.inl (.inr ⟨c, hm, rfl⟩))
  unfold Spec.Windows.ListHits
  rw [← sec_conds fit l3 hc hv h3 h4, ← sec_conds fit l3 hc' hv h3 h4]
  constructor
  · rintro ⟨c, hm, h | h⟩
    · exact .inl ⟨c, (key c).1 hm, h⟩
    · exact .inr ⟨c, (key c).1 hm, h⟩
  · rintro (⟨c, hm, h⟩ | ⟨c, hm, h⟩)
    · exact ⟨c, (key c).2 hm, .inl h⟩
    · exact ⟨c, (key c).2 hm, .inr h⟩

/-! ### references -/

theorem ordered_append {α : Type} {G : List α → α → Prop} (mono : ∀ xs pre c, G pre c → G (xs ++ pre) c) {l1 l2 : List α}
    (h1 : ∀ pre c post, l1 = pre ++ c :: post → G pre c) (h2 : ∀ pre c post, l2 = pre ++ c :: post → G pre c) :
    ∀ pre c post, l1 ++ l2 = pre ++ c :: post → G pre c := by
  intro pre c post e
  rcases List.append_eq_append_iff.1 e with ⟨zs, rfl, e2⟩ | ⟨zs, e1, e2⟩
  · exact mono _ _ _ (h2 zs c post e2)
  · cases zs with
    | nil =>
      rw [List.nil_append] at e2
      have := h2 [] c post (by simp [e2])
      rw [List.append_nil] at e1
      have := mono pre _ _ this
      simpa using this
    | cons z zs =>
      simp only [List.cons_append, List.cons.injEq] at e2
      obtain ⟨rfl, _⟩ := e2
      exact h1 pre c zs e1

theorem ordered_flatMap {α : Type} {G : List α → α → Prop} (mono : ∀ xs pre c, G pre c → G (xs ++ pre) c) : ∀ {ls : List (List α)},
    (∀ l ∈ ls, ∀ pre c post, l = pre ++ c :: post → G pre c) → ∀ pre c post, ls.flatMap id = pre ++ c :: post → G pre c
  | [], _, pre, c, post, e => by
    cases pre <;> cases e
  | l :: ls, h, pre, c, post, e => by
    rw [List.flatMap_cons] at e
    exact ordered_append mono (h l (by simp)) (ordered_flatMap mono fun m hm => h m (List.mem_cons_of_mem _ hm)) pre c post e

/-- What comes before a command that refers to others. -/
def Created (fs : List Windows.Filter) (pre : List Cmd) : Cmd → Prop
  | .filter list _ => .filterList list ∈ pre
  | .rule rule policy list action => .filterList list ∈ pre ∧ ∃ f ∈ fs, f.here = true ∧ ∃ name, f.options.head? = some name ∧
      ∃ r ∈ f.terms, Spec.Windows.Live r ∧ policy = name.toList ∧ rule = Spec.Windows.nameOf name r.term "-rule" ∧
      list = Spec.Windows.nameOf name r.term "-list" ∧ action = Spec.Windows.nameOf name r.term "-action" ∧
      ∃ w a, r.term.action = [w] ∧ (w, a) ∈ Spec.Windows.secActionNames ∧ .filterAction action a ∈ pre
  | _ => True

theorem created_mono {fs : List Windows.Filter} (xs pre : List Cmd) (c : Cmd) (h : Created fs pre c) : Created fs (xs ++ pre) c := by
  cases c with
  | filter l c => exact List.mem_append_right _ h
  | rule a b c d =>
    obtain ⟨h1, f, hf, hh, n, hn, r, hr, hl, e1, e2, e3, e4, w, x, h5, h6, h7⟩ := h
    exact ⟨List.mem_append_right _ h1, f, hf, hh, n, hn, r, hr, hl, e1, e2, e3, e4, w, x, h5, h6, List.mem_append_right _ h7⟩
  | _ => trivial

theorem sec_created {fs : List Windows.Filter} {out : List Cmd} (h : secTranslate fs = .ok out) :
    ∀ pre c post, out = pre ++ c :: post → Created fs pre c := by
  unfold secTranslate at h
  obtain ⟨ps, h1, h⟩ := bind_ok h
  obtain ⟨ls, h2, h⟩ := bind_ok h
  cases h
  refine ordered_flatMap created_mono fun l hl => ?_
  obtain ⟨q, hq, hl⟩ := (listM_mem h2 l).1 hl
  obtain ⟨f, hf, hh, d, hq⟩ := (win_prepare_mem h1).1 q hq
  obtain ⟨k1, k2, k3, _⟩ := prepareFilter_ok hq
  obtain ⟨name, ms, h3, h4, rfl⟩ := secFilter_ok hl
  rw [sec_family k2] at h4
  rw [k1] at h3
  refine ordered_append (l1 := [_]) created_mono ?_ (ordered_flatMap created_mono fun m hm => ?_)
  · intro pre c post e
    cases pre with
    | nil =>
      cases e
      trivial
    | cons z zs => cases zs <;> cases e
  · obtain ⟨w, hw, hm⟩ := (listM_mem h4 m).1 hm
    obtain ⟨x, hx, hx1, hx2, hw⟩ := (prepareTerms_mem k3 w).1 hw
    obtain ⟨_, _, e⟩ := initTerm_ok hw
    subst e
    rcases secTerm_ok hm with ⟨rfl, _⟩ | ⟨a, act, h5, h6, rfl⟩
    · intro pre c post e
      cases pre <;> cases e
    · have hlive := sec_live hx1 hx2 h5
      dsimp only
      rw [(names_eq name x.term).1, (names_eq name x.term).2.1, (names_eq name x.term).2.2]
      rcases adv_action h5 (live_parts hlive).2.2.2 with ⟨e, _⟩ | ⟨a', e, hact, _, _⟩
      · cases e
      · cases e
        have hact : x.term.action = [a] := hact
        have hnm : (a, act) ∈ Spec.Windows.secActionNames := Cisco.mem_of_lookup' h6
        intro pre c post e
        cases c with
        | filter l c =>
          have hmem : Cmd.filter l c ∈ pre ++ Cmd.filter l c :: post := by simp
          rw [← e] at hmem
          simp only [List.mem_append, List.mem_cons, List.not_mem_nil, or_false, List.mem_map, reduceCtorEq, false_or,
            Cmd.filter.injEq] at hmem
          obtain ⟨_, _, rfl, _⟩ := hmem
          cases pre with
          | nil => cases e
          | cons z zs =>
            simp only [List.cons_append, List.nil_append, List.cons.injEq] at e
            exact e.1 ▸ List.mem_cons_self ..
        | rule n1 n2 n3 n4 =>
          have hmem : Cmd.rule n1 n2 n3 n4 ∈ pre ++ Cmd.rule n1 n2 n3 n4 :: post := by simp
          rw [← e] at hmem
          simp only [List.mem_append, List.mem_cons, List.not_mem_nil, or_false, List.mem_map, reduceCtorEq, false_or,
            Cmd.rule.injEq, and_false, exists_false] at hmem
          obtain ⟨rfl, rfl, rfl, rfl⟩ := hmem
          match pre, e with
          | [], e => cases e
          | [z], e => cases e
          | z :: y :: zs, e =>
            simp only [List.cons_append, List.nil_append, List.cons.injEq] at e
            obtain ⟨rfl, rfl, _⟩ := e
            exact ⟨by simp, f, hf, hh, name, h3, x, hx, hlive, rfl, rfl, rfl, rfl, a, act, hact, hnm, by simp⟩
        | _ => trivial

/-- C121, without the policy: a rule is that of a term, comes after the commands that create the list and the action it refers
to, and the action is that of the term; a filter comes after the command that creates its list; and a term the generator knows
has its rule. Not proved, and refuted below: that the policy is created, and that lists and actions are created once. -/
theorem C121_partial {fs : List Windows.Filter} {out : List Cmd} (h : secTranslate fs = .ok out) :
    (∀ pre list c post, out = pre ++ .filter list c :: post → Cmd.filterList list ∈ pre) ∧
    (∀ pre rule policy list action post, out = pre ++ .rule rule policy list action :: post →
      Cmd.filterList list ∈ pre ∧ ∃ f ∈ fs, f.here = true ∧ ∃ name, f.options.head? = some name ∧
      ∃ r ∈ f.terms, Spec.Windows.Live r ∧ policy = name.toList ∧ rule = Spec.Windows.nameOf name r.term "-rule" ∧
      list = Spec.Windows.nameOf name r.term "-list" ∧ action = Spec.Windows.nameOf name r.term "-action" ∧
      ∃ w a, r.term.action = [w] ∧ (w, a) ∈ Spec.Windows.secActionNames ∧ Cmd.filterAction action a ∈ pre) ∧
    (∀ f ∈ fs, f.here = true → ∀ name, f.options.head? = some name → ∀ r ∈ f.terms, Spec.Windows.Live r → SecKnown r.term →
      Cmd.rule (Spec.Windows.nameOf name r.term "-rule") name.toList (Spec.Windows.nameOf name r.term "-list")
        (Spec.Windows.nameOf name r.term "-action") ∈ out) := by
  refine ⟨fun pre l c post e => sec_created h pre _ post e, fun pre a b c d post e => sec_created h pre _ post e, ?_⟩
  intro f hf hh name hn r hr hl known
  obtain ⟨l1, l2, l3, l4⟩ := live_parts hl
  obtain ⟨ls, hls⟩ := sec_each h hf hh hn hr hl
  refine (sec_cmds h _).2 ⟨f, hf, hh, name, hn, .inr ⟨r, hr, l1, l2, ls, hls, ?_⟩⟩
  rcases secTerm_ok hls with ⟨_, e⟩ | ⟨a, act, h1, _, e⟩
  · obtain ⟨a, e, _⟩ := sec_act known l3 l4 e
    cases e
  · rw [e, (names_eq name r.term).1, (names_eq name r.term).2.1, (names_eq name r.term).2.2]
    simp

/-- The policy a rule refers to is not created, unless the name of a filter ends in `-policy`. -/
theorem C121_refuted_policy {fs : List Windows.Filter} {out : List Cmd} (h : secTranslate fs = .ok out)
    (hn : ∀ f ∈ fs, ∀ name, f.options.head? = some name → ¬ "-policy".toList <:+ name.toList)
    {rule policy list action : Str} (hr : Cmd.rule rule policy list action ∈ out) : Cmd.policy policy ∉ out := by
  intro hp
  obtain ⟨pre, post, e⟩ := List.append_of_mem hr
  obtain ⟨_, f, hf, _, name, hname, _, _, _, rfl, _⟩ := sec_created h pre _ post e
  obtain ⟨g, hg, _, n, hn', e | ⟨x, hx, _, _, ls, hls, hm⟩⟩ := (sec_cmds h _).1 hp
  · injection e with e
    exact hn f hf name hname ⟨n.toList, e.symm⟩
  · rcases secTerm_ok hls with ⟨rfl, _⟩ | ⟨a, act, _, _, rfl⟩
    · cases hm
    · simp at hm

/-- The list and the action of a rule are created twice. -/
theorem C121_refuted_twice {fs : List Windows.Filter} {out : List Cmd} (h : secTranslate fs = .ok out)
    {rule policy list action : Str} (hr : Cmd.rule rule policy list action ∈ out) :
    ∃ a xs ys zs, out = xs ++ .filterList list :: .filterAction action a :: ys ++ .filterList list :: .filterAction action a :: zs := by
  unfold secTranslate at h
  obtain ⟨ps, h1, h⟩ := bind_ok h
  obtain ⟨ls, h2, h⟩ := bind_ok h
  cases h
  obtain ⟨l, hl, hm⟩ := List.mem_flatMap.1 hr
  obtain ⟨q, hq, hl'⟩ := (listM_mem h2 l).1 hl
  obtain ⟨name, ms, h3, h4, rfl⟩ := secFilter_ok hl'
  rcases List.mem_cons.1 hm with e | hm
  · cases e
  · obtain ⟨m, hm1, hm⟩ := List.mem_flatMap.1 hm
    obtain ⟨w, hw, h5⟩ := (listM_mem h4 m).1 hm1
    rcases secTerm_ok h5 with ⟨rfl, _⟩ | ⟨a, act, _, _, rfl⟩
    · cases hm
    · have hmem : Cmd.rule rule policy list action ∈ [Cmd.rule (termName name w.term ++ "-rule".toList) name.toList
          (listName name w.term) (actionName name w.term)] := by simpa using hm
      have e := List.mem_singleton.1 hmem
      injection e with _ _ e1 e2
      subst e1 e2
      obtain ⟨u1, v1, e1⟩ := List.append_of_mem hm1
      obtain ⟨u2, v2, e2⟩ := List.append_of_mem hl
      rw [e2, List.flatMap_append, List.flatMap_cons, e1]
      rw [List.flatMap_append, List.flatMap_cons]
      refine ⟨act, u2.flatMap id ++ [.policy (name.toList ++ "-policy".toList)] ++ u1.flatMap id,
        (conds w).map (.filter (listName name w.term)),
        [.rule (termName name w.term ++ "-rule".toList) name.toList (listName name w.term) (actionName name w.term)] ++
          v1.flatMap id ++ v2.flatMap id, ?_⟩
      simp

end Verif.Props
