import Verif.Props.PanOut
import Verif.Props.NsxRefuted

/-!
Concrete cases for the theorems about capirca/lib/paloaltofw.py, and the policies for which C132 to C134 fail.
-/

namespace Verif.Props
open Verif Verif.Spec Policy Aclgenerator Nacaddr
open Verif.Pan (PTerm Filter Output PRule Options translate Member Service IcmpApp ServiceField)
open Verif.Spec.Pan (Live Use Side Neat Shown Unlike Has MemberHas SideHas ServiceHits AppHits ServiceOk Hits Decides About Between Wants
  PolicyDecides Steady Aligned Plain)

/-! ### evaluation on concrete packets -/

instance panCoversDec (n : Ver × Nat × Nat) (v : Ver) (x : Nat) : Decidable (Flat.Covers n v x) := by
  unfold Flat.Covers
  infer_instance

/-- An address has the name. -/
def PanNamed (o : Output) (v : Ver) (x : Nat) (name : String) : Prop :=
  name ≠ "" ∧ ∃ e ∈ o.addresses, e.1 = name ∧ Flat.Covers (e.2.ver, e.2.addr, e.2.plen) v x

instance panNamedDec (o : Output) (v : Ver) (x : Nat) (name : String) : Decidable (PanNamed o v x name) := by
  unfold PanNamed Flat.Covers
  infer_instance

/-- No member of a group is a group. -/
def PanFlat (o : Output) : Prop := ∀ g ∈ o.groups, ∀ n ∈ g.2, n ∉ o.groups.map Prod.fst

instance panFlatDec (o : Output) : Decidable (PanFlat o) := by
  unfold PanFlat
  infer_instance

/-- An address or a member of a group has the name. -/
def PanHas (o : Output) (v : Ver) (x : Nat) (name : String) : Prop :=
  PanNamed o v x name ∨ name ≠ "" ∧ ∃ g ∈ o.groups, g.1 = name ∧ ∃ n ∈ g.2, PanNamed o v x n

instance panHasDec (o : Output) (v : Ver) (x : Nat) (name : String) : Decidable (PanHas o v x name) := by
  unfold PanHas
  infer_instance

theorem panHas_iff {o : Output} (hf : PanFlat o) {v : Ver} {x : Nat} {name : String} : Has o v x name ↔ PanHas o v x name := by
  constructor
  · intro h
    cases h with
    | address h1 h2 h3 => exact .inl ⟨h2, _, h1, rfl, h3⟩
    | group h1 h2 h3 h4 =>
      refine .inr ⟨h2, _, h1, rfl, _, h3, ?_⟩
      cases h4 with
      | address a1 a2 a3 => exact ⟨a2, _, a1, rfl, a3⟩
      | group a1 _ _ _ => exact absurd (List.mem_map.2 ⟨_, a1, rfl⟩) (hf _ h1 _ h3)
  · rintro (⟨h1, ⟨_, n⟩, h2, rfl, h3⟩ | ⟨h1, ⟨_, ms⟩, h2, rfl, m, hm, h3, ⟨_, n⟩, h4, rfl, h5⟩)
    · exact .address h2 h1 h3
    · exact .group h2 h1 hm (.address h4 h3 h5)

/-- `MemberHas`, for concrete cases. -/
def panMember (o : Output) (v : Ver) (x : Nat) : Member → Bool
  | .any => true
  | .anyIpv4 => decide (o.anyIpv4 = true ∧ v = .v4)
  | .group name => decide (PanHas o v x name)
  | .net n => decide (Flat.Covers (n.ver, n.addr, n.plen) v x)

theorem panMember_iff {o : Output} (hf : PanFlat o) {v : Ver} {x : Nat} : ∀ {m : Member}, MemberHas o v x m ↔ panMember o v x m = true
  | .any => by simp [MemberHas, panMember]
  | .anyIpv4 => by simp [MemberHas, panMember]
  | .group name => by
    unfold MemberHas panMember
    rw [decide_eq_true_eq]
    exact panHas_iff hf
  | .net n => by
    unfold MemberHas panMember
    rw [decide_eq_true_eq]

/-- `SideHas`, for concrete cases. -/
def panSide (o : Output) (negate : Bool) (ms : List Member) (v : Ver) (x : Nat) : Bool := (ms.any (panMember o v x)) != negate

theorem panSide_iff {o : Output} (hf : PanFlat o) {negate : Bool} {ms : List Member} {v : Ver} {x : Nat} :
    SideHas o negate ms v x ↔ panSide o negate ms v x = true := by
  have key : (∃ m ∈ ms, MemberHas o v x m) ↔ ms.any (panMember o v x) = true := by
    rw [List.any_eq_true]
    exact exists_congr fun m => and_congr_right fun _ => panMember_iff hf
  unfold SideHas panSide
  rw [key]
  cases negate <;> cases ms.any (panMember o v x) <;> simp

instance panServiceDec (o : Output) (p : Packet) (name : Str) : Decidable (ServiceHits o p name) :=
  decidable_of_iff (∃ s ∈ o.services, s.name = name ∧ (∃ e ∈ Spec.Pan.serviceProtos, e.1 = s.proto ∧ Flat.NumberIs p e.2) ∧
    (s.sport = [] ∨ ∃ r ∈ s.sport, Flat.PortIn p p.sport r) ∧ ∃ r ∈ s.dport, Flat.PortIn p p.dport r) (by
      unfold ServiceHits
      refine exists_congr fun s => and_congr_right fun _ => and_congr_right fun _ => and_congr_left fun _ => ?_
      constructor
      · rintro ⟨⟨_, n⟩, h1, rfl, h2⟩
        exact ⟨n, h1, h2⟩
      · rintro ⟨n, h1, h2⟩
        exact ⟨_, h1, rfl, h2⟩)

instance panAppDec (o : Output) (p : Packet) (name : String) : Decidable (AppHits o p name) :=
  decidable_of_iff ((∃ e ∈ Spec.Pan.knownApps, e.1 = name ∧ Flat.NumberIs p e.2) ∨
    ∃ a ∈ o.refs, a.name = name ∧ Flat.NumberIs p (if a.v6 then 58 else 1) ∧
      (p.icmpType, a.type) ∈ Spec.icmpNumbers (if a.v6 then .v6 else .v4)) (by
      unfold AppHits
      refine or_congr_left ?_
      constructor
      · rintro ⟨⟨_, n⟩, h1, rfl, h2⟩
        exact ⟨n, h1, h2⟩
      · rintro ⟨n, h1, h2⟩
        exact ⟨_, h1, rfl, h2⟩)

instance panServiceOkDec (o : Output) (p : Packet) : (s : ServiceField) → Decidable (ServiceOk o p s)
  | .any => .isTrue trivial
  | .appDefault => .isTrue trivial
  | .names l => inferInstanceAs (Decidable (∃ s ∈ l, ServiceHits o p s))

/-- What a rule decides; for concrete cases. -/
def panDoes (o : Output) (p : Packet) (r : PRule) : Option String :=
  if (r.fromZone = "any" ∨ r.fromZone = p.srcZone) ∧ (r.toZone = "any" ∨ r.toZone = p.dstZone) ∧
      panSide o r.negate r.src p.ver p.src = true ∧ panSide o r.negate r.dst p.ver p.dst = true ∧ ServiceOk o p r.service ∧
      (r.apps = [] ∨ ∃ a ∈ r.apps, AppHits o p a) then some r.action else none

theorem panDoes_iff {o : Output} (hf : PanFlat o) {p : Packet} {r : PRule} {a : String} :
    (Hits o r p ∧ r.action = a) ↔ panDoes o p r = some a := by
  unfold panDoes
  constructor
  · rintro ⟨⟨a1, a2, a3, a4, a5, a6⟩, rfl⟩
    rw [if_pos ⟨a1, a2, (panSide_iff hf).1 a3, (panSide_iff hf).1 a4, a5, a6⟩]
  · intro h
    split at h
    next h1 =>
      obtain ⟨a1, a2, a3, a4, a5, a6⟩ := h1
      exact ⟨⟨a1, a2, (panSide_iff hf).2 a3, (panSide_iff hf).2 a4, a5, a6⟩, by simpa using h⟩
    · cases h

instance panLiveDec (g : PTerm) : Decidable (Live g) := by
  unfold Live
  infer_instance

instance panAboutDec (opts : List String) (v : Ver) : Decidable (About opts v) := inferInstanceAs (Decidable (_ ∨ _))

instance panBetweenDec (opts : List String) (a b : String) : Decidable (Between opts a b) := inferInstanceAs (Decidable (_ ∧ _))

/-- What a term wants; for concrete cases. -/
def panWant (p : Packet) (x : Filter × PTerm) : Option String :=
  if Live x.2 ∧ Between x.1.options p.srcZone p.dstZone ∧ About x.1.options p.ver ∧ Matches x.2.term p then
    match x.2.term.action with
    | [w] => Spec.Pan.names.lookup w
    | _ => none
  else none

theorem panWant_iff {p : Packet} {x : Filter × PTerm} {a : String} : Wants p x a ↔ panWant p x = some a := by
  have hn : ∀ e ∈ Spec.Pan.names, Spec.Pan.names.lookup e.1 = some e.2 := by decide
  unfold panWant Wants
  constructor
  · rintro ⟨h1, h2, h3, h4, w, hw, h⟩
    rw [if_pos ⟨h1, h2, h3, h4⟩, hw]
    exact hn _ h
  · intro h
    split at h
    next h1 =>
      split at h
      next w hw => exact ⟨h1.1, h1.2.1, h1.2.2.1, h1.2.2.2, w, hw, Cisco.mem_of_lookup' h⟩
      · cases h
    · cases h

/-- The tool takes the terms. About some packet the filters decide `want`, and the rules decide `got`. -/
def PanSays (fs : List Filter) (want got : Option String) : Prop :=
  ∃ (hex : String → Str) (p : Packet) (o : Output), (∀ f ∈ fs, ∀ g ∈ f.terms,
      initCheck Verif.Pan.tables [([Verif.Pan.tables.platform], [kterm g.term])] = .ok () ∧ sanityCheck g.term = .ok ()) ∧
    Coherent p ∧ p.dport ≤ 65535 ∧ translate hex fs = .ok o ∧ (∀ a, PolicyDecides fs p a ↔ want = some a) ∧
    ∀ a, Decides o p a ↔ got = some a

/-- The decidable part. -/
def panCheck (fs : List Filter) (p : Packet) (want got : Option String) : Bool :=
  decide (∀ f ∈ fs, ∀ g ∈ f.terms,
    initCheck Verif.Pan.tables [([Verif.Pan.tables.platform], [kterm g.term])] = .ok () ∧ sanityCheck g.term = .ok ()) &&
  decide (Coherent p ∧ p.dport ≤ 65535) &&
  ((fs.filter Filter.here).flatMap fun f => f.terms.map fun g => (f, g)).findSome? (panWant p) == want &&
  match translate (fun _ => []) fs with
  | .ok o => decide (PanFlat o) && o.rules.findSome? (panDoes o p) == got
  | .error _ => false

theorem pan_says {fs : List Filter} {want got : Option String} (p : Packet) (h : panCheck fs p want got = true) :
    PanSays fs want got := by
  unfold panCheck at h
  split at h
  next o ho =>
    simp only [Bool.and_eq_true, decide_eq_true_eq, beq_iff_eq] at h
    obtain ⟨⟨⟨a1, a2, a3⟩, a4⟩, a5, a6⟩ := h
    refine ⟨_, p, o, a1, a2, a3, ho, fun a => ?_, fun a => ?_⟩
    · unfold PolicyDecides
      rw [hf_findSome (w := panWant p) (fun x a => panWant_iff), a4]
    · unfold Decides
      rw [hf_findSome (hit := fun r a => Hits o r p ∧ r.action = a) (w := panDoes o p) (fun x a => panDoes_iff a5), a6]
  · simp at h

/-! ### a case -/

/-- A network with a token. -/
def tok (n : Net) (s : String) : Net := { n with parent := s }

/-- A filter for packets of both versions from one zone to another. -/
def panFilter : Filter where
  options := ["from-zone", "trust", "to-zone", "untrust", "mixed"]
  terms :=
    [{ term := { name := "gone".toList, action := ["accept"] }, expired := true },
     { term := { name := "web".toList, action := ["accept"], protocol := ["tcp", "udp"],
                 sourceAddress := [tok (ip4 10 0 0 0 8) "INT", tok (ip6 32 16) "INT"],
                 destinationAddress := [tok (ip4 192 0 2 0 24) "WEB", tok (ip6 33 16) "WEB"],
                 destinationPort := [(80, 80), (8000, 8100)], logging := ["log-both"] } },
     { term := { name := "ping".toList, action := ["accept"], protocol := ["icmp"], icmpType := ["echo-request"],
                 destinationAddress := [tok (ip4 192 0 2 0 24) "WEB", tok (ip6 33 16) "WEB"] } },
     { term := { name := "some".toList, action := ["reject"], protocol := ["tcp", "gre", "esp"],
                 sourceAddress := [tok (ip4 10 0 0 0 8) "INT", tok (ip6 32 16) "INT"] } },
     { term := { name := "replies".toList, action := ["accept"], option := ["established"] } },
     { term := { name := "last".toList, action := ["deny"] } }]

/-- All of it, next to a filter for another platform. -/
def panPolicy : List Filter := [⟨false, [], []⟩, panFilter]

/-- The sides of the terms. -/
def panSides (fs : List Filter) : List Use :=
  (fs.filter Filter.here).flatMap fun f => f.terms.flatMap fun g => [Use.src f g, Use.dst f g]

theorem panSides_mem {fs : List Filter} {u : Use} (h : Side fs u) : u ∈ panSides fs := by
  unfold panSides
  cases h with
  | src h1 h2 h3 h4 => exact List.mem_flatMap.2 ⟨_, List.mem_filter.2 ⟨h1, h2⟩, List.mem_flatMap.2 ⟨_, h3, by simp⟩⟩
  | dst h1 h2 h3 h4 => exact List.mem_flatMap.2 ⟨_, List.mem_filter.2 ⟨h1, h2⟩, List.mem_flatMap.2 ⟨_, h3, by simp⟩⟩

/-- Without exclusions, in filters for both versions, tokens that come with the same networks everywhere are steady. -/
theorem steady_of {fs : List Filter} (h : ∀ u ∈ panSides fs, u.exc = [] ∧ Spec.Pan.familyOf u.opts = "mixed" ∧
    ∀ w ∈ panSides fs, ∀ n ∈ w.inc, (∃ m ∈ u.inc, m.parent = n.parent) → n ∈ u.inc) : Steady fs := by
  rintro u w hu hw token ⟨_, _, m, hm, rfl, _⟩ v x _ ⟨n, hn, hp, hx, _⟩
  obtain ⟨h1, h2, h3⟩ := h u (panSides_mem hu)
  refine ⟨.inl h2, n, h3 w (panSides_mem hw) n hn ⟨m, hm, hp.symm⟩, hp, hx, ?_⟩
  rw [h1]
  rintro ⟨_, hn, _⟩
  cases hn

/-- Tokens of one zone are aligned. -/
theorem aligned_of {fs : List Filter} (h : ∀ u ∈ panSides fs, ∀ w ∈ panSides fs, ∀ n ∈ u.inc, ∀ m ∈ w.inc, n.parent = m.parent →
    u.zone = w.zone) : Aligned fs := by
  intro token
  by_cases he : ∃ u ∈ panSides fs, ∃ n ∈ u.inc, n.parent = token
  · obtain ⟨u, hu, n, hn, rfl⟩ := he
    refine .inl ⟨u.zone, fun w hw => ?_⟩
    rintro ⟨_, _, m, hm, hp, _⟩
    exact h w (panSides_mem hw) u hu m hm n hn hp
  · refine .inl ⟨none, fun w hw => ?_⟩
    rintro ⟨_, _, m, hm, hp, _⟩
    exact absurd ⟨w, panSides_mem hw, m, hm, hp⟩ he

/-- Tokens without underscores are plain. -/
theorem plain_of {fs : List Filter} (h : ∀ u ∈ panSides fs, ∀ n ∈ u.inc, n.parent ≠ "" ∧ '_' ∉ n.parent.toList) : Plain fs := by
  intro u hu n hn
  obtain ⟨h1, h2⟩ := h u (panSides_mem hu) n hn
  refine ⟨h1, fun w _ m _ i e => h2 ?_⟩
  rw [e, String.toList_append, String.toList_append]
  exact List.mem_append_left _ (List.mem_append_right _ (by decide))

/-- Sides without exclusions are neat. -/
theorem neat_of {inc : List Net} (h : ∀ n ∈ inc, WF n) : Neat inc [] := by
  refine ⟨h, (fun _ h => by cases h), (fun _ _ _ h => by cases h), fun hne => ?_, fun _ => rfl⟩
  obtain ⟨n, hn⟩ := List.exists_mem_of_ne_nil _ hne
  exact ⟨n.ver, n.addr, ⟨n, hn, Verif.Pan.mem_first n⟩, fun ⟨_, h, _⟩ => by cases h⟩

theorem panFilter_fits (p : Packet) : ∀ g ∈ panFilter.terms, PanFits panFilter p g := by
  intro g hg
  have key : ∀ g ∈ panFilter.terms, initCheck Verif.Pan.tables [([Verif.Pan.tables.platform], [kterm g.term])] = .ok () ∧
      sanityCheck g.term = .ok () ∧ (∀ n ∈ g.term.sourceAddress, WF n) ∧ ∀ n ∈ g.term.destinationAddress, WF n := by decide +kernel
  obtain ⟨k1, k2, k3, k4⟩ := key g hg
  simp only [panFilter, List.mem_cons, List.not_mem_nil, or_false] at hg
  rcases hg with rfl | rfl | rfl | rfl | rfl | rfl
  all_goals
    exact ⟨k1, k2, ⟨rfl, rfl, by decide, by decide⟩, .inl rfl, ⟨_, rfl⟩, rfl, neat_of k3, neat_of k4, by simp, by simp, by simp, by simp⟩

/-- The hypotheses of C132_partial hold for this policy. -/
example (hex : String → Str) (p : Packet) (hc : Coherent p) (hp : p.dport ≤ 65535) (o : Output) (h : translate hex panPolicy = .ok o)
    (a : String) : Decides o p a ↔ PolicyDecides panPolicy p a := by
  refine C132_partial h ?_ (steady_of (by decide +kernel)) (aligned_of (by decide +kernel)) (plain_of (by decide +kernel)) ?_ hc hp a
  · intro f hf hh g hg _
    simp only [panPolicy, List.mem_cons, List.not_mem_nil, or_false] at hf
    rcases hf with rfl | rfl
    · cases hh
    · exact panFilter_fits p g hg
  · unfold Spec.Pan.Apart
    decide +kernel

example : PanSays panPolicy (some "allow") (some "allow") :=
  pan_says { proto := "tcp", src := 10 * 2 ^ 24 + 5, dst := 192 * 2 ^ 24 + 2 * 2 ^ 8 + 1, dport := 8050, sport := 1024, srcZone := "trust",
             dstZone := "untrust" } (by decide +kernel)

example : PanSays panPolicy (some "reset-client") (some "reset-client") :=
  pan_says { ver := .v6, proto := "esp", src := 32 * 2 ^ 120 + 5, dst := 7, srcZone := "trust", dstZone := "untrust" } (by decide +kernel)

example : PanSays panPolicy none none :=
  pan_says { proto := "tcp", src := 10 * 2 ^ 24 + 5, dst := 7, srcZone := "untrust", dstZone := "trust" } (by decide +kernel)

instance panUnlikeDec (a b : PTerm) : Decidable (Unlike a b) := inferInstanceAs (Decidable (_ ∧ _))

/-- What C133 to C136 say about it; the hypotheses of their conditional parts hold. -/
example (hex : String → Str) (o : Output) (h : translate hex panPolicy = .ok o) :
    (∀ r ∈ o.rules, ∀ t, Member.group t ∈ r.src ∨ Member.group t ∈ r.dst → t ∈ o.groups.map Prod.fst) ∧
      (o.rules.map PRule.name).Nodup ∧ ∀ r ∈ o.rules, r.name.length ≤ 63 := by
  have wf : ∀ u ∈ panSides panPolicy, u.exc = [] ∧ (∀ n ∈ u.inc, WF n) ∧ (∀ n ∈ u.inc, n.parent ≠ "") ∧
      Spec.Pan.familyOf u.opts = "mixed" := by decide +kernel
  refine ⟨fun r hr t ht => (C133_partial h ?_ ?_ ?_ r hr t ht).2, C134_rules_partial h ?_ ?_, fun r hr => ((C135 h).1 r hr).1⟩
  · intro u hu
    obtain ⟨h1, h2, _, _⟩ := wf u (panSides_mem hu)
    rw [h1]
    exact neat_of h2
  · intro u hu
    exact (wf u (panSides_mem hu)).2.2.1
  · intro u hu _ t hx
    have four : ∀ u ∈ panSides panPolicy, (u.inc = [] ∨ ∃ n ∈ u.inc, n.ver = .v4) ∧ (u.oinc = [] ∨ ∃ n ∈ u.oinc, n.ver = .v4) ∧
        u.oexc = [] ∧ ∀ n ∈ u.inc, ∃ m ∈ u.inc, m.parent = n.parent ∧ m.ver = .v4 := by decide +kernel
    obtain ⟨f1, f2, f3, f4⟩ := four u (panSides_mem hu)
    obtain ⟨h1, _, _, h4⟩ := wf u (panSides_mem hu)
    have none : ∀ (v : Ver) (x : Nat), ¬ Den [] v x := fun _ _ ⟨_, h, _⟩ => by cases h
    have good : ∀ {l : List Net}, (l = [] ∨ ∃ n ∈ l, n.ver = .v4) → l = [] ∨ ∃ x, Den l .v4 x ∧ ¬ Den [] .v4 x := by
      rintro l (h | ⟨n, hn, hv⟩)
      · exact .inl h
      · exact .inr ⟨n.addr, ⟨n, hn, hv ▸ Verif.Pan.mem_first n⟩, none _ _⟩
    obtain ⟨_, _, n, hn, rfl, _⟩ := hx
    obtain ⟨m, hm, hp, hv⟩ := f4 n hn
    refine ⟨.v4, m.addr, ⟨.inl h4, ?_, ?_⟩, m, hm, hp, hv ▸ Verif.Pan.mem_first m, ?_⟩
    · rw [h1]
      exact good f1
    · rw [f3]
      exact good f2
    · rw [h1]
      exact none _ _
  · decide +kernel
  · decide +kernel

example : (match translate (fun _ => []) panPolicy with
    | .ok o => decide (o.rules.map PRule.name = ["web".toList, "ping".toList, "some-1".toList, "some-2".toList, "last".toList] ∧
        o.rules.map PRule.logStart = [some true, none, none, none, none] ∧ o.groups.map Prod.fst = ["INT", "WEB"] ∧
        o.services.map Service.name = ["service-web-tcp".toList, "service-web-udp".toList, "any-tcp".toList])
    | .error _ => false) = true := by decide +kernel

/-! ### C132 fails -/

/-- A filter from one zone to another. -/
def panFrom (af : String) (ts : List PTerm) : Filter := ⟨true, ["from-zone", "a", "to-zone", "b", af], ts⟩

/-- A term with sources. -/
def panTerm (name action : String) (src exc : List Net := []) : PTerm :=
  { term := { name := name.toList, action := [action], sourceAddress := src, sourceAddressExclude := exc } }

/-- A packet between them. -/
def panPacket : Packet := { tcpPacket with srcZone := "a", dstZone := "b" }

/-- C132 is false for a token that filters for IPv4 and for both versions use: the rules of the first are for IPv6, too. -/
theorem C132_refuted_families : PanSays
    [panFrom "inet" [panTerm "t" "accept" [tok (ip4 10 0 0 0 8) "INT", tok (ip6 32 16) "INT"]],
     panFrom "mixed" [panTerm "u" "deny" [tok (ip4 10 0 0 0 8) "INT", tok (ip6 32 16) "INT"]]]
    (some "deny") (some "allow") :=
  pan_says { ver := .v6, proto := "tcp", src := 32 * 2 ^ 120, srcZone := "a", dstZone := "b" } (by decide +kernel)

/-- C132 is false for exclusions that split a network: the parts have no token, and the rule refers to a group without a name. -/
theorem C132_refuted_split : PanSays
    [panFrom "inet" [panTerm "t" "deny" [tok (ip4 192 0 0 0 8) "INT"] [ip4 192 128 0 0 9], panTerm "u" "accept"]]
    (some "deny") (some "allow") := pan_says panPacket (by decide +kernel)

/-- C132 is false for an exclusion in one of two terms with the same token: it has no effect. -/
theorem C132_refuted_shared : PanSays
    [panFrom "inet" [panTerm "t" "accept" [tok (ip4 10 0 0 0 8) "INT", tok (ip4 192 0 0 0 8) "INT"] [ip4 192 0 0 0 8],
      panTerm "u" "deny" [tok (ip4 10 0 0 0 8) "INT", tok (ip4 192 0 0 0 8) "INT"]]]
    (some "deny") (some "allow") := pan_says panPacket (by decide +kernel)

/-- C132 is false for a token that stands for different networks in two zones: there is one group, of as many addresses as in the zone
that came last. -/
theorem C132_refuted_zones : PanSays
    [panFrom "inet" [panTerm "t" "deny" [tok (ip4 10 0 0 0 8) "INT", tok (ip4 192 0 0 0 8) "INT"], panTerm "u" "accept"],
     ⟨true, ["from-zone", "b", "to-zone", "a"], [panTerm "v" "accept" [tok (ip4 10 0 0 0 8) "INT", tok (ip4 192 0 0 0 8) "INT"] [ip4 192 0 0 0 8]]⟩]
    (some "deny") (some "allow") := pan_says panPacket (by decide +kernel)

/-- C132 is false for terms all of whose sources are excluded: the rule is for any source. -/
theorem C132_refuted_excluded : PanSays
    [panFrom "inet" [panTerm "t" "accept" [tok (ip4 10 0 0 0 8) "INT"] [ip4 10 0 0 0 8]]]
    none (some "allow") := pan_says panPacket (by decide +kernel)

/-- C132 is false for exclusions without addresses: they have no effect. -/
theorem C132_refuted_exclude : PanSays
    [panFrom "inet" [panTerm "t" "accept" [] [ip4 192 0 0 0 8]]]
    none (some "allow") := pan_says panPacket (by decide +kernel)

/-- C132 is false for ports without a protocol: the rule is for all services. -/
theorem C132_refuted_ports : PanSays
    [panFrom "inet" [{ term := { name := "t".toList, action := ["accept"], destinationPort := [(22, 22)] } }]]
    none (some "allow") := pan_says panPacket (by decide +kernel)

/-- C132 is false for ports of tcp and sctp: the rule is for the application sctp only. -/
theorem C132_refuted_sctp : PanSays
    [panFrom "inet" [{ term := { name := "t".toList, action := ["deny"], protocol := ["tcp", "sctp"], destinationPort := [(80, 80)] } },
      panTerm "u" "accept"]]
    (some "deny") (some "allow") := pan_says panPacket (by decide +kernel)

/-- C132 is false for icmpv6 next to other protocols in filters for IPv4: the term is left out. -/
theorem C132_refuted_icmpv6 : PanSays
    [panFrom "inet" [{ term := { name := "t".toList, action := ["deny"], protocol := ["tcp", "icmpv6"] } },
      panTerm "u" "accept"]]
    (some "deny") (some "allow") := pan_says panPacket (by decide +kernel)

/-- C132 is false for a term with the name of one of the two rules of another: that rule is replaced. -/
theorem C132_refuted_names : PanSays
    [panFrom "inet" [{ term := { name := "t".toList, action := ["deny"], protocol := ["tcp", "gre"] } },
      panTerm "t-1" "accept"]]
    (some "deny") (some "allow") := pan_says panPacket (by decide +kernel)

/-! ### C133 and C134 fail -/

/-- C133 is false for tokens without addresses of the version of the filter: the rule refers to a group that is not there. -/
theorem C133_refuted : ∃ (fs : List Filter) (hex : String → Str) (o : Output), (∀ f ∈ fs, ∀ g ∈ f.terms,
      initCheck Verif.Pan.tables [([Verif.Pan.tables.platform], [kterm g.term])] = .ok () ∧ sanityCheck g.term = .ok ()) ∧
    translate hex fs = .ok o ∧ ∃ r ∈ o.rules, ∃ t, t ≠ "" ∧ Member.group t ∈ r.src ∧ t ∉ o.groups.map Prod.fst := by
  have key : (match translate (fun _ => []) [panFrom "inet" [panTerm "t" "accept" [tok (ip4 10 0 0 0 8) "FOUR", tok (ip6 32 16) "SIX"]]] with
    | .ok o => decide (∃ r ∈ o.rules, Member.group "SIX" ∈ r.src ∧ "SIX" ∉ o.groups.map Prod.fst)
    | .error _ => false) = true := by decide +kernel
  split at key
  next o ho =>
    rw [decide_eq_true_eq] at key
    obtain ⟨r, hr, h1, h2⟩ := key
    exact ⟨_, _, o, by decide +kernel, ho, r, hr, "SIX", by decide, h1, h2⟩
  · cases key

/-- With networks instead of groups, such tokens are a KeyError. -/
theorem C133_refuted_keyError : translate (fun _ => []) [⟨true, ["from-zone", "a", "to-zone", "b", "inet", "no-addr-obj"],
    [panTerm "t" "accept" [tok (ip4 10 0 0 0 8) "FOUR", tok (ip6 32 16) "SIX"]]⟩] =
      .error .keyError := by
  have key : (match translate (fun _ => []) [⟨true, ["from-zone", "a", "to-zone", "b", "inet", "no-addr-obj"],
    [panTerm "t" "accept" [tok (ip4 10 0 0 0 8) "FOUR", tok (ip6 32 16) "SIX"]]⟩] with
    | .ok _ => false
    | .error e => decide (e = .keyError)) = true := by decide +kernel
  split at key
  · cases key
  next e he =>
    rw [he, of_decide_eq_true key]

/-- C134 is false for the rules of two filters with terms of the same name. -/
theorem C134_refuted : ∃ (fs : List Filter) (hex : String → Str) (o : Output), (∀ f ∈ fs, ∀ g ∈ f.terms,
      initCheck Verif.Pan.tables [([Verif.Pan.tables.platform], [kterm g.term])] = .ok () ∧ sanityCheck g.term = .ok ()) ∧
    translate hex fs = .ok o ∧ ¬ (o.rules.map PRule.name).Nodup := by
  have key : (match translate (fun _ => []) [panFrom "inet" [panTerm "t" "accept"],
      panFrom "inet6" [panTerm "t" "accept"]] with
    | .ok o => decide (¬ (o.rules.map PRule.name).Nodup)
    | .error _ => false) = true := by decide +kernel
  split at key
  next o ho =>
    rw [decide_eq_true_eq] at key
    exact ⟨_, _, o, by decide +kernel, ho, key⟩
  · cases key

/-- C134 is false with prefixes, too, whatever the digests: from `a` to `bc` and from `ab` to `c` have the same one. -/
theorem C134_refuted_prefix (hex : String → Str) (hlen : ∀ s, (hex s).length = 24) : ∃ (fs : List Filter) (o : Output),
    (∀ f ∈ fs, f.options[6]? = some "unique-term-prefixes") ∧ (fs.map fun f => (f.options[1]?, f.options[3]?)).Nodup ∧
    translate hex fs = .ok o ∧ ¬ (o.rules.map PRule.name).Nodup := by
  have e : ∀ l : Str, l.length ≤ 63 → fixTermLength Verif.Pan.abbreviations 63 l false false = .ok l := fun l hl => if_pos hl
  have short : (hex "abc" ++ ['-', 't']).length ≤ 63 := by
    rw [List.length_append, hlen]
    decide
  have step : ∀ z1 z2, z1 ++ z2 = "abc" → ∀ st, Verif.Pan.termsLoop hex ⟨z1, z2, "inet", false, true⟩ [] st [panTerm "t" "accept"] =
      .ok (st, [⟨hex "abc" ++ ['-', 't'], (panTerm "t" "accept").term, [], [], []⟩]) := by
    intro z1 z2 hz st
    rw [Verif.Pan.termsLoop, if_neg (by decide)]
    have : Verif.Pan.longName hex ⟨z1, z2, "inet", false, true⟩ (panTerm "t" "accept").term.name = hex "abc" ++ ['-', 't'] := by
      unfold Verif.Pan.longName
      rw [if_pos rfl]
      show hex (z1 ++ z2) ++ _ = _
      rw [hz]
      rfl
    rw [this, e _ short]
    rfl
  refine ⟨[⟨true, ["from-zone", "a", "to-zone", "bc", "inet", "addr-obj", "unique-term-prefixes"], [panTerm "t" "accept"]⟩,
    ⟨true, ["from-zone", "ab", "to-zone", "c", "inet", "addr-obj", "unique-term-prefixes"], [panTerm "t" "accept"]⟩], ?_⟩
  suffices h : ∃ o, translate hex [⟨true, ["from-zone", "a", "to-zone", "bc", "inet", "addr-obj", "unique-term-prefixes"],
      [panTerm "t" "accept"]⟩, ⟨true, ["from-zone", "ab", "to-zone", "c", "inet", "addr-obj", "unique-term-prefixes"],
      [panTerm "t" "accept"]⟩] = .ok o ∧ o.rules.map PRule.name = [hex "abc" ++ ['-', 't'], hex "abc" ++ ['-', 't']] by
    obtain ⟨o, ho, hn⟩ := h
    refine ⟨o, by decide, by decide, ho, ?_⟩
    rw [hn]
    intro h
    exact (List.nodup_cons.mp h).1 (List.mem_cons_self ..)
  have loop : ∀ mode st svcs f fs h k st' rs svcs' q, f.here = true → Verif.Pan.parseHeader f.options = .ok h →
      mode.getD h.noObj = h.noObj → Verif.Pan.termsLoop hex h [] st f.terms = .ok (st', k) →
      Verif.Pan.rulesLoop h svcs [] k = .ok (rs, svcs') → Verif.Pan.filtersLoop hex (some h.noObj) st' svcs' fs = .ok q →
      Verif.Pan.filtersLoop hex mode st svcs (f :: fs) = .ok ⟨q.state, q.services, (h, rs) :: q.rulesets⟩ := by
    intro mode st svcs f fs h k st' rs svcs' q h1 h2 h3 h4 h5 h6
    rw [Verif.Pan.filtersLoop, if_neg (by rw [h1]; decide), h2]
    show (if mode.getD h.noObj ≠ h.noObj then _ else _) = _
    rw [if_neg (by rw [h3]; exact fun h => h rfl), h4]
    show (Verif.Pan.rulesLoop h svcs [] k >>= _) = _
    rw [h5]
    show (Verif.Pan.filtersLoop hex (some h.noObj) st' svcs' fs >>= _) = _
    rw [h6]
    rfl
  unfold translate
  rw [loop none _ _ _ _ ⟨"a", "bc", "inet", false, true⟩ _ _ _ _ _ rfl rfl rfl (step "a" "bc" (by decide) _) rfl
    (loop (some false) _ _ _ _ ⟨"ab", "c", "inet", false, true⟩ _ _ _ _ _ rfl rfl rfl (step "ab" "c" (by decide) _) rfl rfl)]
  exact ⟨_, rfl, rfl⟩

end Verif.Props
