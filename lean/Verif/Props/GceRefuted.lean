import Verif.Props.GceLimits
import Verif.Props.OpenConfigRefuted

/-!
Concrete cases for the theorems about capirca/lib/gce.py, and the terms and headers for which C79, C81 and C82 fail.
-/

namespace Verif.Props
open Verif Verif.Spec Verif.Spec.Gce Verif.Gce Policy Aclgenerator Nacaddr

/-! ### evaluation on concrete flows -/

instance gceRangesDec (l : List Net) (v : Ver) (x : Nat) : Decidable (InRanges l v x) := inferInstanceAs (Decidable (∃ n ∈ l, _))

instance gceProtoDec (p : Packet) : (q : Proto) → Decidable (ProtoIs p q)
  | .str s => decidable_of_iff (s = "all" ∨ ∃ e ∈ knownNames, e.1 = s ∧ Flat.NumberIs p (e.2 : Int)) <| by
      refine or_congr Iff.rfl ⟨?_, ?_⟩
      · rintro ⟨e, he, rfl, h⟩
        exact ⟨e.2, he, h⟩
      · rintro ⟨k, hk, h⟩
        exact ⟨_, hk, rfl, h⟩
  | .num n => inferInstanceAs (Decidable (Flat.NumberIs p n))

instance gceEntryDec (e : Entry) (p : Packet) : Decidable (EntryHits e p) := inferInstanceAs (Decidable (_ ∧ (_ ∨ ∃ r ∈ e.ports, _)))

instance gceOneDec (l : List String) (x : String) : Decidable (OneOf l x) := inferInstanceAs (Decidable (_ ∨ _))

instance gcePeerDec (r : Rule) (f : Flow) : Decidable (PeerIs r f) := by
  unfold PeerIs
  infer_instance

instance gceHitsDec (r : Rule) (f : Flow) : Decidable (Gce.Hits r f) :=
  inferInstanceAs (Decidable ((_ ∧ _) ∧ (_ ∧ _) ∧ _ ∧ ∃ e ∈ r.entries, _))

instance gceBeatsDec (r s : Rule) : Decidable (Beats r s) := inferInstanceAs (Decidable (_ ∨ (_ ∧ (_ ∨ _))))

instance gceLiveDec (g : GTerm) : Decidable (Live g) := inferInstanceAs (Decidable (_ ∧ _ ∧ (_ ∨ _) ∧ _))

instance gceFamilyDec (af : String) (f : Flow) : Decidable (OfFamily af f) := inferInstanceAs (Decidable ((_ → _) ∧ (_ → _)))

/-- The actions of the rules that go before all others; for concrete cases. -/
def gceWinners (rs : List Rule) (f : Flow) : List String :=
  (rs.filter fun r => decide (Gce.Hits r f) && rs.all fun s => decide (Gce.Hits s f → Beats r s)).map Rule.action

theorem gceWinners_iff {rs : List Rule} {f : Flow} {a : String} : Decides rs f a ↔ a ∈ gceWinners rs f := by
  unfold gceWinners Decides
  constructor
  · rintro ⟨r, hr, h1, rfl, h2⟩
    exact List.mem_map.2 ⟨r, List.mem_filter.2 ⟨hr, by
      simp only [Bool.and_eq_true, decide_eq_true_eq, List.all_eq_true]
      exact ⟨h1, h2⟩⟩, rfl⟩
  · intro h
    obtain ⟨r, hr, rfl⟩ := List.mem_map.1 h
    obtain ⟨h1, h2⟩ := List.mem_filter.1 hr
    simp only [Bool.and_eq_true, decide_eq_true_eq, List.all_eq_true] at h2
    exact ⟨r, h1, h2.1, rfl, h2.2⟩

/-- What a term wants; for concrete cases. -/
def gceWant (f : Flow) (g : GTerm) : Option String :=
  if Live g ∧ Matches g.term f.packet ∧ OneOf g.dstAccounts f.account ∧ OneOf g.srcAccounts f.peer then
    if g.term.action = ["accept"] then some "allowed" else if g.term.action = ["deny"] then some "denied" else none
  else none

theorem gceWant_iff {f : Flow} {g : GTerm} {a : String} : Wants f g a ↔ gceWant f g = some a := by
  unfold gceWant Wants
  by_cases h : Live g ∧ Matches g.term f.packet ∧ OneOf g.dstAccounts f.account ∧ OneOf g.srcAccounts f.peer
  · rw [if_pos h]
    by_cases h1 : g.term.action = ["accept"]
    · simp [h1, h.1, h.2, eq_comm]
    · rw [if_neg h1]
      by_cases h2 : g.term.action = ["deny"]
      · simp [h2, h.1, h.2, eq_comm]
      · simp [h1, h2]
  · rw [if_neg h]
    exact iff_of_false (fun h' => h ⟨h'.1, h'.2.1⟩) (by simp)

theorem gcePolicy_iff {f : Flow} {a : String} : ∀ {gs : List GTerm}, PolicyDecides gs f a ↔ gs.findSome? (gceWant f) = some a
  | [] => iff_of_false Lemmas.first_nil (by simp)
  | g :: gs => by
    have ih := gcePolicy_iff (f := f) (a := a) (gs := gs)
    unfold PolicyDecides at ih ⊢
    rw [Lemmas.first_cons, ih]
    simp only [gceWant_iff, List.findSome?_cons]
    cases gceWant f g <;> simp

/-- The term passes the checks of the tool. -/
def GceAccepted (g : GTerm) : Prop := initCheck Gce.tables [(["gce"], [kterm g.term])] = .ok () ∧ sanityCheck g.term = .ok ()

instance gceAcceptedDec (g : GTerm) : Decidable (GceAccepted g) := inferInstanceAs (Decidable (_ ∧ _))

/-- The tool takes the terms, in a filter with the options; the policy decides `want` about some flow of its family, network and
direction and the rules decide `got`. -/
def GceSays (options : List String) (gs : List GTerm) (want got : Option String) : Prop :=
  ∃ fl af rs, (∀ g ∈ gs, GceAccepted g) ∧ Coherent fl.packet ∧ Header options fl.direction af fl.network ∧ OfFamily af fl ∧
    translate [{ options := options, terms := gs }] = .ok rs ∧
    (∀ a, PolicyDecides gs fl a ↔ want = some a) ∧ ∀ a, Decides rs fl a ↔ got = some a

/-- The decidable part. -/
def gceCheck (options : List String) (gs : List GTerm) (fl : Flow) (want got : Option String) : Bool :=
  decide (∀ g ∈ gs, GceAccepted g) && decide (Coherent fl.packet) && gs.findSome? (gceWant fl) == want &&
  match translate [{ options := options, terms := gs }] with
  | .ok rs => (gceWinners rs fl).eraseDups == got.toList
  | .error _ => false

theorem gce_says {options : List String} {gs : List GTerm} {want got : Option String} (fl : Flow) (af : String)
    (h1 : Header options fl.direction af fl.network) (h2 : OfFamily af fl) (h : gceCheck options gs fl want got = true) :
    GceSays options gs want got := by
  unfold gceCheck at h
  split at h
  next rs hrs =>
    simp only [Bool.and_eq_true, decide_eq_true_eq, beq_iff_eq] at h
    obtain ⟨⟨⟨a1, a2⟩, a3⟩, a4⟩ := h
    refine ⟨fl, af, rs, a1, a2, h1, h2, hrs, fun a => ?_, fun a => ?_⟩
    · rw [gcePolicy_iff, a3]
    · rw [gceWinners_iff, ← List.mem_eraseDups, a4]
      cases got <;> simp [eq_comm]
  · simp at h

theorem header_none : Header [] "INGRESS" "inet" "" := ⟨by decide, .inl (by decide), .inl (by simp), by simp⟩

theorem header_inet6 : Header ["inet6"] "INGRESS" "inet6" "" :=
  ⟨by decide, .inr (.inl (by decide)), .inl (by simp [headerWords]), by simp⟩

theorem header_mixed : Header ["mixed"] "INGRESS" "mixed" "" :=
  ⟨by decide, .inr (.inr (by decide)), .inl (by simp [headerWords]), by simp⟩

theorem family_mixed (fl : Flow) : OfFamily "mixed" fl := ⟨by simp, by simp⟩

/-- A packet over IPv6. -/
def gce6 : Packet :=
  { tcpPacket with ver := .v6, src := 0x20010db8000000000000000000000001, dst := 0x20010db8000000000000000000000002 }

/-! ### refutations -/

/-- C79 is false for a term that accepts before one that denies, without priorities: of equal priorities the denying goes
first. -/
theorem C79_refuted_order : GceSays [] [{ term :=
      { name := "a".toList, action := ["accept"], sourceAddress := [ip4 10 0 0 0 8], protocol := ["tcp"] } },
    { term := { name := "b".toList, action := ["deny"], sourceAddress := [ip4 10 0 0 0 8], protocol := ["tcp"] } }]
    (some "allowed") (some "denied") :=
  gce_says { packet := { tcpPacket with src := 0x0a000001 } } "inet" header_none (by decide) (by decide +kernel)

/-- C79 is false for a term with source addresses and source tags: either suffices. -/
theorem C79_refuted_tags : GceSays [] [{ term :=
      { name := "a".toList, action := ["accept"], sourceAddress := [ip4 10 0 0 0 8], sourceTag := ["web"], protocol := ["tcp"] } }]
    none (some "allowed") :=
  gce_says { packet := { tcpPacket with src := 0x0b000001, srcTag := "web" } } "inet" header_none (by decide) (by decide +kernel)

/-- C79 is false for a term with source addresses and source accounts: either suffices. -/
theorem C79_refuted_accounts : GceSays [] [{ srcAccounts := ["x"], term :=
      { name := "a".toList, action := ["accept"], sourceAddress := [ip4 10 0 0 0 8], protocol := ["tcp"] } }]
    none (some "allowed") :=
  gce_says { packet := { tcpPacket with src := 0x0a000001 }, peer := "y" } "inet" header_none (by decide) (by decide +kernel)

/-- C79 is false for the exclusion of destinations in ingress: it has no effect. -/
theorem C79_refuted_exclude : GceSays [] [{ term :=
      { name := "a".toList, action := ["accept"], sourceAddress := [ip4 10 0 0 0 8],
        destinationAddressExclude := [ip4 10 1 0 0 16], protocol := ["tcp"] } }]
    none (some "allowed") :=
  gce_says { packet := { tcpPacket with src := 0x0a000001, dst := 0x0a010001 } } "inet" header_none (by decide) (by decide +kernel)

/-- C79 is false for IPv6 networks that stand for IPv4 networks: they are dropped. -/
theorem C79_refuted_embedded : GceSays ["inet6"] [{ term :=
      { name := "a".toList, action := ["accept"], sourceAddress := [{ ver := .v6, addr := 0x2002 * 2 ^ 112, plen := 16 }],
        protocol := ["tcp"] } }]
    (some "allowed") none :=
  gce_says { packet := { gce6 with src := 0x2002 * 2 ^ 112 + 1 } } "inet6" header_inet6 (by decide) (by decide +kernel)

/-- C79 is false for ICMPv6 from tags in a mixed filter: the term is left to IPv4, where ICMPv6 is dropped. -/
theorem C79_refuted_icmpv6 : GceSays ["mixed"] [{ term :=
      { name := "a".toList, action := ["accept"], sourceTag := ["web"], protocol := ["icmpv6"] } }]
    (some "allowed") none :=
  gce_says { packet := { gce6 with proto := "icmpv6", srcTag := "web" } } "mixed" header_mixed (family_mixed _) (by decide +kernel)

/-- C79 is false for IGMP over IPv6: it is dropped. -/
theorem C79_refuted_igmp : GceSays ["inet6"] [{ term :=
      { name := "a".toList, action := ["accept"], sourceTag := ["web"], protocol := ["igmp"] } }]
    (some "allowed") none :=
  gce_says { packet := { gce6 with proto := "igmp", srcTag := "web" } } "inet6" header_inet6 (by decide) (by decide +kernel)

/-- C79 is false for terms restricted to one family: they are rendered for both. -/
theorem C79_refuted_restrict : GceSays ["mixed"] [{ term :=
      { name := "a".toList, action := ["accept"], sourceAddress := [ip4 10 0 0 0 8], protocol := ["tcp"],
        restrictAddressFamily := some "inet6" } }]
    none (some "allowed") :=
  gce_says { packet := { tcpPacket with src := 0x0a000001 } } "mixed" header_mixed (family_mixed _) (by decide +kernel)

/-- C79 is false for a term that denies everything in the midst of others: the policy is refused. -/
theorem C79_refuted_deny (g : GTerm) : ∃ d, GceAccepted d ∧ CatchAll d ∧
    translate [{ terms := [d, g] }] = .error (.raised "GceFirewallError") := by
  refine ⟨{ term := { name := "a".toList, action := ["deny"] } }, by decide +kernel, ⟨rfl, rfl, rfl, rfl, rfl, rfl⟩, ?_⟩
  rfl

/-- With two families in the header the output depends on the order in which a set is run through. -/
theorem C79_refuted_families : ∃ options gs rs rs', (∀ g ∈ gs, GceAccepted g) ∧
    translate [{ options := options, terms := gs, order := ["inet", "inet6", "mixed"] }] = .ok rs ∧
    translate [{ options := options, terms := gs, order := ["inet6", "inet", "mixed"] }] = .ok rs' ∧ rs ≠ rs' :=
  ⟨["inet", "inet6"], [{ term := { name := "a".toList, action := ["accept"], sourceAddress := [ip4 10 0 0 0 8] } }],
    _, _, by decide +kernel, rfl, rfl, by decide +kernel⟩

/-- Some names are given twice. -/
def gceTwice (fs : List Filter) : Bool :=
  match translate fs with
  | .ok rs => !decide (rs.map Rule.name).Nodup
  | .error _ => false

theorem gce_twice {fs : List Filter} (h : gceTwice fs = true) : ∃ rs, translate fs = .ok rs ∧ ¬ (rs.map Rule.name).Nodup := by
  unfold gceTwice at h
  split at h
  · rename_i rs he
    exact ⟨rs, he, by simpa using h⟩
  · cases h

/-- C81 is false for terms with many addresses: the parts of one have the names of others. -/
theorem C81_refuted_parts : ∃ gs rs, (∀ g ∈ gs, GceAccepted g) ∧ translate [{ terms := gs }] = .ok rs ∧
    ¬ (rs.map Rule.name).Nodup := by
  obtain ⟨rs, h⟩ := gce_twice (fs := [{ terms := [{ term := { name := "a".toList, action := ["accept"], sourceAddress := (List.range 257).map fun i => { ver := .v4, addr := 2 * i, plen := 32 } } },
    { term := { name := "a-1".toList, action := ["accept"], sourceAddress := [ip4 10 0 0 0 8] } }] }]) (by decide +kernel)
  exact ⟨_, rs, by decide +kernel, h⟩

/-- C81 is false for several filters: terms of the same name in two filters of one network. -/
theorem C81_refuted_filters : ∃ f rs, (∀ g ∈ f.terms, GceAccepted g) ∧ translate [f, f] = .ok rs ∧ ¬ (rs.map Rule.name).Nodup :=
  ⟨{ terms := [{ term := { name := "a".toList, action := ["accept"], sourceAddress := [ip4 10 0 0 0 8] } }] }, _,
    by decide +kernel, rfl, by decide +kernel⟩

/-- C81 is false for mixed filters: the rule for IPv6 of one term has the name of another. -/
theorem C81_refuted_mixed : ∃ gs rs, (∀ g ∈ gs, GceAccepted g) ∧
    translate [{ options := ["mixed"], terms := gs }] = .ok rs ∧ ¬ (rs.map Rule.name).Nodup :=
  ⟨[{ term := { name := "a".toList, action := ["accept"], sourceAddress := [{ ver := .v6, addr := 0x20010db8000000000000000000000000, plen := 32 }] } },
    { term := { name := "a-v6".toList, action := ["accept"], sourceAddress := [ip4 10 0 0 0 8] } }], _,
    by decide +kernel, rfl, by decide +kernel⟩

/-- The owner is another one's. -/
theorem C82_refuted_owner : ∃ gs rs, (∀ g ∈ gs, GceAccepted g) ∧ translate [{ terms := gs }] = .ok rs ∧
    ∃ r ∈ rs, r.name = "b".toList ∧ (∀ g ∈ gs, g.term.name = "b".toList → g.owner = none) ∧ r.description = "Owner: me".toList :=
  ⟨[{ owner := some "me".toList, term := { name := "a".toList, action := ["accept"], sourceAddress := [ip4 10 0 0 0 8] } },
    { term := { name := "b".toList, action := ["accept"], sourceAddress := [ip4 11 0 0 0 8] } }], _,
    by decide +kernel, rfl, by decide +kernel⟩

/-- In a mixed filter the owner is named twice. -/
theorem C82_refuted_twice : ∃ g rs, GceAccepted g ∧ g.comment = ["c".toList] ∧ g.owner = some "me".toList ∧
    translate [{ options := ["mixed"], terms := [g] }] = .ok rs ∧
    ∃ r ∈ rs, r.description = "c Owner: me Owner: me".toList :=
  ⟨{ owner := some "me".toList, comment := ["c".toList], term := { name := "a".toList, action := ["accept"], sourceAddress := [{ ver := .v6, addr := 0x20010db8000000000000000000000000, plen := 32 }] } }, _,
    by decide +kernel, rfl, rfl, rfl, by decide +kernel⟩

/-! ### concrete cases for the theorems -/

/-- A filter for a network: web servers, a network that may not, and a term that denies everything. -/
def gceWeb : Filter :=
  { options := ["INGRESS", "global/networks/prod", "inet", "500"]
    comment := ["web".toList]
    terms :=
      [{ term := { name := "allow-web".toList, action := ["accept"], sourceAddress := [ip4 10 0 0 0 8],
                   sourceAddressExclude := [ip4 10 1 0 0 16], destinationTag := ["web"], protocol := ["tcp"],
                   destinationPort := [(80, 80), (443, 443)] }
         priority := some 100 },
       { term := { name := "deny-rest".toList, action := ["deny"], sourceAddress := [ip4 10 0 0 0 8] }
         priority := some 200 },
       { term := { name := "old".toList, action := ["accept"], sourceTag := ["x"] }, expired := true },
       { term := { name := "default-deny".toList, action := ["deny"], logging := ["true"] } }] }

/-- A filter for egress of the same network. -/
def gceOut : Filter :=
  { options := ["EGRESS", "global/networks/prod"]
    terms := [{ term := { name := "out".toList, action := ["accept"], destinationAddress := [ip4 10 0 0 0 8] } }] }

/-- The rules of the two filters. -/
def gceRules : List Rule := match translate [gceOut, gceWeb] with | .ok rs => rs | .error _ => []

theorem gce_translated : translate [gceOut, gceWeb] = .ok gceRules := by rfl

/-- A flow to a web server from the excluded network. -/
def gceFlow : Flow :=
  { packet := { tcpPacket with src := 0x0a010001, dport := 443, dstTag := "web" }, network := "global/networks/prod" }

theorem gceWeb_header : Header gceWeb.options "INGRESS" "inet" "global/networks/prod" :=
  ⟨by decide, .inl (by decide),
    .inr ⟨["INGRESS"], ["inet", "500"], rfl, by decide, fun h => absurd (natOf_iff.2 h) (by decide), by simp [headerWords]⟩,
    by decide, by
      intro a ha b hb h1 h2
      have key : ∀ x ∈ gceWeb.options, (natOf x).isSome = true → x = "500" := by decide
      rw [key a ha (natOf_iff.2 h1), key b hb (natOf_iff.2 h2)]⟩

theorem gceOut_header : Header gceOut.options "EGRESS" "inet" "global/networks/prod" :=
  ⟨by decide, .inl (by decide),
    .inr ⟨["EGRESS"], [], rfl, by decide, fun h => absurd (natOf_iff.2 h) (by decide), by simp [headerWords]⟩,
    by decide, by
      intro a ha b hb h1 h2
      have key : ∀ x ∈ gceOut.options, ¬ (natOf x).isSome = true := by decide
      exact absurd (natOf_iff.2 h1) (key a ha)⟩

theorem gceWeb_fits : ∀ g ∈ gceWeb.terms, Live g → GceFits "inet" "INGRESS" g ∨ CatchAll g := by
  intro g hg hl
  simp only [gceWeb, List.mem_cons, List.not_mem_nil, or_false] at hg
  rcases hg with rfl | rfl | rfl | rfl
  · left
    exact
      { keywords := by decide +kernel
        sane := by decide +kernel
        action := ⟨_, rfl⟩
        family := rfl
        ttl := by decide
        trafficClass := by decide
        src := by decide
        dst := by decide
        srcSide := .inr ⟨by decide, by decide, by decide, by decide, List.pairwise_singleton _ _, by
          rintro x ⟨n, hn, h⟩
          rw [List.mem_singleton.1 hn] at h
          exact absurd h.1 (by decide)⟩
        dstSide := .inl ⟨rfl, by simp⟩
        ingress := by decide
        egress := by decide
        accounts := rfl
        tags := by decide
        protos := by decide
        igmp := by decide
        ports := by decide }
  · left
    exact
      { keywords := by decide +kernel
        sane := by decide +kernel
        action := ⟨_, rfl⟩
        family := rfl
        ttl := by decide
        trafficClass := by decide
        src := by decide
        dst := by decide
        srcSide := .inl ⟨rfl, by
          intro n hn h
          rw [List.mem_singleton.1 hn] at h
          cases h⟩
        dstSide := .inl ⟨rfl, by simp⟩
        ingress := by decide
        egress := by decide
        accounts := rfl
        tags := by decide
        protos := by decide
        igmp := by decide
        ports := by decide }
  · exact absurd hl.1 (by decide)
  · exact .inr ⟨rfl, rfl, rfl, rfl, rfl, rfl⟩

theorem rank_prio {g : GTerm} {n k : Nat} (h : Rank g n) (hk : g.priority = some k) : n = k := by
  rcases h with ⟨h, _⟩ | ⟨_, h⟩
  · rw [h.2.1] at hk; cases hk
  · rw [h, hk]; rfl

theorem rank_last {g : GTerm} {n : Nat} (h : Rank g n) (hk : CatchAll g) : n = 65534 :=
  h.elim (·.2) (fun h => absurd hk h.1)

theorem gceWeb_ordered : gceWeb.terms.Pairwise fun g h => Live g → Live h → Ordered g h := by
  simp only [gceWeb, List.pairwise_cons, List.mem_cons, List.not_mem_nil, or_false, forall_eq_or_imp, forall_eq,
    List.Pairwise.nil, and_true, false_implies, implies_true]
  refine ⟨⟨?_, ?_, ?_⟩, ⟨?_, ?_⟩, ?_⟩
  · intro _ _ m n h1 h2
    rw [rank_prio h1 rfl, rank_prio h2 rfl]
    exact .inl (by decide)
  · intro _ h
    exact absurd h.1 (by decide)
  · intro _ _ m n h1 h2
    rw [rank_prio h1 rfl, rank_last h2 ⟨rfl, rfl, rfl, rfl, rfl, rfl⟩]
    exact .inl (by decide)
  · intro _ h
    exact absurd h.1 (by decide)
  · intro _ _ m n h1 h2
    rw [rank_prio h1 rfl, rank_last h2 ⟨rfl, rfl, rfl, rfl, rfl, rfl⟩]
    exact .inl (by decide)
  · intro h
    exact absurd h.1 (by decide)

/-- The hypotheses of `C79_policy_partial` hold for a policy with two filters, exclusions, tags, priorities and a default. -/
example (a : String) : Decides gceRules gceFlow a ↔ PolicyDecides gceWeb.terms gceFlow a :=
  C79_policy_partial (pre := [gceOut]) (post := []) gce_translated (by simp [gceOut, gceWeb]) gceWeb_header
    (by
      intro f hf
      rw [List.append_nil, List.mem_singleton] at hf
      subst hf
      exact ⟨_, _, _, gceOut_header, .inl (by decide)⟩)
    gceWeb_fits gceWeb_ordered (by decide +kernel) (by decide)

/-- The policy denies the flow, which the first term would accept but for the exclusion. -/
example : PolicyDecides gceWeb.terms gceFlow "denied" := gcePolicy_iff.2 (by decide +kernel)

/-- The limits and the quota for the same policy. -/
example : (∀ r ∈ gceRules, WithinLimits r) ∧ gceRules.length = 4 := ⟨fun _ hr => C80_limits gce_translated hr, by decide +kernel⟩

example : ∃ rs, translate [gceWeb] = .ok rs ∧ (rs.map Attributes).sum ≤ 500 ∧ 5 ≤ (rs.map Attributes).sum :=
  ⟨_, rfl, C80_quota (f := gceWeb) (fs := []) (N := 500) rfl (by simp [gceWeb]) (by decide) (by decide) (by
    intro s hs h
    have key : ∀ x ∈ gceWeb.options, (natOf x).isSome = true → x = toString 500 := by decide
    exact key s hs (natOf_iff.2 h)) (by simp), by decide +kernel⟩

/-- A filter whose term has a comment and an owner. -/
def gceNamed : Filter :=
  { options := ["EGRESS", "global/networks/prod"]
    terms := [{ term := { name := "out".toList, action := ["accept"], destinationAddress := [ip4 10 0 0 0 8] }
                comment := ["to".toList, "all".toList], owner := some "me".toList }] }

/-- The names and descriptions of the filter. -/
example : ∃ rs, translate [gceNamed] = .ok rs ∧
    rs.map Rule.name = ["prod-out-e".toList] ∧ (rs.map Rule.name).Nodup ∧ ∀ r ∈ rs, r.description = "to all Owner: me".toList := by
  have h : ∃ rs, translate [gceNamed] = .ok rs ∧ rs.map Rule.name = ["prod-out-e".toList] := ⟨_, rfl, by decide +kernel⟩
  obtain ⟨rs, h, hn⟩ := h
  refine ⟨rs, h, hn, ?_, ?_⟩
  · exact (C81_names_partial h (by simp [gceNamed]) gceOut_header (by decide) (fun hd => absurd hd (by decide))).1
  · intro r hr
    obtain ⟨g, hg, _, _, h⟩ := C82_descriptions_partial h (by simp [gceNamed]) gceOut_header (by decide) (by
      intro g hg
      rw [List.mem_singleton.1 hg]
      decide) r hr
    rw [List.mem_singleton.1 hg] at h
    rw [h]
    decide +kernel

/-- A filter with a term that needs two rules. -/
def gceLong : Filter :=
  { options := ["INGRESS", "global/networks/prod", "inet", "500"]
    terms := [{ term := { name := "in".toList, action := ["accept"], sourceAddress := (List.range 257).map fun i => { ver := .v4, addr := 2 * i, plen := 32 } } }] }

theorem gceLong_names : (match translate [gceLong] with | .ok rs => rs.map Rule.name | .error _ => []) =
    ["prod-in-1".toList, "prod-in-2".toList] := by decide +kernel

/-- The names of the parts of a term. -/
example : ∃ rs, translate [gceLong] = .ok rs ∧ rs.map Rule.name = ["prod-in-1".toList, "prod-in-2".toList] ∧
    (rs.map Rule.name).Nodup := by
  have h := gceLong_names
  split at h
  · rename_i rs he
    refine ⟨rs, he, h, (C81_names_partial he (by simp [gceLong]) gceWeb_header (by decide) ?_).1⟩
    intro _ g hg g' hg' k e
    rw [List.mem_singleton.1 hg, List.mem_singleton.1 hg'] at e
    have := congrArg List.length e
    simp at this
  · exact absurd h (by decide)

end Verif.Props
