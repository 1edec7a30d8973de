import Verif.Props.TfLimits
import Verif.Props.GceRefuted

/-!
Concrete cases for the theorems about capirca/lib/gce_vpc_tf.py, and the policies for which C137 to C141 fail.
-/

namespace Verif.Props
open Verif Policy Aclgenerator Nacaddr
open Verif.Spec (Matches OneOf First Coherent Packet)
open Verif.Gce (GTerm Rule Ctx Filter natOf)
open Verif.Spec.Gce (Flow Hits OfFamily Header CatchAll headerWords Attributes)
open Verif.Spec.Tf (Live Beats Decides Wants PolicyDecides Sizes)

/-! ### evaluation on concrete flows -/

instance tfBeatsDec (r s : Rule) : Decidable (Beats r s) := inferInstanceAs (Decidable (_ ∨ (_ ∧ (_ ∨ _))))

instance tfLiveDec (g : GTerm) : Decidable (Live g) := inferInstanceAs (Decidable (_ ∧ _ ∧ (_ ∨ _) ∧ _))

/-- The actions of the rules that go before all others; for concrete cases. -/
def tfWinners (rs : List Rule) (f : Flow) : List String :=
  (rs.filter fun r => decide (Hits r f) && rs.all fun s => decide (Hits s f → Beats r s)).map Rule.action

theorem tfWinners_iff {rs : List Rule} {f : Flow} {a : String} : Decides rs f a ↔ a ∈ tfWinners rs f := by
  unfold tfWinners Decides
  constructor
  · rintro ⟨r, hr, h1, rfl, h2⟩
    exact List.mem_map.2 ⟨r, List.mem_filter.2 ⟨hr, by
      simp only [Bool.and_eq_true, decide_eq_true_eq, List.all_eq_true]
      exact ⟨h1, h2⟩⟩, rfl⟩
  · intro h
    obtain ⟨r, hr, rfl⟩ := List.mem_map.1 h
    obtain ⟨h1, h2⟩ := List.mem_filter.1 hr
    simp only [Bool.and_eq_true, decide_eq_true_eq, List.all_eq_true] at h2
    exact ⟨r, h1, h2.1, rfl, h2.2⟩

/-- What the header says, as the model reads it. -/
def TfHeaded (f : Filter) : Prop :=
  Header f.options (Verif.Gce.head 0 f).direction (Verif.Gce.head 0 f).family (Verif.Gce.head 0 f).network

/-- What a term wants; for concrete cases. -/
def tfWant (fl : Flow) (x : Filter × GTerm) : Option String :=
  if Live x.2 ∧ ((Verif.Gce.head 0 x.1).direction = fl.direction ∧ (Verif.Gce.head 0 x.1).network = fl.network ∧
      OfFamily (Verif.Gce.head 0 x.1).family fl) ∧
      Matches x.2.term fl.packet ∧ OneOf x.2.dstAccounts fl.account ∧ OneOf x.2.srcAccounts fl.peer then
    if x.2.term.action = ["accept"] then some "allow" else if x.2.term.action = ["deny"] then some "deny" else none
  else none

theorem tfWant_iff {fl : Flow} {x : Filter × GTerm} {a : String} (hx : TfHeaded x.1) : Wants fl x a ↔ tfWant fl x = some a := by
  have hh : (∃ af, Header x.1.options fl.direction af fl.network ∧ OfFamily af fl) ↔
      ((Verif.Gce.head 0 x.1).direction = fl.direction ∧ (Verif.Gce.head 0 x.1).network = fl.network ∧
      OfFamily (Verif.Gce.head 0 x.1).family fl) := by
    constructor
    · rintro ⟨af, h1, h2⟩
      obtain ⟨u1, u2, u3⟩ := tf_header_unique hx h1
      exact ⟨u1.symm, u3.symm, u2 ▸ h2⟩
    · rintro ⟨h1, h2, h3⟩
      exact ⟨_, by rw [← h1, ← h2]; exact hx, h3⟩
  unfold tfWant Wants
  rw [hh]
  by_cases h : Live x.2 ∧ ((Verif.Gce.head 0 x.1).direction = fl.direction ∧ (Verif.Gce.head 0 x.1).network = fl.network ∧
      OfFamily (Verif.Gce.head 0 x.1).family fl) ∧
      Matches x.2.term fl.packet ∧ OneOf x.2.dstAccounts fl.account ∧ OneOf x.2.srcAccounts fl.peer
  · rw [if_pos h]
    by_cases h1 : x.2.term.action = ["accept"]
    · simp [h1, h.1, h.2.1, h.2.2, eq_comm]
    · rw [if_neg h1]
      by_cases h2 : x.2.term.action = ["deny"]
      · simp [h2, h.1, h.2.1, h.2.2, eq_comm]
      · simp [h1, h2]
  · rw [if_neg h]
    exact iff_of_false (fun h' => h ⟨h'.1, h'.2.1, h'.2.2.1⟩) (by simp)

theorem tfPolicy_iff {fl : Flow} {a : String} {fs : List Filter} (h : ∀ f ∈ fs, TfHeaded f) :
    PolicyDecides fs fl a ↔ (fs.flatMap fun f => f.terms.map fun g => (f, g)).findSome? (tfWant fl) = some a := by
  have key : ∀ {xs : List (Filter × GTerm)}, (∀ x ∈ xs, TfHeaded x.1) → (First (Wants fl) xs a ↔ xs.findSome? (tfWant fl) = some a) := by
    intro xs
    induction xs with
    | nil => exact fun _ => iff_of_false Lemmas.first_nil (by simp)
    | cons x xs ih =>
      intro hx
      rw [Lemmas.first_cons, ih fun y hy => hx y (List.mem_cons_of_mem _ hy)]
      simp only [tfWant_iff (hx x (by simp)), List.findSome?_cons]
      cases tfWant fl x <;> simp
  refine key fun x hx => ?_
  obtain ⟨f, hf, hx⟩ := List.mem_flatMap.1 hx
  obtain ⟨g, _, rfl⟩ := List.mem_map.1 hx
  exact h f hf

/-- The term passes the checks of the tool. -/
def TfAccepted (g : GTerm) : Prop := initCheck Tf.tables [(["gce_vpc_tf"], [kterm g.term])] = .ok () ∧ sanityCheck g.term = .ok ()

instance tfAcceptedDec (g : GTerm) : Decidable (TfAccepted g) := inferInstanceAs (Decidable (_ ∧ _))

/-- The tool takes the terms of the filters; the policy decides `want` about some flow and the rules decide `got`. -/
def TfSays (fs : List Filter) (want got : Option String) : Prop :=
  ∃ fl rs, (∀ f ∈ fs, ∀ g ∈ f.terms, TfAccepted g) ∧ Coherent fl.packet ∧ Tf.translate fs = .ok rs ∧
    (∀ a, PolicyDecides fs fl a ↔ want = some a) ∧ ∀ a, Decides rs fl a ↔ got = some a

/-- The decidable part. -/
def tfCheck (fs : List Filter) (fl : Flow) (want got : Option String) : Bool :=
  decide (∀ f ∈ fs, ∀ g ∈ f.terms, TfAccepted g) && decide (Coherent fl.packet) &&
  (fs.flatMap fun f => f.terms.map fun g => (f, g)).findSome? (tfWant fl) == want &&
  match Tf.translate fs with
  | .ok rs => (tfWinners rs fl).eraseDups == got.toList
  | .error _ => false

theorem tf_says {fs : List Filter} {want got : Option String} (fl : Flow) (h1 : ∀ f ∈ fs, TfHeaded f)
    (h : tfCheck fs fl want got = true) : TfSays fs want got := by
  unfold tfCheck at h
  split at h
  next rs hrs =>
    simp only [Bool.and_eq_true, decide_eq_true_eq, beq_iff_eq] at h
    obtain ⟨⟨⟨a1, a2⟩, a3⟩, a4⟩ := h
    refine ⟨fl, rs, a1, a2, hrs, fun a => ?_, fun a => ?_⟩
    · rw [tfPolicy_iff h1, a3]
    · rw [tfWinners_iff, ← List.mem_eraseDups, a4]
      cases got <;> simp [eq_comm]
  · simp at h

theorem tf_number {o : List String} (h : ∀ x ∈ o, ¬ (natOf x).isSome = true) :
    ∀ a ∈ o, ∀ b ∈ o, Spec.Gce.Number a → Spec.Gce.Number b → a = b :=
  fun a ha _ _ h1 _ => absurd (natOf_iff.2 h1) (h a ha)

theorem tfHeader_inet : Header ["net"] "INGRESS" "inet" "net" :=
  ⟨by decide, .inl (by decide), .inr ⟨[], [], rfl, by decide, fun h => absurd (natOf_iff.2 h) (by decide), by simp [headerWords]⟩,
    by decide, tf_number (by decide)⟩

theorem tfHeader_inet6 : Header ["inet6", "net"] "INGRESS" "inet6" "net" :=
  ⟨by decide, .inr (.inl (by decide)),
    .inr ⟨["inet6"], [], rfl, by decide, fun h => absurd (natOf_iff.2 h) (by decide), by simp [headerWords]⟩,
    by decide, tf_number (by decide)⟩

theorem tfHeader_mixed : Header ["mixed", "net"] "INGRESS" "mixed" "net" :=
  ⟨by decide, .inr (.inr (by decide)),
    .inr ⟨["mixed"], [], rfl, by decide, fun h => absurd (natOf_iff.2 h) (by decide), by simp [headerWords]⟩,
    by decide, tf_number (by decide)⟩

theorem tfHeader_egress : Header ["EGRESS", "net"] "EGRESS" "inet" "net" :=
  ⟨by decide, .inl (by decide),
    .inr ⟨["EGRESS"], [], rfl, by decide, fun h => absurd (natOf_iff.2 h) (by decide), by simp [headerWords]⟩,
    by decide, tf_number (by decide)⟩

/-- A filter for IPv4. -/
def tf4 (gs : List GTerm) : Filter := { options := ["net"], terms := gs }

/-- A filter for IPv6. -/
def tf6 (gs : List GTerm) : Filter := { options := ["inet6", "net"], terms := gs }

/-- A filter for both. -/
def tf46 (gs : List GTerm) : Filter := { options := ["mixed", "net"], terms := gs }

theorem tf4_headed (gs : List GTerm) : TfHeaded (tf4 gs) := tfHeader_inet

theorem tf6_headed (gs : List GTerm) : TfHeaded (tf6 gs) := tfHeader_inet6

theorem tf46_headed (gs : List GTerm) : TfHeaded (tf46 gs) := tfHeader_mixed

theorem tf_only {f : Filter} (h : TfHeaded f) : ∀ g ∈ [f], TfHeaded g := fun g hg => by
  rw [List.mem_singleton.1 hg]
  exact h

/-! ### refutations -/

/-- C137 is false for a term without addresses that states a priority: it goes behind the terms after it. -/
theorem C137_refuted_priority : TfSays [tf4 [{ priority := some 1000, term :=
      { name := "a".toList, action := ["accept"], sourceTag := ["web"], protocol := ["tcp"] } },
    { term := { name := "b".toList, action := ["deny"], sourceAddress := [ip4 10 0 0 0 8], protocol := ["tcp"] } }]]
    (some "allow") (some "deny") :=
  tf_says { packet := { tcpPacket with src := 0x0a000001, srcTag := "web" }, network := "net" } (tf_only (tf4_headed _))
    (by decide +kernel)

/-- C137 is false for a term with source addresses and source tags: either suffices. -/
theorem C137_refuted_tags : TfSays [tf4 [{ term :=
      { name := "a".toList, action := ["accept"], sourceAddress := [ip4 10 0 0 0 8], sourceTag := ["web"], protocol := ["tcp"] } }]]
    none (some "allow") :=
  tf_says { packet := { tcpPacket with src := 0x0b000001, srcTag := "web" }, network := "net" } (tf_only (tf4_headed _))
    (by decide +kernel)

/-- C137 is false for a term with source addresses and source accounts: either suffices. -/
theorem C137_refuted_accounts : TfSays [tf4 [{ srcAccounts := ["x"], term :=
      { name := "a".toList, action := ["accept"], sourceAddress := [ip4 10 0 0 0 8], protocol := ["tcp"] } }]]
    none (some "allow") :=
  tf_says { packet := { tcpPacket with src := 0x0a000001 }, peer := "y", network := "net" } (tf_only (tf4_headed _))
    (by decide +kernel)

/-- C137 is false for a term with source tags in a filter for IPv4, beside a filter for IPv6 of the same network: the rule is for
IPv6, too. -/
theorem C137_refuted_family : TfSays [tf4 [{ term :=
      { name := "a".toList, action := ["deny"], sourceTag := ["web"], protocol := ["tcp"] } }],
    tf6 [{ term := { name := "b".toList, action := ["accept"], sourceTag := ["web"], protocol := ["tcp"] } }]]
    (some "allow") (some "deny") :=
  tf_says { packet := { gce6 with srcTag := "web" }, network := "net" }
    (by
      intro f hf
      simp only [List.mem_cons, List.not_mem_nil, or_false] at hf
      rcases hf with rfl | rfl
      · exact tf4_headed _
      · exact tf6_headed _)
    (by decide +kernel)

/-- C137 is false for the exclusion of destinations in ingress: it has no effect. -/
theorem C137_refuted_exclude : TfSays [tf4 [{ term :=
      { name := "a".toList, action := ["accept"], sourceAddress := [ip4 10 0 0 0 8],
        destinationAddressExclude := [ip4 10 1 0 0 16], protocol := ["tcp"] } }]]
    none (some "allow") :=
  tf_says { packet := { tcpPacket with src := 0x0a000001, dst := 0x0a010001 }, network := "net" } (tf_only (tf4_headed _))
    (by decide +kernel)

/-- C137 is false for IPv6 networks that stand for IPv4 networks: they are dropped. -/
theorem C137_refuted_embedded : TfSays [tf6 [{ term :=
      { name := "a".toList, action := ["accept"], sourceAddress := [{ ver := .v6, addr := 0x2002 * 2 ^ 112, plen := 16 }],
        protocol := ["tcp"] } }]]
    (some "allow") none :=
  tf_says { packet := { gce6 with src := 0x2002 * 2 ^ 112 + 1 }, network := "net" } (tf_only (tf6_headed _)) (by decide +kernel)

/-- C137 is false for ICMPv6 from tags in a mixed filter: the term is left to IPv4, where ICMPv6 is dropped. -/
theorem C137_refuted_icmpv6 : TfSays [tf46 [{ term :=
      { name := "a".toList, action := ["accept"], sourceTag := ["web"], protocol := ["icmpv6"] } }]]
    (some "allow") none :=
  tf_says { packet := { gce6 with proto := "icmpv6", srcTag := "web" }, network := "net" } (tf_only (tf46_headed _))
    (by decide +kernel)

/-- C137 is false for IGMP over IPv6: it is dropped. -/
theorem C137_refuted_igmp : TfSays [tf6 [{ term :=
      { name := "a".toList, action := ["accept"], sourceTag := ["web"], protocol := ["igmp"] } }]]
    (some "allow") none :=
  tf_says { packet := { gce6 with proto := "igmp", srcTag := "web" }, network := "net" } (tf_only (tf6_headed _)) (by decide +kernel)

/-- C137 is false for terms restricted to one family: they are rendered for both. -/
theorem C137_refuted_restrict : TfSays [tf46 [{ term :=
      { name := "a".toList, action := ["accept"], sourceAddress := [ip4 10 0 0 0 8], protocol := ["tcp"],
        restrictAddressFamily := some "inet6" } }]]
    none (some "allow") :=
  tf_says { packet := { tcpPacket with src := 0x0a000001 }, network := "net" } (tf_only (tf46_headed _)) (by decide +kernel)

/-- C137 is false for a term that denies everything in the midst of others: the policy is refused. -/
theorem C137_refuted_deny (g : GTerm) : ∃ d, TfAccepted d ∧ CatchAll d ∧
    Tf.translate [tf4 [d, g]] = .error (.raised "TerraformFirewallError") := by
  refine ⟨{ term := { name := "a".toList, action := ["deny"] } }, by decide +kernel, ⟨rfl, rfl, rfl, rfl, rfl, rfl⟩, ?_⟩
  rfl

/-- A filter without network is refused. -/
theorem C137_refuted_network (gs : List GTerm) :
    Tf.translate [{ terms := gs }] = .error (.raised "TerraformFirewallError") := rfl

/-- The description is longer than the firewall takes. -/
theorem C138_refuted_description : ∃ g rs, TfAccepted g ∧ Tf.translate [tf4 [g]] = .ok rs ∧ ∃ r ∈ rs, 2048 < r.description.length :=
  ⟨{ comment := [List.replicate 2049 'x'], term := { name := "a".toList, action := ["accept"], sourceAddress := [ip4 10 0 0 0 8] } }, _,
    by decide +kernel, rfl, _, List.mem_singleton.2 rfl, by decide +kernel⟩

/-- A tag is empty. -/
theorem C138_refuted_tag : ∃ g rs, TfAccepted g ∧ Tf.translate [tf4 [g]] = .ok rs ∧ ∃ r ∈ rs, "" ∈ r.sourceTags :=
  ⟨{ term := { name := "a".toList, action := ["accept"], sourceTag := [""] } }, _,
    by decide +kernel, rfl, _, List.mem_singleton.2 rfl, by decide +kernel⟩

/-- Some names are given twice. -/
def tfTwice (fs : List Filter) : Bool :=
  match Tf.translate fs with
  | .ok rs => !decide (rs.map Rule.name).Nodup
  | .error _ => false

theorem tf_twice {fs : List Filter} (h : tfTwice fs = true) : ∃ rs, Tf.translate fs = .ok rs ∧ ¬ (rs.map Rule.name).Nodup := by
  unfold tfTwice at h
  split at h
  · rename_i rs he
    exact ⟨rs, he, by simpa using h⟩
  · cases h

/-- C139 is false for terms with many addresses: the parts of one have the names of others. -/
theorem C139_refuted_parts : ∃ gs rs, (∀ g ∈ gs, TfAccepted g) ∧ Tf.translate [tf4 gs] = .ok rs ∧ ¬ (rs.map Rule.name).Nodup := by
  obtain ⟨rs, h⟩ := tf_twice (fs := [tf4 [{ term := { name := "a".toList, action := ["accept"], sourceAddress := (List.range 257).map fun i => { ver := .v4, addr := 2 * i, plen := 32 } } },
    { term := { name := "a-1".toList, action := ["accept"], sourceAddress := [ip4 10 0 0 0 8] } }]]) (by decide +kernel)
  exact ⟨_, rs, by decide +kernel, h⟩

/-- C139 is false for several filters: terms of the same name for IPv4 and for IPv6. -/
theorem C139_refuted_filters : ∃ g g' rs, TfAccepted g ∧ TfAccepted g' ∧ Tf.translate [tf4 [g], tf6 [g']] = .ok rs ∧
    ¬ (rs.map Rule.name).Nodup :=
  ⟨{ term := { name := "a".toList, action := ["accept"], sourceAddress := [ip4 10 0 0 0 8] } },
    { term := { name := "a".toList, action := ["accept"], sourceAddress := [{ ver := .v6, addr := 0x20010db8 * 2 ^ 96, plen := 32 }] } }, _,
    by decide +kernel, by decide +kernel, rfl, by decide +kernel⟩

/-- C139 is false for mixed filters: the rule for IPv6 of one term has the name of another. -/
theorem C139_refuted_mixed : ∃ gs rs, (∀ g ∈ gs, TfAccepted g) ∧ Tf.translate [tf46 gs] = .ok rs ∧ ¬ (rs.map Rule.name).Nodup :=
  ⟨[{ term := { name := "a".toList, action := ["accept"], sourceAddress := [{ ver := .v6, addr := 0x20010db8 * 2 ^ 96, plen := 32 }] } },
    { term := { name := "a-v6".toList, action := ["accept"], sourceAddress := [ip4 10 0 0 0 8] } }], _,
    by decide +kernel, rfl, by decide +kernel⟩

/-- C140 is false for terms with addresses: the priority they state is not that of their rules. -/
theorem C140_refuted_stated : ∃ g rs, TfAccepted g ∧ g.priority = some 500 ∧ Tf.translate [tf4 [g]] = .ok rs ∧
    ∃ r ∈ rs, r.priority = some 1 :=
  ⟨{ priority := some 500, term := { name := "a".toList, action := ["accept"], sourceAddress := [ip4 10 0 0 0 8] } }, _,
    by decide +kernel, rfl, rfl, _, List.mem_singleton.2 rfl, rfl⟩

/-- C140 is false for terms without addresses that state a priority: two rules have the same. -/
theorem C140_refuted_same : ∃ gs rs, (∀ g ∈ gs, TfAccepted g) ∧ Tf.translate [tf4 gs] = .ok rs ∧
    rs.map Rule.priority = [some 2, some 2] :=
  ⟨[{ priority := some 2, term := { name := "a".toList, action := ["accept"], sourceTag := ["web"] } },
    { term := { name := "b".toList, action := ["deny"], sourceTag := ["db"] } }], _,
    by decide +kernel, rfl, by decide +kernel⟩

/-- The owner is another one's. -/
theorem C141_refuted_owner : ∃ gs rs, (∀ g ∈ gs, TfAccepted g) ∧ Tf.translate [tf4 gs] = .ok rs ∧
    ∃ r ∈ rs, r.name = "net-b".toList ∧ (∀ g ∈ gs, g.term.name = "b".toList → g.owner = none) ∧ r.description = "Owner: me".toList :=
  ⟨[{ owner := some "me".toList, term := { name := "a".toList, action := ["accept"], sourceAddress := [ip4 10 0 0 0 8] } },
    { term := { name := "b".toList, action := ["accept"], sourceAddress := [ip4 11 0 0 0 8] } }], _,
    by decide +kernel, rfl, by decide +kernel⟩

/-- In a mixed filter the owner is named twice. -/
theorem C141_refuted_twice : ∃ g rs, TfAccepted g ∧ g.comment = ["c".toList] ∧ g.owner = some "me".toList ∧
    Tf.translate [tf46 [g]] = .ok rs ∧ ∃ r ∈ rs, r.description = "c Owner: me Owner: me".toList :=
  ⟨{ owner := some "me".toList, comment := ["c".toList], term := { name := "a".toList, action := ["accept"], sourceAddress := [{ ver := .v6, addr := 0x20010db8 * 2 ^ 96, plen := 32 }] } }, _,
    by decide +kernel, rfl, rfl, rfl, by decide +kernel⟩

/-! ### concrete cases for the theorems -/

/-- A filter for IPv4: web servers, a network that may not, and a term that denies everything. -/
def tfWeb : Filter :=
  { options := ["INGRESS", "global/networks/prod", "inet", "500"]
    comment := ["web".toList]
    terms :=
      [{ term := { name := "allow-web".toList, action := ["accept"], sourceAddress := [ip4 10 0 0 0 8],
                   sourceAddressExclude := [ip4 10 1 0 0 16], destinationTag := ["web"], protocol := ["tcp"],
                   destinationPort := [(80, 80), (443, 443)] } },
       { term := { name := "deny-rest".toList, action := ["deny"], sourceAddress := [ip4 10 0 0 0 8] }
         priority := some 200 },
       { term := { name := "old".toList, action := ["accept"], sourceTag := ["x"] }, expired := true },
       { term := { name := "default-deny".toList, action := ["deny"], logging := ["true"] } }] }

/-- A filter for IPv6 of the same network and direction. -/
def tfWeb6 : Filter :=
  { options := ["inet6", "global/networks/prod"]
    terms := [{ term := { name := "in6".toList, action := ["accept"], protocol := ["tcp"],
                          sourceAddress := [{ ver := .v6, addr := 0x20010db8 * 2 ^ 96, plen := 32 }] } }] }

/-- The rules of the two filters. -/
def tfRules : List Rule := match Tf.translate [tfWeb6, tfWeb] with | .ok rs => rs | .error _ => []

theorem tf_translated : Tf.translate [tfWeb6, tfWeb] = .ok tfRules := by rfl

theorem tfWeb6_header : Header tfWeb6.options "INGRESS" "inet6" "global/networks/prod" :=
  ⟨by decide, .inr (.inl (by decide)),
    .inr ⟨["inet6"], [], rfl, by decide, fun h => absurd (natOf_iff.2 h) (by decide), by simp [headerWords]⟩,
    by decide, tf_number (by decide)⟩

theorem tfWeb_fits : ∀ g ∈ tfWeb.terms, Live g → TfFits "inet" "INGRESS" g ∨ CatchAll g := by
  intro g hg hl
  simp only [tfWeb, List.mem_cons, List.not_mem_nil, or_false] at hg
  rcases hg with rfl | rfl | rfl | rfl
  · left
    exact
      { keywords := by decide +kernel
        priority := .inl rfl
        sane := by decide +kernel
        action := ⟨_, rfl⟩
        family := rfl
        ttl := by decide
        trafficClass := by decide
        src := by decide
        dst := by decide
        srcSide := .inr ⟨by decide, by decide, by decide, by decide, List.pairwise_singleton _ _, by
          rintro x ⟨n, hn, h⟩
          rw [List.mem_singleton.1 hn] at h
          exact absurd h.1 (by decide)⟩
        dstSide := .inl ⟨rfl, by simp⟩
        ingress := by decide
        egress := by decide
        accounts := rfl
        tags := by decide
        protos := by decide
        igmp := by decide
        ports := by decide }
  · left
    exact
      { keywords := by decide +kernel
        priority := .inr (.inl (by decide))
        sane := by decide +kernel
        action := ⟨_, rfl⟩
        family := rfl
        ttl := by decide
        trafficClass := by decide
        src := by decide
        dst := by decide
        srcSide := .inl ⟨rfl, by
          intro n hn h
          rw [List.mem_singleton.1 hn] at h
          cases h⟩
        dstSide := .inl ⟨rfl, by simp⟩
        ingress := by decide
        egress := by decide
        accounts := rfl
        tags := by decide
        protos := by decide
        igmp := by decide
        ports := by decide }
  · exact absurd hl.1 (by decide)
  · exact .inr ⟨rfl, rfl, rfl, rfl, rfl, rfl⟩

theorem tfWeb6_fits : ∀ g ∈ tfWeb6.terms, Live g → TfFits "inet6" "INGRESS" g ∨ CatchAll g := by
  intro g hg _
  simp only [tfWeb6, List.mem_cons, List.not_mem_nil, or_false] at hg
  subst hg
  left
  exact
    { keywords := by decide +kernel
      priority := .inl rfl
      sane := by decide +kernel
      action := ⟨_, rfl⟩
      family := rfl
      ttl := by decide
      trafficClass := by decide
      src := by decide +kernel
      dst := by decide
      srcSide := .inl ⟨rfl, by
        intro n hn h
        rw [List.mem_singleton.1 hn] at h ⊢
        unfold Spec.Gce.Embedded
        decide +kernel⟩
      dstSide := .inl ⟨rfl, by simp⟩
      ingress := by decide
      egress := by decide
      accounts := rfl
      tags := by decide
      protos := by decide
      igmp := by decide
      ports := by decide }

/-- The hypotheses of `C137_policy_partial` hold for a policy with a filter for each family, exclusions, tags and a default. -/
theorem tf_example {fl : Flow} (hc : Coherent fl.packet) (a : String) :
    Decides tfRules fl a ↔ PolicyDecides [tfWeb6, tfWeb] fl a :=
  C137_policy_partial tf_translated (by simp [tfWeb6, tfWeb])
    (by
      intro f hf
      simp only [List.mem_cons, List.not_mem_nil, or_false] at hf
      rcases hf with rfl | rfl
      · exact ⟨_, _, _, tfWeb6_header, tfWeb6_fits⟩
      · exact ⟨_, _, _, gceWeb_header, tfWeb_fits⟩)
    (by
      intro f hf af _
      right
      simp only [List.mem_cons, List.not_mem_nil, or_false] at hf
      rcases hf with rfl | rfl
      · exact fun g hg hl _ => (show ∀ g ∈ tfWeb6.terms, Live g → g.term.sourceTag = [] by decide) g hg hl
      · exact fun g hg hl _ => (show ∀ g ∈ tfWeb.terms, Live g → g.term.sourceTag = [] by decide) g hg hl)
    hc

/-- A flow to a web server from the excluded network: the policy denies it, which the first term would accept but for the
exclusion. -/
example : Decides tfRules gceFlow "deny" :=
  (tf_example (by decide +kernel) _).2 ((tfPolicy_iff (by
    intro f hf
    simp only [List.mem_cons, List.not_mem_nil, or_false] at hf
    rcases hf with rfl | rfl
    · exact tfWeb6_header
    · exact gceWeb_header)).2 (by decide +kernel))

/-- Sizes and priorities for the same policy. -/
example : (∀ r ∈ tfRules, Sizes r) ∧ tfRules.length = 4 := ⟨fun _ hr => C138_sizes_partial tf_translated hr, by decide +kernel⟩

example : ∀ i (hi : i < tfRules.length), tfRules[i].priority = some (i + 1) :=
  fun i hi => C140_numbered_partial tf_translated (by
    intro f hf
    simp only [List.mem_cons, List.not_mem_nil, or_false] at hf
    rcases hf with rfl | rfl
    · decide
    · decide) i hi

example : ∃ rs, Tf.translate [tfWeb] = .ok rs ∧ (rs.map Attributes).sum ≤ 500 ∧ 5 ≤ (rs.map Attributes).sum :=
  ⟨_, rfl, C138_quota (f := tfWeb) (fs := []) (N := 500) rfl (by simp [tfWeb]) (by decide) (by decide) (by
    intro s hs h
    have key : ∀ x ∈ tfWeb.options, (natOf x).isSome = true → x = toString 500 := by decide
    exact key s hs (natOf_iff.2 h)) (by simp), by decide +kernel⟩

/-- The names and descriptions of a filter whose term has a comment and an owner. -/
example : ∃ rs, Tf.translate [gceNamed] = .ok rs ∧
    rs.map Rule.name = ["prod-out-e".toList] ∧ (rs.map Rule.name).Nodup ∧ ∀ r ∈ rs, r.description = "to all Owner: me".toList := by
  have h : ∃ rs, Tf.translate [gceNamed] = .ok rs ∧ rs.map Rule.name = ["prod-out-e".toList] := ⟨_, rfl, by decide +kernel⟩
  obtain ⟨rs, h, hn⟩ := h
  refine ⟨rs, h, hn, ?_, ?_⟩
  · exact (C139_names_partial h (by simp [gceNamed]) gceOut_header (by decide) (fun hd => absurd hd (by decide))).1
  · intro r hr
    obtain ⟨g, hg, _, _, h⟩ := C141_descriptions_partial h (by simp [gceNamed]) gceOut_header (by decide) (by
      intro g hg
      rw [List.mem_singleton.1 hg]
      decide) r hr
    rw [List.mem_singleton.1 hg] at h
    rw [h]
    decide +kernel

end Verif.Props
