import Verif.Props.GcpHfLimits
import Verif.Props.GceRefuted

/-!
Concrete cases for the theorems about capirca/lib/gcp_hf.py, and the terms and headers for which C111, C112 and C114 fail.
-/

namespace Verif.Props
open Verif Verif.Spec Verif.Spec.GcpHf Verif.GcpHf Policy Aclgenerator Nacaddr

/-! ### evaluation on concrete flows -/

instance hfGivenDec (l : List Net) (s : List String) (b : String → Bool) (v : Ver) (x : Nat) : Decidable (Given l s b v x) :=
  inferInstanceAs (Decidable ((_ ∧ _) ∨ _ ∨ ∃ n ∈ s, _))

instance hfOneDec (l : List (Str × Str)) (x : Str × Str) : Decidable (OneOf l x) := inferInstanceAs (Decidable (_ ∨ _))

instance hfHitsDec (r : Rule) (f : GcpHf.Flow) : Decidable (GcpHf.Hits r f) :=
  inferInstanceAs (Decidable (_ ∧ _ ∧ (_ ∧ _) ∧ ∃ e ∈ r.entries, _))

instance hfLiveDec (g : HTerm) : Decidable (GcpHf.Live g) := inferInstanceAs (Decidable (_ ∧ (_ ∨ _) ∧ _))

instance hfFamilyDec (o : List String) (af : String) : Decidable (GcpHf.Family o af) :=
  inferInstanceAs (Decidable ((_ ∧ _ ∧ _) ∨ (_ ∧ _ ∧ _ ∧ _) ∨ (_ ∧ _ ∧ _ ∧ _)))

instance hfOfFamilyDec (af : String) (v : Ver) : Decidable (GcpHf.OfFamily af v) := inferInstanceAs (Decidable ((_ → _) ∧ (_ → _)))

instance hfEmbeddedDec (x : Nat) : Decidable (Gce.Embedded x) := inferInstanceAs (Decidable (_ ∨ _ ∨ _))

/-- A filter with the options is for the flow; for concrete cases. -/
def hfFor (f : GcpHf.Flow) (o : List String) : Bool :=
  decide (directionOf o = f.direction) &&
  ["inet", "inet6", "mixed"].any fun af => decide (GcpHf.Family o af) && decide (GcpHf.OfFamily af f.packet.ver)

theorem hfFor_iff {f : GcpHf.Flow} {o : List String} : hfFor f o = true ↔
    directionOf o = f.direction ∧ ∃ family, GcpHf.Family o family ∧ GcpHf.OfFamily family f.packet.ver := by
  unfold hfFor
  simp only [Bool.and_eq_true, decide_eq_true_eq, List.any_eq_true]
  refine and_congr Iff.rfl ⟨fun ⟨af, _, h⟩ => ⟨af, h⟩, fun ⟨af, h⟩ => ⟨af, ?_, h⟩⟩
  rcases hf_family_cases h.1 with rfl | rfl | rfl <;> decide

/-- What a term wants; for concrete cases. -/
def hfWant (f : GcpHf.Flow) (x : List String × HTerm) : Option String :=
  if hfFor f x.1 = true ∧ GcpHf.Live x.2 ∧ Matches x.2.term f.packet ∧ OneOf x.2.targets f.network then
    match x.2.term.action with
    | [w] => actionNames.lookup w
    | _ => none
  else none

theorem hf_lookup {w a : String} : actionNames.lookup w = some a ↔ (w, a) ∈ actionNames := by
  constructor
  · exact Cisco.mem_of_lookup'
  · intro h
    simp only [actionNames, List.mem_cons, Prod.mk.injEq, List.not_mem_nil, or_false] at h
    rcases h with ⟨rfl, rfl⟩ | ⟨rfl, rfl⟩ | ⟨rfl, rfl⟩ <;> rfl

theorem hfWant_iff {f : GcpHf.Flow} {x : List String × HTerm} {a : String} : GcpHf.Wants f x a ↔ hfWant f x = some a := by
  unfold hfWant GcpHf.Wants
  rw [← hfFor_iff]
  by_cases h : hfFor f x.1 = true ∧ GcpHf.Live x.2 ∧ Matches x.2.term f.packet ∧ OneOf x.2.targets f.network
  · rw [if_pos h]
    constructor
    · rintro ⟨_, _, _, w, hw, hn⟩
      rw [hw]
      exact hf_lookup.2 hn
    · intro h'
      refine ⟨h.1, h.2.1, h.2.2, ?_⟩
      split at h'
      next w hw => exact ⟨w, hw, hf_lookup.1 h'⟩
      · cases h'
  · rw [if_neg h]
    exact iff_of_false (fun h' => h ⟨h'.1, h'.2.1, h'.2.2.1⟩) (by simp)

theorem hf_findSome {L : Type} {hit : L → String → Prop} {w : L → Option String} (hw : ∀ x a, hit x a ↔ w x = some a)
    {a : String} : ∀ {l : List L}, First hit l a ↔ l.findSome? w = some a
  | [] => iff_of_false Lemmas.first_nil (by simp)
  | x :: l => by
    rw [Lemmas.first_cons, hf_findSome hw]
    simp only [hw, List.findSome?_cons]
    cases w x <;> simp

/-- The term passes the checks of the tool. -/
def HfAccepted (g : HTerm) : Prop := initCheck Verif.GcpHf.tables [(["gcp_hf"], [kterm g.term])] = .ok () ∧ sanityCheck g.term = .ok ()

instance hfAcceptedDec (g : HTerm) : Decidable (HfAccepted g) := inferInstanceAs (Decidable (_ ∧ _))

/-- The tool takes the filters; the policy decides `want` about some flow and the rules decide `got`. -/
def HfSays (fs : List GcpHf.Filter) (want got : Option String) : Prop :=
  ∃ fl out, (∀ f ∈ fs, (∃ af, GcpHf.Family f.options af) ∧ ∀ g ∈ f.terms, HfAccepted g) ∧ Coherent fl.packet ∧
    GcpHf.translate fs = .ok out ∧ (∀ a, GcpHf.PolicyDecides fs fl a ↔ want = some a) ∧ ∀ a, GcpHf.Decides out.rules fl a ↔ got = some a

/-- The decidable part. -/
def hfCheck (fs : List GcpHf.Filter) (fl : GcpHf.Flow) (want got : Option String) : Bool :=
  decide (∀ f ∈ fs, (∃ af ∈ ["inet", "inet6", "mixed"], GcpHf.Family f.options af) ∧ ∀ g ∈ f.terms, HfAccepted g) &&
  decide (Coherent fl.packet) && (allTerms fs).findSome? (hfWant fl) == want &&
  match GcpHf.translate fs with
  | .ok out => out.rules.findSome? (fun r => if GcpHf.Hits r fl then some r.action else none) == got
  | .error _ => false

theorem hf_says {fs : List GcpHf.Filter} {want got : Option String} (fl : GcpHf.Flow) (h : hfCheck fs fl want got = true) :
    HfSays fs want got := by
  unfold hfCheck at h
  split at h
  next out hrs =>
    simp only [Bool.and_eq_true, decide_eq_true_eq, beq_iff_eq] at h
    obtain ⟨⟨⟨a1, a2⟩, a3⟩, a4⟩ := h
    refine ⟨fl, out, fun f hf => ⟨?_, (a1 f hf).2⟩, a2, hrs, fun a => ?_, fun a => ?_⟩
    · obtain ⟨af, _, h⟩ := (a1 f hf).1
      exact ⟨af, h⟩
    · unfold GcpHf.PolicyDecides
      rw [hf_findSome (hit := GcpHf.Wants fl) (w := hfWant fl) (fun x a => hfWant_iff), a3]
    · unfold GcpHf.Decides
      obtain ⟨bs, _, _, _, h4⟩ := hf_translate hrs
      have hp : (out.rules.map Rule.priority).Pairwise (· < ·) := by
        rw [h4]
        exact List.pairwise_lt_range'
      rw [Lemmas.best_first (before := fun r s : Rule => r.priority < s.priority) (fun x y h1 h2 => Nat.lt_asymm h1 h2)
          (List.pairwise_map.1 hp),
        hf_findSome (w := fun r => if GcpHf.Hits r fl then some r.action else none), a4]
      intro r a
      by_cases hh : GcpHf.Hits r fl
      · simp [hh]
      · simp [hh]
  · simp at h

/-! ### concrete cases -/

/-- A filter with two terms and one for the other family; both orders of the sets are those of the default. -/
def hfDemo : List GcpHf.Filter :=
  [{ options := ["folder-policy", "INGRESS", "mixed", "200"],
     terms :=
      [{ term := { name := "web".toList, action := ["accept"], sourceAddress := [ip4 10 0 0 0 8, ip6 0x20 32],
                   protocol := ["tcp", "icmp"], destinationPort := [] },
         targets := [("project-one".toList, "net".toList)] },
       { term := { name := "ports".toList, action := ["next"], protocol := ["tcp"], destinationPort := [(80, 80), (443, 443)] } },
       { term := { name := "bad".toList, action := ["deny"], sourcePrefix := ["iplist-tor-exit-nodes"] } },
       { term := { name := "rest".toList, action := ["deny"] } }] },
   { options := ["folder-policy", "EGRESS", "200", "inet6"],
     terms :=
      [{ term := { name := "out".toList, action := ["accept"], destinationAddress := [ip6 0x20 32], protocol := ["icmpv6"] } }] }]

/-- The demonstration satisfies the hypotheses of C111, for a packet that the third rule decides. -/
example : ∃ out, GcpHf.translate hfDemo = .ok out ∧ out.rules.length = 8 ∧
    (GcpHf.Decides out.rules ⟨tcpPacket, ([], []), "INGRESS"⟩ "goto_next" ↔
      GcpHf.PolicyDecides hfDemo ⟨tcpPacket, ([], []), "INGRESS"⟩ "goto_next") := by
  have h : (GcpHf.translate hfDemo).toOption.isSome = true := by decide +kernel
  cases hx : GcpHf.translate hfDemo with
  | error e => rw [hx] at h; cases h
  | ok out =>
    refine ⟨out, rfl, ?_, ?_⟩
    · have : (GcpHf.translate hfDemo).toOption.map (fun o => o.rules.length) = some 8 := by decide +kernel
      rw [hx] at this
      exact Option.some.inj this
    · have fam : ∀ f ∈ hfDemo, ∀ af, GcpHf.Family f.options af → (f.options, af) ∈
          [(["folder-policy", "INGRESS", "mixed", "200"], "mixed"), (["folder-policy", "EGRESS", "200", "inet6"], "inet6")] := by
        intro f hf af ha
        simp only [hfDemo, List.mem_cons, List.not_mem_nil, or_false] at hf
        rcases hf with rfl | rfl
        · rw [hf_family_unique ha (show GcpHf.Family ["folder-policy", "INGRESS", "mixed", "200"] "mixed" by decide)]; simp
        · rw [hf_family_unique ha (show GcpHf.Family ["folder-policy", "EGRESS", "200", "inet6"] "inet6" by decide)]; simp
      refine C111_partial hx ?_ ?_ ?_ ?_ (by decide +kernel) (by decide)
      · intro f hf
        simp only [hfDemo, List.mem_cons, List.not_mem_nil, or_false] at hf
        rcases hf with rfl | rfl <;> exact List.Perm.refl _
      · intro f hf
        simp only [hfDemo, List.mem_cons, List.not_mem_nil, or_false] at hf
        rcases hf with rfl | rfl
        · exact ⟨"mixed", by decide⟩
        · exact ⟨"inet6", by decide⟩
      · intro f hf af ha g hg _
        have h2 := fam f hf af ha
        simp only [hfDemo, List.mem_cons, List.not_mem_nil, or_false] at hf
        rcases hf with rfl | rfl
        · have : af = "mixed" := by simpa using h2
          subst this
          simp only [List.mem_cons, List.not_mem_nil, or_false] at hg
          rcases hg with rfl | rfl | rfl | rfl <;>
          exact ⟨by decide +kernel, by decide +kernel, ⟨_, rfl⟩, rfl, by decide, by decide,
            fun _ => ⟨⟨rfl, rfl⟩, by decide +kernel, by decide +kernel, by decide, by decide⟩,
            fun h => absurd h (by decide), by decide, by decide⟩
        · have : af = "inet6" := by simpa using h2
          subst this
          simp only [List.mem_cons, List.not_mem_nil, or_false] at hg
          subst hg
          exact ⟨by decide +kernel, by decide +kernel, ⟨_, rfl⟩, rfl, by decide, by decide,
            fun h => absurd h (by decide),
            fun _ => ⟨⟨rfl, rfl⟩, by decide +kernel, by decide +kernel, by decide, by decide⟩, by decide, by decide⟩
      · intro f hf af ha hd g hg _ _
        have h2 := fam f hf af ha
        simp only [hfDemo, List.mem_cons, List.not_mem_nil, or_false] at hf
        rcases hf with rfl | rfl
        · have : af = "mixed" := by simpa using h2
          subst this
          decide
        · exact absurd hd (by decide)

/-- It satisfies the hypotheses of C112 and C114. -/
example : ∃ out, GcpHf.translate hfDemo = .ok out ∧ (out.rules.map Cost).sum ≤ 200 ∧ out.shortName = some "folder-policy" := by
  have h : (GcpHf.translate hfDemo).toOption.isSome = true := by decide +kernel
  cases hx : GcpHf.translate hfDemo with
  | error e => rw [hx] at h; cases h
  | ok out =>
    have ho : ∀ f ∈ hfDemo, Orders f := by
      intro f hf
      simp only [hfDemo, List.mem_cons, List.not_mem_nil, or_false] at hf
      rcases hf with rfl | rfl <;> exact ⟨List.Perm.refl _, List.Perm.refl _⟩
    have hb : ∀ f ∈ hfDemo, "beta" ∉ f.options := by decide
    refine ⟨out, rfl, ?_, ?_⟩
    · have hm : ∀ f ∈ hfDemo, Maximum f.options 200 := by
        intro f hf
        have key : ∀ s ∈ ["folder-policy", "INGRESS", "EGRESS", "mixed", "inet6"], ¬ (Gce.natOf s).isSome = true := by decide
        simp only [hfDemo, List.mem_cons, List.not_mem_nil, or_false] at hf
        rcases hf with rfl | rfl <;>
        · refine .inr ⟨by decide, fun s hs hn => ?_⟩
          have hn := natOf_iff.2 hn
          simp only [List.mem_cons, List.not_mem_nil, or_false] at hs
          rcases hs with rfl | rfl | rfl | rfl <;> first | rfl | exact absurd hn (by decide)
      obtain ⟨n, h1, h2, _⟩ := C112_partial hx (by decide) ho (fun f hf => ⟨200, hm f hf⟩) (fun f hf h => absurd h (hb f hf))
      exact (h1 _ (List.mem_cons_self ..) 200 (hm _ (List.mem_cons_self ..))).symm ▸ h2
    · obtain ⟨n, h1, _, _, _, _, h2⟩ := C114_ga_partial hx (by decide) ho hb
      have : (GcpHf.translate hfDemo).toOption.bind (fun o => o.shortName) = some "folder-policy" := by decide +kernel
      rw [hx] at this
      exact this

/-- It satisfies the hypothesis of C113; a policy for the beta version that satisfies those of C112 and C114. -/
example : (∃ out, GcpHf.translate hfDemo = .ok out ∧ ∀ r ∈ out.rules, GcpHf.WithinLimits r) ∧
    ∃ out, GcpHf.translate [{ options := ["one", "beta"], terms := [{ term :=
        { name := "t".toList, action := ["accept"], protocol := ["tcp"] } }] }] = .ok out ∧
      out.rules.length = 1 ∧ (out.rules.map Cost).sum ≤ 100 ∧ out.displayName = some "one" := by
  constructor
  · have h : (GcpHf.translate hfDemo).toOption.isSome = true := by decide +kernel
    cases hx : GcpHf.translate hfDemo with
    | error e => rw [hx] at h; cases h
    | ok out => exact ⟨out, rfl, (C113_limits hx).1⟩
  · refine ⟨_, rfl, by decide, ?_, rfl⟩
    have ho : ∀ f ∈ [({ options := ["one", "beta"], terms := [{ term :=
        { name := "t".toList, action := ["accept"], protocol := ["tcp"] } }] } : GcpHf.Filter)], Orders f := by
      intro f hf
      simp only [List.mem_cons, List.not_mem_nil, or_false] at hf
      subst hf
      exact ⟨List.Perm.refl _, List.Perm.refl _⟩
    have hm : Maximum ["one", "beta"] 100 := by
      refine .inl ⟨fun s hs hn => ?_, rfl⟩
      have hn := natOf_iff.2 hn
      simp only [List.mem_cons, List.not_mem_nil, or_false] at hs
      rcases hs with rfl | rfl <;> exact absurd hn (by decide)
    obtain ⟨n, h1, h2, _⟩ := C112_partial rfl (by decide) ho
      (fun f hf => ⟨100, (List.mem_singleton.1 hf).symm ▸ hm⟩) (by decide)
    exact (h1 _ (List.mem_cons_self ..) 100 hm).symm ▸ h2

/-! ### refutations -/

/-- C111 is false for destination addresses in a filter for incoming packets, and for source addresses in one for outgoing
packets: they have no effect. -/
theorem C111_refuted_side :
    HfSays [{ options := ["p"], terms := [{ term :=
        { name := "t".toList, action := ["accept"], destinationAddress := [ip4 11 0 0 0 8], protocol := ["tcp"] } }] }]
      none (some "allow") ∧
    HfSays [{ options := ["p", "EGRESS"], terms := [{ term :=
        { name := "t".toList, action := ["accept"], sourceAddress := [ip4 11 0 0 0 8], protocol := ["tcp"] } }] }]
      none (some "allow") :=
  ⟨hf_says ⟨tcpPacket, ([], []), "INGRESS"⟩ (by decide +kernel), hf_says ⟨tcpPacket, ([], []), "EGRESS"⟩ (by decide +kernel)⟩

/-- The same for the lists of threat intelligence. -/
theorem C111_refuted_lists :
    HfSays [{ options := ["p"], terms := [{ term :=
        { name := "t".toList, action := ["accept"], destinationPrefix := ["iplist-public-clouds-gcp"], protocol := ["tcp"] } }] }]
      none (some "allow") := hf_says ⟨tcpPacket, ([], []), "INGRESS"⟩ (by decide +kernel)

/-- C111 is false for addresses together with lists of threat intelligence: one of them suffices. -/
theorem C111_refuted_both :
    HfSays [{ options := ["p"], terms := [{ term :=
        { name := "t".toList, action := ["accept"], sourceAddress := [ip4 192 0 0 0 8],
          sourcePrefix := ["iplist-public-clouds-gcp"], protocol := ["tcp"] } }] }]
      none (some "allow") := hf_says ⟨tcpPacket, ([], []), "INGRESS"⟩ (by decide +kernel)

/-- C111 is false for ports without protocols: they have no effect. -/
theorem C111_refuted_ports :
    HfSays [{ options := ["p"], terms := [{ term :=
        { name := "t".toList, action := ["accept"], destinationPort := [(443, 443)] } }] }]
      none (some "allow") := hf_says ⟨tcpPacket, ([], []), "INGRESS"⟩ (by decide +kernel)

/-- C111 is false for terms restricted to a family, here IPv6: they are rendered for the other, too. -/
theorem C111_refuted_restrict :
    HfSays [{ options := ["p", "mixed"], terms := [{ term :=
        { name := "t".toList, action := ["accept"], protocol := ["tcp"], restrictAddressFamily := some "inet6" } }] }]
      none (some "allow") := hf_says ⟨tcpPacket, ([], []), "INGRESS"⟩ (by decide +kernel)

/-- C111 is false for IPv6 addresses that stand for IPv4 addresses: a rule to deny them is left out. -/
theorem C111_refuted_embedded :
    HfSays [{ options := ["p", "inet6"], terms :=
      [{ term := { name := "t".toList, action := ["deny"], protocol := ["tcp"],
                   sourceAddress := [{ ver := .v6, addr := 0x20020000000000000000000000000000, plen := 16 }] } },
       { term := { name := "u".toList, action := ["accept"], protocol := ["tcp"] } }] }]
      (some "deny") (some "allow") :=
  hf_says ⟨{ gce6 with src := 0x20020db8000000000000000000000001 }, ([], []), "INGRESS"⟩ (by decide +kernel)

/-- C111 is false for lists of threat intelligence with `icmpv6` in a filter of both families: the term is left out. -/
theorem C111_refuted_icmpv6 :
    HfSays [{ options := ["p", "mixed"], terms :=
      [{ term := { name := "t".toList, action := ["deny"], protocol := ["icmpv6"], sourcePrefix := ["iplist-tor-exit-nodes"] } },
       { term := { name := "u".toList, action := ["accept"], protocol := ["icmpv6"] } }] }]
      (some "deny") (some "allow") :=
  hf_says ⟨{ gce6 with proto := "icmpv6", inSrcPrefix := fun _ => true }, ([], []), "INGRESS"⟩ (by decide +kernel)

/-- C111 is false for lists of threat intelligence in a filter of one family: the rule is for the other, too. -/
theorem C111_refuted_other :
    HfSays [{ options := ["p", "inet"], terms :=
      [{ term := { name := "t".toList, action := ["deny"], protocol := ["tcp"], sourcePrefix := ["iplist-tor-exit-nodes"] } }] },
       { options := ["p", "inet6"], terms := [{ term := { name := "u".toList, action := ["accept"], protocol := ["tcp"] } }] }]
      (some "allow") (some "deny") :=
  hf_says ⟨{ gce6 with inSrcPrefix := fun _ => true }, ([], []), "INGRESS"⟩ (by decide +kernel)

/-- C111 is false for `ipip`: the term passes the checks and makes the generator fail. -/
theorem C111_refuted_ipip : ∃ g : HTerm, HfAccepted g ∧ g.term.protocol = ["ipip"] ∧
    GcpHf.translate [{ options := ["p"], terms := [g] }] = .error .keyError :=
  ⟨{ term := { name := "t".toList, action := ["accept"], protocol := ["ipip"] } }, by decide +kernel, rfl, by rfl⟩

/-- C111 is false for headers with two families: which of them counts depends on the order of a set. -/
theorem C111_refuted_families : ∃ (f : GcpHf.Filter) (o1 o2 : List String) (x y : GcpHf.Out), o1.Perm o2 ∧
    o1.Perm ["inet", "inet6", "mixed"] ∧ GcpHf.translate [{ f with families := o1 }] = .ok x ∧
    GcpHf.translate [{ f with families := o2 }] = .ok y ∧ x.rules.length = 1 ∧ y.rules.length = 2 :=
  ⟨{ options := ["p", "inet", "mixed"], terms := [{ term := { name := "t".toList, action := ["accept"], protocol := ["tcp"] } }] },
    ["mixed", "inet6", "inet"], ["inet", "inet6", "mixed"], _, _, by decide, by decide, rfl, rfl, by decide, by decide⟩

/-- C112 is false for the beta version: the lists of threat intelligence are not counted. -/
theorem C112_refuted : ∃ (f : GcpHf.Filter) (out : GcpHf.Out), (∀ g ∈ f.terms, HfAccepted g) ∧ Maximum f.options 2 ∧
    GcpHf.translate [f] = .ok out ∧ (out.rules.map Cost).sum = 8 := by
  refine ⟨{ options := ["p", "beta", "2"], terms := [{ term :=
      { name := "t".toList, action := ["deny"], sourcePrefix := threatLists } }] }, _, by decide +kernel, ?_, rfl, by decide⟩
  refine .inr ⟨by decide, fun s hs hn => ?_⟩
  have hn := natOf_iff.2 hn
  simp only [List.mem_cons, List.not_mem_nil, or_false] at hs
  rcases hs with rfl | rfl | rfl
  · exact absurd hn (by decide)
  · exact absurd hn (by decide)
  · rfl

/-- C114 is false for headers of different versions: the policy has two names. -/
theorem C114_refuted : ∃ (fs : List GcpHf.Filter) (out : GcpHf.Out), GcpHf.translate fs = .ok out ∧
    out.displayName = some "one" ∧ out.shortName = some "two" :=
  ⟨[{ options := ["one", "beta"] }, { options := ["two", "ga"] }], _, rfl, rfl, rfl⟩

end Verif.Props
