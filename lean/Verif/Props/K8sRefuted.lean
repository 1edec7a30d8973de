import Verif.Props.K8s
import Verif.Props.OpenConfigRefuted

/-!
Concrete cases for the theorems about capirca/lib/k8s.py, and the terms and filters for which C83, C84 and C85 fail.
-/

namespace Verif.Props
open Verif Verif.Spec Verif.Spec.K8s Verif.K8s Policy Aclgenerator Nacaddr

/-! ### evaluation on concrete flows -/

instance k8sPeerDec (b : Peer) (v : Ver) (x : Nat) : Decidable (PeerHits b v x) :=
  inferInstanceAs (Decidable (_ ∧ ∀ e ∈ b.except, _))

instance k8sSelDec (s : PortSel) (p : Packet) : Decidable (SelHits s p) :=
  decidable_of_iff ((∃ e ∈ selNames, e.1 = s.protocol ∧ Flat.NumberIs p (e.2 : Int)) ∧
    Flat.IfSet s.range fun r => r.1 ≤ p.dport ∧ p.dport ≤ r.2) <| by
    refine and_congr ⟨?_, ?_⟩ Iff.rfl
    · rintro ⟨e, he, h, hn⟩
      exact ⟨e.2, h ▸ he, hn⟩
    · rintro ⟨k, hk, hn⟩
      exact ⟨_, hk, rfl, hn⟩

instance k8sRuleDec (r : Rule) (f : Flow) : Decidable (RuleHits r f) :=
  inferInstanceAs (Decidable ((_ ∨ ∃ s ∈ r.ports, _) ∧ (_ ∨ ∃ b ∈ r.peers, _)))

instance k8sLiveDec (g : PTerm) : Decidable (Live g) := inferInstanceAs (Decidable (_ ∧ _ ∧ (_ ∨ _) ∧ _))

/-- The objects that are not replaced; for concrete cases. -/
def k8sStay : List Object → List Object
  | [] => []
  | o :: os => if os.any fun q => q.name == o.name then k8sStay os else o :: k8sStay os

theorem k8sStay_iff {o : Object} : ∀ {os : List Object}, Stays o os ↔ o ∈ k8sStay os
  | [] => by simp [Stays, k8sStay]
  | x :: os => by
    have ih := k8sStay_iff (o := o) (os := os)
    have : Stays o (x :: os) ↔ (o = x ∧ ∀ q ∈ os, q.name ≠ x.name) ∨ Stays o os := by
      constructor
      · rintro ⟨a, b, e, h⟩
        cases a with
        | nil =>
          obtain ⟨rfl, rfl⟩ := List.cons.inj e
          exact .inl ⟨rfl, h⟩
        | cons y a =>
          obtain ⟨rfl, rfl⟩ := List.cons.inj e
          exact .inr ⟨a, b, rfl, h⟩
      · rintro (⟨rfl, h⟩ | ⟨a, b, rfl, h⟩)
        · exact ⟨[], os, rfl, h⟩
        · exact ⟨x :: a, b, rfl, h⟩
    rw [this, ih, k8sStay]
    split
    next h =>
      simp only [List.any_eq_true, beq_iff_eq] at h
      obtain ⟨q, hq, e⟩ := h
      exact ⟨fun h => h.resolve_left fun h => h.2 q hq e, .inr⟩
    next h =>
      simp only [List.any_eq_true, beq_iff_eq, not_exists, not_and] at h
      rw [List.mem_cons]
      exact or_congr ⟨And.left, fun e => ⟨e, h⟩⟩ Iff.rfl

/-- Whether the cluster lets the flow pass; for concrete cases. -/
def k8sAllowed (os : List Object) (f : Flow) : Bool :=
  (k8sStay os).all (fun o => o.direction != f.direction) ||
  (k8sStay os).any fun o => o.direction == f.direction && match o.rule with
    | some r => decide (RuleHits r f)
    | none => false

theorem k8sAllowed_iff {os : List Object} {f : Flow} : Allowed os f ↔ k8sAllowed os f = true := by
  unfold Allowed k8sAllowed
  simp only [k8sStay_iff, Bool.or_eq_true, List.all_eq_true, bne_iff_ne, List.any_eq_true, Bool.and_eq_true, beq_iff_eq]
  refine or_congr Iff.rfl (exists_congr fun o => and_congr Iff.rfl (and_congr Iff.rfl ?_))
  cases o.rule <;> simp

/-- What a term wants; for concrete cases. -/
def k8sWant (p : Packet) (g : PTerm) : Option String :=
  if Live g ∧ Matches g.term p then if g.term.action = ["accept"] then some "accept" else g.term.action.head?.filter fun a => g.term.action = [a] else none

theorem k8sWant_iff {p : Packet} {g : PTerm} {a : String} : K8s.Wants p g a ↔ k8sWant p g = some a := by
  unfold k8sWant K8s.Wants
  by_cases h : Live g ∧ Matches g.term p
  · rw [if_pos h]
    split
    next e => simp [e, h.1, h.2, eq_comm]
    · cases ha : g.term.action with
      | nil => simp
      | cons x l =>
        simp only [List.head?_cons, Option.filter_some, h.1, h.2, true_and]
        constructor
        · intro e
          obtain ⟨rfl, rfl⟩ := List.cons.inj e
          simp
        · intro e
          split at e
          next hx =>
            have := Option.some.inj e
            subst this
            simpa using hx
          · cases e
  · rw [if_neg h]
    exact iff_of_false (fun h' => h ⟨h'.1, h'.2.1⟩) (by simp)

theorem k8sAccepts_iff {p : Packet} : ∀ {gs : List PTerm}, Accepts gs p ↔ gs.findSome? (k8sWant p) = some "accept"
  | [] => iff_of_false Lemmas.first_nil (by simp)
  | g :: gs => by
    have ih := k8sAccepts_iff (p := p) (gs := gs)
    unfold Accepts at ih ⊢
    rw [Lemmas.first_cons, ih]
    simp only [k8sWant_iff, List.findSome?_cons]
    cases k8sWant p g <;> simp

/-- The term passes the checks of the tool. -/
def K8sAccepted (g : PTerm) : Prop := initCheck K8s.tables [(["k8s"], [kterm g.term])] = .ok () ∧ sanityCheck g.term = .ok ()

instance k8sAcceptedDec (g : PTerm) : Decidable (K8sAccepted g) := inferInstanceAs (Decidable (_ ∧ _))

/-- The tool takes the filters; the first one accepts some flow of its direction or not, and the cluster lets it pass or
not. -/
def K8sSays (f : Filter) (fs : List Filter) (want got : Bool) : Prop :=
  ∃ fl os, (∀ x ∈ f :: fs, ∀ g ∈ x.terms, K8sAccepted g) ∧ Coherent fl.packet ∧ Direction f.options fl.direction ∧
    translate (f :: fs) = .ok os ∧ (Accepts f.terms fl.packet ↔ want = true) ∧ (Allowed os fl ↔ got = true)

/-- The decidable part. -/
def k8sCheck (f : Filter) (fs : List Filter) (fl : Flow) (want got : Bool) : Bool :=
  decide (∀ x ∈ f :: fs, ∀ g ∈ x.terms, K8sAccepted g) && decide (Coherent fl.packet) && directionOf f.options == fl.direction &&
  (f.terms.findSome? (k8sWant fl.packet) == some "accept") == want &&
  match translate (f :: fs) with
  | .ok os => k8sAllowed os fl == got
  | .error _ => false

theorem k8s_says {f : Filter} {fs : List Filter} {want got : Bool} (fl : Flow) (h : k8sCheck f fs fl want got = true) :
    K8sSays f fs want got := by
  unfold k8sCheck at h
  split at h
  next os hos =>
    simp only [Bool.and_eq_true, decide_eq_true_eq, beq_iff_eq] at h
    obtain ⟨⟨⟨⟨h1, h2⟩, h3⟩, h4⟩, h5⟩ := h
    refine ⟨fl, os, h1, h2, h3 ▸ direction_spec _, hos, ?_, ?_⟩
    · rw [k8sAccepts_iff, ← h4]
      exact beq_iff_eq.symm
    · rw [k8sAllowed_iff, h5]
  next => simp at h

/-! ### C83 -/

/-- The term that denies the rest. -/
def k8sDeny : PTerm := { term := { name := "default-deny".toList, action := ["deny"] } }

/-- A flow from 10.0.0.1. -/
def k8sIn : Flow := { packet := { tcpPacket with src := 0x0a000001 } }

/-- C83 is false for a term that accepts after the default deny: the order has no effect. -/
theorem C83_refuted_order : K8sSays { terms := [k8sDeny, { term := { name := "web".toList, action := ["accept"], sourceAddress := [ip4 10 0 0 0 8] } }] }
    [] false true := k8s_says k8sIn (by decide +kernel)

/-- C83 is false for a filter of which nothing is left: its only term has no addresses after the exclusions, no object is
written, and everything is allowed. -/
theorem C83_refuted_empty : K8sSays { terms := [{ term := { name := "web".toList, action := ["accept"], sourceAddress := [ip4 10 0 0 0 8], sourceAddressExclude := [ip4 10 0 0 0 8] } }] }
    [] false true := k8s_says k8sIn (by decide +kernel)

/-- C83 is false for a filter whose only term has expired: no object is written, and everything is allowed. -/
theorem C83_refuted_expired : K8sSays { terms := [{ expired := true, term := { name := "web".toList, action := ["accept"], sourceAddress := [ip4 10 0 0 0 8] } }] }
    [] false true := k8s_says k8sIn (by decide +kernel)

/-- C83 is false for terms with tags, which are ignored. -/
theorem C83_refuted_tags : K8sSays { terms := [{ term := { name := "web".toList, action := ["accept"], sourceAddress := [ip4 10 0 0 0 8], sourceTag := ["web"] } }] }
    [] false true := k8s_says k8sIn (by decide +kernel)

/-- C83 is false for terms of one address family, which is ignored. -/
theorem C83_refuted_family : K8sSays { terms := [{ term := { name := "web".toList, action := ["accept"], sourceAddress := [ip4 10 0 0 0 8], restrictAddressFamily := some "inet6" } }] }
    [] false true := k8s_says k8sIn (by decide +kernel)

/-- C83 is false for ports without protocols, which are ignored. -/
theorem C83_refuted_ports : K8sSays { terms := [{ term := { name := "web".toList, action := ["accept"], sourceAddress := [ip4 10 0 0 0 8], destinationPort := [(9999, 9999)] } }] }
    [] false true := k8s_says k8sIn (by decide +kernel)

/-- C83 is false for excluded destinations in an ingress filter, which are ignored. -/
theorem C83_refuted_exclude : K8sSays { terms := [{ term := { name := "web".toList, action := ["accept"], sourceAddress := [ip4 10 0 0 0 8], destinationAddressExclude := [ip4 0 0 0 0 0] } }] }
    [] false true := k8s_says k8sIn (by decide +kernel)

/-- C83 is false for an ingress and an egress filter with terms whose names become the same: the second object replaces the
first, and what the first accepts does not pass. -/
theorem C83_refuted_names : K8sSays { terms := [{ term := { name := "web-e".toList, action := ["accept"], sourceAddress := [ip4 10 0 0 0 8] } }, k8sDeny] }
    [{ options := ["EGRESS"], terms := [{ term := { name := "web".toList, action := ["accept"], destinationAddress := [ip4 10 0 0 0 8] } }] }]
    true false := k8s_says k8sIn (by decide +kernel)

/-- C83 is false for two filters of one direction: what one denies the other lets pass. -/
theorem C83_refuted_filters : K8sSays { terms := [k8sDeny] }
    [{ terms := [{ term := { name := "web".toList, action := ["accept"], sourceAddress := [ip4 10 0 0 0 8] } }] }]
    false true := k8s_says k8sIn (by decide +kernel)

/-! ### C84 -/

theorem not_dnsName {s : Str} (h : DnsName s) : ¬ ∃ a b, s = a ++ '.' :: '.' :: b := by
  have hno : ∀ s, Label s → '.' ∉ s := by
    intro s h hm
    rcases h.1 _ hm with h | h
    · exact absurd h (by unfold Alnum; decide)
    · exact absurd h (by decide)
  have hfirst : ∀ {t}, DnsName t → ∀ b, t ≠ '.' :: b := by
    intro t h b e
    cases h with
    | one h => exact hno _ h (by rw [e]; simp)
    | @more s t h h' =>
      cases s with
      | nil =>
        obtain ⟨c, hc, _⟩ := h.2.1
        cases hc
      | cons c s => exact hno _ h (by rw [(List.cons.inj e).1]; simp)
  induction h with
  | one h =>
    rintro ⟨a, b, rfl⟩
    exact hno _ h (by simp)
  | @more s t h h' ih =>
    rintro ⟨a, b, e⟩
    rcases List.append_eq_append_iff.1 e with ⟨z, rfl, e1⟩ | ⟨z, rfl, e1⟩
    · cases z with
      | nil => exact hfirst h' b (List.cons.inj e1).2
      | cons c z => exact ih ⟨z, b, (List.cons.inj e1).2⟩
    · cases z with
      | nil => exact hfirst h' b (List.cons.inj e1).2.symm
      | cons c z => exact hno _ h (by rw [← (List.cons.inj e1).1]; simp)

/-- The tool takes the term and writes an object that the cluster does not take. -/
def K8sBad (g : PTerm) : Prop := K8sAccepted g ∧ ∃ o, translate [{ terms := [g] }] = .ok [o] ∧ ¬ Valid o

/-- The object the tool writes. -/
def k8sObject (g : PTerm) : Option Object :=
  match translate [{ terms := [g] }] with
  | .ok [o] => some o
  | _ => none

theorem k8s_bad {g : PTerm} (o : Object) (h : K8sAccepted g ∧ k8sObject g = some o) (hv : ¬ Valid o) : K8sBad g := by
  refine ⟨h.1, o, ?_, hv⟩
  have h := h.2
  unfold k8sObject at h
  split at h
  next heq =>
    cases h
    exact heq
  · cases h

/-- C84 is false for names with empty labels. -/
theorem C84_refuted_name : K8sBad { term := { name := "a..b".toList, action := ["accept"], sourceAddress := [ip4 10 0 0 0 8] } } :=
  k8s_bad ⟨"a..b".toList, none, none, "INGRESS", some ⟨[], [⟨ip4 10 0 0 0 8, []⟩]⟩⟩ (by decide +kernel)
    fun h => not_dnsName h.name.1 ⟨"a".toList, "b".toList, by decide⟩

/-- C84 is false for excluded addresses that are not inside all included ones. -/
theorem C84_refuted_outside : K8sBad { term := { name := "web".toList, action := ["accept"], sourceAddress := [ip4 10 0 0 0 8, ip4 192 168 0 0 16], sourceAddressExclude := [ip4 10 1 0 0 16] } } :=
  k8s_bad ⟨"web".toList, none, none, "INGRESS", some ⟨[], [⟨ip4 10 0 0 0 8, [ip4 10 1 0 0 16]⟩, ⟨ip4 192 168 0 0 16, [ip4 10 1 0 0 16]⟩]⟩⟩
    (by decide +kernel) fun h => absurd (h.blocks _ rfl ⟨ip4 192 168 0 0 16, [ip4 10 1 0 0 16]⟩ (by decide)) (by unfold BlockOk; decide)

/-- C84 is false for excluded addresses that are equal to an included one. -/
theorem C84_refuted_equal : K8sBad { term := { name := "web".toList, action := ["accept"], sourceAddress := [ip4 10 0 0 0 16, ip4 10 1 0 0 16], sourceAddressExclude := [ip4 10 1 0 0 16] } } :=
  k8s_bad ⟨"web".toList, none, none, "INGRESS", some ⟨[], [⟨ip4 10 0 0 0 16, [ip4 10 1 0 0 16]⟩, ⟨ip4 10 1 0 0 16, [ip4 10 1 0 0 16]⟩]⟩⟩
    (by decide +kernel) fun h => absurd (h.blocks _ rfl ⟨ip4 10 1 0 0 16, [ip4 10 1 0 0 16]⟩ (by decide)) (by unfold BlockOk; decide)

/-- C84 is false for ranges of ports that begin with 0. -/
theorem C84_refuted_port : K8sBad { term := { name := "web".toList, action := ["accept"], sourceAddress := [ip4 10 0 0 0 8], protocol := ["tcp"], destinationPort := [(0, 65535)] } } :=
  k8s_bad ⟨"web".toList, none, none, "INGRESS", some ⟨[⟨"TCP", some (0, 65535)⟩], [⟨ip4 10 0 0 0 8, []⟩]⟩⟩ (by decide +kernel)
    fun h => absurd ((h.selectors _ rfl ⟨"TCP", some (0, 65535)⟩ (by decide)).2 _ rfl) (by decide)

/-- C84 is false for protocols that are numbers. -/
theorem C84_refuted_number : K8sBad { term := { name := "web".toList, action := ["accept"], sourceAddress := [ip4 10 0 0 0 8], protocol := ["1"] } } :=
  k8s_bad ⟨"web".toList, none, none, "INGRESS", some ⟨[⟨"1", none⟩], [⟨ip4 10 0 0 0 8, []⟩]⟩⟩ (by decide +kernel)
    fun h => absurd (h.selectors _ rfl ⟨"1", none⟩ (by decide)).1 (by decide)

/-- C84 is false for the protocol `all`, which the tool lists as supported. -/
theorem C84_refuted_all : K8sBad { term := { name := "web".toList, action := ["accept"], sourceAddress := [ip4 10 0 0 0 8], protocol := ["all"] } } :=
  k8s_bad ⟨"web".toList, none, none, "INGRESS", some ⟨[⟨"ALL", none⟩], [⟨ip4 10 0 0 0 8, []⟩]⟩⟩ (by decide +kernel)
    fun h => absurd (h.selectors _ rfl ⟨"ALL", none⟩ (by decide)).1 (by decide)

/-! ### C85 -/

/-- C85 is false for two filters: the names are compared in each filter only. -/
theorem C85_refuted_filters : ∃ f f' os, (∀ g ∈ f.terms ++ f'.terms, K8sAccepted g) ∧ translate [f, f'] = .ok os ∧
    ¬ (os.map Object.name).Nodup :=
  ⟨{ terms := [k8sDeny] }, { terms := [k8sDeny] }, [⟨"default-deny".toList, none, none, "INGRESS", none⟩, ⟨"default-deny".toList, none, none, "INGRESS", none⟩],
    by decide +kernel, by decide +kernel, by decide +kernel⟩

/-- C85 is false for an ingress and an egress filter. -/
theorem C85_refuted_directions : ∃ f f' os, (∀ g ∈ f.terms ++ f'.terms, K8sAccepted g) ∧
    ¬ ("EGRESS" ∈ f.options ↔ "EGRESS" ∈ f'.options) ∧ translate [f, f'] = .ok os ∧ ¬ (os.map Object.name).Nodup :=
  ⟨{ terms := [{ term := { name := "web-e".toList, action := ["deny"] } }] },
    { options := ["EGRESS"], terms := [{ term := { name := "web".toList, action := ["deny"] } }] },
    [⟨"web-e".toList, none, none, "INGRESS", none⟩, ⟨"web-e".toList, none, none, "EGRESS", none⟩],
    by decide +kernel, by decide +kernel, by decide +kernel, by decide +kernel⟩

/-! ### concrete cases -/

/-- A filter with exclusions, ports, a term for another platform and a default deny. -/
def k8sWeb : Filter :=
  { comment := ["the".toList, "policy".toList]
    terms := [
      { owner := some "me".toList, comment := ["web".toList, "traffic".toList], term := { name := "web".toList, action := ["accept"], sourceAddress := [ip4 10 0 0 0 8], sourceAddressExclude := [ip4 10 1 0 0 16], protocol := ["tcp"], destinationPort := [(80, 80), (8000, 8080)] } },
      { term := { name := "other".toList, action := ["reject"], platform := ["cisco"] } },
      { term := { name := "dns".toList, action := ["accept"], sourceAddress := [ip4 10 0 0 0 8], protocol := ["udp"], destinationPort := [(53, 53)] } },
      k8sDeny] }

/-- The other direction. -/
def k8sOut : Filter :=
  { options := ["EGRESS"]
    terms := [{ term := { name := "web".toList, action := ["accept"], destinationAddress := [ip4 10 2 0 0 16], protocol := ["tcp"] } }] }

/-- The objects of both. -/
def k8sObjects : List Object :=
  [⟨"web".toList, some "web traffic".toList, some "me".toList, "INGRESS", some ⟨[⟨"TCP", some (80, 80)⟩, ⟨"TCP", some (8000, 8080)⟩], [⟨ip4 10 0 0 0 8, [ip4 10 1 0 0 16]⟩]⟩⟩,
   ⟨"dns".toList, some "the policy".toList, none, "INGRESS", some ⟨[⟨"UDP", some (53, 53)⟩], [⟨ip4 10 0 0 0 8, []⟩]⟩⟩,
   ⟨"default-deny".toList, some "the policy".toList, none, "INGRESS", none⟩,
   ⟨"web-e".toList, none, none, "EGRESS", some ⟨[⟨"TCP", none⟩], [⟨ip4 10 2 0 0 16, []⟩]⟩⟩]

theorem k8sWeb_out : translate [k8sWeb, k8sOut] = .ok k8sObjects := by decide +kernel

theorem k8sWeb_fits : ∀ g ∈ k8sWeb.terms, Live g → K8sFits "INGRESS" g := by
  intro g hg hl
  simp only [k8sWeb, List.mem_cons, List.not_mem_nil, or_false] at hg
  rcases hg with rfl | rfl | rfl | rfl
  · exact ⟨by decide +kernel, by decide +kernel, .inl rfl, rfl, ⟨rfl, rfl, by decide, by decide⟩, by decide, by decide, ⟨fun _ => rfl, fun h => absurd h (by decide)⟩, by decide, by decide⟩
  · exact absurd hl (by decide)
  · exact ⟨by decide +kernel, by decide +kernel, .inl rfl, rfl, ⟨rfl, rfl, by decide, by decide⟩, by decide, by decide, ⟨fun _ => rfl, fun h => absurd h (by decide)⟩, by decide, by decide⟩
  · exact ⟨by decide +kernel, by decide +kernel, .inr rfl, rfl, ⟨rfl, rfl, by decide, by decide⟩, by decide, by decide, ⟨fun _ => rfl, fun h => absurd h (by decide)⟩, by decide, by decide⟩

/-- The cluster does with the objects what the ingress filter says; one flow passes and another does not. -/
example : (∀ p, Allowed k8sObjects { packet := p } ↔ Accepts k8sWeb.terms p) ∧
    Accepts k8sWeb.terms { tcpPacket with src := 0x0a000001, dport := 8001 } ∧
    ¬ Accepts k8sWeb.terms { tcpPacket with src := 0x0a010001, dport := 8001 } := by
  refine ⟨fun p => ?_, ?_, ?_⟩
  · refine C83_policy_partial (pre := []) (f := k8sWeb) (post := [k8sOut]) (fl := { packet := p }) k8sWeb_out rfl ?_ k8sWeb_fits ?_ ?_
    · intro f' hf'
      rw [List.mem_singleton.1 hf']
      refine ⟨"EGRESS", rfl, by dsimp only; decide, ?_⟩
      intro g hg g' hg' n n' hn hn'
      rw [List.mem_singleton.1 hg'] at hn'
      simp only [k8sWeb, List.mem_cons, List.not_mem_nil, or_false] at hg
      rcases hg with rfl | rfl | rfl | rfl <;> rw [hn, hn'] <;> dsimp only <;> rw [if_neg (by simp), if_pos rfl] <;> decide
    · exact List.Pairwise.imp (fun h a b c _ => h a b c) (R := fun g h => Live g → Live h → g.term.action = ["deny"] → h.term.action ≠ ["accept"]) (by decide)
    · exact ⟨k8sDeny, by simp [k8sWeb], by decide, tcpPacket, by decide⟩
  · rw [k8sAccepts_iff]
    decide +kernel
  · rw [k8sAccepts_iff]
    decide +kernel

/-- The objects are valid, have different names, and bear what their terms say. -/
example : (∀ o ∈ k8sObjects, Valid o) ∧ ((k8sObjects.take 3).map Object.name).Nodup ∧
    ∀ o ∈ k8sObjects, ∃ f ∈ [k8sWeb, k8sOut], ∃ g ∈ f.terms, NameOf o.direction g.term.name o.name ∧ o.owner = g.owner := by
  refine ⟨C84_valid_partial k8sWeb_out ?_, C85_names_partial (f := k8sWeb) (by decide +kernel), ?_⟩
  · intro f hf d hd g hg hl
    rcases List.mem_cons.1 hf with rfl | hf
    · have hd : d = "INGRESS" := hd
      subst hd
      simp only [k8sWeb, List.mem_cons, List.not_mem_nil, or_false] at hg
      rcases hg with rfl | rfl | rfl | rfl
      · exact ⟨by decide, by decide, by decide, fun _ => by decide, fun h => absurd h (by decide)⟩
      · exact absurd hl (by decide)
      · exact ⟨by decide, by decide, by decide, fun _ => by decide, fun h => absurd h (by decide)⟩
      · exact ⟨by decide, by decide, by decide, fun _ => by decide, fun h => absurd h (by decide)⟩
    · rw [List.mem_singleton.1 hf] at hd hg
      have hd : d = "EGRESS" := hd
      subst hd
      rw [List.mem_singleton.1 hg]
      exact ⟨by decide, by decide, by decide, fun h => absurd h (by decide), fun _ => by decide⟩
  · intro o ho
    obtain ⟨f, hf, g, hg, _, _, h1, h2, _⟩ := C86_own k8sWeb_out o ho
    exact ⟨f, hf, g, hg, h1, h2⟩

end Verif.Props
