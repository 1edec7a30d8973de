import Verif.Props.Sonic
import Verif.Props.OpenConfigRefuted

/-!
Concrete cases for the theorems about capirca/lib/sonic.py, and the terms and headers for which C77 fails.
-/

namespace Verif.Props
open Verif Verif.Spec Verif.Spec.Flat Verif.Sonic Policy Aclgenerator Nacaddr
open Verif.OpenConfig (OTerm)

/-! ### evaluation on concrete packets -/

instance sonicHitsDec (r : Rule) (p : Packet) : Decidable (Cdb.Hits r p) :=
  decidable_of_iff (IfSet r.proto (NumberIs p) ∧
      (r.flags = true → p.proto = "tcp" ∧ p.hasOption "tcp-established" = true) ∧
      IfSet r.icmp (fun i => p.ver = i.1 ∧ (p.icmpType, i.2) ∈ icmpNumbers i.1) ∧
      IfSet r.src (fun n => Spec.Flat.Covers n p.ver p.src) ∧ IfSet r.dst (fun n => Spec.Flat.Covers n p.ver p.dst) ∧
      IfSet r.sport (fun n => PortIn p p.sport (n, n)) ∧ IfSet r.sportRange (PortIn p p.sport) ∧
      IfSet r.dport (fun n => PortIn p p.dport (n, n)) ∧ IfSet r.dportRange (PortIn p p.dport))
    ⟨fun ⟨h1, h2, h3, h4, h5, h6, h7, h8, h9⟩ => ⟨h1, h2, h3, h4, h5, h6, h7, h8, h9⟩,
     fun ⟨h1, h2, h3, h4, h5, h6, h7, h8, h9⟩ => ⟨h1, h2, h3, h4, h5, h6, h7, h8, h9⟩⟩

/-- The term passes the checks of the tool. -/
def SonicAccepted (t : Term) : Prop :=
  initCheck Sonic.tables [(["sonic"], [kterm t])] = .ok () ∧ sanityCheck t = .ok ()

instance sonicAcceptedDec (t : Term) : Decidable (SonicAccepted t) := inferInstanceAs (Decidable (_ ∧ _))

instance cdbNamesDec (o : List String) (v : Ver) : Decidable (Cdb.Names o v) := inferInstanceAs (Decidable (_ ∨ _ ∨ _))

/-- The action of the first rule that matches; for concrete cases. -/
def sonicFirst (fs : List Sonic.Filter) (p : Packet) : Option (Option String) :=
  match translate fs with
  | .ok d => some ((((Cdb.seen d).filter fun e => decide (Cdb.Hits e.2.rule p)).head?).map fun e => e.2.rule.action)
  | _ => none

theorem direct_suffix (d : Dict) : (Cdb.direct d).Sublist (Cdb.everything d) := by
  cases d with
  | rules l => exact .refl _
  | wrap i l => exact List.sublist_append_right _ _

theorem seen_sublist (d : Dict) : (Cdb.seen d).Sublist (Cdb.everything d) := by
  cases d with
  | rules l => exact List.nil_sublist _
  | wrap i l => exact (direct_suffix i).trans (List.sublist_append_left _ _)

theorem sonicFirst_sound {fs : List Sonic.Filter} {p : Packet} {o : Option String} (h : sonicFirst fs p = some o) :
    ∃ d, translate fs = .ok d ∧ ∀ a, Cdb.Decides d p a ↔ o = some a := by
  unfold sonicFirst at h
  split at h
  next d e =>
    refine ⟨d, e, fun a => ?_⟩
    have hs : (Cdb.seen d).Pairwise fun e f => e.2.priority > f.2.priority :=
      ((C78_numbers e).1.sublist (seen_sublist d)).imp fun h => h.1
    unfold Cdb.Decides
    rw [Lemmas.best_first (fun a b h1 h2 => by omega) hs]
    cases h
    clear hs e
    generalize Cdb.seen d = es
    induction es with
    | nil => exact iff_of_false Lemmas.first_nil (by simp)
    | cons x xs ih =>
      rw [Lemmas.first_cons]
      by_cases hx : Cdb.Hits x.2.rule p
      · rw [List.filter_cons_of_pos (by simpa using hx)]
        simp [hx]
      · rw [List.filter_cons_of_neg (by simpa using hx)]
        simp only [hx, false_and, not_false_iff, implies_true, true_and, false_or]
        exact ih
  · cases h

/-- A filter with one term. -/
def sonicOne (options : List String) (t : Term) : List Sonic.Filter := [{ options := options, terms := [{ term := t }] }]

/-- The rules of a filter with the term forward a packet of its families though the policy decides nothing about it. -/
def SonicExtra (options : List String) : Prop :=
  ∃ t p d, SonicAccepted t ∧ Coherent p ∧ Cdb.Names options p.ver ∧ translate (sonicOne options t) = .ok d ∧
    Cdb.Decides d p "FORWARD" ∧ ∀ a, ¬ Cdb.PolicyDecides [{ term := t }] p a

/-- The rules of a filter with the term decide nothing about a packet that the policy lets through. -/
def SonicMissing (options : List String) : Prop :=
  ∃ t p d, SonicAccepted t ∧ Coherent p ∧ translate (sonicOne options t) = .ok d ∧
    (∀ a, ¬ Cdb.Decides d p a) ∧ Cdb.PolicyDecides [{ term := t }] p "FORWARD"

theorem sonic_none {t : Term} {p : Packet} (h : ¬ Matches t p ∨ "sonic" ∈ t.platformExclude) (a : String) :
    ¬ Cdb.PolicyDecides [{ term := t }] p a := by
  intro hd
  obtain ⟨r, hr, h1, h2, _⟩ := Lemmas.first_hits hd
  rw [List.mem_singleton.1 hr] at h1 h2
  rcases h with h | h
  · exact h h2
  · exact h1.2.2 h

theorem sonic_extra {options : List String} {t : Term} {p : Packet}
    (h1 : SonicAccepted t ∧ Coherent p ∧ Cdb.Names options p.ver ∧ (¬ Matches t p ∨ "sonic" ∈ t.platformExclude))
    (h2 : sonicFirst (sonicOne options t) p = some (some "FORWARD")) : SonicExtra options := by
  obtain ⟨d, h3, h4⟩ := sonicFirst_sound h2
  exact ⟨t, p, d, h1.1, h1.2.1, h1.2.2.1, h3, (h4 _).2 rfl, sonic_none h1.2.2.2⟩

theorem sonic_missing {options : List String} {t : Term} {p : Packet}
    (h1 : SonicAccepted t ∧ Coherent p ∧ Matches t p ∧ t.platform = [] ∧ t.platformExclude = [] ∧ t.action = ["accept"])
    (h2 : sonicFirst (sonicOne options t) p = some none) : SonicMissing options := by
  obtain ⟨d, h3, h4⟩ := sonicFirst_sound h2
  refine ⟨t, p, d, h1.1, h1.2.1, h3, fun a h => by simpa using (h4 a).1 h, [], _, [], rfl, ⟨⟨rfl, .inl h1.2.2.2.1, ?_⟩,
    h1.2.2.1, "accept", h1.2.2.2.2.2, by decide⟩, by simp⟩
  rw [h1.2.2.2.2.1]
  simp

/-! ### refutations -/

/-- C77 is false for terms that exclude the platform: they are rendered. -/
theorem C77_refuted_exclude : SonicExtra ["f", "inet"] :=
  sonic_extra (t := { name := "t".toList, action := ["accept"], platformExclude := ["sonic"] })
    (p := tcpPacket) (by decide +kernel) (by decide +kernel)

/-- C77 is false for port 0, which stands for every port. -/
theorem C77_refuted_zero : SonicExtra ["f", "inet"] :=
  sonic_extra (t := { name := "t".toList, action := ["accept"], protocol := ["tcp"], destinationPort := [(0, 0)] })
    (p := tcpPacket) (by decide +kernel) (by decide +kernel)

/-- C77 is false for `tcp-established` without a protocol: it has no effect. -/
theorem C77_refuted_established : SonicExtra ["f", "inet"] :=
  sonic_extra (t := { name := "t".toList, action := ["accept"], option := ["tcp-established"] })
    (p := tcpPacket) (by decide +kernel) (by decide +kernel)

/-- C77 is false for terms restricted to one family: they are rendered for both. -/
theorem C77_refuted_restrict : SonicExtra ["f", "mixed"] :=
  sonic_extra (t := { name := "t".toList, action := ["accept"], restrictAddressFamily := some "inet6" })
    (p := tcpPacket) (by decide +kernel) (by decide +kernel)

/-- C77 is false for tags: they have no effect. -/
theorem C77_refuted_tag : SonicExtra ["f", "inet"] :=
  sonic_extra (t := { name := "t".toList, action := ["accept"], sourceTag := ["web"] })
    (p := tcpPacket) (by decide +kernel) (by decide +kernel)

/-- C77 is false for single ports before ranges: the rule of the range still asks for the single port. -/
theorem C77_refuted_ports : SonicMissing ["f", "inet"] :=
  sonic_missing
    (t :=
      { name := "t".toList, action := ["accept"], protocol := ["tcp"], destinationPort := [(80, 80), (8000, 8080)] })
    (p := { tcpPacket with dport := 8000 }) (by decide +kernel) (by decide +kernel)

/-- C77 is false for `tcp-established` with TCP before UDP: the rule of UDP still asks for the flags of TCP. -/
theorem C77_refuted_leak : SonicMissing ["f", "inet"] :=
  sonic_missing
    (t := { name := "t".toList, action := ["accept"], protocol := ["tcp", "udp"], option := ["tcp-established"] })
    (p := { tcpPacket with proto := "udp", hasOption := fun o => o = "tcp-established" ∨ o = "established" })
    (by decide +kernel) (by decide +kernel)

/-- C77 is false for headers without a family: nothing is rendered. -/
theorem C77_refuted_family : SonicMissing ["f"] :=
  sonic_missing (t := { name := "t".toList, action := ["accept"] }) (p := tcpPacket) (by decide +kernel) (by decide +kernel)

/-- C77 is false for `ipip`: nothing is generated. -/
theorem C77_refuted_ipip : ∃ t p, SonicAccepted t ∧ Coherent p ∧ Matches t p ∧
    translate (sonicOne ["f", "inet"] t) = .error .keyError := by
  refine ⟨{ name := "t".toList, action := ["accept"], protocol := ["ipip"] }, { tcpPacket with proto := "ipip" },
    by decide +kernel, by decide +kernel, by decide +kernel, rfl⟩

/-- The first of two filters. -/
def sonicTwo : List Sonic.Filter :=
  [{ options := ["one", "inet"], terms := [{ term := { name := "t".toList, action := ["accept"], protocol := ["tcp"] } }] },
   { options := ["two", "inet"], terms := [{ term := { name := "u".toList, action := ["deny"], protocol := ["udp"] } }] }]

/-- C77 is false for two filters: the rules of the first are not where they count. -/
theorem C77_refuted_two : ∃ f g : Sonic.Filter, ∃ p d, Coherent p ∧ Cdb.Names f.options p.ver ∧
    Cdb.Names g.options p.ver ∧ (∀ r ∈ f.terms ++ g.terms, SFits r.term) ∧ translate [f, g] = .ok d ∧
    Cdb.PolicyDecides f.terms p "FORWARD" ∧ ∀ a, ¬ Cdb.Decides d p a := by
  have h : sonicFirst sonicTwo tcpPacket = some none := by decide +kernel
  obtain ⟨d, h1, h2⟩ := sonicFirst_sound h
  refine ⟨_, _, tcpPacket, d, by decide +kernel, by decide, by decide, ?_, h1,
    ⟨[], _, [], rfl, ⟨by decide, by decide +kernel, "accept", rfl, by decide⟩, by simp⟩,
    fun a h => by simpa using (h2 a).1 h⟩
  intro r hr
  simp only [List.cons_append, List.nil_append, List.mem_cons, List.not_mem_nil, or_false] at hr
  rcases hr with rfl | rfl
  · exact { keywords := by decide +kernel, sane := by decide +kernel, active := by decide, action := ⟨"accept", rfl⟩
            untagged := by constructor <;> decide
            family := rfl, src := by decide, dst := by decide, ports := by decide
            sports := ⟨by decide, .inl (by decide)⟩, dports := ⟨by decide, .inl (by decide)⟩
            icmpCode := rfl, options := .inl rfl }
  · exact { keywords := by decide +kernel, sane := by decide +kernel, active := by decide, action := ⟨"deny", rfl⟩
            untagged := by constructor <;> decide
            family := rfl, src := by decide, dst := by decide, ports := by decide
            sports := ⟨by decide, .inl (by decide)⟩, dports := ⟨by decide, .inl (by decide)⟩
            icmpCode := rfl, options := .inl rfl }

/-! ### a concrete case -/

/-- Web traffic to blocks of both families. -/
def sonicWeb : Term :=
  { name := "web".toList, action := ["accept"], protocol := ["tcp"], destinationPort := [(80, 80), (443, 443)],
    sourcePort := [(1024, 65535)], sourceAddress := [ip4 192 0 0 0 8, ip4 10 0 0 0 8, ip6 32 16],
    destinationAddress := [ip4 10 0 0 0 8, { ver := .v6, addr := 0x20010db8000000000000000000000000, plen := 32 }] }

/-- Replies. -/
def sonicReplies : Term :=
  { name := "replies".toList, action := ["accept"], protocol := ["udp", "tcp"], option := ["tcp-established"] }

/-- Pings. -/
def sonicPing : Term :=
  { name := "ping".toList, action := ["deny"], protocol := ["icmp"], icmpType := ["echo-request", "echo-reply"] }

/-- A filter for both families. -/
def sonicFilter : Sonic.Filter :=
  { options := ["acl", "mixed"], order := [.v6, .v4]
    terms := [{ term := sonicWeb }, { term := { name := "old".toList }, expired := true }, { term := sonicReplies },
      { term := { name := "other".toList, action := ["accept"], platform := ["cisco"] } }, { term := sonicPing }] }

theorem sonicWeb_fits : SFits sonicWeb :=
  { keywords := by decide +kernel, sane := by decide +kernel, active := by decide, action := ⟨"accept", rfl⟩
    untagged := by constructor <;> decide
    family := rfl, src := by decide +kernel, dst := by decide +kernel, ports := by decide
    sports := ⟨by decide, .inr (by decide)⟩, dports := ⟨by decide, .inl (by decide)⟩
    icmpCode := rfl, options := .inl rfl }

theorem sonicReplies_fits : SFits sonicReplies :=
  { keywords := by decide +kernel, sane := by decide +kernel, active := by decide, action := ⟨"accept", rfl⟩
    untagged := by constructor <;> decide
    family := rfl, src := by decide, dst := by decide, ports := by decide
    sports := ⟨by decide, .inr (by decide)⟩, dports := ⟨by decide, .inl (by decide)⟩
    icmpCode := rfl, options := .inr (by decide) }

theorem sonicPing_fits : SFits sonicPing :=
  { keywords := by decide +kernel, sane := by decide +kernel, active := by decide, action := ⟨"deny", rfl⟩
    untagged := by constructor <;> decide
    family := rfl, src := by decide, dst := by decide, ports := by decide
    sports := ⟨by decide, .inr (by decide)⟩, dports := ⟨by decide, .inl (by decide)⟩
    icmpCode := rfl, options := .inl rfl }

/-- The hypotheses of C77 hold for the filter, in front of one without a family, and there is output: six rules for the web,
two times two for the replies and two for pings. -/
example : ∃ d, translate ([] ++ sonicFilter :: [{ options := ["none"] }]) = .ok d ∧
    sonicFilter.order.Perm [.v4, .v6] ∧ (∀ v, ¬ Cdb.Names ["none"] v) ∧ (∀ r ∈ sonicFilter.terms, SOk r) ∧
    (∀ v, Cdb.Names sonicFilter.options v) ∧ (Cdb.seen d).length = 12 ∧
    ((Cdb.seen d).map fun e => e.1).head? = some "acl|RULE_10" := by
  have hterms : ∀ r ∈ sonicFilter.terms, SOk r := by
    intro r hr hn
    simp only [sonicFilter, List.mem_cons, List.not_mem_nil, or_false] at hr
    rcases hr with rfl | rfl | rfl | rfl | rfl
    · exact .inl sonicWeb_fits
    · cases hn
    · exact .inl sonicReplies_fits
    · exact .inr (by decide)
    · exact .inl sonicPing_fits
  cases h : translate ([] ++ sonicFilter :: [{ options := ["none"] }]) with
  | error e =>
    have : (match translate ([] ++ sonicFilter :: [{ options := ["none"] }]) with
      | .ok _ => true | .error _ => false) = true := by decide +kernel
    rw [h] at this
    cases this
  | ok d =>
    have : (match translate ([] ++ sonicFilter :: [{ options := ["none"] }]) with
        | .ok d => ((Cdb.seen d).length, ((Cdb.seen d).map fun e => e.1).head?) | .error _ => (0, none)) =
        (12, some "acl|RULE_10") := by
      decide +kernel
    rw [h] at this
    exact ⟨d, rfl, .swap _ _ _, fun v => by cases v <;> decide, hterms, fun v => by cases v <;> decide,
      congrArg Prod.fst this, congrArg Prod.snd this⟩

end Verif.Props
