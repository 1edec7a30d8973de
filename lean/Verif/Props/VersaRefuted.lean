import Verif.Props.Versa
import Verif.Props.PanRefuted

/-!
Concrete cases for the theorems about capirca/lib/versa.py, and the policies for which C152 to C154 fail.
-/

namespace Verif.Props
open Verif Verif.Spec Policy Aclgenerator Nacaddr PyStr
open Verif.Versa (VTerm Filter Output VRule App Side State Book Service output outputOf translate)
open Verif.Spec.Versa (Live About Head Says Wants Hits Decides Rendered Block NamesAre Holds Dangling Busy Small GroupHas SideHits
  ServiceHits PredefinedHits ZoneIs)

/-! ### evaluation on concrete packets -/

instance versaGroupDec (o : Output) (g : Str) (v : Ver) (x : Nat) : Decidable (GroupHas o g v x) :=
  decidable_of_iff (∃ e ∈ o.groups, e.1 = g ∧ ∃ m ∈ e.2, ∃ e' ∈ o.addresses, e'.1 = m ∧ Flat.Covers (e'.2.ver, e'.2.addr, e'.2.plen) v x) (by
    unfold GroupHas
    constructor
    · rintro ⟨⟨_, ms⟩, h1, rfl, m, hm, ⟨_, n⟩, h2, rfl, h3⟩
      exact ⟨ms, h1, _, hm, n, h2, h3⟩
    · rintro ⟨ms, h1, m, hm, n, h2, h3⟩
      exact ⟨_, h1, rfl, m, hm, _, h2, rfl, h3⟩)

instance versaIfSetDec {α : Type} (o : Option α) (P : α → Prop) [DecidablePred P] : Decidable (Flat.IfSet o P) :=
  match o with
  | none => .isTrue fun _ h => by cases h
  | some a => decidable_of_iff (P a) ⟨fun h _ e => by cases e; exact h, fun h => h a rfl⟩

instance versaSideDec (o : Output) (s : Option Side) (zone : String) (v : Ver) (x : Nat) : Decidable (SideHits o s zone v x) := by
  unfold SideHits
  infer_instance

instance versaServiceDec (o : Output) (p : Packet) (name : Str) : Decidable (ServiceHits o p name) := by
  unfold ServiceHits Flat.PortIn
  infer_instance

instance versaPreDec (p : Packet) (name : String) : Decidable (PredefinedHits p name) := by
  unfold PredefinedHits
  infer_instance

instance versaOneOfDec (l : List String) (x : String) : Decidable (OneOf l x) := inferInstanceAs (Decidable (_ ∨ _))

/-- What a rule decides; for concrete cases. -/
def versaDoes (o : Output) (p : Packet) (r : VRule) : Option String :=
  if SideHits o r.src p.srcZone p.ver p.src ∧ SideHits o r.dst p.dstZone p.ver p.dst ∧
      ((r.services = [] ∧ r.predefined = []) ∨ (∃ s ∈ r.services, ServiceHits o p s) ∨ ∃ s ∈ r.predefined, PredefinedHits p s) ∧
      OneOf r.dscp p.dscp then r.act.map Prod.fst else none

theorem versaDoes_iff {o : Output} {p : Packet} {r : VRule} {a : String} :
    (Hits o p r ∧ ∃ e, r.act = some (a, e)) ↔ versaDoes o p r = some a := by
  unfold versaDoes
  constructor
  · rintro ⟨⟨a1, a2, a3, a4⟩, e, he⟩
    rw [if_pos ⟨a1, a2, a3, a4⟩, he]
    rfl
  · intro h
    split at h
    next h1 =>
      obtain ⟨a1, a2, a3, a4⟩ := h1
      refine ⟨⟨a1, a2, a3, a4⟩, ?_⟩
      cases hr : r.act with
      | none => rw [hr] at h; cases h
      | some x => rw [hr] at h; cases h; exact ⟨x.2, rfl⟩
    · cases h

instance versaLiveDec (g : VTerm) : Decidable (Live g) := by
  unfold Live
  infer_instance

instance versaBusyDec (g : VTerm) : Decidable (Busy g) := by
  unfold Busy
  infer_instance

instance versaSmallDec (g : VTerm) : Decidable (Small g) := by
  unfold Small
  infer_instance

instance versaZoneDec (own : List String) (z zone : String) : Decidable (ZoneIs own z zone) := by
  unfold ZoneIs
  infer_instance

instance versaAboutDec (af : Option String) (v : Ver) : Decidable (About af v) := by
  unfold About
  infer_instance

/-- What a term wants; for concrete cases. -/
def versaWant (a b : String) (p : Packet) (g : VTerm) : Option String :=
  if Live g ∧ ZoneIs g.base.term.sourceZone a p.srcZone ∧ ZoneIs g.base.term.destinationZone b p.dstZone ∧ Matches g.base.term p then
    match g.base.term.action with
    | [w] => Spec.Versa.verdicts.lookup w
    | _ => none
  else none

theorem versaWant_iff {a b : String} {p : Packet} {g : VTerm} {w : String} : Wants a b p g w ↔ versaWant a b p g = some w := by
  have hn : ∀ e ∈ Spec.Versa.verdicts, Spec.Versa.verdicts.lookup e.1 = some e.2 := by decide
  unfold versaWant Wants
  constructor
  · rintro ⟨h1, h2, h3, h4, u, hu, h⟩
    rw [if_pos ⟨h1, h2, h3, h4⟩, hu]
    exact hn _ h
  · intro h
    split at h
    next h1 =>
      split at h
      next u hu => exact ⟨h1.1, h1.2.1, h1.2.2.1, h1.2.2.2, u, hu, Cisco.mem_of_lookup' h⟩
      · cases h
    · cases h

/-- The tool takes the terms of a filter between the zones. About some packet the terms decide `want`, and the rules decide `got`. -/
def VersaSays (a b : String) (gs : List VTerm) (want got : Option String) : Prop :=
  ∃ (p : Packet) (o : Output), (∀ g ∈ gs, initCheck Verif.Versa.tables [([Verif.Versa.tables.platform], [kterm g.base.term])] = .ok () ∧
      sanityCheck g.base.term = .ok ()) ∧
    Coherent p ∧ output [{ options := ["from-zone", a, "to-zone", b], terms := gs }] = .ok o ∧
    (∀ w, First (Wants a b p) gs w ↔ want = some w) ∧ ∀ w, Decides o p w ↔ got = some w

/-- The decidable part. -/
def versaCheck (a b : String) (gs : List VTerm) (p : Packet) (want got : Option String) : Bool :=
  decide (∀ g ∈ gs, initCheck Verif.Versa.tables [([Verif.Versa.tables.platform], [kterm g.base.term])] = .ok () ∧
      sanityCheck g.base.term = .ok ()) &&
  decide (Coherent p) && gs.findSome? (versaWant a b p) == want &&
  match output [{ options := ["from-zone", a, "to-zone", b], terms := gs }] with
  | .ok o => o.rules.findSome? (versaDoes o p) == got
  | .error _ => false

theorem versa_says {a b : String} {gs : List VTerm} {want got : Option String} (p : Packet) (h : versaCheck a b gs p want got = true) :
    VersaSays a b gs want got := by
  unfold versaCheck at h
  split at h
  next o ho =>
    simp only [Bool.and_eq_true, decide_eq_true_eq, beq_iff_eq] at h
    obtain ⟨⟨⟨a1, a2⟩, a4⟩, a6⟩ := h
    refine ⟨p, o, a1, a2, ho, fun w => ?_, fun w => ?_⟩
    · rw [hf_findSome (w := versaWant a b p) (fun x a => versaWant_iff), a4]
    · unfold Decides
      rw [hf_findSome (hit := fun r a => Hits o p r ∧ ∃ e, r.act = some (a, e)) (w := versaDoes o p) (fun x a => versaDoes_iff), a6]
  · simp at h

/-! ### a case -/

/-- A filter for packets of both versions from one zone to another. -/
def versaFilter : Filter where
  options := ["from-zone", "trust", "to-zone", "untrust", "template", "T1", "tenant", "acme", "mixed", "tenant", "corp"]
  terms :=
    [{ base := { term := { name := "gone".toList, action := ["accept"] }, expired := true } },
     { base := { term := { name := "web".toList, action := ["accept"], protocol := ["tcp", "icmp", "udp"],
                           sourceAddress := [ip4 10 0 0 0 8, ip6 32 16], logging := ["log-both"] } } },
     { base := { term := { name := "ping".toList, action := ["reject"], protocol := ["icmp"], sourceAddress := [ip4 10 0 0 0 8],
                           destinationAddress := [ip4 192 0 2 0 24, ip6 33 16], logging := ["true"] } } },
     { base := { term := { name := "zoned".toList, action := ["accept"], sourceZone := ["dmz"], dscpMatch := ["46"] } } },
     { base := { term := { name := "replies".toList, action := ["accept"], option := ["established"] } } },
     { base := { term := { name := "last".toList, action := ["deny"] } } }]

/-- All of it, next to a filter for another platform. -/
def versaPolicy : List Filter := [{ here := false }, versaFilter]

theorem versa_head : Head versaFilter.options "trust" "untrust" [("template", "T1"), ("tenant", "acme"), ("tenant", "corp")] (some "mixed") :=
  ⟨_, rfl, .pair (by decide) (.pair (by decide) (.family (by decide) (.pair (by decide) .nil)))⟩

theorem versaFilter_fits (p : Packet) : ∀ g ∈ versaFilter.terms, Live g → VersaFits "trust" "untrust" p g := by
  intro g hg hl
  have key : ∀ g ∈ versaFilter.terms, Live g →
      initCheck Verif.Versa.tables [([Verif.Versa.tables.platform], [kterm g.base.term])] = .ok () ∧
      (∀ n ∈ g.base.term.sourceAddress, WF n) ∧ (∀ n ∈ g.base.term.destinationAddress, WF n) ∧
      (∀ d ∈ g.base.term.dscpMatch, pyInt d.toList = some 46) ∧ g.base.term.option = [] ∧ (∃ u ∈ ["accept", "deny", "reject"], g.base.term.action = [u]) ∧
      ∀ s ∈ g.base.term.protocol, s ∈ ["tcp", "udp", "sctp", "esp", "ah", "gre", "igmp", "pim", "ospf", "icmp"] := by decide +kernel
  obtain ⟨k1, k2, k3, k4, k5, k6, k7⟩ := key g hg hl
  simp only [versaFilter, List.mem_cons, List.not_mem_nil, or_false] at hg
  rcases hg with rfl | rfl | rfl | rfl | rfl | rfl
  all_goals
    exact ⟨k1, ⟨rfl, rfl, by decide, by decide⟩, .inl rfl, k5, rfl, k6, k2, k3, rfl, rfl, by simp, by simp, k7, by simp,
      fun d hd => ⟨46, k4 d hd, by decide⟩⟩

/-- The hypotheses of C154_partial hold for this policy. -/
example (p : Packet) (o : Output) (h : output versaPolicy = .ok o) (w : String) :
    Decides o p w ↔ First (Wants "trust" "untrust" p) versaFilter.terms w :=
  C154_partial rfl h versa_head (.inr (.inl rfl)) (by decide +kernel) (versaFilter_fits p) (by decide +kernel) (by decide +kernel) w

/-- The output is there. -/
example : ∃ o, output versaPolicy = .ok o ∧ o.rules.length = 4 ∧ o.groups.length = 3 ∧ o.services.length = 2 ∧
    o.names = ⟨"T1", "corp", "_policyname"⟩ := by
  have : (match output versaPolicy with
    | .ok o => decide (o.rules.length = 4 ∧ o.groups.length = 3 ∧ o.services.length = 2 ∧ o.names = ⟨"T1", "corp", "_policyname"⟩)
    | .error _ => false) = true := by decide +kernel
  split at this
  next o ho => exact ⟨o, ho, by simpa using this⟩
  · cases this

example : VersaSays "trust" "untrust" versaFilter.terms (some "allow") (some "allow") :=
  versa_says { proto := "tcp", src := 10 * 2 ^ 24 + 5, dst := 1, srcZone := "trust", dstZone := "untrust" } (by decide +kernel)

example : VersaSays "trust" "untrust" versaFilter.terms (some "allow") (some "allow") :=
  versa_says { proto := "gre", src := 5, dst := 1, srcZone := "dmz", dstZone := "untrust", dscp := "46" } (by decide +kernel)

example : VersaSays "trust" "untrust" versaFilter.terms none none :=
  versa_says { proto := "gre", src := 5, dst := 1, srcZone := "dmz", dstZone := "untrust", dscp := "47" } (by decide +kernel)

/-- What C152 and C153 say about it. -/
example (o : Output) (h : output versaPolicy = .ok o) (hg : o.groups ≠ []) : (o.addresses.map Prod.fst).Nodup ∧
    ∃ r ∈ o.rules, r.services.length = 2 := by
  obtain ⟨_, _, _, _, h4, _⟩ := C152_partial (f := versaFilter) rfl h
  obtain ⟨b, b1, b2, b3, b4⟩ := C153_partial (f := versaFilter) rfl h (by decide +kernel) (by decide +kernel) hg
  refine ⟨h4, ?_⟩
  have : (match output versaPolicy with
    | .ok o => decide (∃ r ∈ o.rules, r.services.length = 2)
    | .error _ => false) = true := by decide +kernel
  rw [h] at this
  exact of_decide_eq_true this

/-! ### policies that are not done -/

/-- A term to start from. -/
def versaTerm (name : String) (t : Term) : VTerm := { base := { term := { t with name := name.toList } } }

/-- C154 is false for exclusions: the rule is for all addresses that are not in the group, which has those that the term includes. -/
theorem C154_refuted_exclude : VersaSays "trust" "untrust"
    [versaTerm "t" { action := ["accept"], sourceAddress := [ip4 10 0 0 0 8], sourceAddressExclude := [ip4 10 1 0 0 16] }]
    (some "allow") none ∧
  VersaSays "trust" "untrust"
    [versaTerm "t" { action := ["accept"], sourceAddress := [ip4 10 0 0 0 8], sourceAddressExclude := [ip4 10 1 0 0 16] }]
    none (some "allow") :=
  ⟨versa_says { proto := "tcp", src := 10 * 2 ^ 24 + 5, dst := 1, srcZone := "trust", dstZone := "untrust" } (by decide +kernel),
   versa_says { proto := "tcp", src := 11 * 2 ^ 24 + 5, dst := 1, srcZone := "trust", dstZone := "untrust" } (by decide +kernel)⟩

/-- C154 is false for the zone `all`: the addresses of that side have no effect. -/
theorem C154_refuted_zone : VersaSays "all" "untrust" [versaTerm "t" { action := ["accept"], sourceAddress := [ip4 10 0 0 0 8] }]
    none (some "allow") :=
  versa_says { proto := "tcp", src := 11 * 2 ^ 24 + 5, dst := 1, srcZone := "trust", dstZone := "untrust" } (by decide +kernel)

/-- C154 is false for terms with ports and protocols that a term before has: the rule is for any service. -/
theorem C154_refuted_same : VersaSays "trust" "untrust"
    [versaTerm "t" { action := ["accept"], sourceAddress := [ip4 10 0 0 0 8], protocol := ["tcp"], destinationPort := [(22, 22)] },
     versaTerm "u" { action := ["accept"], sourceAddress := [ip4 11 0 0 0 8], protocol := ["tcp"], destinationPort := [(22, 22)] }]
    none (some "allow") :=
  versa_says { proto := "gre", src := 11 * 2 ^ 24 + 5, dst := 1, srcZone := "trust", dstZone := "untrust" } (by decide +kernel)

/-- C154 is false for two terms with services: the second rule refers to a service that is not defined. -/
theorem C154_refuted_two : VersaSays "trust" "untrust"
    [versaTerm "t" { action := ["accept"], sourceAddress := [ip4 10 0 0 0 8], protocol := ["tcp"], destinationPort := [(22, 22)] },
     versaTerm "u" { action := ["accept"], sourceAddress := [ip4 11 0 0 0 8], protocol := ["sctp"], destinationPort := [(53, 53)] }]
    (some "allow") none :=
  versa_says { proto := "sctp", src := 11 * 2 ^ 24 + 5, dst := 1, sport := 1024, dport := 53, srcZone := "trust", dstZone := "untrust" }
    (by decide +kernel)

/-- C154 is false without addresses: the service is not defined. -/
theorem C154_refuted_bare : VersaSays "trust" "untrust"
    [versaTerm "t" { action := ["accept"], protocol := ["tcp"], destinationPort := [(22, 22)] }] (some "allow") none :=
  versa_says { proto := "tcp", src := 5, dst := 1, sport := 1024, dport := 22, srcZone := "trust", dstZone := "untrust" }
    (by decide +kernel)

/-- C154 is false for options: they have no effect. -/
theorem C154_refuted_option : VersaSays "trust" "untrust"
    [versaTerm "t" { action := ["accept"], sourceAddress := [ip4 10 0 0 0 8], protocol := ["tcp"], option := ["is-fragment"] }]
    none (some "allow") :=
  versa_says { proto := "tcp", src := 10 * 2 ^ 24 + 5, dst := 1, srcZone := "trust", dstZone := "untrust" } (by decide +kernel)

/-- Two filters with a term each. -/
def versaTwice : List Filter :=
  [{ options := ["from-zone", "a", "to-zone", "b"], terms := [versaTerm "t" { action := ["deny"], sourceAddress := [ip4 10 0 0 0 8] }] },
   { options := ["from-zone", "b", "to-zone", "a"], terms := [versaTerm "u" { action := ["deny"], sourceAddress := [ip4 11 0 0 0 8] }] }]

/-- C152 is false for two filters: the addresses are numbered from the start again, so that a name is defined twice. -/
theorem C152_refuted : ∃ o, output versaTwice = .ok o ∧
    ("_0".toList, ip4 10 0 0 0 8) ∈ o.addresses ∧ ("_0".toList, ip4 11 0 0 0 8) ∈ o.addresses ∧
    ("src-t".toList, ["_0".toList]) ∈ o.groups ∧ ("src-u".toList, ["_0".toList]) ∈ o.groups := by
  have : (match output versaTwice with
    | .ok o => decide (("_0".toList, ip4 10 0 0 0 8) ∈ o.addresses ∧ ("_0".toList, ip4 11 0 0 0 8) ∈ o.addresses ∧
        ("src-t".toList, ["_0".toList]) ∈ o.groups ∧ ("src-u".toList, ["_0".toList]) ∈ o.groups)
    | .error _ => false) = true := by decide +kernel
  split at this
  next o ho => exact ⟨o, ho, by simpa using this⟩
  · cases this

/-- A case for the refutations of C153. -/
example : ∃ o, output [{ options := ["from-zone", "a", "to-zone", "b"], terms :=
      [versaTerm "t" { action := ["accept"], sourceAddress := [ip4 10 0 0 0 8], protocol := ["tcp"] },
       versaTerm "u" { action := ["accept"], protocol := ["udp"] }] }] = .ok o ∧ ∃ q ∈ o.rules, ∃ s ∈ q.services, Dangling o s := by
  have : (match output [{ options := ["from-zone", "a", "to-zone", "b"], terms :=
        [versaTerm "t" { action := ["accept"], sourceAddress := [ip4 10 0 0 0 8], protocol := ["tcp"] },
         versaTerm "u" { action := ["accept"], protocol := ["udp"] }] }] with
    | .ok o => decide (∃ r ∈ o.rules, ∃ r' ∈ o.rules, r.name ≠ r'.name ∧ r.services ≠ [] ∧ r'.services ≠ [])
    | .error _ => false) = true := by decide +kernel
  split at this
  next o ho =>
    obtain ⟨r, hr, r', hr', h1, h2, h3⟩ := of_decide_eq_true this
    exact ⟨o, ho, C153_refuted ho hr hr' h1 h2 h3⟩
  · cases this

/-- A case for C155_refuted: the second rule has no services, though its term has a protocol. -/
example : ∃ o, output [{ options := ["from-zone", "a", "to-zone", "b"], terms :=
      [versaTerm "t" { action := ["accept"], sourceAddress := [ip4 10 0 0 0 8], protocol := ["tcp"] },
       versaTerm "u" { action := ["accept"], protocol := ["tcp"] }] }] = .ok o ∧ o.rules.map (fun r => r.services.length) = [1, 0] := by
  have : (match output [{ options := ["from-zone", "a", "to-zone", "b"], terms :=
        [versaTerm "t" { action := ["accept"], sourceAddress := [ip4 10 0 0 0 8], protocol := ["tcp"] },
         versaTerm "u" { action := ["accept"], protocol := ["tcp"] }] }] with
    | .ok o => decide (o.rules.map (fun r => r.services.length) = [1, 0])
    | .error _ => false) = true := by decide +kernel
  split at this
  next o ho => exact ⟨o, ho, of_decide_eq_true this⟩
  · cases this

end Verif.Props
