import Verif.Props.OpenConfig

/-!
Concrete cases for the theorems about capirca/lib/openconfig.py, and the terms and headers for which C75 fails.
-/

namespace Verif.Props
open Verif Verif.Spec Verif.Spec.Flat Verif.Spec.Oc Verif.OpenConfig Policy Aclgenerator Nacaddr

/-! ### evaluation on concrete packets -/

instance ifSetDec {α : Type} (o : Option α) (P : α → Prop) [∀ a, Decidable (P a)] : Decidable (IfSet o P) :=
  match o with
  | none => isTrue ifSet_none
  | some _ => decidable_of_iff _ ifSet_some.symm

instance coversDec (n : Ver × Nat × Nat) (v : Ver) (x : Nat) : Decidable (Spec.Flat.Covers n v x) := inferInstanceAs (Decidable (_ ∧ _))

instance portInDec (p : Packet) (x : Nat) (r : Nat × Nat) : Decidable (PortIn p x r) := inferInstanceAs (Decidable (_ ∧ _))

instance numberIsDec (p : Packet) (n : Int) : Decidable (NumberIs p n) :=
  decidable_of_iff (∃ e ∈ iana, e.1 = p.proto ∧ n = (e.2 : Int)) <| by
    unfold NumberIs
    constructor
    · rintro ⟨e, he, h1, h2⟩
      exact ⟨e.2, by rw [← h1]; exact he, h2⟩
    · rintro ⟨k, h1, h2⟩
      exact ⟨_, h1, rfl, h2⟩

instance detailDec (p : Packet) (d : String) : Decidable (DetailHolds p d) := inferInstanceAs (Decidable (_ ∨ _ ∨ _))

instance ocHitsDec (v : Ver) (a : Ace) (p : Packet) : Decidable (Oc.Hits v a p) :=
  decidable_of_iff (p.ver = v ∧ IfSet a.src (fun n => Spec.Flat.Covers n p.ver p.src) ∧
      IfSet a.dst (fun n => Spec.Flat.Covers n p.ver p.dst) ∧ IfSet a.sport (PortIn p p.sport) ∧
      IfSet a.dport (PortIn p p.dport) ∧ IfSet a.proto (NumberIs p) ∧ IfSet a.detail (DetailHolds p))
    ⟨fun ⟨h1, h2, h3, h4, h5, h6, h7⟩ => ⟨h1, h2, h3, h4, h5, h6, h7⟩,
     fun ⟨h1, h2, h3, h4, h5, h6, h7⟩ => ⟨h1, h2, h3, h4, h5, h6, h7⟩⟩

instance coherentDec (p : Packet) : Decidable (Coherent p) :=
  decidable_of_iff (p.src < 2 ^ p.ver.bits ∧ p.dst < 2 ^ p.ver.bits ∧ p.proto ∈ iana.map Prod.fst ∧
      (p.ver = .v4 → p.proto ≠ "icmpv6") ∧ (p.ver = .v6 → p.proto ≠ "icmp") ∧
      (p.hasOption "established" = p.hasOption "tcp-established") ∧
      (p.proto = "udp" → p.hasOption "tcp-established" = true) ∧
      (p.proto ≠ "tcp" → p.proto ≠ "udp" → p.hasOption "tcp-established" = false) ∧
      (p.hasOption "fragments" = p.hasOption "is-fragment"))
    ⟨fun ⟨h1, h2, h3, h4, h5, h6, h7, h8, h9⟩ => ⟨h1, h2, h3, h4, h5, h6, h7, h8, h9⟩,
     fun ⟨h1, h2, h3, h4, h5, h6, h7, h8, h9⟩ => ⟨h1, h2, h3, h4, h5, h6, h7, h8, h9⟩⟩

/-- The term passes the checks of the tool and is meant for the platform. -/
def OcAccepted (t : Term) : Prop :=
  initCheck OpenConfig.tables [(["openconfig"], [kterm t])] = .ok () ∧ sanityCheck t = .ok () ∧
  Active "openconfig" (kterm t)

instance ocAcceptedDec (t : Term) : Decidable (OcAccepted t) := inferInstanceAs (Decidable (_ ∧ _ ∧ _))

/-- One order in which the families may be looked up. -/
def ocOrder : List String := ["inet", "inet6", "mixed"]

/-- The first action of the only set of a filter with one term, or `none` if there is none; for concrete cases. -/
def ocFirst (options : List String) (t : Term) (p : Packet) : Option (Option String) :=
  match translate ocOrder [{ options := options, terms := [{ term := t }] }] with
  | .ok [s] => some (((s.entries.filter fun e => decide (Oc.Hits s.ver e.2 p)).head?).map fun e => e.2.action)
  | _ => none

theorem one_set {options : List String} {ts : List OTerm} {s : AclSet}
    (e : translate ocOrder [{ options := options, terms := ts }] = .ok [s]) : s.entries.Pairwise fun e f => e.1 < f.1 := by
  have := C76_sequence e
  simp only [List.flatMap_cons, List.flatMap_nil, List.append_nil] at this
  have h2 : (s.entries.map Prod.fst).Pairwise (· < ·) := by
    rw [this]
    exact List.pairwise_lt_range'
  exact List.pairwise_map.1 h2

theorem ocFirst_sound {options : List String} {t : Term} {p : Packet} {o : Option String}
    (h : ocFirst options t p = some o) :
    ∃ s, translate ocOrder [{ options := options, terms := [{ term := t }] }] = .ok [s] ∧
      ∀ a, Oc.Decides s p a ↔ o = some a := by
  unfold ocFirst at h
  split at h
  next s e =>
    refine ⟨s, e, fun a => ?_⟩
    have hs := one_set e
    unfold Oc.Decides
    rw [Lemmas.best_first (fun a b h1 h2 => by omega) hs]
    cases h
    clear hs e
    generalize s.entries = es
    induction es with
    | nil => exact iff_of_false Lemmas.first_nil (by simp)
    | cons x xs ih =>
      rw [Lemmas.first_cons]
      by_cases hx : Oc.Hits s.ver x.2 p
      · rw [List.filter_cons_of_pos (by simpa using hx)]
        simp [hx]
      · rw [List.filter_cons_of_neg (by simpa using hx)]
        simp only [hx, false_and, not_false_iff, implies_true, true_and, false_or]
        exact ih
  · cases h

/-- The set of a filter with the term accepts a packet of the family that the term does not match. -/
def OcExtra (options : List String) : Prop :=
  ∃ t p s, OcAccepted t ∧ Coherent p ∧ p.ver = s.ver ∧
    translate ocOrder [{ options := options, terms := [{ term := t }] }] = .ok [s] ∧ Oc.Decides s p "ACCEPT" ∧ ¬ Matches t p

/-- The set of a filter with the term does not decide about a packet of the family that the term matches. -/
def OcMissing (options : List String) : Prop :=
  ∃ t p s, OcAccepted t ∧ Coherent p ∧ p.ver = s.ver ∧
    translate ocOrder [{ options := options, terms := [{ term := t }] }] = .ok [s] ∧ (∀ a, ¬ Oc.Decides s p a) ∧ Matches t p

/-- The family of the only set. -/
def ocVer (options : List String) (t : Term) : Option Ver :=
  match translate ocOrder [{ options := options, terms := [{ term := t }] }] with
  | .ok [s] => some s.ver
  | _ => none

theorem extra_of {options : List String} {t : Term} {p : Packet} (h1 : OcAccepted t ∧ Coherent p ∧ ¬ Matches t p)
    (h2 : ocFirst options t p = some (some "ACCEPT")) (h3 : ocVer options t = some p.ver) : OcExtra options := by
  obtain ⟨s, h4, h5⟩ := ocFirst_sound h2
  unfold ocVer at h3
  rw [h4] at h3
  exact ⟨t, p, s, h1.1, h1.2.1, (Option.some.inj h3).symm, h4, (h5 _).2 rfl, h1.2.2⟩

theorem missing_of {options : List String} {t : Term} {p : Packet} (h1 : OcAccepted t ∧ Coherent p ∧ Matches t p)
    (h2 : ocFirst options t p = some none) (h3 : ocVer options t = some p.ver) : OcMissing options := by
  obtain ⟨s, h4, h5⟩ := ocFirst_sound h2
  unfold ocVer at h3
  rw [h4] at h3
  exact ⟨t, p, s, h1.1, h1.2.1, (Option.some.inj h3).symm, h4, fun a h => by simpa using (h5 a).1 h, h1.2.2⟩

/-- A packet of TCP. -/
def tcpPacket : Packet := { proto := "tcp", src := 192 * 2 ^ 24, dst := 10 * 2 ^ 24, dport := 80, sport := 1024 }

/-- C75 is false for icmp types: they have no effect. -/
theorem C75_refuted_icmp : OcExtra ["f"] :=
  extra_of (t := { name := "t".toList, action := ["accept"], protocol := ["icmp"], icmpType := ["echo-request"] })
    (p := { proto := "icmp", icmpType := "echo-reply" }) (by decide +kernel) (by decide +kernel) (by decide +kernel)

/-- C75 is false for port 0, which stands for every port. -/
theorem C75_refuted_zero : OcExtra ["f"] :=
  extra_of (t := { name := "t".toList, action := ["accept"], protocol := ["tcp"], destinationPort := [(0, 0)] })
    (p := tcpPacket) (by decide +kernel) (by decide +kernel) (by decide +kernel)

/-- C75 is false for terms none of whose addresses is of the family: they match every address. -/
theorem C75_refuted_family : OcExtra ["f"] :=
  extra_of
    (t :=
      { name := "t".toList, action := ["accept"],
        sourceAddress := [{ ver := .v6, addr := 0x20010db8000000000000000000000000, plen := 32 }] })
    (p := tcpPacket) (by decide +kernel) (by decide +kernel) (by decide +kernel)

/-- C75 is false for terms all of whose addresses are excluded: they match every address. -/
theorem C75_refuted_excluded : OcExtra ["f"] :=
  extra_of
    (t :=
      { name := "t".toList, action := ["accept"],
        sourceAddress := [ip4 10 0 0 0 8], sourceAddressExclude := [ip4 10 0 0 0 8],
        destinationAddress := [ip4 10 0 0 0 8], destinationAddressExclude := [ip4 10 1 0 0 16] })
    (p := tcpPacket) (by decide +kernel) (by decide +kernel) (by decide +kernel)

/-- C75 is false for overlapping addresses with exclusions: an excluded address is let through. -/
theorem C75_refuted_overlap : OcExtra ["f"] :=
  extra_of
    (t :=
      { name := "t".toList, action := ["accept"],
        sourceAddress := [ip4 10 0 0 0 8, ip4 10 0 0 0 10], sourceAddressExclude := [ip4 10 0 0 0 9],
        destinationAddress := [ip4 10 0 0 0 8], destinationAddressExclude := [ip4 10 1 0 0 16] })
    (p := { tcpPacket with src := 10 * 2 ^ 24 }) (by decide +kernel) (by decide +kernel) (by decide +kernel)

/-- C75 is false for `is-fragment` in a filter of IPv6: it has no effect. -/
theorem C75_refuted_fragment : OcExtra ["f", "inet6"] :=
  extra_of (t := { name := "t".toList, action := ["accept"], option := ["is-fragment"] })
    (p := { tcpPacket with ver := .v6 }) (by decide +kernel) (by decide +kernel) (by decide +kernel)

/-- C75 is false for several options: the last one counts. -/
theorem C75_refuted_options : OcExtra ["f"] :=
  extra_of (t := { name := "t".toList, action := ["accept"], protocol := ["tcp"], option := ["tcp-established", "is-fragment"] })
    (p := { tcpPacket with hasOption := fun o => o = "is-fragment" ∨ o = "fragments" })
    (by decide +kernel) (by decide +kernel) (by decide +kernel)

/-- C75 is false for `initial` with another protocol: it has no effect for that protocol. -/
theorem C75_refuted_initial : OcExtra ["f"] :=
  extra_of (t := { name := "t".toList, action := ["accept"], protocol := ["tcp", "udp"], option := ["initial"] })
    (p := { tcpPacket with proto := "udp", hasOption := fun o => o = "tcp-established" ∨ o = "established" })
    (by decide +kernel) (by decide +kernel) (by decide +kernel)

/-- C75 is false for `established` without a protocol: replies of UDP are not matched. -/
theorem C75_refuted_established : OcMissing ["f"] :=
  missing_of (t := { name := "t".toList, action := ["accept"], option := ["established"] })
    (p := { tcpPacket with proto := "udp", hasOption := fun o => o = "tcp-established" ∨ o = "established" })
    (by decide +kernel) (by decide +kernel) (by decide +kernel)

/-- C75 is false for terms restricted to the other family: they are rendered. -/
theorem C75_refuted_restrict : OcExtra ["f"] :=
  extra_of (t := { name := "t".toList, action := ["accept"], restrictAddressFamily := some "inet6" })
    (p := tcpPacket) (by decide +kernel) (by decide +kernel) (by decide +kernel)

/-- C75 is false for tags: they have no effect. -/
theorem C75_refuted_tag : OcExtra ["f"] :=
  extra_of (t := { name := "t".toList, action := ["accept"], sourceTag := ["web"] })
    (p := tcpPacket) (by decide +kernel) (by decide +kernel) (by decide +kernel)

/-- A term with exclusions on one side. -/
def ocSide : Term :=
  { name := "t".toList, action := ["accept"], sourceAddress := [ip4 10 0 0 0 8], sourceAddressExclude := [ip4 10 1 0 0 16] }

/-- C75 is false for terms with exclusions on one side only: nothing is generated. -/
theorem C75_refuted_side : ∃ t p, OcAccepted t ∧ Coherent p ∧ Matches t p ∧
    translate ocOrder [{ options := ["f"], terms := [{ term := t }] }] = .error .typeError := by
  refine ⟨ocSide, { tcpPacket with src := 10 * 2 ^ 24 }, by decide +kernel, by decide +kernel, by decide +kernel, ?_⟩
  have : (match translate ocOrder [{ options := ["f"], terms := [{ term := ocSide }] }] with
      | .error .typeError => true | _ => false) = true := by decide +kernel
  split at this
  next h => exact h
  · cases this

/-- C75 is false for headers that name two families: the family depends on the order in which a set is run through, which
differs from run to run. -/
theorem C75_refuted_order : ∃ o o' : List String, o.Perm ["inet", "inet6", "mixed"] ∧ o'.Perm ["inet", "inet6", "mixed"] ∧
    ∃ f s s', translate o [f] = .ok [s] ∧ translate o' [f] = .ok [s'] ∧ s.ver ≠ s'.ver := by
  refine ⟨["inet", "inet6", "mixed"], ["inet6", "inet", "mixed"], .refl _, .swap _ _ _,
    { options := ["f", "inet", "inet6"], terms := [{ term := { name := "t".toList, action := ["accept"] } }] },
    ⟨some "f", .v6, [(1, { action := "ACCEPT" })]⟩, ⟨some "f", .v4, [(1, { action := "ACCEPT" })]⟩, ?_, ?_, by decide⟩
  · rfl
  · rfl

/-! ### a concrete case -/

/-- Web traffic to a block of addresses but one, and the replies. -/
def ocTerm : Term :=
  { name := "web".toList, action := ["accept"], protocol := ["tcp"], destinationPort := [(80, 80), (8000, 8080)],
    sourceAddress := [ip4 10 0 0 0 8, ip4 192 0 0 0 8], sourceAddressExclude := [ip4 10 1 0 0 16],
    destinationAddress := [ip4 10 0 0 0 8], destinationAddressExclude := [ip4 10 2 0 0 16] }

/-- Replies for both families. -/
def ocReplies : Term :=
  { name := "replies".toList, action := ["accept"], protocol := ["tcp", "udp"], option := ["tcp-established"],
    destinationAddress := [ip4 10 0 0 0 8, { ver := .v6, addr := 0x20010db8000000000000000000000000, plen := 32 }] }

/-- Two filters. -/
def ocFilters : List OpenConfig.Filter :=
  [{ options := ["four", "inet"], terms := [{ term := ocTerm }, { term := { name := "old".toList }, expired := true }] },
   { options := ["both", "mixed"],
     terms := [{ term := ocReplies }, { term := { name := "rest".toList, action := ["deny"] } }] }]

theorem ocDeny : ∀ v, OFits v { name := "rest".toList, action := ["deny"] } := fun v =>
  { keywords := by decide +kernel, sane := by decide +kernel, active := by decide, action := ⟨"deny", rfl⟩
    untagged := by constructor <;> decide
    family := rfl, src := by decide, dst := by decide
    srcSide := .inl ⟨rfl, .inl rfl⟩, dstSide := .inl ⟨rfl, .inl rfl⟩
    both := Iff.rfl, ports := by decide, zero := by decide, icmp := rfl, options := .inl rfl }

theorem ocFits : ∀ v, OFits v ocReplies := fun v =>
  { keywords := by decide +kernel, sane := by decide +kernel, active := by decide, action := ⟨"accept", rfl⟩
    untagged := by constructor <;> decide
    family := rfl, src := by decide, dst := by decide +kernel
    srcSide := .inl ⟨rfl, .inl rfl⟩
    dstSide := .inl ⟨rfl, .inr (by cases v <;> decide)⟩
    both := Iff.rfl, ports := by decide, zero := by decide, icmp := rfl
    options := .inr (.inl (by decide)) }

theorem ocFits4 : OFits .v4 ocTerm :=
  { keywords := by decide +kernel, sane := by decide +kernel, active := by decide, action := ⟨"accept", rfl⟩
    untagged := by constructor <;> decide
    family := rfl, src := by decide, dst := by decide
    srcSide := .inr ⟨by decide, by decide, by decide, by
      refine List.pairwise_cons.2 ⟨?_, by simp⟩
      intro b hb v x
      rw [List.mem_singleton.1 hb]
      rintro ⟨⟨_, _, h1⟩, ⟨_, h2, _⟩⟩
      have e1 : (ip4 10 0 0 0 8).addr + 2 ^ ((ip4 10 0 0 0 8).ver.bits - (ip4 10 0 0 0 8).plen) = 11 * 2 ^ 24 := by decide
      have e2 : (ip4 192 0 0 0 8).addr = 192 * 2 ^ 24 := by decide
      omega, 10 * 2 ^ 24, by decide⟩
    dstSide := .inr ⟨by decide, by decide, by decide, by simp [Spec.Disjoint, ocTerm], 10 * 2 ^ 24, by decide⟩
    both := by decide
    ports := by decide, zero := by decide, icmp := rfl, options := .inl rfl }

example : ∃ sets, translate ocOrder ocFilters = .ok sets ∧ sets.map AclSet.ver = [.v4, .v4, .v6] ∧
    sets.map AclSet.name = [some "four", some "both4", some "both6"] ∧
    sets.map (fun s => s.entries.map Prod.fst) = [List.range' 1 144, [145, 146, 147], [148, 149, 150]] := by
  cases h : translate ocOrder ocFilters with
  | error e =>
    have : (match translate ocOrder ocFilters with | .ok _ => true | .error _ => false) = true := by decide +kernel
    rw [h] at this
    cases this
  | ok sets =>
    have : (match translate ocOrder ocFilters with
        | .ok sets => sets.map fun s => (s.ver, s.name, s.entries.map Prod.fst) | .error _ => []) =
        [(.v4, some "four", List.range' 1 144), (.v4, some "both4", [145, 146, 147]), (.v6, some "both6", [148, 149, 150])] := by
      decide +kernel
    rw [h] at this
    have e := congrArg (List.map fun s => s.1) this
    have e2 := congrArg (List.map fun s => s.2.1) this
    have e3 := congrArg (List.map fun s => s.2.2) this
    simp only [List.map_map, Function.comp_def, List.map_cons, List.map_nil] at e e2 e3
    exact ⟨sets, rfl, e, e2, e3⟩

/-- The hypotheses of C75 hold for the filters. -/
example : ∀ f ∈ ocFilters, ∃ vs, Families f.options vs ∧ ∀ r ∈ f.terms, Rendered r → ∀ v ∈ vs, OFits v r.term := by
  intro f hf
  simp only [ocFilters, List.mem_cons, List.not_mem_nil, or_false] at hf
  rcases hf with rfl | rfl
  · refine ⟨[.v4], .inl (by decide), fun r hr hn v hv => ?_⟩
    simp only [List.mem_cons, List.not_mem_nil, or_false] at hr hv
    subst hv
    rcases hr with rfl | rfl
    · exact ocFits4
    · exact absurd hn.1 (by decide)
  · refine ⟨[.v4, .v6], .inr (.inr (by decide)), fun r hr _ v _ => ?_⟩
    simp only [List.mem_cons, List.not_mem_nil, or_false] at hr
    rcases hr with rfl | rfl
    · exact ocFits v
    · exact ocDeny v

end Verif.Props
