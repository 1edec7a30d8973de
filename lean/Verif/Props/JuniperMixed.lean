import Verif.Props.JuniperTerm

/-!
Property theorems C67-C69: mixed filters, printing twice and comments in capirca/lib/juniper.py.
-/

namespace Verif.Props
open Verif Verif.Spec Verif.Spec.Junos Verif.Juniper Policy Aclgenerator

/-! ### C67 -/

/-- A term object that went through translations: name, destination ports and protocol lists may differ. -/
abbrev obj (j : JTerm) (name : Str) (ports : List PortRange) (P PE : List String) : JTerm :=
  { j with term := { j.term with name := name, destinationPort := ports, protocol := P, protocolExcept := PE } }

/-- The protocol lists still name the protocols of the policy's term. -/
structure SameProtos (t : Term) (P PE : List String) : Prop where
  proto : ∀ q ∈ iana.map Prod.fst, (∃ s ∈ P, Names s q) ↔ q ∈ t.protocol
  nil : P = [] ↔ t.protocol = []
  tcp : t.protocol = ["tcp"] → P = ["tcp"]
  except : ∀ q ∈ iana.map Prod.fst, (∃ s ∈ PE, Names s q) ↔ q ∈ t.protocolExcept
  exceptNil : PE = [] ↔ t.protocolExcept = []

theorem SameProtos.start {t : Term} (h : ∀ s ∈ t.protocol ++ t.protocolExcept, s ∈ iana.map Prod.fst) :
    SameProtos t t.protocol t.protocolExcept :=
  ⟨fun _ hq => exists_names (fun s hs => h s (List.mem_append_left _ hs)) hq, Iff.rfl, id,
   fun _ hq => exists_names (fun s hs => h s (List.mem_append_right _ hs)) hq, Iff.rfl⟩

theorem SameProtos.init {t : Term} {P PE : List String} (h : SameProtos t P PE) {ps : List Proto}
    (hps : termProtocols (P.map .str) = .ok ps) :
    SameProtos t (replaceFirst "hopopt" "hop-by-hop" (ps.map Proto.text)) (replaceFirst "hopopt" "hop-by-hop" PE) := by
  have hps' := termProtocols_ok hps
  refine ⟨fun q hq => ?_, ?_, fun e => ?_, fun q hq => ?_, ?_⟩
  · rw [exists_init hps hq, h.proto q hq]
  · rw [replaceFirst_ne, hps', ← h.nil]
    simp
  · rw [hps', h.tcp e]
    decide
  · rw [exists_replaceFirst (P := fun s => Names s q) (names_hop hq), h.except q hq]
  · rw [replaceFirst_ne, h.exceptNil]

theorem SameProtos.printed {t : Term} {P PE : List String} (h : SameProtos t P PE) :
    SameProtos t P (replaceFirst "icmpv6" "icmp6" PE) := by
  refine ⟨h.proto, h.nil, h.tcp, fun q hq => ?_, ?_⟩
  · rw [exists_replaceFirst (P := fun s => Names s q) (names_icmp6 hq), h.except q hq]
  · rw [replaceFirst_ne, h.exceptNil]

/-- The policy's own object for a live term: the ports are those of the policy. -/
def Own (j k : JTerm) : Prop := ∃ name P PE, k = obj j name j.term.destinationPort P PE ∧ SameProtos j.term P PE

/-- A copy of it with its own ports. -/
def Copied (j k : JTerm) : Prop := ∃ name ports P PE, k = obj j name ports P PE ∧ SameProtos j.term P PE ∧
  (ports = [] → j.term.destinationPort = []) ∧
  ∀ p, Matches { conditions j.term with destinationPort := ports } p ↔ Junos.Means j.term p

theorem translate_own {ty : TType} (hty : ty ≠ .bridge) {j k k1 : JTerm} {r : Option (Option JTerm)}
    (hin : "inactive" ∉ j.term.option)
    (opts : ∀ o ∈ j.term.option, o = "inactive" ∨ o ∈ ["sample", "established", "tcp-established",
      "rst", "initial", "tcp-initial", "first-fragment", "is-fragment"]) (hw : PWF j.term.destinationPort)
    (ho : Own j k) (h : translate ty k = .ok (k1, r)) :
    Own j k1 ∧ ((r = none ∧ (¬ FamilyOk ty.af j.term ∨ j.expired = true)) ∨
      (FamilyOk ty.af j.term ∧ j.expired = false ∧
        ((r = some none ∧ "established" ∉ j.term.option) ∨ ∃ c, r = some (some c) ∧ Copied j c))) := by
  obtain ⟨name0, P, PE, rfl, hs⟩ := ho
  have hd : deactivate (obj j name0 j.term.destinationPort P PE) = obj j name0 j.term.destinationPort P PE := by
    unfold deactivate
    rw [if_neg (by simpa using hin)]
  unfold translate at h
  split at h
  next hfam =>
    cases h
    refine ⟨⟨name0, P, PE, rfl, hs⟩, .inl ⟨rfl, .inl fun hf => ?_⟩⟩
    rw [ty_name hty] at hfam
    dsimp only at hfam
    rcases hf with e | e <;> rw [e] at hfam <;> simp at hfam
  next hfam =>
    have hf : FamilyOk ty.af j.term := by
      unfold FamilyOk
      rw [← ty_name hty]
      dsimp only at hfam
      cases hra : j.term.restrictAddressFamily with
      | none => exact .inl rfl
      | some x =>
        right
        rw [hra] at hfam
        simp only [Option.isSome_some, Bool.true_and, bne_iff_ne, ne_eq, Classical.not_not] at hfam
        exact hfam
    rw [hd] at h
    dsimp only at h
    obtain ⟨name, _, h⟩ := bind_ok h
    obtain ⟨u, hu, h⟩ := bind_ok h
    split at h
    next hx =>
      cases h
      exact ⟨⟨name, P, PE, rfl, hs⟩, .inl ⟨rfl, .inr hx⟩⟩
    next hx =>
      have hx' : j.expired = false := by simpa using hx
      split at h
      · cases h
      · split at h
        next hc =>
          have hm := fun p => means_ports (t := j.term) (ports := u.destinationPort) opts hw (by rfl) (by rfl) hu rfl p
          obtain ⟨ports, rfl⟩ := restrict_fixHighPorts hu
          obtain ⟨c, hi, h⟩ := bind_ok h
          cases h
          unfold initTerm at hi
          obtain ⟨ps, hps, hi⟩ := bind_ok hi
          cases hi
          exact ⟨⟨name, P, PE, rfl, hs⟩, .inr ⟨hf, hx', .inr ⟨_, rfl, name, ports, _, _, rfl, hs.init hps,
            (hm {}).1, fun p => (hm p).2⟩⟩⟩
        next hc =>
          obtain ⟨c, hi, h⟩ := bind_ok h
          cases h
          unfold initTerm at hi
          obtain ⟨ps, hps, hi⟩ := bind_ok hi
          cases hi
          refine ⟨⟨name, _, _, rfl, hs.init hps⟩, .inr ⟨hf, hx', .inl ⟨rfl, fun he => hc ?_⟩⟩⟩
          unfold copied
          rw [List.any_eq_true]
          exact ⟨_, he, by decide⟩

theorem replaceFirst_absent {a b : String} : ∀ {l : List String}, a ∉ l → replaceFirst a b l = l
  | [], _ => rfl
  | x :: l, h => by
    have hx : x ≠ a := by
      rintro rfl
      simp at h
    rw [replaceFirst, if_neg hx, replaceFirst_absent (fun e => h (by simp [e]))]

theorem SameProtos.noIcmp {t : Term} {P PE : List String} (h : SameProtos t P PE)
    (h1 : "icmp" ∉ t.protocol) (h2 : "icmpv6" ∉ t.protocol) :
    "icmp" ∉ P ∧ "icmpv6" ∉ P ∧ "icmp6" ∉ P :=
  ⟨fun hm => h1 ((h.proto "icmp" (by decide)).1 ⟨_, hm, .inl rfl⟩),
   fun hm => h2 ((h.proto "icmpv6" (by decide)).1 ⟨_, hm, .inl rfl⟩),
   fun hm => h2 ((h.proto "icmpv6" (by decide)).1 ⟨_, hm, .inr (.inl ⟨rfl, rfl⟩)⟩)⟩

theorem prune_none {ty : TType} {P : List String} (h : "icmp" ∉ P ∧ "icmpv6" ∉ P ∧ "icmp6" ∉ P) :
    pruneIcmp ty P = P := by
  apply prune_absent
  cases ty <;> simp [pruned, h.1, h.2.1, h.2.2]

/-- Printing keeps the policy's own object as it should be, without icmp. -/
theorem print_obj {platform : String} {ty : TType} {dsmo : Bool} {j k k' : JTerm} {o : Option Out}
    (h1 : "icmp" ∉ j.term.protocol) (h2 : "icmpv6" ∉ j.term.protocol) (ho : Own j k)
    (h : renderTerm platform ty dsmo k = .ok (o, k')) : Own j k' := by
  obtain ⟨name, P, PE, rfl, hs⟩ := ho
  have hn := hs.noIcmp h1 h2
  have same : Own j (obj j name j.term.destinationPort P PE) := ⟨name, P, PE, rfl, hs⟩
  unfold renderTerm at h
  split at h
  · cases h; exact same
  · dsimp only at h
    rw [prune_none hn] at h
    split at h
    · cases h; exact same
    · split at h
      · cases h; exact same
      · obtain ⟨os, _, h⟩ := bind_ok h
        unfold printTerm at h
        dsimp only at h
        split at h
        · cases h; exact same
        · split at h
          · obtain ⟨ac, _, h⟩ := bind_ok h
            split at h
            · cases h; exact same
            · obtain ⟨_, _, h⟩ := bind_ok h
              obtain ⟨_, _, h⟩ := bind_ok h
              cases h
              refine ⟨name, P, replaceFirst "icmpv6" "icmp6" PE, ?_, hs.printed⟩
              unfold renameIcmp
              dsimp only
              rw [replaceFirst_absent hn.2.1]
          · obtain ⟨_, _, h⟩ := bind_ok h
            cases h; exact same

/-- What a live term prints. -/
theorem printRef_acts {platform : String} {ty : TType} (hty : ty ≠ .bridge) {dsmo : Bool} {j k k' : JTerm} {a : String}
    (hl : Junos.Live platform j) (f : FamilyOk ty.af j.term → JFits platform ty dsmo j a)
    {r : Option (Option JTerm)} (hr : (r = none ∧ (¬ FamilyOk ty.af j.term ∨ j.expired = true)) ∨
      (FamilyOk ty.af j.term ∧ j.expired = false ∧
        ((r = some none ∧ "established" ∉ j.term.option) ∨ ∃ c, r = some (some c) ∧ Copied j c)))
    (ho : Own j k) {o : Option Out} (h : printRef platform ty dsmo k r = .ok (o, k'))
    {p : Packet} (hp : Packets p) (hv : p.ver = ty.af) (d : Verdict) :
    (∃ x, o = some x ∧ Acts p x d) ↔ Junos.Live platform j ∧ Junos.Means j.term p ∧ Asks a d := by
  rcases hr with ⟨rfl, hn⟩ | ⟨hfam, hx, hr⟩
  · unfold printRef at h
    cases h
    refine iff_of_false (by simp) ?_
    rintro ⟨_, hm, _⟩
    rcases hn with hn | hn
    · apply hn
      have : ∀ x : List PortRange, Matches { conditions j.term with destinationPort := x } p → FamilyOk ty.af j.term := by
        intro x hx
        have := hx.2.2.2.2.2.1
        rw [hv] at this
        exact this
      rcases hm with ⟨_, hm⟩ | ⟨_, hm⟩
      · exact this _ hm
      · exact this _ hm
    · rw [hl.1] at hn
      cases hn
  · have f := f hfam
    have hin := hl.2.1
    rcases hr with ⟨rfl, he⟩ | ⟨c, rfl, name, ports, P, PE, rfl, hs, hz, hm⟩
    · obtain ⟨name, P, PE, rfl, hs⟩ := ho
      unfold printRef at h
      rw [render_exact hty f hin hfam (fun e => e) hs.proto hs.nil hs.tcp hs.except hs.exceptNil h hp hv d]
      have : Matches { conditions j.term with destinationPort := j.term.destinationPort } p ↔ Junos.Means j.term p := by
        unfold Junos.Means Ios.Means
        have : "established" ∉ (conditions j.term).option := by
          unfold conditions
          simp [he]
        simp only [this, not_false_iff, false_and, true_and, or_false]
        exact Iff.rfl
      rw [this]
      exact ⟨fun h => ⟨hl, h.1, h.2⟩, fun h => h.2⟩
    · unfold printRef at h
      obtain ⟨⟨o', c'⟩, h', e⟩ := map_ok h
      cases e
      rw [render_exact hty f hin hfam hz hs.proto hs.nil hs.tcp hs.except hs.exceptNil h' hp hv d, hm]
      exact ⟨fun h => ⟨hl, h.1, h.2⟩, fun h => h.2⟩

/-- The own object after printing. -/
theorem printRef_obj {platform : String} {ty : TType} {dsmo : Bool} {j k k' : JTerm}
    (h1 : "icmp" ∉ j.term.protocol) (h2 : "icmpv6" ∉ j.term.protocol) (ho : Own j k) {r : Option (Option JTerm)}
    {o : Option Out} (h : printRef platform ty dsmo k r = .ok (o, k')) : Own j k' := by
  unfold printRef at h
  split at h
  · cases h; exact ho
  · exact print_obj h1 h2 ho h
  · obtain ⟨⟨o', c'⟩, h, e⟩ := map_ok h
    cases e
    exact ho

/-- Switched off, or for other platforms. -/
def Off (platform : String) (k : JTerm) : Prop :=
  k.inactive = true ∨ "inactive" ∈ k.term.option ∨ Cisco.onPlatform platform k.term = false

theorem render_off {platform : String} {ty : TType} {dsmo : Bool} {j j' : JTerm} {o : Option Out}
    (h : renderTerm platform ty dsmo j = .ok (o, j'))
    (hi : j.inactive = true ∨ Cisco.onPlatform platform j.term = false) (p : Packet) (d : Verdict) :
    ¬ ∃ x, o = some x ∧ Acts p x d := by
  rcases hi with hi | hi
  · exact render_inactive h hi p d
  · unfold renderTerm at h
    rw [if_pos (by rw [hi]; rfl)] at h
    cases h
    simp

theorem render_keeps {platform : String} {ty : TType} {dsmo : Bool} {j j' : JTerm} {o : Option Out}
    (h : renderTerm platform ty dsmo j = .ok (o, j')) :
    j'.inactive = j.inactive ∧ Cisco.onPlatform platform j'.term = Cisco.onPlatform platform j.term := by
  unfold renderTerm at h
  split at h
  · cases h; exact ⟨rfl, rfl⟩
  · dsimp only at h
    split at h
    · cases h; exact ⟨rfl, rfl⟩
    · split at h
      · cases h; exact ⟨rfl, rfl⟩
      · obtain ⟨os, _, h⟩ := bind_ok h
        unfold printTerm at h
        dsimp only at h
        split at h
        · cases h; exact ⟨rfl, rfl⟩
        · split at h
          · obtain ⟨ac, _, h⟩ := bind_ok h
            split at h
            · cases h; exact ⟨rfl, rfl⟩
            · obtain ⟨_, _, h⟩ := bind_ok h
              obtain ⟨_, _, h⟩ := bind_ok h
              cases h
              exact ⟨rfl, rfl⟩
          · obtain ⟨_, _, h⟩ := bind_ok h
            cases h; exact ⟨rfl, rfl⟩

theorem translate_off {platform : String} {ty : TType} {j j1 : JTerm} {r : Option (Option JTerm)}
    (hd : j.expired = true ∨ Off platform j) (h : translate ty j = .ok (j1, r)) :
    (j1.expired = true ∨ Off platform j1) ∧ (r = none ∨
      ((j1.inactive = true ∨ Cisco.onPlatform platform j1.term = false) ∧
        ∀ c, r = some (some c) → c.inactive = true ∨ Cisco.onPlatform platform c.term = false)) := by
  have hda : (deactivate j).expired = true ∨
      ((deactivate j).inactive = true ∨ Cisco.onPlatform platform (deactivate j).term = false) := by
    unfold deactivate
    rcases hd with h | h | h | h
    · left; split <;> exact h
    · right; left; split
      · rfl
      · exact h
    · right; left
      rw [if_pos (List.contains_iff_mem.2 h)]
    · right; right; split <;> exact h
  unfold translate at h
  split at h
  · cases h
    exact ⟨hd, .inl rfl⟩
  · dsimp only at h
    obtain ⟨name, _, h⟩ := bind_ok h
    obtain ⟨u, hu, h⟩ := bind_ok h
    obtain ⟨ports, rfl⟩ := restrict_fixHighPorts hu
    split at h
    · cases h
      refine ⟨?_, .inl rfl⟩
      rcases hda with h | h | h
      · exact .inl h
      · exact .inr (.inl h)
      · exact .inr (.inr (.inr h))
    next hx =>
      have hda := hda.resolve_left hx
      split at h
      · cases h
      · split at h
        · obtain ⟨c, hi, h⟩ := bind_ok h
          cases h
          unfold initTerm at hi
          obtain ⟨ps, hps, hi⟩ := bind_ok hi
          cases hi
          refine ⟨.inr (hda.imp id .inr), .inr ⟨hda, ?_⟩⟩
          intro c e
          cases e
          exact hda
        · obtain ⟨c, hi, h⟩ := bind_ok h
          cases h
          unfold initTerm at hi
          obtain ⟨ps, hps, hi⟩ := bind_ok hi
          cases hi
          refine ⟨.inr (hda.imp id .inr), .inr ⟨hda, ?_⟩⟩
          intro c e
          cases e

theorem printRef_off {platform : String} {ty : TType} {dsmo : Bool} {k k' : JTerm} {r : Option (Option JTerm)}
    {o : Option Out} (h : printRef platform ty dsmo k r = .ok (o, k'))
    (hr : r = none ∨ ((k.inactive = true ∨ Cisco.onPlatform platform k.term = false) ∧
        ∀ c, r = some (some c) → c.inactive = true ∨ Cisco.onPlatform platform c.term = false)) (p : Packet) (d : Verdict) :
    (¬ ∃ x, o = some x ∧ Acts p x d) ∧ k'.inactive = k.inactive ∧
      Cisco.onPlatform platform k'.term = Cisco.onPlatform platform k.term := by
  rcases hr with rfl | ⟨h1, h2⟩
  · unfold printRef at h
    cases h
    exact ⟨by simp, rfl, rfl⟩
  · unfold printRef at h
    split at h
    · cases h
      exact ⟨by simp, rfl, rfl⟩
    · exact ⟨render_off h h1 p d, render_keeps h⟩
    · obtain ⟨⟨o', c'⟩, h', e⟩ := map_ok h
      cases e
      exact ⟨render_off h' (h2 _ rfl) p d, rfl, rfl⟩

theorem expired_translate {ty : TType} {j j1 : JTerm} {r : Option (Option JTerm)} (h : translate ty j = .ok (j1, r)) :
    j1.expired = j.expired ∧ (j.expired = true → r = none) := by
  have hexp : (deactivate j).expired = j.expired := by unfold deactivate; split <;> rfl
  unfold translate at h
  split at h
  · cases h
    exact ⟨rfl, fun _ => rfl⟩
  · dsimp only at h
    obtain ⟨name, _, h⟩ := bind_ok h
    obtain ⟨u, hu, h⟩ := bind_ok h
    split at h
    · cases h
      exact ⟨hexp, fun _ => rfl⟩
    next hx =>
      rw [hexp] at hx
      split at h
      · cases h
      · split at h
        all_goals
          obtain ⟨c, hi, h⟩ := bind_ok h
          cases h
          unfold initTerm at hi
          obtain ⟨ps, hps, hi⟩ := bind_ok hi
          cases hi
          exact ⟨hexp, fun e => absurd e hx⟩

/-- A term that is not live has no effect in a mixed filter. -/
theorem mixed_dead {platform : String} {dsmo : Bool} {j : JTerm} {o : Option Out × Option Out}
    (h : mixedTerm platform dsmo j = .ok o) (hl : ¬ Junos.Live platform j) (p : Packet) (d : Verdict) :
    (¬ ∃ x, o.1 = some x ∧ Acts p x d) ∧ ¬ ∃ x, o.2 = some x ∧ Acts p x d := by
  have hd : j.expired = true ∨ Off platform j := by
    refine Classical.byContradiction fun hn => hl ?_
    have h1 : j.expired = false := by
      rw [← Bool.not_eq_true]
      exact fun h => hn (.inl h)
    have h2 : "inactive" ∉ j.term.option := fun h => hn (.inr (.inr (.inl h)))
    have h3 : j.inactive = false := by
      rw [← Bool.not_eq_true]
      exact fun h => hn (.inr (.inl h))
    have h4 : Cisco.onPlatform platform j.term = true := by
      rw [← Bool.not_eq_false]
      exact fun h => hn (.inr (.inr (.inr h)))
    obtain ⟨a1, a2⟩ := (Cisco.onPlatform_iff (c := { Cisco.ios with platform := platform })).1 h4
    exact ⟨h1, h2, h3, a1, a2⟩
  unfold mixedTerm at h
  obtain ⟨⟨j1, r4⟩, t4, h⟩ := bind_ok h
  obtain ⟨⟨j2, r6⟩, t6, h⟩ := bind_ok h
  obtain ⟨⟨o4, j3⟩, p4, h⟩ := bind_ok h
  obtain ⟨⟨o6, j4⟩, p6, h⟩ := bind_ok h
  cases h
  obtain ⟨d1, e4⟩ := translate_off hd t4
  obtain ⟨d2, e6⟩ := translate_off d1 t6
  have x4 := expired_translate t4
  have x6 := expired_translate t6
  by_cases hx : j.expired = true
  · have := x4.2 hx
    subst this
    have := x6.2 (x4.1.trans hx)
    subst this
    cases p4
    cases p6
    simp
  · -- after both translations the term is switched off if it is printed at all
    have dead2 : r6 ≠ none → j2.inactive = true ∨ Cisco.onPlatform platform j2.term = false := by
      intro hn
      exact (e6.resolve_left hn).1
    have keep : (j1.inactive = true ∨ Cisco.onPlatform platform j1.term = false) →
        j2.inactive = true ∨ Cisco.onPlatform platform j2.term = false := by
      intro h1
      rcases h1 with h1 | h1
      · left
        have hdi : ∀ k : JTerm, k.inactive = true → (deactivate k).inactive = true := by
          intro k hk
          unfold deactivate
          split
          · rfl
          · exact hk
        unfold translate at t6
        split at t6
        · cases t6; exact h1
        · dsimp only at t6
          obtain ⟨name, _, t6⟩ := bind_ok t6
          obtain ⟨u, hu, t6⟩ := bind_ok t6
          split at t6
          · cases t6; exact hdi _ h1
          · split at t6
            · cases t6
            · split at t6
              all_goals
                obtain ⟨c, hi, t6⟩ := bind_ok t6
                cases t6
                unfold initTerm at hi
                obtain ⟨ps, hps, hi⟩ := bind_ok hi
                cases hi
                exact hdi _ h1
      · right
        have hdi : ∀ k : JTerm, Cisco.onPlatform platform (deactivate k).term = Cisco.onPlatform platform k.term := by
          intro k
          unfold deactivate
          split <;> rfl
        unfold translate at t6
        split at t6
        · cases t6; exact h1
        · dsimp only at t6
          obtain ⟨name, _, t6⟩ := bind_ok t6
          obtain ⟨u, hu, t6⟩ := bind_ok t6
          split at t6
          · cases t6; exact (hdi j1).trans h1
          · split at t6
            · cases t6
            · split at t6
              all_goals
                obtain ⟨c, hi, t6⟩ := bind_ok t6
                cases t6
                unfold initTerm at hi
                obtain ⟨ps, hps, hi⟩ := bind_ok hi
                cases hi
                exact (hdi j1).trans h1
    obtain ⟨q4, k1, k2⟩ := printRef_off p4 (e4.imp id fun e => ⟨keep e.1, e.2⟩) p d
    obtain ⟨q6, _, _⟩ := printRef_off p6 (e6.imp id fun e => ⟨by rw [k1, k2]; exact e.1, e.2⟩) p d
    exact ⟨q4, q6⟩

/-- C67 (partial), one term: in the two filters printed for a mixed one, a term without icmp protocols acts on a
packet of the family exactly if it is live and asks for the packet, and then as its action says. Missing: terms
with an icmp protocol (see `C67_refuted_icmp6`) and the terms outside `JFits`. -/
theorem C67_term_partial {platform : String} {dsmo : Bool} {j : JTerm} {a : String}
    (f4 : FamilyOk .v4 j.term → JFits platform .inet dsmo j a)
    (f6 : FamilyOk .v6 j.term → JFits platform .inet6 dsmo j a)
    (hno : "icmp" ∉ j.term.protocol ∧ "icmpv6" ∉ j.term.protocol)
    (hw : PWF j.term.destinationPort) {o : Option Out × Option Out}
    (h : mixedTerm platform dsmo j = .ok o) {p : Packet} (hp : Packets p) (d : Verdict) :
    (∃ x, (if p.ver = .v4 then o.1 else o.2) = some x ∧ Acts p x d) ↔
      Junos.Live platform j ∧ Junos.Means j.term p ∧ Asks a d := by
  by_cases hl : Junos.Live platform j
  · have h0 := h
    unfold mixedTerm at h
    obtain ⟨⟨j1, r4⟩, t4, h⟩ := bind_ok h
    obtain ⟨⟨j2, r6⟩, t6, h⟩ := bind_ok h
    obtain ⟨⟨o4, j3⟩, p4, h⟩ := bind_ok h
    obtain ⟨⟨o6, j4⟩, p6, h⟩ := bind_ok h
    cases h
    by_cases hfam : FamilyOk .v4 j.term ∨ FamilyOk .v6 j.term
    · obtain ⟨opts, names⟩ : (∀ o ∈ j.term.option, o = "inactive" ∨ o ∈ ["sample", "established", "tcp-established",
          "rst", "initial", "tcp-initial", "first-fragment", "is-fragment"]) ∧
          ∀ s ∈ j.term.protocol ++ j.term.protocolExcept, s ∈ iana.map Prod.fst := by
        rcases hfam with h | h
        · exact ⟨(f4 h).opts, (f4 h).names⟩
        · exact ⟨(f6 h).opts, (f6 h).names⟩
      have own0 : Own j j := ⟨j.term.name, _, _, rfl, SameProtos.start names⟩
      obtain ⟨own1, s4⟩ := translate_own (ty := .inet) (by decide) hl.2.1 opts hw own0 t4
      obtain ⟨own2, s6⟩ := translate_own (ty := .inet6) (by decide) hl.2.1 opts hw own1 t6
      have own3 := printRef_obj hno.1 hno.2 own2 p4
      cases hv : p.ver with
      | v4 =>
        rw [if_pos rfl]
        exact printRef_acts (ty := .inet) (by decide) hl f4 s4 own2 p4 hp hv d
      | v6 =>
        rw [if_neg (by decide)]
        exact printRef_acts (ty := .inet6) (by decide) hl f6 s6 own3 p6 hp hv d
    · have hm : ¬ Junos.Means j.term p := by
        intro hm
        have : ∀ x : List PortRange, Matches { conditions j.term with destinationPort := x } p →
            FamilyOk p.ver j.term := by
          intro x hx
          exact hx.2.2.2.2.2.1
        apply hfam
        have hf : FamilyOk p.ver j.term := by
          rcases hm with ⟨_, hm⟩ | ⟨_, hm⟩
          · exact this _ hm
          · exact this _ hm
        cases hv : p.ver <;> rw [hv] at hf
        · exact .inl hf
        · exact .inr hf
      refine iff_of_false ?_ (fun h => hm h.2.1)
      have none_of : ∀ {ty : TType} {k k1 : JTerm} {r}, ty ≠ .bridge → ¬ FamilyOk ty.af j.term →
          k.term.restrictAddressFamily = j.term.restrictAddressFamily → translate ty k = .ok (k1, r) →
          k1 = k ∧ r = none := by
        intro ty k k1 r hty hf e ht
        unfold translate at ht
        rw [if_pos] at ht
        · cases ht
          exact ⟨rfl, rfl⟩
        · rw [e, ty_name hty]
          unfold FamilyOk at hf
          cases hra : j.term.restrictAddressFamily with
          | none => exact absurd (.inl hra) hf
          | some x =>
            rw [hra] at hf
            simp only [reduceCtorEq, false_or] at hf
            simpa using hf
      obtain ⟨rfl, rfl⟩ := none_of (ty := .inet) (by decide) (fun h => hfam (.inl h)) rfl t4
      obtain ⟨rfl, rfl⟩ := none_of (ty := .inet6) (by decide) (fun h => hfam (.inr h)) rfl t6
      cases p4
      cases p6
      split <;> simp
  · obtain ⟨h1, h2⟩ := mixed_dead h hl p d
    refine iff_of_false ?_ (fun h => hl h.1)
    split
    · exact h1
    · exact h2

/-- C67 (partial): the two filters printed for a mixed one decide about every packet, each for its family, like
the policy. Missing: terms with an icmp protocol and the terms outside `JFits`. -/
theorem C67_filter_partial {platform : String} {dsmo : Bool} {ts : List JTerm}
    (hf : ∀ j ∈ ts, Junos.Live platform j → PWF j.term.destinationPort ∧
      ("icmp" ∉ j.term.protocol ∧ "icmpv6" ∉ j.term.protocol) ∧
      ∃ a, a ∈ ["accept", "deny", "next", "reject", "reject-with-tcp-rst"] ∧ j.term.action = [a] ∧
        (FamilyOk .v4 j.term → JFits platform .inet dsmo j a) ∧ (FamilyOk .v6 j.term → JFits platform .inet6 dsmo j a))
    {os : List Out × List Out} (h : renderMixed platform dsmo ts = .ok os) {p : Packet} (hp : Packets p)
    (accept : Bool) :
    Junos.Decides (if p.ver = .v4 then os.1 else os.2) p accept ↔ Junos.PolicyDecides platform ts p accept := by
  unfold renderMixed at h
  split at h
  · cases h
  · obtain ⟨rs, hrs, h⟩ := bind_ok h
    cases h
    obtain ⟨hlen, hz⟩ := listM_zip hrs
    have e : (if p.ver = .v4 then rs.filterMap Prod.fst else rs.filterMap Prod.snd) =
        (rs.map fun o => if p.ver = .v4 then o.1 else o.2).filterMap id := by
      rw [List.filterMap_map]
      split <;> rfl
    dsimp only
    rw [e]
    refine outs_decide accept (by simp [hlen]) ?_ ?_
    · rintro ⟨j0, o⟩ he d
      dsimp only
      rw [List.zip_map_right, List.mem_map] at he
      obtain ⟨⟨j, r⟩, he, e⟩ := he
      cases e
      dsimp only
      by_cases hl : Junos.Live platform j
      · obtain ⟨hw, hno, a, _, ha, f4, f6⟩ := hf j (List.of_mem_zip he).1 hl
        rw [C67_term_partial f4 f6 hno hw (hz _ he) hp d]
        constructor
        · rintro ⟨h1, h2, h3⟩
          exact ⟨h1, h2, a, ha, h3⟩
        · rintro ⟨h1, h2, a', h3, h4⟩
          change j.term.action = [a'] at h3
          rw [ha] at h3
          cases h3
          exact ⟨h1, h2, h4⟩
      · obtain ⟨h1, h2⟩ := mixed_dead (hz _ he) hl p d
        refine iff_of_false ?_ (fun h => hl h.1)
        split
        · exact h1
        · exact h2
    · intro j hj hl _
      obtain ⟨_, _, a, hm, ha, _⟩ := hf j hj hl
      refine ⟨a, ?_⟩
      simp only [List.mem_cons, List.not_mem_nil, or_false] at hm
      rcases hm with rfl | rfl | rfl | rfl | rfl
      · exact ⟨.accept, ha, .inl ⟨rfl, rfl⟩⟩
      · exact ⟨.discard, ha, .inr (.inr ⟨.inl rfl, rfl⟩)⟩
      · exact ⟨.next, ha, .inr (.inl ⟨rfl, rfl⟩)⟩
      · exact ⟨.discard, ha, .inr (.inr ⟨.inr (.inl rfl), rfl⟩)⟩
      · exact ⟨.discard, ha, .inr (.inr ⟨.inr (.inr rfl), rfl⟩)⟩

/-! ### C68 -/

/-- The first printing is the one of `renderTerm`. -/
theorem renderFrom_nil {platform : String} {ty : TType} {dsmo : Bool} {j : JTerm} :
    renderTerm platform ty dsmo j = (renderFrom platform ty dsmo [] j).map fun r => (r.1, r.2.1) := by
  unfold renderTerm renderFrom
  split
  · rfl
  · dsimp only
    split
    · rfl
    · split
      · rfl
      · cases options ty (pruneIcmp ty j.term.protocol) ([], []) j.term.option with
        | error e => rfl
        | ok o =>
          change printTerm ty dsmo _ o = Except.map _ (printTerm ty dsmo _ o >>= fun r => Except.ok (r.1, r.2, o.2))
          cases printTerm ty dsmo { j with term := { j.term with protocol := pruneIcmp ty j.term.protocol } } o with
          | error e => rfl
          | ok r => rfl

theorem mem_replaceFirst {a b x : String} (hx : x ≠ a) (hb : x ≠ b) : ∀ {l : List String},
    x ∈ replaceFirst a b l ↔ x ∈ l
  | [] => Iff.rfl
  | y :: l => by
    rw [replaceFirst]
    split
    next e => subst e; simp [hx, hb]
    next e => simp [mem_replaceFirst hx hb (l := l)]

theorem replaceFirst_gone {a b : String} (hab : a ≠ b) : ∀ {l : List String}, l.Nodup → a ∉ replaceFirst a b l
  | [], _ => by simp [replaceFirst]
  | y :: l, h => by
    rw [List.nodup_cons] at h
    rw [replaceFirst]
    split
    next e => subst e; simp [hab, h.1]
    next e =>
      simp only [List.mem_cons, not_or]
      exact ⟨fun h => e h.symm, replaceFirst_gone hab h.2⟩

theorem replaceFirst_tcp {l : List String} : replaceFirst "icmpv6" "icmp6" l = ["tcp"] ↔ l = ["tcp"] := by
  cases l with
  | nil => simp [replaceFirst]
  | cons x l =>
    rw [replaceFirst]
    split
    next e => subst e; simp
    next e =>
      simp only [List.cons.injEq]
      refine and_congr Iff.rfl ?_
      exact replaceFirst_ne

theorem optionStep_rename {ty : TType} {l : List String} {acc : List (List Tok) × List String} {o : String} :
    optionStep ty (replaceFirst "icmpv6" "icmp6" l) acc o = optionStep ty l acc o := by
  have h2 : (replaceFirst "icmpv6" "icmp6" l).contains "tcp" = l.contains "tcp" := by
    rw [Bool.eq_iff_iff, List.contains_iff_mem, List.contains_iff_mem]
    exact mem_replaceFirst (by decide) (by decide)
  unfold optionStep
  simp only [replaceFirst_tcp, h2]

theorem options_rename {ty : TType} {l : List String} : ∀ {os : List String} {acc : List (List Tok) × List String},
    options ty (replaceFirst "icmpv6" "icmp6" l) acc os = options ty l acc os
  | [], _ => by rw [options, options]
  | o :: os, acc => by
    rw [options, options, optionStep_rename]
    congr 1
    funext b
    exact options_rename

theorem rename_again {t : Term} (h1 : t.protocol.Nodup) (h2 : t.protocolExcept.Nodup) :
    renameIcmp (renameIcmp t) = renameIcmp t := by
  unfold renameIcmp
  dsimp only
  rw [replaceFirst_absent (replaceFirst_gone (by decide) h1), replaceFirst_absent (replaceFirst_gone (by decide) h2)]

theorem isEmpty_replaceFirst {a b : String} {l : List String} : (replaceFirst a b l).isEmpty = l.isEmpty := by
  rw [Bool.eq_iff_iff, List.isEmpty_iff, List.isEmpty_iff]
  exact replaceFirst_ne

theorem addrConds_rename {ty : TType} {dsmo : Bool} {t : Term} : addrConds ty dsmo (renameIcmp t) = addrConds ty dsmo t := by
  unfold addrConds renameIcmp
  dsimp only

/-- Printing with the protocols renamed already. -/
theorem printTerm_rename {ty : TType} {dsmo : Bool} {j : JTerm} {o : List (List Tok) × List String}
    (h1 : j.term.protocol.Nodup) (h2 : j.term.protocolExcept.Nodup)
    (hi : j.term.icmpType = [] ∨ "icmpv6" ∉ j.term.protocol) {r : Option Out × JTerm}
    (h : printTerm ty dsmo j o = .ok r) :
    ∃ j', printTerm ty dsmo { j with term := renameIcmp j.term } o = .ok (r.1, j') := by
  have hcrit : hasMatchCriteria { j with term := renameIcmp j.term } = hasMatchCriteria j := by
    unfold hasMatchCriteria renameIcmp
    dsimp only
    rw [isEmpty_replaceFirst, isEmpty_replaceFirst]
  have hic : icmpCond ty (renameIcmp j.term) = icmpCond ty j.term := by
    unfold icmpCond renameIcmp
    dsimp only
    rcases hi with hi | hi
    · rw [hi]
      rfl
    · rw [replaceFirst_absent hi]
  unfold printTerm at h ⊢
  rw [hcrit]
  split at h
  next hf =>
    rw [if_pos (show (renameIcmp j.term).filterTerm = true from hf)]
    cases h
    exact ⟨_, rfl⟩
  next hf =>
    rw [if_neg (show ¬ (renameIcmp j.term).filterTerm = true from hf)]
    split at h
    next hc =>
      rw [if_pos hc]
      obtain ⟨ac, ha, h⟩ := bind_ok h
      dsimp only
      rw [addrConds_rename, ha]
      cases ac with
      | none =>
        cases h
        exact ⟨_, rfl⟩
      | some ac =>
        dsimp only at h
        obtain ⟨rc, hrc, h⟩ := bind_ok h
        obtain ⟨th, hth, h⟩ := bind_ok h
        cases h
        have hrc' : restConds ty (renameIcmp j.term) o.1 = .ok rc := by
          rw [← hrc]
          unfold restConds
          rw [rename_again h1 h2, hic]
          rfl
        change ∃ j', (restConds ty (renameIcmp j.term) o.1 >>= fun rc => thenClause ty j o.2 >>= fun th =>
          Except.ok (some (Out.term j.inactive j.term.name (.normal (some (ac ++ rc)) th)),
            { j with term := renameIcmp (renameIcmp j.term) })) = _
        rw [hrc']
        change ∃ j', (thenClause ty j o.2 >>= fun th =>
          Except.ok (some (Out.term j.inactive j.term.name (.normal (some (ac ++ rc)) th)),
            { j with term := renameIcmp (renameIcmp j.term) })) = _
        rw [hth]
        exact ⟨_, rfl⟩
    next hc =>
      rw [if_neg hc]
      obtain ⟨th, hth, h⟩ := bind_ok h
      cases h
      change ∃ j', (thenClause ty j o.2 >>= fun th =>
          Except.ok (some (Out.term j.inactive j.term.name (.normal none th)), { j with term := renameIcmp j.term })) = _
      rw [hth]
      exact ⟨_, rfl⟩

theorem printTerm_obj {ty : TType} {dsmo : Bool} {j : JTerm} {o : List (List Tok) × List String}
    {r : Option Out × JTerm} (h : printTerm ty dsmo j o = .ok r) :
    r.2 = j ∨ r.2 = { j with term := renameIcmp j.term } := by
  unfold printTerm at h
  split at h
  · cases h; exact .inl rfl
  · split at h
    · obtain ⟨ac, ha, h⟩ := bind_ok h
      split at h
      · cases h; exact .inl rfl
      · obtain ⟨_, _, h⟩ := bind_ok h
        obtain ⟨_, _, h⟩ := bind_ok h
        cases h
        exact .inr rfl
    · obtain ⟨_, _, h⟩ := bind_ok h
      cases h; exact .inl rfl

theorem options_nosample {ty : TType} {l : List String} : ∀ {os : List String} {acc acc' : List (List Tok) × List String},
    (∀ o ∈ os, ¬ "sample".toList <+: o.toList) → options ty l acc os = .ok acc' → acc'.2 = acc.2
  | [], acc, acc', _, h => by
    rw [options] at h
    cases h
    rfl
  | o :: os, acc, acc', hs, h => by
    rw [options] at h
    obtain ⟨b, h1, h2⟩ := bind_ok h
    rw [options_nosample (fun x hx => hs x (by simp [hx])) h2]
    unfold optionStep at h1
    rw [if_neg (by
      unfold startsWith
      rw [List.isPrefixOf_iff_prefix]
      exact hs o (by simp))] at h1
    split at h1
    · split at h1 <;> cases h1 <;> rfl
    · split at h1
      · split at h1
        · simp only [Except.ok.injEq] at h1
          subst h1
          split <;> rfl
        · cases h1
      · split at h1
        · cases h1; rfl
        · split at h1
          · cases h1; rfl
          · split at h1 <;> cases h1 <;> rfl

theorem removeFirst_sub {a x : String} : ∀ {l : List String}, x ∈ removeFirst a l → x ∈ l
  | [], h => h
  | y :: l, h => by
    rw [removeFirst] at h
    split at h
    · exact List.mem_cons_of_mem _ h
    · rcases List.mem_cons.1 h with rfl | h
      · simp
      · exact List.mem_cons_of_mem _ (removeFirst_sub h)

theorem removeFirst_nodup {a : String} : ∀ {l : List String}, l.Nodup → (removeFirst a l).Nodup ∧ a ∉ removeFirst a l
  | [], _ => by simp [removeFirst]
  | y :: l, h => by
    rw [List.nodup_cons] at h
    rw [removeFirst]
    split
    next e => subst e; exact ⟨h.2, h.1⟩
    next e =>
      obtain ⟨h1, h2⟩ := removeFirst_nodup (a := a) h.2
      refine ⟨List.nodup_cons.2 ⟨fun hm => h.1 (removeFirst_sub hm), h1⟩, ?_⟩
      simp only [List.mem_cons, not_or]
      exact ⟨fun h => e h.symm, h2⟩

theorem mem_removeFirst {a x : String} (hx : x ≠ a) : ∀ {l : List String}, x ∈ l → x ∈ removeFirst a l
  | y :: l, h => by
    rw [removeFirst]
    split
    next e =>
      subst e
      exact (List.mem_cons.1 h).resolve_left hx
    next e =>
      rcases List.mem_cons.1 h with rfl | h
      · simp
      · exact List.mem_cons_of_mem _ (mem_removeFirst hx h)

/-- A protocol that has no place in a filter of the type. -/
def ForeignProto (ty : TType) (s : String) : Prop :=
  (ty = .inet ∧ (s = "icmpv6" ∨ s = "icmp6")) ∨ (ty = .inet6 ∧ s = "icmp")

theorem prune_facts {ty : TType} {l : List String} (hn : l.Nodup) :
    (pruneIcmp ty l).Nodup ∧ (∀ s ∈ pruneIcmp ty l, ¬ ForeignProto ty s) ∧
      (∀ s ∈ pruneIcmp ty l, s ∈ l) ∧ ∀ s ∈ l, ¬ ForeignProto ty s → s ∈ pruneIcmp ty l := by
  cases ty with
  | inet =>
    obtain ⟨a1, a2⟩ := removeFirst_nodup (a := "icmpv6") hn
    obtain ⟨b1, b2⟩ := removeFirst_nodup (a := "icmp6") a1
    refine ⟨b1, ?_, fun s hs => removeFirst_sub (removeFirst_sub hs), ?_⟩
    · rintro s hs (⟨_, rfl | rfl⟩ | ⟨h, _⟩)
      · exact a2 (removeFirst_sub hs)
      · exact b2 hs
      · cases h
    · intro s hs hf
      exact mem_removeFirst (fun e => hf (.inl ⟨rfl, .inr e⟩)) (mem_removeFirst (fun e => hf (.inl ⟨rfl, .inl e⟩)) hs)
  | inet6 =>
    obtain ⟨a1, a2⟩ := removeFirst_nodup (a := "icmp") hn
    refine ⟨a1, ?_, fun s hs => removeFirst_sub hs, ?_⟩
    · rintro s hs (⟨h, _⟩ | ⟨_, rfl⟩)
      · cases h
      · exact a2 hs
    · intro s hs hf
      exact mem_removeFirst (fun e => hf (.inr ⟨rfl, e⟩)) hs
  | bridge =>
    refine ⟨hn, ?_, fun s hs => hs, fun s hs _ => hs⟩
    rintro s hs (⟨h, _⟩ | ⟨h, _⟩) <;> cases h

theorem pruned_false {ty : TType} {l : List String} (h : ∀ s ∈ l, ¬ ForeignProto ty s) : pruned ty l = false := by
  rw [← Bool.not_eq_true]
  intro hp
  cases ty <;> simp only [pruned, Bool.or_eq_true, List.contains_iff_mem, Bool.false_eq_true] at hp
  · rcases hp with hp | hp
    · exact h _ hp (.inl ⟨rfl, .inl rfl⟩)
    · exact h _ hp (.inl ⟨rfl, .inr rfl⟩)
  · exact h _ hp (.inr ⟨rfl, rfl⟩)

/-- C68 (partial): printing a term object a second time gives the same term. Missing: terms of which only foreign
icmp protocols are left out (`C68_refuted_icmp6`), the `sample` option (`C68_refuted_sample`), icmp types with
`icmpv6` (`C68_refuted_types`) and repeated protocols. -/
theorem C68_again_partial {platform : String} {ty : TType} {dsmo : Bool} {j : JTerm}
    (hn : j.term.protocol.Nodup ∧ j.term.protocolExcept.Nodup)
    (hp : j.term.protocol = [] ∨ ∃ s ∈ j.term.protocol, ¬ ForeignProto ty s)
    (hs : ∀ o ∈ j.term.option, ¬ "sample".toList <+: o.toList)
    (hi : j.term.icmpType = [] ∨ "icmpv6" ∉ j.term.protocol)
    {o : Option Out} {j' : JTerm} (h : renderTerm platform ty dsmo j = .ok (o, j')) :
    printTwice platform ty dsmo j = .ok (o, o) := by
  rw [renderFrom_nil] at h
  obtain ⟨⟨o1, j1, ex⟩, h', e⟩ := map_ok h
  clear h
  cases e
  have h := h'
  clear h'
  unfold printTwice
  rw [h]
  dsimp only
  change (renderFrom platform ty dsmo ex j1 >>= fun s => Except.ok (o1, s.1)) = _
  suffices hh : ∃ k, renderFrom platform ty dsmo ex j1 = .ok (o1, k) by
    obtain ⟨k, hk⟩ := hh
    rw [hk]
    rfl
  obtain ⟨p1, p2, p3, p4⟩ := prune_facts (ty := ty) hn.1
  have hemp : (pruneIcmp ty j.term.protocol).isEmpty = true → pruned ty j.term.protocol = false := by
    intro he
    rw [List.isEmpty_iff] at he
    rcases hp with hp | ⟨s, hs, hf⟩
    · rw [hp]
      cases ty <;> rfl
    · have := p4 s hs hf
      rw [he] at this
      cases this
  unfold renderFrom at h
  split at h
  next hon =>
    cases h
    unfold renderFrom
    rw [if_pos hon]
    exact ⟨_, rfl⟩
  next hon =>
    dsimp only at h
    rw [if_neg (by
      rw [Bool.and_eq_true]
      rintro ⟨h1, h2⟩
      rw [hemp h1] at h2
      cases h2)] at h
    have again : ∀ (P PE : List String) (ex : List String), pruneIcmp ty P = P → pruned ty P = false →
        renderFrom platform ty dsmo ex { j with term := { j.term with protocol := P, protocolExcept := PE } } =
          if !j.term.verbatim.isEmpty then
            .ok (some (.verbatim ((j.term.verbatim.filter fun v => v.1 == platform).map Prod.snd)),
              { j with term := { j.term with protocol := P, protocolExcept := PE } }, ex)
          else
            options ty P ([], ex) j.term.option >>= fun o =>
              printTerm ty dsmo { j with term := { j.term with protocol := P, protocolExcept := PE } } o >>= fun r =>
                .ok (r.1, r.2, o.2) := by
      intro P PE ex e1 e2
      unfold renderFrom
      rw [if_neg (show ¬ (!Cisco.onPlatform platform { j.term with protocol := P, protocolExcept := PE }) = true from hon)]
      dsimp only
      rw [e1, e2, Bool.and_false, if_neg (by simp)]
    have q1 : pruned ty (pruneIcmp ty j.term.protocol) = false := pruned_false p2
    have q2 := prune_absent q1
    split at h
    next hv =>
      cases h
      rw [again _ j.term.protocolExcept _ q2 q1, if_pos hv]
      exact ⟨_, rfl⟩
    next hv =>
      obtain ⟨os, ho, h⟩ := bind_ok h
      obtain ⟨r, hr, h⟩ := bind_ok h
      simp only [Except.ok.injEq, Prod.mk.injEq] at h
      obtain ⟨rfl, rfl, rfl⟩ := h
      have hex := options_nosample hs ho
      have ho' : options ty (pruneIcmp ty j.term.protocol) ([], os.2) j.term.option = .ok os := by
        rw [hex]
        exact ho
      rcases printTerm_obj hr with e | e
      · rw [e, again _ j.term.protocolExcept _ q2 q1, if_neg hv, ho']
        change ∃ k, (printTerm ty dsmo _ os >>= fun r => Except.ok (r.1, r.2, os.2)) = _
        rw [hr]
        exact ⟨_, rfl⟩
      · have hr2 := printTerm_rename (j := { j with term := { j.term with protocol := pruneIcmp ty j.term.protocol } })
          p1 hn.2 (hi.imp id fun h hm => h (p3 _ hm)) hr
        obtain ⟨k, hr2⟩ := hr2
        have f1 : ∀ s ∈ replaceFirst "icmpv6" "icmp6" (pruneIcmp ty j.term.protocol), ¬ ForeignProto ty s := by
          intro s hs hf
          rcases hf with ⟨rfl, hf⟩ | ⟨rfl, rfl⟩
          · have : "icmpv6" ∉ pruneIcmp .inet j.term.protocol := fun hm => p2 _ hm (.inl ⟨rfl, .inl rfl⟩)
            rw [replaceFirst_absent this] at hs
            exact p2 s hs (.inl ⟨rfl, hf⟩)
          · rw [mem_replaceFirst (by decide) (by decide)] at hs
            exact p2 _ hs (.inr ⟨rfl, rfl⟩)
        have f2 := pruned_false f1
        rw [e]
        have := again (replaceFirst "icmpv6" "icmp6" (pruneIcmp ty j.term.protocol))
          (replaceFirst "icmpv6" "icmp6" j.term.protocolExcept) os.2 (prune_absent f2) f2
        unfold renameIcmp at hr2 ⊢
        dsimp only at hr2 ⊢
        rw [this, if_neg hv, options_rename, ho']
        change ∃ k, (printTerm ty dsmo _ os >>= fun r => Except.ok (r.1, r.2, os.2)) = _
        rw [hr2]
        exact ⟨_, rfl⟩

/-! ### concrete cases and refutations -/

/-- C67 is not vacuous: these terms have no icmp protocol and a mixed filter prints them for both families. -/
example : (∃ os, renderMixed "juniper" false [jexWeb, jexEst, jexDeny] = .ok os ∧ os.1.length = 3 ∧ os.2.length = 3) ∧
    ∀ j ∈ [jexWeb, jexEst, jexDeny], Junos.Live "juniper" j ∧ "icmp" ∉ j.term.protocol ∧ "icmpv6" ∉ j.term.protocol := by
  refine ⟨⟨_, rfl, by decide +kernel, by decide +kernel⟩, ?_⟩
  intro j hj
  simp only [List.mem_cons, List.not_mem_nil, or_false] at hj
  rcases hj with rfl | rfl | rfl <;> exact ⟨⟨rfl, by decide, rfl, .inl rfl, by decide⟩, by decide, by decide⟩

/-- C67 is false for a term for `icmpv6` only: printing the IPv4 filter takes the protocol away from the term, and in
the IPv6 filter it accepts every packet. -/
theorem C67_refuted_icmp6 : ∃ (t : Term) (p : Packet) (x : Out), JAccepted "juniper" t ∧
    mixedTerm "juniper" false (jterm t) = .ok (none, some x) ∧ Packets p ∧ p.ver = .v6 ∧ Acts p x .accept ∧
    ¬ Junos.Means t p := by
  refine ⟨{ name := "t".toList, action := ["accept"], protocol := ["icmpv6"] }, junosPacket .v6 "tcp",
    .term false "t".toList (.normal none (some (false, [[.w "accept"]]))),
    by decide +kernel, by decide +kernel, junosPacket_ok, rfl, ⟨_, none, _, rfl, fromMatches_none, by decide⟩, ?_⟩
  rintro (⟨_, _, _, ⟨h, _⟩, _⟩ | ⟨h, _⟩)
  · rcases h with h | h
    · cases h
    · exact absurd h (by decide)
  · exact absurd h (by decide)

/-- C67 is false for a term with both icmp protocols: it is missing in the IPv6 filter. -/
theorem C67_refuted_both : ∃ (t : Term) (p : Packet) (x : Out), JAccepted "juniper" t ∧
    mixedTerm "juniper" false (jterm t) = .ok (some x, none) ∧ Packets p ∧ p.ver = .v6 ∧ Junos.Means t p := by
  refine ⟨{ name := "t".toList, action := ["accept"], protocol := ["icmp", "icmpv6"] },
    { ver := .v6, proto := "icmpv6" }, _, by decide +kernel, rfl, ?_, rfl, .inl ⟨by decide, ?_⟩⟩
  · exact ⟨⟨by decide, by decide, by decide, by decide, by decide, rfl, by decide, by decide, rfl⟩, rfl⟩
  · simp [conditions, Matches, MatchAddrs, MatchPorts, MatchProto, MatchPrefixes, MatchMisc, MatchRest, OneOf, PortMatch,
      RangeMatch, AddrMatch, Den]

/-- C67 is false for `hopopt`: each of the two filters can be printed, the mixed one raises an error. -/
theorem C67_refuted_hopopt : ∃ (t : Term), JAccepted "juniper" t ∧
    (∃ x, singleTerm "juniper" .inet false (jterm t) = .ok (some x)) ∧
    (∃ x, singleTerm "juniper" .inet6 false (jterm t) = .ok (some x)) ∧
    mixedTerm "juniper" false (jterm t) = .error (.raised "UnsupportedFilterError") := by
  exact ⟨{ name := "t".toList, action := ["accept"], protocol := ["hopopt"] }, by decide +kernel, ⟨_, rfl⟩, ⟨_, rfl⟩,
    by decide +kernel⟩

/-- C68 is not vacuous. -/
example : ∃ x, printTwice "juniper" .inet false jexEst = .ok (some x, some x) := by
  obtain ⟨x, j', h⟩ : ∃ x j', renderTerm "juniper" .inet false jexEst = .ok (some x, j') := ⟨_, _, rfl⟩
  exact ⟨x, C68_again_partial (by decide) (.inr ⟨"tcp", by decide, by
    rintro (⟨_, h | h⟩ | ⟨h, _⟩) <;> exact absurd h (by decide)⟩) (by decide) (.inl rfl) h⟩

/-- C68 is false: a term for `icmpv6` in an IPv4 filter is left out at first, and accepts every packet when the filter
is printed again. -/
theorem C68_refuted_icmp6 : ∃ (t : Term) (x : Out), JAccepted "juniper" t ∧
    printTwice "juniper" .inet false (jterm t) = .ok (none, some x) ∧ ∀ p, Acts p x .accept :=
  ⟨{ name := "t".toList, action := ["accept"], protocol := ["icmpv6"] },
    .term false "t".toList (.normal none (some (false, [[.w "accept"]]))), by decide +kernel, by decide +kernel,
    fun _ => ⟨_, none, _, rfl, fromMatches_none, by decide⟩⟩

/-- C68 is false: `sample` is printed once more at every printing. -/
theorem C68_refuted_sample : ∃ (t : Term) (x y : Out), JAccepted "juniper" t ∧
    printTwice "juniper" .inet false (jterm t) = .ok (some x, some y) ∧ x ≠ y :=
  ⟨{ name := "t".toList, action := ["accept"], option := ["sample"] },
    .term false "t".toList (.normal none (some (true, [[.w "sample"], [.w "accept"]]))),
    .term false "t".toList (.normal none (some (true, [[.w "sample"], [.w "sample"], [.w "accept"]]))),
    by decide +kernel, by decide +kernel, by decide +kernel⟩

/-- C68 is false: with icmp types, the second printing raises an error. -/
theorem C68_refuted_types : ∃ (t : Term) (x : Out), JAccepted "juniper" t ∧
    singleTerm "juniper" .inet6 false (jterm t) = .ok (some x) ∧
    printTwice "juniper" .inet6 false (jterm t) = .error (.raised "UnsupportedFilterError") :=
  ⟨{ name := "t".toList, action := ["accept"], protocol := ["icmpv6"], icmpType := ["echo-request"] }, _,
    by decide +kernel, rfl, by decide +kernel⟩

end Verif.Props
