import Verif.Spec.Nsx
import Verif.Lemmas.Basic
import Verif.Lemmas.Flat
import Verif.Lemmas.FirstMatch
import Verif.Lemmas.IptablesTerm
import Verif.Lemmas.Exclude
import Verif.Props.JuniperTerm

/-!
C127, C128: what the rules of capirca/lib/nsxv.py and capirca/lib/nsxt.py make NSX do.
-/

namespace Verif.Props
open Verif Verif.Spec Verif.Nsx Policy Aclgenerator Nacaddr

/-! ### what both generators share -/

/-- The rules of a term that is prepared and then rendered. -/
def nsxOut (prep : NTerm → Except Err (Option PTerm)) (render : PTerm → Except Err (Option Rule)) (n : NTerm) : List Rule :=
  match prep n with
  | .ok (some p) =>
    match render p with
    | .ok (some r) => [r]
    | _ => []
  | _ => []

theorem nsx_passes {prep : NTerm → Except Err (Option PTerm)} {render : PTerm → Except Err (Option Rule)} :
    ∀ {ns : List NTerm} {os : List (Option PTerm)} {rs : List (Option Rule)}, listM prep ns = .ok os →
      listM render (os.filterMap id) = .ok rs →
      rs.filterMap id = ns.flatMap (nsxOut prep render) ∧
      ∀ n ∈ ns, ∃ o, prep n = .ok o ∧ ∀ p, o = some p → ∃ r, render p = .ok r
  | [], os, rs, h1, h2 => by
    cases h1
    cases h2
    exact ⟨rfl, by simp⟩
  | n :: ns, os, rs, h1, h2 => by
    rw [listM] at h1
    obtain ⟨o, ho, h1⟩ := bind_ok h1
    obtain ⟨os, hos, h1⟩ := bind_ok h1
    cases h1
    cases o with
    | none =>
      obtain ⟨e, h⟩ := nsx_passes hos h2
      refine ⟨?_, ?_⟩
      · rw [List.flatMap_cons, e]
        have : nsxOut prep render n = [] := by
          unfold nsxOut
          rw [ho]
        rw [this]
        rfl
      · intro m hm
        rcases List.mem_cons.1 hm with rfl | hm
        · exact ⟨none, ho, fun p e => by cases e⟩
        · exact h m hm
    | some p =>
      rw [List.filterMap_cons] at h2
      dsimp only [id] at h2
      rw [listM] at h2
      obtain ⟨r, hr, h2⟩ := bind_ok h2
      obtain ⟨rs, hrs, h2⟩ := bind_ok h2
      cases h2
      obtain ⟨e, h⟩ := nsx_passes hos hrs
      refine ⟨?_, ?_⟩
      · rw [List.flatMap_cons, ← e]
        have : nsxOut prep render n = r.toList := by
          unfold nsxOut
          rw [ho]
          dsimp only
          rw [hr]
          cases r <;> rfl
        rw [this]
        cases r <;> rfl
      · intro m hm
        rcases List.mem_cons.1 hm with rfl | hm
        · exact ⟨some p, ho, fun q e => by cases e; exact ⟨r, hr⟩⟩
        · exact h m hm

theorem parseOptions_ok {err : Err} {opts : List String} {tg : Target} (h : parseOptions err opts = .ok tg) :
    Spec.Nsx.typeOf opts = some tg.type ∧ (tg.type = "inet" ∨ tg.type = "inet6" ∨ tg.type = "mixed") := by
  unfold parseOptions at h
  split at h
  next name type rest =>
    split at h
    · cases h
    · split at h
      · cases h
      next ht =>
        obtain ⟨g, _, h⟩ := bind_ok h
        cases h
        refine ⟨rfl, ?_⟩
        simp only [Bool.not_eq_true', Bool.not_eq_false, List.contains_iff_mem, List.mem_cons, List.not_mem_nil, or_false] at ht
        exact ht
  · cases h

/-- The families of a rule are those the filter is about. -/
theorem nsx_about {opts : List String} {type : String} (ht : Spec.Nsx.typeOf opts = some type)
    (hk : type = "inet" ∨ type = "inet6" ∨ type = "mixed") (t : Term) (v : Ver) :
    v ∈ families type (familyOf type t) ↔ Spec.Nsx.About opts v := by
  unfold Spec.Nsx.About families familyOf
  rw [ht]
  rcases hk with rfl | rfl | rfl <;> cases v <;> simp

theorem den_versions {l : List Net} {v w : Ver} (h : ∀ n ∈ l, n.ver = w) {x : Nat} (hd : Den l v x) : v = w := by
  obtain ⟨n, hn, hm⟩ := hd
  exact hm.1.symm.trans (h n hn)

theorem den_app {a b : List Net} {v : Ver} {x : Nat} : Den (a ++ b) v x ↔ Den a v x ∨ Den b v x := by
  unfold Den
  simp only [List.mem_append]
  constructor
  · rintro ⟨n, h | h, hm⟩
    · exact .inl ⟨n, h, hm⟩
    · exact .inr ⟨n, h, hm⟩
  · rintro (⟨n, h, hm⟩ | ⟨n, h, hm⟩)
    · exact ⟨n, .inl h, hm⟩
    · exact ⟨n, .inr h, hm⟩

theorem den_nil {v : Ver} {x : Nat} : ¬ Den [] v x := by
  rintro ⟨n, hn, _⟩
  cases hn

/-- Comparing the directions changes nothing. -/
theorem sides_spec {type : String} {s4 s6 d4 d6 : List Net} (h1 : ∀ n ∈ s4, n.ver = .v4) (h2 : ∀ n ∈ s6, n.ver = .v6)
    (h3 : ∀ n ∈ d4, n.ver = .v4) (h4 : ∀ n ∈ d6, n.ver = .v6) (v : Ver) (x y : Nat) :
    (sides type s4 s6 d4 d6 = none → ¬ (((s4 ++ s6 = []) ∨ Den (s4 ++ s6) v x) ∧ ((d4 ++ d6 = []) ∨ Den (d4 ++ d6) v y))) ∧
    ∀ s d, sides type s4 s6 d4 d6 = some (s, d) →
      (∀ n ∈ s, n ∈ s4 ++ s6) ∧ (∀ n ∈ d, n ∈ d4 ++ d6) ∧
      (((s = []) ∨ Den s v x) ∧ ((d = []) ∨ Den d v y) ↔
        ((s4 ++ s6 = []) ∨ Den (s4 ++ s6) v x) ∧ ((d4 ++ d6 = []) ∨ Den (d4 ++ d6) v y)) := by
  have a1 : v = .v6 → ¬ Den s4 v x := fun e h => by rw [den_versions h1 h] at e; cases e
  have a2 : v = .v4 → ¬ Den s6 v x := fun e h => by rw [den_versions h2 h] at e; cases e
  have a3 : v = .v6 → ¬ Den d4 v y := fun e h => by rw [den_versions h3 h] at e; cases e
  have a4 : v = .v4 → ¬ Den d6 v y := fun e h => by rw [den_versions h4 h] at e; cases e
  have hv : v = .v4 ∨ v = .v6 := by cases v <;> simp
  unfold sides
  split
  · unfold balance
    split
    · refine ⟨(by intro h; cases h), fun s d h => ?_⟩
      cases h
      exact ⟨fun _ h => h, fun _ h => h, Iff.rfl⟩
    next hne =>
      simp only [Bool.or_eq_true, List.isEmpty_iff, not_or] at hne
      dsimp only
      rw [or_iff_right hne.1, or_iff_right hne.2, den_app, den_app]
      have nil : ∀ {l : List Net} {z : Nat}, l = [] → ¬ Den l v z := by
        intro l z e
        rw [e]
        exact den_nil
      have ne : ∀ {l m : List Net} {z : Nat}, ¬ (l.isEmpty || m.isEmpty) = true → l ≠ [] ∧ m ≠ [] := by
        intro l m z h
        simpa using h
      repeat' split
      all_goals simp_all [den_app]
      all_goals grind
  · refine ⟨(by intro h; cases h), fun s d h => ?_⟩
    cases h
    exact ⟨fun _ h => h, fun _ h => h, Iff.rfl⟩

/-- The addresses of one family. -/
theorem side_spec {fams : List Ver} {v : Ver} {inc exc : List Net} (hi : ∀ n ∈ inc, WF n) (he : ∀ n ∈ exc, WF n) :
    ∃ r, side fams v inc exc = .ok r ∧ (∀ n ∈ r, WF n) ∧ (∀ n ∈ r, n.ver = v) ∧ (inc = [] → r = []) ∧ (v ∉ fams → r = []) ∧
      (inc ≠ [] → v ∈ fams → ∀ x, Den r v x ↔ AddrMatch inc exc v x) := by
  unfold side
  split
  next h =>
    refine ⟨[], rfl, by simp, by simp, fun _ => rfl, fun _ => rfl, fun h1 h2 => ?_⟩
    simp only [Bool.or_eq_true, Bool.not_eq_true', List.isEmpty_iff] at h
    rcases h with h | h
    · rw [← Bool.not_eq_true, List.contains_iff_mem] at h
      exact absurd h2 h
    · exact absurd h h1
  next h =>
    simp only [Bool.or_eq_true, Bool.not_eq_true', List.isEmpty_iff, not_or, Bool.not_eq_false, List.contains_iff_mem] at h
    obtain ⟨r, h1, h2, h3, h4⟩ := Cisco.leftover_spec (af := v) hi he h.2
    exact ⟨r, h1, h2, h3, fun e => absurd e h.2, fun e => absurd h.1 e, fun _ _ => h4⟩

/-- A list of addresses that says what the term says about a direction. -/
theorem nsx_pfx {l : List Net} (hw : ∀ n ∈ l, WF n) {v : Ver} {x : Nat} :
    (l.map pfx = [] ∨ ∃ n ∈ l.map pfx, Flat.Covers n v x) ↔ l = [] ∨ Den l v x := by
  rw [List.map_eq_nil_iff]
  have : (∃ n ∈ l.map pfx, Flat.Covers n v x) ↔ Den l v x := by
    constructor
    · rintro ⟨n, hn, h⟩
      obtain ⟨m, hm, rfl⟩ := List.mem_map.1 hn
      exact ⟨m, hm, (Flat.covers_iff (hw m hm) v x).1 h⟩
    · rintro ⟨m, hm, h⟩
      exact ⟨_, List.mem_map_of_mem hm, (Flat.covers_iff (hw m hm) v x).2 h⟩
  rw [this]

theorem nsx_types {v : Ver} {t : Term} {types : List (Option Nat)} (h : icmpTypes v t = .ok types) (hne : t.protocol ≠ []) :
    (∀ p : Packet, (∃ ty ∈ types, ∀ k, ty = some k → (p.icmpType, k) ∈ icmpNumbers v) ↔ OneOf t.icmpType p.icmpType) ∧
    (t.icmpType = [] → types = [none]) ∧
    (t.icmpType ≠ [] → none ∉ types ∧ ((v = .v4 ∧ t.protocol = ["icmp"]) ∨ (v = .v6 ∧ t.protocol = ["icmpv6"])) ∧
      ∀ k, some k ∈ types → ∃ s ∈ t.icmpType, (s, k) ∈ icmpNumbers v) := by
  unfold icmpTypes at h
  rw [if_neg (by simpa using hne)] at h
  by_cases h0 : t.icmpType = []
  · rw [h0] at h
    have : types = [none] := by
      unfold normalizeIcmpTypes at h
      cases h
      rfl
    refine ⟨fun p => ?_, fun _ => this, fun h => absurd h0 h⟩
    rw [this]
    exact iff_of_true ⟨none, by simp, by simp⟩ (.inl h0)
  · obtain ⟨tbl, hc, hk, nums, rfl, _, hp⟩ := (C34_types h0 types).1 h
    have ht : tbl = icmpNumbers v ∧ ((v = .v4 ∧ t.protocol = ["icmp"]) ∨ (v = .v6 ∧ t.protocol = ["icmpv6"])) := by
      rcases hc with ⟨e, hq, rfl⟩ | ⟨e, hq, rfl⟩ <;> cases v
      · exact ⟨by decide, .inl ⟨rfl, hq⟩⟩
      · exact absurd e (by decide)
      · exact absurd e (by decide)
      · exact ⟨by decide, .inr ⟨rfl, hq⟩⟩
    refine ⟨fun p => ?_, fun e => absurd e h0, fun _ => ⟨by simp, ht.2, fun k hk' => ?_⟩⟩
    · have h1 : Cisco.icmpTypesOf t v = .ok (nums.map some) := by
        unfold Cisco.icmpTypesOf
        rw [if_neg (by simpa using h0)]
        exact h
      exact (Cisco.icmpTypes_spec h1 p).1
    · have hk2 : k ∈ nums := by simpa using hk'
      obtain ⟨x, hx, hl⟩ := List.mem_filterMap.1 (hp.mem_iff.1 hk2)
      rw [ht.1] at hl
      exact ⟨x, hx, Cisco.mem_of_lookup' hl⟩

theorem iana_known : ∀ s ∈ iana.map Prod.fst, ∃ n, protoMap.lookup s = some n := by
  have h : ∀ s ∈ iana.map Prod.fst, (protoMap.lookup s).isSome = true := by decide
  intro s hs
  exact Option.isSome_iff_exists.1 (h s hs)

theorem iana_icmp : ∀ e ∈ protoMap, (e.2 = 1 ↔ e.1 = "icmp") ∧ (e.2 = 58 ↔ e.1 = "icmpv6") ∧ (e.2 = 6 ↔ e.1 = "tcp") ∧
    (e.2 = 17 ↔ e.1 = "udp") := by decide

/-- The ports of a service. -/
theorem nsx_port {l : List PortRange} {p : Packet} {x : Nat} (hp : l ≠ [] → p.proto ∈ Flat.portProtos) :
    (l = [] ∨ ∃ r ∈ l, Flat.PortIn p x r) ↔ PortMatch l x := by
  unfold PortMatch PMem
  constructor
  · rintro (h | ⟨r, hr, _, h⟩)
    · exact .inl h
    · exact .inr ⟨r, hr, h⟩
  · rintro (h | ⟨r, hr, h⟩)
    · exact .inl h
    · exact .inr ⟨r, hr, hp (List.ne_nil_of_mem hr), h⟩

/-- The service of a protocol other than icmp. -/
theorem nsx_plain {t : Term} {s : String} {n : Int} (hn : protoMap.lookup s = some n) {p : Packet} (hc : p.proto ∈ iana.map Prod.fst)
    (hp : t.sourcePort ≠ [] ∨ t.destinationPort ≠ [] → s ∈ Flat.portProtos) :
    Spec.Nsx.ServiceHits { proto := .num n, sport := t.sourcePort, dport := t.destinationPort } p ↔
      p.proto = s ∧ PortMatch t.sourcePort p.sport ∧ PortMatch t.destinationPort p.dport := by
  have num := Flat.numberIs_iff hn hc
  constructor
  · rintro ⟨h1, h2, h3, _⟩
    have e := num.1 h1
    refine ⟨e, (nsx_port fun h => ?_).1 h2, (nsx_port fun h => ?_).1 h3⟩
    · rw [e]; exact hp (.inl h)
    · rw [e]; exact hp (.inr h)
  · rintro ⟨e, h2, h3⟩
    exact ⟨num.2 e, (nsx_port fun h => by rw [e]; exact hp (.inl h)).2 h2,
      (nsx_port fun h => by rw [e]; exact hp (.inr h)).2 h3, Flat.ifSet_none⟩

/-- The service of an icmp protocol. -/
theorem nsx_icmp {s : String} {n : Int} (hn : protoMap.lookup s = some n) {p : Packet} (hc : p.proto ∈ iana.map Prod.fst)
    {o : Option Nat} :
    Spec.Nsx.ServiceHits { proto := .num n, icmp := o } p ↔
      p.proto = s ∧ Flat.IfSet o fun k => (p.icmpType, k) ∈ icmpNumbers p.ver := by
  have num := Flat.numberIs_iff hn hc
  constructor
  · rintro ⟨h1, _, _, h4⟩
    exact ⟨num.1 h1, h4⟩
  · rintro ⟨h1, h4⟩
    exact ⟨num.2 h1, .inl rfl, .inl rfl, h4⟩

/-- What the services of a term have to say. -/
theorem nsx_services {t : Term} {v : Ver} {types : List (Option Nat)} (ht : icmpTypes v t = .ok types) {p : Packet} (hc : Coherent p)
    {svc : String → List Service} (hne : t.sourcePort ++ t.destinationPort ≠ [] ∨ t.icmpType ≠ [] → t.protocol ≠ [])
    (hports : t.sourcePort ≠ [] ∨ t.destinationPort ≠ [] → ∀ s ∈ t.protocol, s ∈ Flat.portProtos)
    (plain : ∀ s ∈ t.protocol, s ≠ "icmp" → s ≠ "icmpv6" → ∃ n, protoMap.lookup s = some n ∧
      svc s = [{ proto := .num n, sport := t.sourcePort, dport := t.destinationPort }])
    (icmp : ∀ s ∈ t.protocol, s = "icmp" ∨ s = "icmpv6" → ∃ n, protoMap.lookup s = some n ∧
      svc s = types.map fun ty => { proto := .num n, icmp := ty }) :
    (t.protocol.flatMap svc = [] ∨ ∃ s ∈ t.protocol.flatMap svc, Spec.Nsx.ServiceHits s p) ↔
      OneOf t.protocol p.proto ∧ (PortMatch t.sourcePort p.sport ∧ PortMatch t.destinationPort p.dport) ∧
      OneOf t.icmpType p.icmpType := by
  by_cases h0 : t.protocol = []
  · have h1 : t.sourcePort ++ t.destinationPort = [] := by
      by_cases h : t.sourcePort ++ t.destinationPort = []
      · exact h
      · exact absurd h0 (hne (.inl h))
    have h2 : t.icmpType = [] := by
      by_cases h : t.icmpType = []
      · exact h
      · exact absurd h0 (hne (.inr h))
    rw [List.append_eq_nil_iff] at h1
    refine iff_of_true (.inl (by rw [h0]; rfl)) ⟨.inl h0, ⟨.inl h1.1, .inl h1.2⟩, .inl h2⟩
  · obtain ⟨ty1, ty2, ty3⟩ := nsx_types ht h0
    have types_ne : types ≠ [] := by
      intro e
      by_cases h : t.icmpType = []
      · rw [ty2 h] at e
        cases e
      · have hx : ∃ s, s ∈ t.icmpType := List.exists_mem_of_ne_nil _ h
        obtain ⟨s, hs⟩ := hx
        have := (ty1 { icmpType := s }).2 (.inr hs)
        rw [e] at this
        obtain ⟨_, h, _⟩ := this
        cases h
    have nonempty : ∀ s ∈ t.protocol, svc s ≠ [] := by
      intro s hs
      by_cases h : s = "icmp" ∨ s = "icmpv6"
      · obtain ⟨n, _, e⟩ := icmp s hs h
        rw [e]
        simpa using types_ne
      · rw [not_or] at h
        obtain ⟨n, _, e⟩ := plain s hs h.1 h.2
        rw [e]
        simp
    have hall : t.protocol.flatMap svc ≠ [] := by
      obtain ⟨s, hs⟩ := List.exists_mem_of_ne_nil _ h0
      intro e
      rw [List.flatMap_eq_nil_iff] at e
      exact nonempty s hs (e s hs)
    have each : ∀ s ∈ t.protocol, (∃ x ∈ svc s, Spec.Nsx.ServiceHits x p) ↔
        p.proto = s ∧ (PortMatch t.sourcePort p.sport ∧ PortMatch t.destinationPort p.dport) ∧ OneOf t.icmpType p.icmpType := by
      intro s hs
      by_cases h : s = "icmp" ∨ s = "icmpv6"
      · obtain ⟨n, hn, e⟩ := icmp s hs h
        have noports : t.sourcePort = [] ∧ t.destinationPort = [] := by
          by_cases hx : t.sourcePort ≠ [] ∨ t.destinationPort ≠ []
          · have := hports hx s hs
            rcases h with rfl | rfl <;> exact absurd this (by decide)
          · simpa using hx
        rw [e, ← ty1 p]
        have vers : t.icmpType ≠ [] → p.proto = s → p.ver = v := by
          intro hi hp
          obtain ⟨_, h4 | h4, _⟩ := ty3 hi
          · rw [h4.2, List.mem_singleton] at hs
            rw [h4.1]
            cases hv : p.ver with
            | v4 => rfl
            | v6 => exact absurd (hp.trans hs) (hc.icmp6 hv)
          · rw [h4.2, List.mem_singleton] at hs
            rw [h4.1]
            cases hv : p.ver with
            | v6 => rfl
            | v4 => exact absurd (hp.trans hs) (hc.icmp4 hv)
        have conv : p.proto = s → ∀ ty ∈ types, (Flat.IfSet ty fun k => (p.icmpType, k) ∈ icmpNumbers p.ver) ↔
            ∀ k, ty = some k → (p.icmpType, k) ∈ icmpNumbers v := by
          intro hp ty hty
          by_cases hi : t.icmpType = []
          · rw [ty2 hi, List.mem_singleton] at hty
            subst hty
            exact iff_of_true Flat.ifSet_none (by simp)
          · rw [vers hi hp]
            rfl
        constructor
        · rintro ⟨x, hx, h⟩
          obtain ⟨ty, hty, rfl⟩ := List.mem_map.1 hx
          obtain ⟨h1, h2⟩ := (nsx_icmp hn hc.proto).1 h
          exact ⟨h1, ⟨.inl noports.1, .inl noports.2⟩, ty, hty, (conv h1 ty hty).1 h2⟩
        · rintro ⟨h1, _, ty, hty, h2⟩
          exact ⟨_, List.mem_map_of_mem hty, (nsx_icmp hn hc.proto).2 ⟨h1, (conv h1 ty hty).2 h2⟩⟩
      · rw [not_or] at h
        obtain ⟨n, hn, e⟩ := plain s hs h.1 h.2
        have hi : t.icmpType = [] := by
          by_cases hi : t.icmpType = []
          · exact hi
          · obtain ⟨_, h4 | h4, _⟩ := ty3 hi
            · rw [h4.2, List.mem_singleton] at hs
              exact absurd hs h.1
            · rw [h4.2, List.mem_singleton] at hs
              exact absurd hs h.2
        rw [e, hi]
        have key := nsx_plain (t := t) hn hc.proto (fun h => hports h s hs)
        constructor
        · rintro ⟨x, hx, h⟩
          rw [List.mem_singleton] at hx
          subst hx
          obtain ⟨a, b⟩ := key.1 h
          exact ⟨a, b, .inl rfl⟩
        · rintro ⟨a, b, _⟩
          exact ⟨_, List.mem_singleton.2 rfl, key.2 ⟨a, b⟩⟩
    rw [or_iff_right hall]
    constructor
    · rintro ⟨x, hx, h⟩
      obtain ⟨s, hs, hx⟩ := List.mem_flatMap.1 hx
      obtain ⟨a, b⟩ := (each s hs).1 ⟨x, hx, h⟩
      exact ⟨.inr (by rw [a]; exact hs), b⟩
    · rintro ⟨a | a, b⟩
      · exact absurd a h0
      · obtain ⟨x, hx, h⟩ := (each _ a).2 ⟨rfl, b⟩
        exact ⟨x, List.mem_flatMap.2 ⟨_, a, hx⟩, h⟩

/-! ### the rule of a term -/

/-- The terms that are rendered faithfully, as far as the tools do not refuse others. For what happens without the conditions
beyond their own checks, see the refutations. -/
structure NsxFits (tables : Tables) (opts : List String) (p : Packet) (t : Term) : Prop where
  keywords : initCheck tables [([tables.platform], [kterm t])] = .ok ()
  sane : sanityCheck t = .ok ()
  untagged : Untagged t
  family : FamilyOk p.ver t
  action : ∃ w, t.action = [w]
  src : ∀ n ∈ t.sourceAddress ++ t.sourceAddressExclude, WF n
  dst : ∀ n ∈ t.destinationAddress ++ t.destinationAddressExclude, WF n
  srcExclude : t.sourceAddress = [] → t.sourceAddressExclude = []
  dstExclude : t.destinationAddress = [] → t.destinationAddressExclude = []
  options : t.option ≠ [] → ∃ o ∈ t.option, p.hasOption o = false
  icmp4 : Spec.Nsx.typeOf opts = some "inet" → "icmpv6" ∈ t.protocol → ∀ s ∈ t.protocol, s = "icmpv6"
  icmp6 : Spec.Nsx.typeOf opts = some "inet6" → "icmp" ∈ t.protocol → ∀ s ∈ t.protocol, s = "icmp"
  both : "icmp" ∈ t.protocol → "icmpv6" ∉ t.protocol
  ports : t.sourcePort ++ t.destinationPort ≠ [] → t.protocol ≠ []
  types : t.icmpType ≠ [] → t.protocol ≠ []

theorem nsx_matches {tables : Tables} (h1 : ∀ e ∈ tables.subTokens, e.1 ∈ tables.tokens) (hw : tables.warnOnly = warnIfUnsupported)
    (hr : ∀ s ∈ rareWords, s ∉ tables.tokens) (h2 : "protocol_except" ∉ tables.tokens) (h3 : "icmp_code" ∉ tables.tokens)
    {opts : List String} {t : Term} {p : Packet} (f : NsxFits tables opts p t) (ha : Active tables.platform (kterm t))
    (ho : t.option = []) : Matches t p ↔
      (AddrMatch t.sourceAddress t.sourceAddressExclude p.ver p.src ∧
        AddrMatch t.destinationAddress t.destinationAddressExclude p.ver p.dst) ∧
      OneOf t.protocol p.proto ∧ (PortMatch t.sourcePort p.sport ∧ PortMatch t.destinationPort p.dport) ∧
      OneOf t.icmpType p.icmpType := by
  have un := fun (s : String) {v : Val} => unset (g := tables) h1 hw ha f.keywords s (v := v)
  have b := basic_of (g := tables) h1 hw hr ha f.keywords
  have h5 : t.protocolExcept = [] := Cisco.wordsVal_falsy (un "protocol_except" (by simp [attrsOf]) ⟨h2, by decide⟩)
  have h9 : t.icmpCode = [] := Cisco.listVal_falsy (un "icmp_code" (by simp [attrsOf]) ⟨h3, by decide⟩)
  rw [matches_basic b f.untagged f.family]
  unfold MatchProto
  rw [h5, h9, ho]
  constructor
  · rintro ⟨a, ⟨c, _⟩, d, ⟨e, _⟩, _⟩
    exact ⟨a, c, d, e⟩
  · rintro ⟨a, c, d, e⟩
    exact ⟨a, ⟨c, by simp⟩, d, ⟨e, .inl rfl⟩, by simp⟩

theorem nsx_side {inc exc s4 s6 : List Net} (h4 : ∀ n ∈ s4, n.ver = .v4) (h6 : ∀ n ∈ s6, n.ver = .v6) {v : Ver} {x : Nat}
    (nil : inc = [] → s4 ++ s6 = []) (ex : inc = [] → exc = []) (left : inc ≠ [] → s4 ++ s6 ≠ [])
    (d : inc ≠ [] → (v = .v4 → (Den s4 v x ↔ AddrMatch inc exc v x)) ∧ (v = .v6 → (Den s6 v x ↔ AddrMatch inc exc v x))) :
    (s4 ++ s6 = [] ∨ Den (s4 ++ s6) v x) ↔ AddrMatch inc exc v x := by
  by_cases h : inc = []
  · refine iff_of_true (.inl (nil h)) ⟨.inl h, ?_⟩
    rw [ex h]
    exact den_nil
  · rw [or_iff_right (left h), den_app]
    obtain ⟨d1, d2⟩ := d h
    cases v with
    | v4 =>
      rw [← d1 rfl]
      exact or_iff_left fun h => by cases den_versions h6 h
    | v6 =>
      rw [← d2 rfl]
      exact or_iff_right fun h => by cases den_versions h4 h

theorem nsx_keep {c : HighPorts} {t u : Term} {af : String} {st : Bool} (h : fixHighPorts c t af st = .ok u) :
    u.option = t.option ∧ u.protocol = t.protocol ∧ u.verbatim = t.verbatim ∧ u.platform = t.platform ∧
      u.platformExclude = t.platformExclude ∧ (t.option = [] → u = t) := by
  unfold fixHighPorts at h
  split at h
  · cases h
  · split at h
    · cases h
    · unfold fixEstablished at h
      split at h
      next ho =>
        have hne : t.option ≠ [] := by
          intro e
          rw [e] at ho
          cases ho
        split at h
        · cases h
          exact ⟨rfl, rfl, rfl, rfl, rfl, fun e => absurd e hne⟩
        · split at h
          · cases h
            exact ⟨rfl, rfl, rfl, rfl, rfl, fun e => rfl⟩
          · cases h
      · cases h
        exact ⟨rfl, rfl, rfl, rfl, rfl, fun e => rfl⟩

/-- The rule of a term matches and has the action if the term does. -/
theorem nsx_hits {platform type : String} {actions names : List (String × String)} {err : Err} {opts : List String}
    (ht : Spec.Nsx.typeOf opts = some type) (hk : type = "inet" ∨ type = "inet6" ∨ type = "mixed")
    {rule : PTerm → Except Err (Option Rule)} {render : PTerm → Except Err (Option Rule)}
    (hr : ∀ q, render q = (early platform err q.family q.item.term >>= fun skip => if skip then .ok none else rule q))
    {tables : Tables} {p : Packet} (hc : Coherent p) (hab : Spec.Nsx.About opts p.ver)
    (hact : ∀ w, (∃ a, (w, a) ∈ names) → (actions.lookup w).isSome = true)
    {n : NTerm} (fit : n.expired = false → NsxFits tables opts p n.term) {o : Option PTerm}
    (h1 : prepare actions type n = .ok o) (h2 : ∀ q, o = some q → ∃ r, render q = .ok r)
    (core : ∀ nm r a, Active platform (kterm n.term) → n.term.option = [] → n.term.verbatim = [] → n.expired = false →
      rule ⟨{ n with term := { n.term with name := nm } }, familyOf type n.term⟩ = .ok r →
      ((∃ x, r = some x ∧ Spec.Nsx.Hits x p ∧ x.action = a) ↔ Matches n.term p ∧ ∃ w, n.term.action = [w] ∧ (w, a) ∈ names))
    (a : String) :
    (∃ r ∈ nsxOut (prepare actions type) render n, Spec.Nsx.Hits r p ∧ r.action = a) ↔
      Flat.Wants platform names n.expired n.term p a := by
  unfold nsxOut
  rw [h1]
  unfold prepare at h1
  split at h1
  next he =>
    cases h1
    refine iff_of_false (by simp) ?_
    rintro ⟨⟨h, _⟩, _⟩
    rw [he] at h
    cases h
  next he =>
    have he' : n.expired = false := by simpa using he
    have fit := fit he'
    obtain ⟨w, hw⟩ := fit.action
    rw [hw] at h1
    dsimp only at h1
    split at h1
    next hl =>
      cases h1
      refine iff_of_false (by simp) ?_
      rintro ⟨_, _, u, hu, hm⟩
      rw [hw] at hu
      cases hu
      have := hact w ⟨a, hm⟩
      rw [hl] at this
      cases this
    next act hl =>
      obtain ⟨nm, _, h1⟩ := bind_ok h1
      obtain ⟨t', hf, h1⟩ := bind_ok h1
      cases h1
      obtain ⟨r, hren⟩ := h2 _ rfl
      dsimp only
      rw [hren]
      rw [hr] at hren
      obtain ⟨skip, hs, hren⟩ := bind_ok hren
      dsimp only at hs
      -- what the preparation of the term leaves alone
      have keep : t'.option = n.term.option ∧ t'.protocol = n.term.protocol ∧ t'.verbatim = n.term.verbatim ∧
          t'.platform = n.term.platform ∧ t'.platformExclude = n.term.platformExclude ∧
          (n.term.option = [] → t' = { n.term with name := nm }) := by
        exact nsx_keep hf
      obtain ⟨k1, k2, k3, k4, k5, k6⟩ := keep
      have hon : Cisco.onPlatform platform t' = true ↔ Active platform (kterm n.term) := by
        have : Cisco.onPlatform platform t' = Cisco.onPlatform platform n.term := by
          unfold Cisco.onPlatform
          rw [k4, k5]
        rw [this]
        exact Cisco.onPlatform_iff (c := ⟨platform, false⟩)
      unfold early at hs
      split at hs
      next h =>
        cases hs
        cases hren
        refine iff_of_false (by simp) ?_
        rintro ⟨⟨_, h3⟩, _⟩
        simp only [Bool.not_eq_true'] at h
        rw [hon.2 h3] at h
        cases h
      next h =>
        have active : Active platform (kterm n.term) := hon.1 (by simpa using h)
        split at hs
        next hx =>
          cases hs
          cases hren
          refine iff_of_false (by simp) ?_
          rintro ⟨_, hm, _⟩
          have hpro := hm.2.2.1.1
          rw [k2] at hx
          simp only [Bool.or_eq_true, Bool.and_eq_true, decide_eq_true_eq, List.contains_iff_mem] at hx
          have prot : ∀ s, s ∈ n.term.protocol → (∀ u ∈ n.term.protocol, u = s) → p.proto = s := by
            intro s hs h
            rcases hpro with e | e
            · rw [e] at hs
              cases hs
            · exact h _ e
          have hv := (nsx_about ht hk n.term p.ver).2 hab
          rcases hk with rfl | rfl | rfl
          · rcases hx with ⟨e, hx⟩ | ⟨e, hx⟩
            · exact absurd e (by simp [familyOf])
            · have h4 : p.ver = .v4 := by simpa [families, familyOf] using hv
              exact hc.icmp4 h4 (prot _ hx (fit.icmp4 ht hx))
          · rcases hx with ⟨e, hx⟩ | ⟨e, hx⟩
            · have h6 : p.ver = .v6 := by simpa [families, familyOf] using hv
              exact hc.icmp6 h6 (prot _ hx (fit.icmp6 ht hx))
            · exact absurd e (by simp [familyOf])
          · rcases hx with ⟨e, hx⟩ | ⟨e, hx⟩
            · simp [familyOf] at e
              exact fit.both hx e
            · simp [familyOf] at e
              exact e hx
        next hx =>
          split at hs
          · cases hs
          next hvb =>
            have hverb : n.term.verbatim = [] := by
              rw [k3] at hvb
              simpa using hvb
            split at hs
            next ho =>
              cases hs
              rw [k1] at ho
              rw [k6 ho] at hren
              simp only [Bool.false_eq_true, if_false] at hren
              have key := core nm r a active ho hverb he' hren
              constructor
              · rintro ⟨x, hx, hh⟩
                cases r with
                | none => cases hx
                | some y =>
                  have e : x = y := by simpa using hx
                  subst e
                  exact ⟨⟨he', active⟩, key.1 ⟨x, rfl, hh⟩⟩
              · rintro ⟨_, hm⟩
                obtain ⟨x, rfl, hh⟩ := key.2 hm
                exact ⟨x, by simp, hh⟩
            next o os ho =>
              split at hs
              · cases hs
                cases hren
                refine iff_of_false (by simp) ?_
                rintro ⟨_, hm, _⟩
                rw [k1] at ho
                obtain ⟨u, hu, h1⟩ := fit.options (by rw [ho]; simp)
                have h2 := hm.2.2.2.2.1.2.1 u hu
                rw [h1] at h2
                cases h2
              · cases hs

/-! ### NSX-V -/

theorem nsxv_tables_ok : ∀ e ∈ tablesV.subTokens, e.1 ∈ tablesV.tokens := by decide

theorem nsxv_rare : ∀ s ∈ rareWords, s ∉ tablesV.tokens := by decide

theorem ports_known : ∀ s ∈ protosWithPorts, s ∈ Flat.portProtos := by decide

/-- What a term of a filter for NSX-V needs beyond `NsxFits`. -/
structure VFits (opts : List String) (t : Term) : Prop where
  names : ∀ s ∈ t.protocol, s ∈ iana.map Prod.fst
  noZero : ∀ s ∈ t.icmpType, ∀ v, (s, 0) ∉ Spec.icmpNumbers v
  srcLeft : t.sourceAddress ≠ [] → ∃ v x, Spec.Nsx.About opts v ∧ AddrMatch t.sourceAddress t.sourceAddressExclude v x
  dstLeft : t.destinationAddress ≠ [] → ∃ v x, Spec.Nsx.About opts v ∧ AddrMatch t.destinationAddress t.destinationAddressExclude v x

theorem nsxv_side {fams : List Ver} {inc exc : List Net} (hw : ∀ n ∈ inc ++ exc, WF n) (ex : inc = [] → exc = [])
    (left : inc ≠ [] → ∃ v x, v ∈ fams ∧ AddrMatch inc exc v x) {s4 s6 : List Net} (h4 : side fams .v4 inc exc = .ok s4)
    (h6 : side fams .v6 inc exc = .ok s6) {v : Ver} (hv : v ∈ fams) {x : Nat} :
    (∀ n ∈ s4 ++ s6, WF n) ∧ (∀ n ∈ s4, n.ver = .v4) ∧ (∀ n ∈ s6, n.ver = .v6) ∧
    ((s4 ++ s6 = [] ∨ Den (s4 ++ s6) v x) ↔ AddrMatch inc exc v x) := by
  have w1 : ∀ n ∈ inc, WF n := fun n hn => hw n (List.mem_append.2 (.inl hn))
  have w2 : ∀ n ∈ exc, WF n := fun n hn => hw n (List.mem_append.2 (.inr hn))
  obtain ⟨r, e, a1, a2, a3, a4, a5⟩ := side_spec (fams := fams) (v := .v4) w1 w2
  rw [h4] at e
  cases e
  obtain ⟨r, e, b1, b2, b3, b4, b5⟩ := side_spec (fams := fams) (v := .v6) w1 w2
  rw [h6] at e
  cases e
  refine ⟨?_, a2, b2, nsx_side a2 b2 (fun e => by rw [a3 e, b3 e]; rfl) ex (fun hne => ?_) fun hne => ⟨?_, ?_⟩⟩
  · intro n hn
    rcases List.mem_append.1 hn with h | h
    · exact a1 n h
    · exact b1 n h
  · obtain ⟨w, y, hw, hy⟩ := left hne
    intro e
    rw [List.append_eq_nil_iff] at e
    cases w with
    | v4 =>
      have := (a5 hne hw y).2 hy
      rw [e.1] at this
      exact den_nil this
    | v6 =>
      have := (b5 hne hw y).2 hy
      rw [e.2] at this
      exact den_nil this
  · rintro rfl
    exact a5 hne hv x
  · rintro rfl
    exact b5 hne hv x

theorem nsxv_services {t : Term} {v : Ver} {types : List (Option Nat)} (ht : icmpTypes v t = .ok types) {p : Packet} (hc : Coherent p)
    (hne : t.sourcePort ++ t.destinationPort ≠ [] ∨ t.icmpType ≠ [] → t.protocol ≠ [])
    (hports : t.sourcePort ≠ [] ∨ t.destinationPort ≠ [] → ∀ s ∈ t.protocol, s ∈ Flat.portProtos)
    (names : ∀ s ∈ t.protocol, s ∈ iana.map Prod.fst) (noZero : ∀ s ∈ t.icmpType, ∀ v, (s, 0) ∉ Spec.icmpNumbers v) :
    (t.protocol.flatMap (servicesV t types) = [] ∨ ∃ s ∈ t.protocol.flatMap (servicesV t types), Spec.Nsx.ServiceHits s p) ↔
      OneOf t.protocol p.proto ∧ (PortMatch t.sourcePort p.sport ∧ PortMatch t.destinationPort p.dport) ∧
      OneOf t.icmpType p.icmpType := by
  have printed : t.protocol ≠ [] → types.map printedType = types := by
    intro h0
    obtain ⟨_, ty2, ty3⟩ := nsx_types ht h0
    by_cases hi : t.icmpType = []
    · rw [ty2 hi]
      rfl
    · refine (List.map_congr_left fun ty hty => ?_).trans (List.map_id _)
      cases ty with
      | none => exact absurd hty (ty3 hi).1
      | some k =>
        cases k with
        | zero =>
          obtain ⟨s, hs, h⟩ := (ty3 hi).2.2 0 hty
          exact absurd h (noZero s hs v)
        | succ k => rfl
  have num : ∀ s ∈ t.protocol, ∃ n, protoMap.lookup s = some n ∧ numberV s = .num n ∧ (s, n) ∈ protoMap := by
    intro s hs
    obtain ⟨n, hn⟩ := iana_known s (names s hs)
    exact ⟨n, hn, by unfold numberV; rw [hn], Cisco.mem_of_lookup' hn⟩
  refine nsx_services ht hc hne hports (fun s hs h1 h2 => ?_) (fun s hs h => ?_)
  · obtain ⟨n, hn, e, hm⟩ := num s hs
    refine ⟨n, hn, ?_⟩
    obtain ⟨i1, i2, _⟩ := iana_icmp _ hm
    unfold servicesV
    rw [e, if_neg (by simp), if_neg]
    rintro (h | h)
    · cases h
      exact h1 (i1.1 rfl)
    · cases h
      exact h2 (i2.1 rfl)
  · obtain ⟨n, hn, e, hm⟩ := num s hs
    refine ⟨n, hn, ?_⟩
    obtain ⟨i1, i2, _⟩ := iana_icmp _ hm
    unfold servicesV
    rw [e, if_neg (by simp), if_pos]
    · conv => rhs; rw [← printed (List.ne_nil_of_mem hs), List.map_map]
      rfl
    · rcases h with h | h
      · exact .inl (congrArg _ (i1.2 h))
      · exact .inr (congrArg _ (i2.2 h))

theorem nsx_action {actions names : List (String × String)}
    (hn : ∀ w a, (w, a) ∈ names ↔ actions.lookup w = some a) {t : Term} {w act : String} (hw : t.action = [w])
    (hl : actions.lookup w = some act) (a : String) :
    (actions.lookup (t.action.head?.getD "")).getD "None" = a ↔ ∃ u, t.action = [u] ∧ (u, a) ∈ names := by
  rw [hw]
  simp only [List.head?_cons, Option.getD_some, hl, List.cons.injEq, and_true, exists_eq_left']
  rw [hn, hl]
  simp

theorem nsxv_core {type : String} {opts : List String} (ht : Spec.Nsx.typeOf opts = some type)
    (hk : type = "inet" ∨ type = "inet6" ∨ type = "mixed") {p : Packet} (hc : Coherent p) (hab : Spec.Nsx.About opts p.ver)
    {n : NTerm} (fit : NsxFits tablesV opts p n.term) (vf : VFits opts n.term) {nm : Str} {r : Option Rule} {a : String}
    (ha : Active "nsxv" (kterm n.term)) (ho : n.term.option = []) (hverb : n.term.verbatim = [])
    (h : ruleV type ⟨{ n with term := { n.term with name := nm } }, familyOf type n.term⟩ = .ok r) :
    (∃ x, r = some x ∧ Spec.Nsx.Hits x p ∧ x.action = a) ↔
      Matches n.term p ∧ ∃ w, n.term.action = [w] ∧ (w, a) ∈ Spec.Nsx.namesV := by
  rw [nsx_matches nsxv_tables_ok rfl nsxv_rare (by decide) (by decide) fit ha ho]
  obtain ⟨w, hw⟩ := fit.action
  have known : w ∈ ["accept", "deny", "reject", "reject-with-tcp-rst"] :=
    word_known (g := tablesV) nsxv_tables_ok ha fit.keywords (el := "action") (l := n.term.action)
      (ok := ["accept", "deny", "reject", "reject-with-tcp-rst"]) (by simp [attrsOf]) rfl (by decide) (by rw [hw]; simp)
  have hl : ∃ act, actionsV.lookup w = some act := by
    have : ∀ w ∈ ["accept", "deny", "reject", "reject-with-tcp-rst"], (actionsV.lookup w).isSome = true := by decide
    exact Option.isSome_iff_exists.1 (this w known)
  obtain ⟨act, hl⟩ := hl
  have names : ∀ w a, (w, a) ∈ Spec.Nsx.namesV ↔ actionsV.lookup w = some a := by
    intro w a
    constructor
    · intro h
      simp only [Spec.Nsx.namesV, List.mem_cons, Prod.mk.injEq, List.not_mem_nil, or_false] at h
      rcases h with ⟨rfl, rfl⟩ | ⟨rfl, rfl⟩ | ⟨rfl, rfl⟩ | ⟨rfl, rfl⟩ <;> decide
    · exact fun h => Cisco.mem_of_lookup' h
  have mem := nsx_about ht hk n.term
  have hv := (mem p.ver).2 hab
  unfold ruleV at h
  obtain ⟨types, h1, h⟩ := bind_ok h
  obtain ⟨s4, h2, h⟩ := bind_ok h
  obtain ⟨s6, h3, h⟩ := bind_ok h
  obtain ⟨d4, h4, h⟩ := bind_ok h
  obtain ⟨d6, h5, h⟩ := bind_ok h
  dsimp only at h1 h2 h3 h4 h5
  obtain ⟨s_wf, s_4, s_6, s_den⟩ := nsxv_side fit.src fit.srcExclude (fun hne => by
    obtain ⟨v, x, h, h'⟩ := vf.srcLeft hne
    exact ⟨v, x, (mem v).2 h, h'⟩) h2 h3 hv (x := p.src)
  obtain ⟨d_wf, d_4, d_6, d_den⟩ := nsxv_side fit.dst fit.dstExclude (fun hne => by
    obtain ⟨v, x, h, h'⟩ := vf.dstLeft hne
    exact ⟨v, x, (mem v).2 h, h'⟩) h4 h5 hv (x := p.dst)
  have svc := nsxv_services (t := n.term) (v := familyOf type n.term) (types := types) h1 hc (fun h => h.elim fit.ports fit.types)
    (fun hp s hs => ports_known s (sane_ports fit.sane hverb hp hs)) vf.names vf.noZero
  obtain ⟨none_spec, some_spec⟩ := sides_spec (type := type) s_4 s_6 d_4 d_6 p.ver p.src p.dst
  rw [← s_den, ← d_den, ← svc]
  split at h
  next hs =>
    cases h
    refine iff_of_false (by simp) ?_
    rintro ⟨⟨hm, _⟩, _⟩
    exact none_spec hs hm
  next s d hs =>
    cases h
    obtain ⟨sub1, sub2, key⟩ := some_spec s d hs
    rw [← key, ← nsx_action names hw hl, ← nsx_pfx fun n hn => s_wf n (sub1 n hn), ← nsx_pfx fun n hn => d_wf n (sub2 n hn)]
    constructor
    · rintro ⟨x, e, ⟨q1, q2, q3, q4⟩, hx⟩
      cases e
      exact ⟨⟨⟨q1, q2⟩, q3⟩, hx⟩
    · rintro ⟨⟨⟨q1, q2⟩, q3⟩, hx⟩
      exact ⟨_, rfl, ⟨q1, q2, q3, Flat.ifSet_none⟩, hx⟩

theorem nsx_wants_unique {platform : String} {names : List (String × String)} (hn : ∀ w a b, (w, a) ∈ names → (w, b) ∈ names → a = b)
    (p : Packet) (n : NTerm) (a b : String) (h1 : Flat.Wants platform names n.expired n.term p a)
    (h2 : Flat.Wants platform names n.expired n.term p b) : a = b := by
  obtain ⟨_, _, w, hw, ha⟩ := h1
  obtain ⟨_, _, u, hu, hb⟩ := h2
  rw [hw] at hu
  cases hu
  exact hn w a b ha hb

theorem nsx_policy {platform : String} {names : List (String × String)} (hn : ∀ w a b, (w, a) ∈ names → (w, b) ∈ names → a = b)
    {p : Packet} {ns : List NTerm} {out : NTerm → List Rule}
    (h : ∀ n ∈ ns, ∀ a, (∃ r ∈ out n, Spec.Nsx.Hits r p ∧ r.action = a) ↔ Flat.Wants platform names n.expired n.term p a) (a : String) :
    Spec.Nsx.Decides (ns.flatMap out) p a ↔ Spec.Nsx.PolicyDecides platform names ns p a := by
  have key := Lemmas.first_blocks (hit := fun (r : Rule) a => Spec.Nsx.Hits r p ∧ r.action = a)
    (want := fun (n : NTerm) a => Flat.Wants platform names n.expired n.term p a) (ts := ns.map fun n => (n, out n)) (v := a)
    (nsx_wants_unique hn p) (by
      intro b hb w
      obtain ⟨n, hn, rfl⟩ := List.mem_map.1 hb
      exact h n hn w)
  rw [List.flatMap_map, List.map_map] at key
  have e : List.map (Prod.fst ∘ fun n => (n, out n)) ns = ns := by
    have : (Prod.fst ∘ fun n => (n, out n)) = (id : NTerm → NTerm) := rfl
    rw [this, List.map_id]
  rw [e] at key
  exact key

theorem prepareFilter_nsx {e1 e2 : Err} {actions : List (String × String)} {f : Nsx.Filter} {q : PFilter}
    (h : Nsx.prepareFilter e1 e2 actions f = .ok q) : parseOptions e1 f.options = .ok q.target ∧
      Cisco.hasDup (f.terms.map fun n => n.term.name) = false ∧
      ∃ os, listM (Nsx.prepare actions q.target.type) f.terms = .ok os ∧ q.terms = os.filterMap id := by
  unfold Nsx.prepareFilter at h
  obtain ⟨tg, h1, h⟩ := bind_ok h
  split at h
  · cases h
  next hd =>
    obtain ⟨os, h2, h⟩ := bind_ok h
    cases h
    exact ⟨h1, (by simpa using hd), os, h2, rfl⟩

/-- What NSX-V is told: one section, of the only filter. -/
theorem nsxv_section {fs : List Nsx.Filter} {sec : Nsx.Section} (h : translateV fs = .ok sec) :
    ∃ f, fs.filter Filter.here = [f] ∧ ∃ tg, parseOptions (.raised "UnsupportedNsxvAccessListError") f.options = .ok tg ∧
      sec.id = tg.id ∧ sec.name = tg.name ∧ sec.scope = tg.group ∧
      sec.rules = f.terms.flatMap (nsxOut (Nsx.prepare actionsV tg.type) (renderV tg.type)) ∧
      ∀ n ∈ f.terms, ∃ o, Nsx.prepare actionsV tg.type n = .ok o ∧ ∀ q, o = some q → ∃ r, renderV tg.type q = .ok r := by
  unfold translateV at h
  obtain ⟨ps, h1, h⟩ := bind_ok h
  generalize fs.filter Filter.here = gs at h1
  cases gs with
  | nil =>
    cases h1
    cases h
  | cons f gs =>
    rw [listM] at h1
    obtain ⟨q, hq, h1⟩ := bind_ok h1
    obtain ⟨qs, hqs, h1⟩ := bind_ok h1
    cases h1
    rw [printAllV.eq_def] at h
    dsimp only at h
    obtain ⟨rs, hr, h⟩ := bind_ok h
    split at h
    · cases h
    · cases qs with
      | cons g qs =>
        dsimp only at h
        obtain ⟨_, _, h⟩ := bind_ok h
        cases h
      | nil =>
        cases gs with
        | cons g gs =>
          rw [listM] at hqs
          obtain ⟨_, _, hqs⟩ := bind_ok hqs
          obtain ⟨_, _, hqs⟩ := bind_ok hqs
          cases hqs
        | nil =>
          cases h
          obtain ⟨h2, _, os, h3, h4⟩ := prepareFilter_nsx hq
          refine ⟨f, rfl, q.target, h2, rfl, rfl, rfl, ?_⟩
          have pairs : ∀ {l : List PTerm} {rs : List (PTerm × Option Rule)}, listM (fun p => do
              let r ← renderV q.target.type p
              .ok (p, r)) l = .ok rs → listM (renderV q.target.type) l = .ok (rs.map Prod.snd) := by
            intro l
            induction l with
            | nil =>
              intro rs h
              cases h
              rfl
            | cons x xs ih =>
              intro rs h
              rw [listM] at h
              obtain ⟨y, hy, h⟩ := bind_ok h
              obtain ⟨ys, hys, h⟩ := bind_ok h
              cases h
              obtain ⟨r, hr, hy⟩ := bind_ok hy
              cases hy
              rw [listM, hr, ih hys]
              rfl
          unfold printV at hr
          rw [h4] at hr
          have := nsx_passes h3 (pairs hr)
          rw [List.filterMap_map] at this
          exact this

/-- **C127**: the rules for NSX-V decide about a packet that opens a connection what the terms decide, if the terms fit. -/
theorem C127_partial {fs : List Nsx.Filter} {sec : Nsx.Section} (h : translateV fs = .ok sec) {f : Nsx.Filter} (hf : f ∈ fs)
    (hh : f.here = true) {p : Packet} (hc : Coherent p) (hab : Spec.Nsx.About f.options p.ver)
    (fits : ∀ n ∈ f.terms, n.expired = false → NsxFits tablesV f.options p n.term ∧ VFits f.options n.term) (a : String) :
    Spec.Nsx.Decides sec.rules p a ↔ Spec.Nsx.PolicyDecides "nsxv" Spec.Nsx.namesV f.terms p a := by
  obtain ⟨g, hg, tg, h1, _, _, _, hr, each⟩ := nsxv_section h
  have : f = g := by
    have : f ∈ fs.filter Filter.here := List.mem_filter.2 ⟨hf, hh⟩
    rw [hg] at this
    simpa using this
  subst this
  obtain ⟨ht, hk⟩ := parseOptions_ok h1
  rw [hr]
  refine nsx_policy (by
    intro w a b
    simp only [Spec.Nsx.namesV, List.mem_cons, Prod.mk.injEq, List.not_mem_nil, or_false]
    rintro (⟨rfl, rfl⟩ | ⟨rfl, rfl⟩ | ⟨rfl, rfl⟩ | ⟨rfl, rfl⟩) <;> simp [eq_comm]) (fun n hn b => ?_) a
  obtain ⟨o, ho, hq⟩ := each n hn
  refine nsx_hits (tables := tablesV) (rule := ruleV tg.type) (err := .raised "NsxvAclTermError") ht hk (fun q => rfl) hc hab
    (fun w ⟨a, ha⟩ => ?_) (fun he => (fits n hn he).1) ho hq
    (fun nm r b' hact hop hv he hrule => nsxv_core ht hk hc hab (fits n hn he).1 (fits n hn he).2 hact hop hv hrule) b
  have : ∀ e ∈ Spec.Nsx.namesV, (actionsV.lookup e.1).isSome = true := by decide
  exact this _ ha

end Verif.Props
