import Verif.Props.Nsx

/-!
C128, C129: what the rules of capirca/lib/nsxt.py make NSX-T do.
-/

namespace Verif.Props
open Verif Verif.Spec Verif.Nsx Policy Aclgenerator Nacaddr

theorem zero_wf : WF zero := by
  constructor <;> decide

theorem den_zero {v : Ver} {x : Nat} : Den [zero] v x ↔ v = .v4 ∧ x = 0 := by
  unfold Den
  simp only [List.mem_singleton, exists_eq_left]
  unfold Mem zero
  simp only [Ver.bits]
  constructor
  · rintro ⟨rfl, _, h⟩
    exact ⟨rfl, by omega⟩
  · rintro ⟨rfl, rfl⟩
    exact ⟨rfl, by omega, by omega⟩

theorem hasAny_iff {l : List Net} : hasAny l = true ↔ ∃ n ∈ l, n.ver = .v4 ∧ n.addr = 0 ∧ n.plen = 0 := by
  unfold hasAny
  simp [and_assoc]

theorem any_den {l : List Net} (h : hasAny l = true) {x : Nat} (hx : x < 2 ^ 32) : Den l .v4 x := by
  obtain ⟨n, hn, h1, h2, h3⟩ := hasAny_iff.1 h
  refine ⟨n, hn, h1, by omega, ?_⟩
  rw [h2, h3, h1]
  simp only [Ver.bits]
  omega

/-- Exclusion of IPv4 addresses and 0.0.0.0. -/
theorem without_spec {strip : Bool} {a e : List Net} (ha : ∀ n ∈ a, WF n) (he : ∀ n ∈ e, WF n) (hv : ∀ n ∈ a, n.ver = .v4) :
    ∃ r, without strip a e = .ok r ∧ (∀ n ∈ r, WF n) ∧ (∀ n ∈ r, n.ver = .v4) ∧
      (∀ x, x ≠ 0 → (Den r .v4 x ↔ Den a .v4 x ∧ ¬ Den e .v4 x)) ∧ (e = [] ∧ strip = false ∧ r = a ∨
        (e ≠ [] ∨ strip = true) ∧ ¬ Den r .v4 0) := by
  have excl : ∀ l : List Net, (∀ n ∈ l, WF n) → ∃ r, addressListExclude a (l ++ [zero]) true = .ok r ∧ (∀ n ∈ r, WF n) ∧
      (∀ n ∈ r, n.ver = .v4) ∧ (∀ x, x ≠ 0 → (Den r .v4 x ↔ Den a .v4 x ∧ ¬ Den l .v4 x)) ∧ ¬ Den r .v4 0 := by
    intro l hl
    obtain ⟨r, h1, h2, _, h4⟩ := addressListExclude_spec a (l ++ [zero]) ha (by
      intro n hn
      rcases List.mem_append.1 hn with h | h
      · exact hl n h
      · rw [List.mem_singleton.1 h]
        exact zero_wf)
    refine ⟨r, h1, h2, fun n hn => ?_, fun x hx => ?_, fun h => ?_⟩
    · have : Den r n.ver n.addr := ⟨n, hn, rfl, Nat.le_refl _, Nat.lt_add_of_pos_right (Nat.two_pow_pos _)⟩
      exact den_versions hv ((h4 _ _).1 this).1
    · rw [h4, den_app, den_zero]
      simp [hx]
    · rw [h4, den_app, den_zero] at h
      exact h.2 (.inr ⟨rfl, rfl⟩)
  unfold without
  by_cases h0 : e = []
  · rw [if_neg (by simp [h0])]
    split
    next hs =>
      obtain ⟨r, h1, h2, h3, h4, h5⟩ := excl [] (by simp)
      refine ⟨r, h1, h2, h3, fun x hx => ?_, .inr ⟨.inr hs, h5⟩⟩
      rw [h4 x hx, h0]
    next hs =>
      refine ⟨a, rfl, ha, hv, fun x _ => ?_, .inl ⟨h0, by simpa using hs, rfl⟩⟩
      rw [h0]
      exact (and_iff_left den_nil).symm
  · rw [if_pos (by simpa using h0)]
    obtain ⟨r, h1, h2, h3, h4, h5⟩ := excl e he
    exact ⟨r, h1, h2, h3, h4, .inr ⟨.inl h0, h5⟩⟩

theorem ofVersion_den {l : List Net} {v : Ver} {x : Nat} : Den (ofVersion v l) v x ↔ Den l v x := Cisco.den_filter l v x

theorem ofVersion_ver {l : List Net} {v : Ver} : ∀ n ∈ ofVersion v l, n.ver = v := by
  intro n hn
  simpa using (List.mem_filter.1 hn).2

theorem ofVersion_wf {l : List Net} {v : Ver} (h : ∀ n ∈ l, WF n) : ∀ n ∈ ofVersion v l, WF n :=
  fun n hn => h n (List.mem_filter.1 hn).1

/-- The IPv4 addresses of one direction. -/
theorem nsxt_side4 {fams : List Ver} {inc exc : List Net} (hw : ∀ n ∈ inc ++ exc, WF n) {strip : Bool} {s4 : List Net}
    (h : (if !fams.contains .v4 || inc.isEmpty then .ok [] else without strip (ofVersion .v4 inc) (ofVersion .v4 exc)) =
      (.ok s4 : Except Err (List Net))) :
    (∀ n ∈ s4, WF n) ∧ (∀ n ∈ s4, n.ver = .v4) ∧ (inc = [] → s4 = []) ∧ (Ver.v4 ∉ fams → s4 = []) ∧
    (inc ≠ [] → Ver.v4 ∈ fams →
      (∀ x, x ≠ 0 → (Den s4 .v4 x ↔ AddrMatch inc exc .v4 x)) ∧
      ((∀ n ∈ exc, n.ver ≠ .v4) ∧ strip = false ∧ s4 = ofVersion .v4 inc ∨
        ((∃ n ∈ exc, n.ver = .v4) ∨ strip = true) ∧ ¬ Den s4 .v4 0)) := by
  split at h
  next hx =>
    cases h
    simp only [Bool.or_eq_true, Bool.not_eq_true', List.isEmpty_iff] at hx
    refine ⟨by simp, by simp, fun _ => rfl, fun _ => rfl, fun h1 h2 => ?_⟩
    rcases hx with h | h
    · rw [← Bool.not_eq_true, List.contains_iff_mem] at h
      exact absurd h2 h
    · exact absurd h h1
  next hx =>
    simp only [Bool.or_eq_true, Bool.not_eq_true', List.isEmpty_iff, not_or, Bool.not_eq_false, List.contains_iff_mem] at hx
    have w1 : ∀ n ∈ inc, WF n := fun n hn => hw n (List.mem_append.2 (.inl hn))
    have w2 : ∀ n ∈ exc, WF n := fun n hn => hw n (List.mem_append.2 (.inr hn))
    obtain ⟨r, e, h1, h2, h3, h4⟩ := without_spec (strip := strip) (ofVersion_wf (v := .v4) w1) (ofVersion_wf (v := .v4) w2)
      ofVersion_ver
    rw [h] at e
    cases e
    refine ⟨h1, h2, fun e => absurd e hx.2, fun e => absurd hx.1 e, fun _ _ => ⟨fun x hx0 => ?_, ?_⟩⟩
    · rw [h3 x hx0, ofVersion_den, ofVersion_den]
      unfold AddrMatch
      rw [or_iff_right hx.2]
    · rcases h4 with ⟨e1, e2, e3⟩ | ⟨e1, e2⟩
      · refine .inl ⟨fun n hn hv => ?_, e2, e3⟩
        have : n ∈ ofVersion .v4 exc := List.mem_filter.2 ⟨hn, by simp [hv]⟩
        rw [e1] at this
        cases this
      · refine .inr ⟨e1.imp (fun h => ?_) id, e2⟩
        obtain ⟨n, hn⟩ := List.exists_mem_of_ne_nil _ h
        exact ⟨n, (List.mem_filter.1 hn).1, ofVersion_ver n hn⟩

theorem any_zero {l : List Net} (h : ¬ Den l .v4 0) : hasAny l = false := by
  rw [← Bool.not_eq_true]
  exact fun h' => h (any_den h' (by decide))

/-- The addresses of one direction. -/
theorem nsxt_side {fams : List Ver} (hfam : (fams = [.v4] ∨ fams = [.v6] ∨ fams = [.v4, .v6])) {inc exc : List Net}
    (hw : ∀ n ∈ inc ++ exc, WF n) (ex : inc = [] → exc = [])
    (left : inc ≠ [] → ∃ v x, v ∈ fams ∧ AddrMatch inc exc v x ∧ (v = .v4 → x ≠ 0))
    (mixed : fams = [.v4, .v6] → (∃ n ∈ inc, n.ver = .v4 ∧ n.addr = 0 ∧ n.plen = 0) → ∃ n ∈ exc, n.ver = .v4)
    {strip : Bool} {s4 s6 : List Net}
    (h4 : (if !fams.contains .v4 || inc.isEmpty then .ok [] else without strip (ofVersion .v4 inc) (ofVersion .v4 exc)) =
      (.ok s4 : Except Err (List Net)))
    (h6 : side fams .v6 inc exc = .ok s6) {v : Ver} (hv : v ∈ fams) {x : Nat} (hx : x < 2 ^ v.bits) (hx0 : v = .v4 → x ≠ 0) :
    (∀ n ∈ clearAny s4 ++ s6, WF n) ∧ (∀ n ∈ clearAny s4, n.ver = .v4) ∧ (∀ n ∈ s6, n.ver = .v6) ∧
    ((clearAny s4 ++ s6 = [] ∨ Den (clearAny s4 ++ s6) v x) ↔ AddrMatch inc exc v x) := by
  have w1 : ∀ n ∈ inc, WF n := fun n hn => hw n (List.mem_append.2 (.inl hn))
  have w2 : ∀ n ∈ exc, WF n := fun n hn => hw n (List.mem_append.2 (.inr hn))
  obtain ⟨a1, a2, a3, a4, a5⟩ := nsxt_side4 hw h4
  obtain ⟨r, e, b1, b2, b3, b4, b5⟩ := side_spec (fams := fams) (v := .v6) w1 w2
  rw [h6] at e
  cases e
  have sub : ∀ n ∈ clearAny s4, n ∈ s4 := by
    unfold clearAny
    split
    · simp
    · exact fun _ h => h
  refine ⟨?_, fun n hn => a2 n (sub n hn), b2, ?_⟩
  · intro n hn
    rcases List.mem_append.1 hn with h | h
    · exact a1 n (sub n h)
    · exact b1 n h
  · unfold clearAny
    split
    next hany =>
      have hne : inc ≠ [] := by
        intro e
        rw [a3 e] at hany
        cases hany
      have hf : Ver.v4 ∈ fams := by
        rcases hfam with rfl | rfl | rfl
        · simp
        · rw [a4 (by simp)] at hany
          cases hany
        · simp
      obtain ⟨_, hd⟩ := a5 hne hf
      rcases hd with ⟨e1, _, rfl⟩ | ⟨_, hd⟩
      · have h0 : ∃ n ∈ inc, n.ver = .v4 ∧ n.addr = 0 ∧ n.plen = 0 := by
          obtain ⟨n, hn, h⟩ := hasAny_iff.1 hany
          exact ⟨n, (List.mem_filter.1 hn).1, h⟩
        have hfam : fams = [.v4] := by
          rcases hfam with rfl | rfl | rfl
          · rfl
          · simp at hf
          · obtain ⟨n, hn, h⟩ := mixed rfl h0
            exact absurd h (e1 n hn)
        subst hfam
        have hv4 : v = .v4 := by simpa using hv
        subst hv4
        rw [b4 (by simp)]
        refine iff_of_true (.inl rfl) ⟨.inr ?_, ?_⟩
        · exact ofVersion_den.1 (any_den hany hx)
        · rintro ⟨n, hn, hm⟩
          exact e1 n hn hm.1
      · rw [any_zero hd] at hany
        cases hany
    next hany =>
      refine nsx_side a2 b2 (fun e => by rw [a3 e, b3 e]; rfl) ex (fun hne => ?_) fun hne => ⟨?_, ?_⟩
      · obtain ⟨w, y, hw, hy, hy0⟩ := left hne
        intro e
        rw [List.append_eq_nil_iff] at e
        cases w with
        | v4 =>
          have := ((a5 hne hw).1 y (hy0 rfl)).2 hy
          rw [e.1] at this
          exact den_nil this
        | v6 =>
          have := (b5 hne hw y).2 hy
          rw [e.2] at this
          exact den_nil this
      · rintro rfl
        exact (a5 hne hv).1 x (hx0 rfl)
      · rintro rfl
        exact b5 hne hv x

theorem nsxt_tables_ok : ∀ e ∈ tablesT.subTokens, e.1 ∈ tablesT.tokens := by decide

theorem nsxt_rare : ∀ s ∈ rareWords, s ∉ tablesT.tokens := by decide

/-- What a term of a filter for NSX-T needs beyond `NsxFits`. -/
structure TFits (opts : List String) (t : Term) : Prop where
  names : ∀ s ∈ t.protocol, s ∈ ["icmp", "icmpv6", "tcp", "udp"]
  srcLeft : t.sourceAddress ≠ [] →
    ∃ v x, Spec.Nsx.About opts v ∧ AddrMatch t.sourceAddress t.sourceAddressExclude v x ∧ (v = .v4 → x ≠ 0)
  dstLeft : t.destinationAddress ≠ [] →
    ∃ v x, Spec.Nsx.About opts v ∧ AddrMatch t.destinationAddress t.destinationAddressExclude v x ∧ (v = .v4 → x ≠ 0)
  srcAny : Spec.Nsx.typeOf opts = some "mixed" → (∃ n ∈ t.sourceAddress, n.ver = .v4 ∧ n.addr = 0 ∧ n.plen = 0) →
    ∃ n ∈ t.sourceAddressExclude, n.ver = .v4
  dstAny : Spec.Nsx.typeOf opts = some "mixed" → (∃ n ∈ t.destinationAddress, n.ver = .v4 ∧ n.addr = 0 ∧ n.plen = 0) →
    ∃ n ∈ t.destinationAddressExclude, n.ver = .v4

theorem all_some : ∀ {types : List (Option Nat)}, none ∉ types → ∃ ks : List Nat, types = ks.map some
  | [], _ => ⟨[], rfl⟩
  | x :: xs, h => by
    rw [List.mem_cons, not_or] at h
    obtain ⟨ks, e⟩ := all_some h.2
    cases x with
    | none => exact absurd rfl h.1
    | some k => exact ⟨k :: ks, by rw [e]; rfl⟩

theorem nsxt_services {t : Term} {v : Ver} {types : List (Option Nat)} (ht : icmpTypes v t = .ok types) {p : Packet} (hc : Coherent p)
    (hne : t.sourcePort ++ t.destinationPort ≠ [] ∨ t.icmpType ≠ [] → t.protocol ≠ [])
    (hports : t.sourcePort ≠ [] ∨ t.destinationPort ≠ [] → ∀ s ∈ t.protocol, s ∈ Flat.portProtos)
    (names : ∀ s ∈ t.protocol, s ∈ ["icmp", "icmpv6", "tcp", "udp"]) :
    (t.protocol.flatMap (servicesT t (types.filterMap id)) = [] ∨
      ∃ s ∈ t.protocol.flatMap (servicesT t (types.filterMap id)), Spec.Nsx.ServiceHits s p) ↔
      OneOf t.protocol p.proto ∧ (PortMatch t.sourcePort p.sport ∧ PortMatch t.destinationPort p.dport) ∧
      OneOf t.icmpType p.icmpType := by
  have icmp : ∀ n : Int, t.protocol ≠ [] →
      (if (types.filterMap id).isEmpty then [({ proto := .num n } : Service)]
        else (types.filterMap id).map fun k => { proto := .num n, icmp := some k }) = types.map fun ty => { proto := .num n, icmp := ty } := by
    intro n h0
    obtain ⟨_, ty2, ty3⟩ := nsx_types ht h0
    by_cases hi : t.icmpType = []
    · rw [ty2 hi]
      rfl
    · obtain ⟨hnone, _, _⟩ := ty3 hi
      have hmap := all_some hnone
      obtain ⟨ks, rfl⟩ := hmap
      have e : (ks.map some).filterMap id = ks := by
        rw [List.filterMap_map]
        exact List.filterMap_some
      rw [e, if_neg, List.map_map]
      · rfl
      · intro h
        have h : ks = [] := by simpa using h
        obtain ⟨s, hs⟩ := List.exists_mem_of_ne_nil _ hi
        have := ((nsx_types ht h0).1 { icmpType := s }).2 (.inr hs)
        rw [h] at this
        obtain ⟨_, h, _⟩ := this
        cases h
  refine nsx_services ht hc hne hports (fun s hs h1 h2 => ?_) (fun s hs h => ?_)
  · have hn := names s hs
    simp only [List.mem_cons, List.not_mem_nil, or_false] at hn
    rcases hn with rfl | rfl | rfl | rfl
    · exact absurd rfl h1
    · exact absurd rfl h2
    · exact ⟨6, by decide, rfl⟩
    · exact ⟨17, by decide, rfl⟩
  · rcases h with rfl | rfl
    · exact ⟨1, by decide, icmp 1 (List.ne_nil_of_mem hs)⟩
    · exact ⟨58, by decide, icmp 58 (List.ne_nil_of_mem hs)⟩

theorem nsxt_core {type : String} {opts : List String} (ht : Spec.Nsx.typeOf opts = some type)
    (hk : type = "inet" ∨ type = "inet6" ∨ type = "mixed") {p : Packet} (hc : Coherent p) (hab : Spec.Nsx.About opts p.ver)
    (h0 : p.ver = .v4 → p.src ≠ 0 ∧ p.dst ≠ 0)
    {n : NTerm} (fit : NsxFits tablesT opts p n.term) (vf : TFits opts n.term) {nm : Str} {r : Option Rule} {a : String}
    (hl : ∃ w act, n.term.action = [w] ∧ actionsT.lookup w = some act)
    (ha : Active "nsxt" (kterm n.term)) (ho : n.term.option = []) (hverb : n.term.verbatim = [])
    (h : ruleT type ⟨{ n with term := { n.term with name := nm } }, familyOf type n.term⟩ = .ok r) :
    (∃ x, r = some x ∧ Spec.Nsx.Hits x p ∧ x.action = a) ↔
      Matches n.term p ∧ ∃ w, n.term.action = [w] ∧ (w, a) ∈ Spec.Nsx.namesT := by
  rw [nsx_matches nsxt_tables_ok rfl nsxt_rare (by decide) (by decide) fit ha ho]
  obtain ⟨w, act, hw, hl⟩ := hl
  have names : ∀ w a, (w, a) ∈ Spec.Nsx.namesT ↔ actionsT.lookup w = some a := by
    intro w a
    constructor
    · intro h
      simp only [Spec.Nsx.namesT, List.mem_cons, Prod.mk.injEq, List.not_mem_nil, or_false] at h
      rcases h with ⟨rfl, rfl⟩ | ⟨rfl, rfl⟩ | ⟨rfl, rfl⟩ | ⟨rfl, rfl⟩ <;> decide
    · exact fun h => Cisco.mem_of_lookup' h
  have mem := nsx_about ht hk n.term
  have hv := (mem p.ver).2 hab
  have hfam : families type (familyOf type n.term) = [.v4] ∨ families type (familyOf type n.term) = [.v6] ∨
      families type (familyOf type n.term) = [.v4, .v6] := by
    rcases hk with rfl | rfl | rfl <;> simp [families, familyOf]
  have hmix : families type (familyOf type n.term) = [.v4, .v6] → Spec.Nsx.typeOf opts = some "mixed" := by
    rw [ht]
    rcases hk with rfl | rfl | rfl <;> simp [families, familyOf]
  unfold ruleT at h
  obtain ⟨s4, h2, h⟩ := bind_ok h
  obtain ⟨d4, h4, h⟩ := bind_ok h
  obtain ⟨s6, h3, h⟩ := bind_ok h
  obtain ⟨d6, h5, h⟩ := bind_ok h
  dsimp only at h2 h3 h4 h5
  obtain ⟨s_wf, s_4, s_6, s_den⟩ := nsxt_side hfam fit.src fit.srcExclude (fun hne => by
    obtain ⟨v, x, h, h'⟩ := vf.srcLeft hne
    exact ⟨v, x, (mem v).2 h, h'⟩) (fun hf => vf.srcAny (hmix hf)) h2 h3 hv hc.src (fun e => (h0 e).1)
  obtain ⟨d_wf, d_4, d_6, d_den⟩ := nsxt_side hfam fit.dst fit.dstExclude (fun hne => by
    obtain ⟨v, x, h, h'⟩ := vf.dstLeft hne
    exact ⟨v, x, (mem v).2 h, h'⟩) (fun hf => vf.dstAny (hmix hf)) h4 h5 hv hc.dst (fun e => (h0 e).2)
  obtain ⟨none_spec, some_spec⟩ := sides_spec (type := type) s_4 s_6 d_4 d_6 p.ver p.src p.dst
  rw [← s_den, ← d_den]
  split at h
  next hs =>
    cases h
    refine iff_of_false (by simp) ?_
    rintro ⟨⟨hm, _⟩, _⟩
    exact none_spec hs hm
  next s d hs =>
    obtain ⟨types, h1, h⟩ := bind_ok h
    have svc := nsxt_services (t := n.term) (v := familyOf type n.term) (types := types) h1 hc (fun h => h.elim fit.ports fit.types)
      (fun hp s hs => ports_known s (sane_ports fit.sane hverb hp hs)) vf.names
    cases h
    obtain ⟨sub1, sub2, key⟩ := some_spec s d hs
    rw [← svc, ← key, ← nsx_action names hw hl, ← nsx_pfx fun n hn => s_wf n (sub1 n hn), ← nsx_pfx fun n hn => d_wf n (sub2 n hn)]
    constructor
    · rintro ⟨x, e, ⟨q1, q2, q3, q4⟩, hx⟩
      cases e
      exact ⟨⟨⟨q1, q2⟩, q3⟩, hx⟩
    · rintro ⟨⟨⟨q1, q2⟩, q3⟩, hx⟩
      exact ⟨_, rfl, ⟨q1, q2, q3, Flat.ifSet_some.2 hv⟩, hx⟩

/-- What NSX-T is told: one policy, of the only filter. -/
theorem nsxt_section {fs : List Nsx.Filter} {sec : Nsx.Section} (h : translateT fs = .ok sec) :
    ∃ f, fs.filter Filter.here = [f] ∧ ∃ tg, parseOptions (.raised "UnsupportedNsxtAccessListError") f.options = .ok tg ∧
      sec.id = some (tg.id.getD tg.name) ∧ sec.name = tg.name ∧ sec.scope = scopeT tg.group ∧
      sec.rules = f.terms.flatMap (nsxOut (Nsx.prepare actionsT tg.type) (renderT tg.type)) ∧
      ∀ n ∈ f.terms, ∃ o, Nsx.prepare actionsT tg.type n = .ok o ∧ ∀ q, o = some q → ∃ r, renderT tg.type q = .ok r := by
  unfold translateT at h
  obtain ⟨ps, h1, h⟩ := bind_ok h
  generalize fs.filter Filter.here = gs at h1
  cases gs with
  | nil =>
    cases h1
    cases h
  | cons f gs =>
    rw [listM] at h1
    obtain ⟨q, hq, h1⟩ := bind_ok h1
    obtain ⟨qs, hqs, h1⟩ := bind_ok h1
    cases h1
    cases qs with
    | cons g qs => cases h
    | nil =>
      unfold printAllT at h
      dsimp only at h
      obtain ⟨rs, hr, h⟩ := bind_ok h
      cases gs with
      | cons g gs =>
        rw [listM] at hqs
        obtain ⟨_, _, hqs⟩ := bind_ok hqs
        obtain ⟨_, _, hqs⟩ := bind_ok hqs
        cases hqs
      | nil =>
        cases h
        obtain ⟨h2, _, os, h3, h4⟩ := prepareFilter_nsx hq
        rw [h4] at hr
        exact ⟨f, rfl, q.target, h2, rfl, rfl, rfl, nsx_passes h3 hr⟩

/-- **C128**: the rules for NSX-T decide about a packet that opens a connection what the terms decide, if the terms fit; packets from
and to 0.0.0.0 are not looked at. -/
theorem C128_partial {fs : List Nsx.Filter} {sec : Nsx.Section} (h : translateT fs = .ok sec) {f : Nsx.Filter} (hf : f ∈ fs)
    (hh : f.here = true) {p : Packet} (hc : Coherent p) (hab : Spec.Nsx.About f.options p.ver)
    (h0 : p.ver = .v4 → p.src ≠ 0 ∧ p.dst ≠ 0)
    (fits : ∀ n ∈ f.terms, n.expired = false → NsxFits tablesT f.options p n.term ∧ TFits f.options n.term) (a : String) :
    Spec.Nsx.Decides sec.rules p a ↔ Spec.Nsx.PolicyDecides "nsxt" Spec.Nsx.namesT f.terms p a := by
  obtain ⟨g, hg, tg, h1, _, _, _, hr, each⟩ := nsxt_section h
  have : f = g := by
    have : f ∈ fs.filter Filter.here := List.mem_filter.2 ⟨hf, hh⟩
    rw [hg] at this
    simpa using this
  subst this
  obtain ⟨ht, hk⟩ := parseOptions_ok h1
  rw [hr]
  refine nsx_policy (by
    intro w a b
    simp only [Spec.Nsx.namesT, List.mem_cons, Prod.mk.injEq, List.not_mem_nil, or_false]
    rintro (⟨rfl, rfl⟩ | ⟨rfl, rfl⟩ | ⟨rfl, rfl⟩ | ⟨rfl, rfl⟩) <;> simp [eq_comm]) (fun n hn b => ?_) a
  obtain ⟨o, ho, hq⟩ := each n hn
  by_cases hl : ∃ w act, n.term.action = [w] ∧ actionsT.lookup w = some act
  · refine nsx_hits (tables := tablesT) (rule := ruleT tg.type) (err := .raised "NsxtAclTermError") ht hk (fun q => rfl) hc hab
      (fun w ⟨a, ha⟩ => ?_) (fun he => (fits n hn he).1) ho hq
      (fun nm r b' hact hop hv he hrule => nsxt_core ht hk hc hab h0 (fits n hn he).1 (fits n hn he).2 hl hact hop hv hrule) b
    have : ∀ e ∈ Spec.Nsx.namesT, (actionsT.lookup e.1).isSome = true := by decide
    exact this _ ha
  · have nothing : ¬ Flat.Wants "nsxt" Spec.Nsx.namesT n.expired n.term p b := by
      rintro ⟨_, _, w, hw, hm⟩
      refine hl ⟨w, b, hw, ?_⟩
      have : ∀ e ∈ Spec.Nsx.namesT, actionsT.lookup e.1 = some e.2 := by decide
      exact this _ hm
    refine iff_of_false ?_ nothing
    rintro ⟨r, hr, _⟩
    unfold nsxOut Nsx.prepare at hr
    by_cases he : n.expired = true
    · rw [if_pos he] at hr
      cases hr
    · rw [if_neg he] at hr
      obtain ⟨w, hw⟩ := (fits n hn (by simpa using he)).1.action
      have : actionsT.lookup w = none := by
        cases hx : actionsT.lookup w with
        | none => rfl
        | some act => exact absurd ⟨w, act, hw, hx⟩ hl
      rw [hw] at hr
      dsimp only at hr
      rw [this] at hr
      cases hr

end Verif.Props
