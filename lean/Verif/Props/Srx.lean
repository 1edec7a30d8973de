import Verif.Props.SrxApp
import Verif.Lemmas.SrxBook
import Verif.Lemmas.Zone
import Verif.Lemmas.FirstMatch

/-!
C96: what an SRX firewall does with the output for a policy.
-/

namespace Verif.Props
open Verif Verif.Spec Policy Aclgenerator Nacaddr Verif.Srx Verif.Spec.Srx

/-- The terms that are rendered faithfully in a filter. For what happens without the conditions beyond the tool's own
checks, see the refutations. -/
structure SrxFits (f : Filter) (g : STerm) : Prop where
  keywords : initCheck Srx.tables [(["srx"], [kterm g.term])] = .ok ()
  action : ∃ w ∈ ["accept", "deny", "reject"], g.term.action = [w]
  family : g.term.restrictAddressFamily = none
  untagged : Untagged g.term
  option : g.term.option = []
  protos : ∀ s ∈ g.term.protocol, s ∈ srxProtos
  ports : g.term.sourcePort ≠ [] ∨ g.term.destinationPort ≠ [] →
    g.term.protocol ≠ [] ∧ ∀ s ∈ g.term.protocol, s ∈ ["tcp", "udp", "sctp"]
  some : (∀ v, FamilyIs f.options v) ∨ (g.term.sourceAddress ≠ [] ∨ g.term.sourceAddressExclude ≠ []) ∨
    (g.term.destinationAddress ≠ [] ∨ g.term.destinationAddressExclude ≠ [])
  srcLeft : g.term.sourceAddressExclude ≠ [] → ∃ v x, (if g.term.sourceAddress = [] then v = .v4 ∧ x < 2 ^ 32
    else Den g.term.sourceAddress v x) ∧ ¬ Den g.term.sourceAddressExclude v x
  dstLeft : g.term.destinationAddressExclude ≠ [] → ∃ v x, (if g.term.destinationAddress = [] then v = .v4 ∧ x < 2 ^ 32
    else Den g.term.destinationAddress v x) ∧ ¬ Den g.term.destinationAddressExclude v x
  srcNaked : g.term.sourceAddressExclude ≠ [] → g.term.sourceAddress = [] → ¬ FamilyIs f.options .v6
  dstNaked : g.term.destinationAddressExclude ≠ [] → g.term.destinationAddress = [] → ¬ FamilyIs f.options .v6

/-- The networks of the term are networks, and not too many for one policy. -/
structure SrxSane (g : STerm) : Prop where
  src : ∀ n ∈ g.term.sourceAddress, WF n
  srcExclude : ∀ n ∈ g.term.sourceAddressExclude, WF n
  dst : ∀ n ∈ g.term.destinationAddress, WF n
  dstExclude : ∀ n ∈ g.term.destinationAddressExclude, WF n
  small : ((g.term.sourceAddress ++ g.term.destinationAddress).map fun n => if n.ver = .v6 then 4 else 1).sum ≤ 1023

/-- The addresses of the packet are addresses. -/
structure SrxReal (p : Packet) : Prop where
  src : p.src < 2 ^ p.ver.bits
  dst : p.dst < 2 ^ p.ver.bits

/-! ### entries for applications -/

theorem same_fields {a b : App} (h : a.same b = true) :
    a.sport = b.sport ∧ a.dport = b.dport ∧ a.protos = b.protos ∧ a.types = b.types ∧ a.timeout = b.timeout := by
  unfold App.same at h
  simp only [Bool.and_eq_true, beq_iff_eq] at h
  exact ⟨h.1.1.1.1, h.1.1.1.2, h.1.1.2, h.1.2, h.2⟩

theorem placeApp_spec {a : App} : ∀ {l : List App} {q : Str × List App}, placeApp a l = .ok q → (l.map App.name).Nodup →
    (q.2.map App.name).Nodup ∧ (∃ s ∈ q.2, s.name = q.1 ∧ s.same a = true) ∧ (∀ s ∈ l, s ∈ q.2) ∧
    ∀ s ∈ q.2, s.name ∈ l.map App.name ∨ s.name = a.name ∧ a.name ∉ l.map App.name
  | [], q, h, _ => by
    cases h
    refine ⟨by simp, ⟨a, by simp, rfl, by simp [App.same]⟩, by simp, ?_⟩
    intro s hs
    rw [List.mem_singleton.1 hs]
    exact .inr ⟨rfl, by simp⟩
  | s :: ss, q, h, hn => by
    rw [placeApp] at h
    split at h
    next hs =>
      cases h
      exact ⟨hn, ⟨s, by simp, rfl, hs⟩, fun _ h => h, fun s hs => .inl (List.mem_map.2 ⟨s, hs, rfl⟩)⟩
    next hs =>
      split at h
      · cases h
      next hne =>
        obtain ⟨q', hq, h⟩ := bind_ok h
        cases h
        rw [List.map_cons, List.nodup_cons] at hn
        obtain ⟨h1, ⟨u, hu, h2, h3⟩, h4, h5⟩ := placeApp_spec hq hn.2
        refine ⟨?_, ⟨u, List.mem_cons_of_mem _ hu, h2, h3⟩, ?_, ?_⟩
        · rw [List.map_cons, List.nodup_cons]
          refine ⟨fun hm => ?_, h1⟩
          obtain ⟨w, hw, e⟩ := List.mem_map.1 hm
          rcases h5 w hw with h6 | ⟨h6, _⟩
          · exact hn.1 (e ▸ h6)
          · exact hne (h6.symm.trans e)
        · intro w hw
          rcases List.mem_cons.1 hw with rfl | hw
          · exact List.mem_cons_self
          · exact List.mem_cons_of_mem _ (h4 w hw)
        · intro w hw
          rcases List.mem_cons.1 hw with rfl | hw
          · exact .inl (by simp)
          · rcases h5 w hw with h6 | ⟨h6, h7⟩
            · exact .inl (by rw [List.map_cons]; exact List.mem_cons_of_mem _ h6)
            · refine .inr ⟨h6, ?_⟩
              rw [List.map_cons, List.mem_cons]
              rintro (h8 | h8)
              · exact hne h8
              · exact h7 h8

/-! ### families -/

theorem family_in {options : List String} {af : String} (h : familyOf options = .ok af) (v : Ver) :
    inFamily af v = true ↔ FamilyIs options v := by
  unfold familyOf at h
  split at h
  · cases h
  have mem : ∀ s ∈ ["inet", "inet6", "mixed"], s ∈ options ↔ s ∈ options.filter ["inet", "inet6", "mixed"].contains := by
    intro s hs
    rw [List.mem_filter]
    exact ⟨fun h => ⟨h, by simpa using hs⟩, fun h => h.1⟩
  unfold FamilyIs
  rw [mem "mixed" (by simp), mem "inet" (by simp), mem "inet6" (by simp), mem (if v = .v4 then "inet" else "inet6") (by cases v <;> simp)]
  split at h
  next e => rw [e]; cases h; cases v <;> simp [inFamily]
  next a e =>
    cases h
    have ha : af ∈ ["inet", "inet6", "mixed"] := by
      have : af ∈ options.filter ["inet", "inet6", "mixed"].contains := by rw [e]; simp
      simpa using (List.mem_filter.1 this).2
    rw [e]
    have key : ∀ a ∈ ["inet", "inet6", "mixed"], ∀ v : Ver, inFamily a v = true ↔
      "mixed" ∈ [a] ∨ (if v = .v4 then "inet" else "inet6") ∈ [a] ∨ "inet" ∉ [a] ∧ "inet6" ∉ [a] := by
      intro a ha v
      revert a
      cases v <;> decide
    exact key af ha v
  · cases h

theorem den_admitted {af : String} {l : List Net} {v : Ver} {x : Nat} :
    Den (admitted af l) v x ↔ Den l v x ∧ inFamily af v = true := by
  unfold admitted
  constructor
  · rintro ⟨n, hn, hx⟩
    obtain ⟨h1, h2⟩ := List.mem_filter.1 hn
    refine ⟨⟨n, h1, hx⟩, ?_⟩
    obtain ⟨rfl, _⟩ := hx
    exact h2
  · rintro ⟨⟨n, hn, hx⟩, h⟩
    refine ⟨n, List.mem_filter.2 ⟨hn, ?_⟩, hx⟩
    obtain ⟨rfl, _⟩ := hx
    exact h

/-! ### sides -/

/-- The address is used under the token somewhere. -/
def Used (fs : List Filter) (token : String) (v : Ver) (x : Nat) : Prop := ∃ S, Side fs S ∧ S token v x

/-- What is known about the networks of a side after exclusion. -/
structure Excluded (f : Filter) (g : STerm) (suffix : String) (inc exc l : List Net) : Prop where
  wf : ∀ n ∈ l, WF n
  uses : ∀ token v x, Uses f g suffix inc exc token v x ↔ FamilyIs f.options v ∧ ∃ n ∈ l, n.parent = token ∧ Mem n v x
  none : l = [] ↔ inc = [] ∧ exc = []
  den : ∀ v x, l ≠ [] → FamilyIs f.options v → x < 2 ^ v.bits → (Den l v x ↔ AddrMatch inc exc v x)

theorem mem_addr {n : Net} : Mem n n.ver n.addr := by
  refine ⟨rfl, Nat.le_refl _, ?_⟩
  have := Nat.two_pow_pos (n.ver.bits - n.plen)
  omega

theorem excluded_ok {f : Filter} {g : STerm} {suffix : String} {inc exc l : List Net} (hlive : Live g)
    (hi : ∀ n ∈ inc, WF n) (he : ∀ n ∈ exc, WF n)
    (left : exc ≠ [] → ∃ v x, (if inc = [] then v = .v4 ∧ x < 2 ^ 32 else Den inc v x) ∧ ¬ Den exc v x)
    (naked : exc ≠ [] → inc = [] → ¬ FamilyIs f.options .v6)
    (h : excluded g.term.name suffix inc exc = .ok l) : Excluded f g suffix inc exc l := by
  unfold excluded at h
  by_cases h0 : exc = []
  · rw [if_pos (by simpa using h0)] at h
    cases h
    subst h0
    refine ⟨hi, ?_, by simp, ?_⟩
    · intro token v x
      unfold Uses
      simp [hlive]
    · intro v x hne _ _
      unfold AddrMatch
      simp [hne, den_nil]
  · rw [if_neg (by simpa using h0)] at h
    obtain ⟨r, hr, h⟩ := bind_ok h
    cases h
    have w0 : ∀ n ∈ (if inc.isEmpty then [{ ver := .v4, addr := 0, plen := 0 }] else inc), WF n := by
      intro n hn
      split at hn
      · rw [List.mem_singleton.1 hn]; decide
      · exact hi n hn
    obtain ⟨h1, h2⟩ := Verif.Srx.removeAll_spec exc w0 he hr
    have base : ∀ v x, Den (if inc.isEmpty then [{ ver := .v4, addr := 0, plen := 0 }] else inc) v x ↔
        if inc = [] then v = .v4 ∧ x < 2 ^ 32 else Den inc v x := by
      intro v x
      by_cases hi0 : inc = []
      · subst hi0
        rw [if_pos rfl]
        simp only [List.isEmpty_nil, if_true, den_cons, den_nil, or_false]
        unfold Mem
        constructor
        · rintro ⟨rfl, _, h⟩
          exact ⟨rfl, by simpa [Ver.bits] using h⟩
        · rintro ⟨rfl, h⟩
          exact ⟨rfl, Nat.zero_le _, by simpa [Ver.bits] using h⟩
      · rw [if_neg hi0, if_neg (by simpa using hi0)]
    have den : ∀ v x, Den (r.map fun n => { n with token := upper g.term.name ++ suffix, parent := upper g.term.name ++ suffix }) v x ↔
        Den r v x := by
      intro v x
      constructor
      · rintro ⟨n, hn, hx⟩
        obtain ⟨m, hm, rfl⟩ := List.mem_map.1 hn
        exact ⟨m, hm, hx⟩
      · rintro ⟨m, hm, hx⟩
        exact ⟨_, List.mem_map.2 ⟨m, hm, rfl⟩, hx⟩
    have full : r ≠ [] := by
      obtain ⟨v, x, h3, h4⟩ := left h0
      obtain ⟨n, hn, _⟩ := (h2 v x).2 ⟨(base v x).2 h3, h4⟩
      exact List.ne_nil_of_mem hn
    refine ⟨?_, ?_, ?_, ?_⟩
    · intro n hn
      obtain ⟨m, hm, rfl⟩ := List.mem_map.1 hn
      have w := h1 m hm
      exact { w with }
    · intro token v x
      unfold Uses
      constructor
      · rintro ⟨_, h3, ⟨h4, _⟩ | ⟨_, rfl, h4, h5⟩⟩
        · exact absurd h4 h0
        · obtain ⟨n, hn, hx⟩ := (h2 v x).2 ⟨(base v x).2 h4, h5⟩
          exact ⟨h3, _, List.mem_map.2 ⟨n, hn, rfl⟩, rfl, hx⟩
      · rintro ⟨h3, n, hn, rfl, hx⟩
        obtain ⟨m, hm, rfl⟩ := List.mem_map.1 hn
        obtain ⟨h4, h5⟩ := (h2 v x).1 ⟨m, hm, hx⟩
        exact ⟨hlive, h3, .inr ⟨h0, rfl, (base v x).1 h4, h5⟩⟩
    · exact iff_of_false (by simpa using full) (fun h => h0 h.2)
    · intro v x _ hf hx
      rw [den, h2, base]
      unfold AddrMatch
      refine and_congr_left' ?_
      by_cases hi0 : inc = []
      · rw [if_pos hi0]
        have : v = .v4 := by
          cases v with
          | v4 => rfl
          | v6 => exact absurd hf (naked h0 hi0)
        subst this
        simp only [hi0, true_or, iff_true]
        exact ⟨trivial, hx⟩
      · simp [hi0]

/-- What is known about the networks of a side that are entered. -/
structure SrxPrepared (U : String → Ver → Nat → Prop) (f : Filter) (inc exc l : List Net) : Prop where
  wf : ∀ n ∈ l, WF n
  full : Full U l
  family : ∀ v x, Den l v x → FamilyIs f.options v
  den : ∀ v x, inc ≠ [] ∨ exc ≠ [] → FamilyIs f.options v → x < 2 ^ v.bits → (Den l v x ↔ AddrMatch inc exc v x)

theorem used_side {fs : List Filter} (co : Coherent fs) {S : String → Ver → Nat → Prop} (hS : Side fs S) {token : String}
    (h : ∃ v x, S token v x) (v : Ver) (x : Nat) : Used fs token v x ↔ S token v x := by
  constructor
  · rintro ⟨W, hW, hx⟩
    exact (co S W hS hW token h ⟨v, x, hx⟩ v x).2 hx
  · exact fun hx => ⟨S, hS, hx⟩

theorem used_family {fs : List Filter} {f : Filter} (same : ∀ f' ∈ fs, ∀ v, FamilyIs f'.options v ↔ FamilyIs f.options v)
    {token : String} {v : Ver} {x : Nat} (h : Used fs token v x) : FamilyIs f.options v := by
  obtain ⟨S, hS, hx⟩ := h
  cases hS with
  | src hf _ => exact (same _ hf v).1 hx.2.1
  | dst hf _ => exact (same _ hf v).1 hx.2.1

theorem prepared_ok {fs : List Filter} {f : Filter} {g : STerm} {suffix : String} {inc exc l : List Net} {b : Zones} {af : String}
    {glob : Bool} (co : Coherent fs) (same : ∀ f' ∈ fs, ∀ v, FamilyIs f'.options v ↔ FamilyIs f.options v)
    (haf : familyOf f.options = .ok af) (hb : Sound (Used fs) b) (hS : Side fs (Uses f g suffix inc exc))
    (h : Excluded f g suffix inc exc l) :
    SrxPrepared (Used fs) f inc exc (admitted af (if glob then alias b l else l)) ∧
    ((if glob then alias b l else l) = [] ↔ inc = [] ∧ exc = []) := by
  have plain : SrxPrepared (Used fs) f inc exc (admitted af l) := by
    refine ⟨fun n hn => h.wf n (List.mem_filter.1 hn).1, ?_, ?_, ?_⟩
    · intro n hn v x
      have hfam : FamilyIs f.options n.ver := (family_in haf _).1 (List.mem_filter.1 hn).2
      rw [used_side co hS ⟨n.ver, n.addr, (h.uses _ _ _).2 ⟨hfam, n, (List.mem_filter.1 hn).1, rfl, mem_addr⟩⟩, h.uses]
      constructor
      · rintro ⟨h1, m, hm, h2, h3⟩
        refine ⟨m, List.mem_filter.2 ⟨hm, ?_⟩, h2, h3⟩
        rw [family_in haf, h3.1]
        exact h1
      · rintro ⟨m, hm, h2, h3⟩
        obtain ⟨hm, h4⟩ := List.mem_filter.1 hm
        refine ⟨?_, m, hm, h2, h3⟩
        have := (family_in haf _).1 h4
        rwa [h3.1] at this
    · intro v x hx
      exact (family_in haf _).1 (den_admitted.1 hx).2
    · intro v x hne hf hx
      rw [den_admitted, family_in haf, and_iff_left hf]
      exact h.den v x (fun e => by
        have := h.none.1 e
        rcases hne with h1 | h1
        · exact h1 this.1
        · exact h1 this.2) hf hx
  cases glob with
  | false => exact ⟨plain, h.none⟩
  | true =>
    obtain ⟨⟨h1, h2, h3⟩, h4⟩ := alias_spec hb h.wf
    refine ⟨?_, h2.trans h.none⟩
    have e0 : (if true = true then alias b l else l) = alias b l := rfl
    rw [e0]
    rcases h1 with h1 | ⟨z, hz, e, he, h1⟩
    · rw [h1]; exact plain
    · have hl := look_mem hb.tidy hz he
      have ne : look b z.1 e.1 ≠ [] := by rw [hl]; exact hb.tidy.full z hz e he
      have same' : ∀ v x, Den e.2 v x ↔ Used fs e.1 v x := by
        intro v x
        rw [← hl]
        exact hb.same z.1 e.1 ne v x
      have par : ∀ n ∈ e.2, WF n ∧ n.parent = e.1 := fun n hn => hb.wf z.1 e.1 n (by rw [hl]; exact hn)
      have adm : admitted af e.2 = e.2 := by
        unfold admitted
        rw [List.filter_eq_self]
        intro n hn
        rw [family_in haf]
        exact used_family same ((same' n.ver n.addr).1 ⟨n, hn, mem_addr⟩)
      rw [h1, adm]
      refine ⟨fun n hn => (par n hn).1, ?_, ?_, ?_⟩
      · intro n hn v x
        rw [(par n hn).2, ← same']
        constructor
        · rintro ⟨m, hm, hx⟩
          exact ⟨m, hm, (par m hm).2, hx⟩
        · rintro ⟨m, hm, _, hx⟩
          exact ⟨m, hm, hx⟩
      · intro v x hx
        exact used_family same ((same' v x).1 hx)
      · intro v x hne hf hx
        rw [← h1, h3]
        exact h.den v x (fun e => by
          have := h.none.1 e
          rcases hne with h1 | h1
          · exact h1 this.1
          · exact h1 this.2) hf hx

/-! ### one term -/

/-- The sets a policy names for a side. -/
def SideReady (U : String → Ver → Nat → Prop) (b : Zones) (zone : String) (f : Filter) (inc exc : List Net)
    (names : Option (List String)) : Prop :=
  (names = none ∧ inc = [] ∧ exc = []) ∨
  ∃ l, names = some (l.map Net.parent).eraseDups ∧ (inc ≠ [] ∨ exc ≠ []) ∧ SrxPrepared U f inc exc l ∧
    ∀ n ∈ l, look b zone n.parent ≠ []

/-- The application a policy names. -/
def AppReady (apps : List App) (t : Term) (app : Option Str) : Prop :=
  (app = none ∧ ∀ p : Packet, OneOf t.protocol p.proto ∧ PortMatch t.sourcePort p.sport ∧ PortMatch t.destinationPort p.dport ∧
    OneOf t.icmpType p.icmpType) ∨
  ∃ a ∈ apps, app = some a.name ∧ written a = true ∧ ∀ p : Packet, (∃ u ∈ termsOf a, AppTermHits p u) ↔
    OneOf t.protocol p.proto ∧ PortMatch t.sourcePort p.sport ∧ PortMatch t.destinationPort p.dport ∧ OneOf t.icmpType p.icmpType

/-- The policy for a term. -/
structure Ready (U : String → Ver → Nat → Prop) (st : State) (f : Filter) (g : STerm) (q : SPolicy) : Prop where
  name : q.name = g.term.name
  src : SideReady U st.books f.fromZone f g.term.sourceAddress g.term.sourceAddressExclude q.src
  dst : SideReady U st.books f.toZone f g.term.destinationAddress g.term.destinationAddressExclude q.dst
  app : AppReady st.apps g.term q.app
  dscp : q.dscp = g.term.dscpMatch
  dscpExcept : q.dscpExcept = g.term.dscpExcept
  fromZones : q.fromZones = g.term.sourceZone.eraseDups
  toZones : q.toZones = g.term.destinationZone.eraseDups
  thens : ∃ t, q.thens = [t] ∧ ∀ v, (t.action, v) ∈ words ↔ ∃ w, g.term.action = [w] ∧ (w, v) ∈ verdicts

/-- What one state keeps of another. -/
structure Later (st st' : State) : Prop where
  books : ∀ z token, look st.books z token ≠ [] → look st'.books z token ≠ []
  apps : ∀ a ∈ st.apps, a ∈ st'.apps

theorem Later.trans {a b c : State} (h : Later a b) (h' : Later b c) : Later a c :=
  ⟨fun z t hn => h'.books z t (h.books z t hn), fun x hx => h'.apps x (h.apps x hx)⟩

theorem Later.refl (a : State) : Later a a := ⟨fun _ _ h => h, fun _ h => h⟩

theorem SideReady.later {U : String → Ver → Nat → Prop} {b b' : Zones} {zone : String} {f : Filter} {inc exc : List Net}
    {names : Option (List String)} (h : SideReady U b zone f inc exc names)
    (hl : ∀ z token, look b z token ≠ [] → look b' z token ≠ []) : SideReady U b' zone f inc exc names := by
  rcases h with h | ⟨l, h1, h2, h3, h4⟩
  · exact .inl h
  · exact .inr ⟨l, h1, h2, h3, fun n hn => hl _ _ (h4 n hn)⟩

theorem Ready.later {U : String → Ver → Nat → Prop} {st st' : State} {f : Filter} {g : STerm} {q : SPolicy} (h : Ready U st f g q)
    (hl : Later st st') : Ready U st' f g q :=
  { h with
    src := h.src.later hl.books
    dst := h.dst.later hl.books
    app := h.app.imp id fun ⟨a, ha, r⟩ => ⟨a, hl.apps a ha, r⟩ }

/-- The state is as described. -/
structure Good (U : String → Ver → Nat → Prop) (st : State) : Prop where
  books : Sound U st.books
  apps : (st.apps.map App.name).Nodup

theorem thens_ok {g : STerm} {on : Bool} (ha : ∃ w ∈ ["accept", "deny", "reject"], g.term.action = [w]) {thens : List Then}
    (h : listM (thenOf g) (express on g.term.action) = .ok thens) :
    ∃ t, thens = [t] ∧ ∀ v, (t.action, v) ∈ words ↔ ∃ w, g.term.action = [w] ∧ (w, v) ∈ verdicts := by
  obtain ⟨w, hw, ha⟩ := ha
  rw [ha] at h ⊢
  have e : express on [w] = [if on ∧ w = "accept" then "expresspath" else w] := by
    unfold express
    cases on <;> simp
  have hx : (if on = true ∧ w = "accept" then "expresspath" else w) ∈ ["accept", "deny", "reject", "expresspath"] := by
    split
    · simp
    · revert hw; simp only [List.mem_cons, List.not_mem_nil, or_false]; rintro (h | h | h) <;> simp [h]
  rw [e] at h
  obtain ⟨a, hl⟩ : ∃ a, actions.lookup (if on = true ∧ w = "accept" then "expresspath" else w) = some a := by
    have : ∀ s ∈ ["accept", "deny", "reject", "expresspath"], ∃ a ∈ actions, actions.lookup s = some a.2 := by decide
    obtain ⟨a, _, h⟩ := this _ hx
    exact ⟨a.2, h⟩
  unfold listM listM thenOf at h
  rw [hl] at h
  cases h
  refine ⟨_, rfl, fun v => ?_⟩
  dsimp only
  have key : ∀ w ∈ ["accept", "deny", "reject"], ∀ on : Bool, ∀ a ∈ actions.map Prod.snd,
      actions.lookup (if on = true ∧ w = "accept" then "expresspath" else w) = some a →
      ∃ r ∈ ["permit", "deny", "reject"], (∀ x ∈ words, x.1 = a ↔ x.2 = r ∧ x.1 = a) ∧ (a, r) ∈ words ∧ (w, r) ∈ verdicts ∧
        ∀ x ∈ verdicts, x.1 = w → x.2 = r := by
    decide
  have hm : a ∈ actions.map Prod.snd := List.mem_map.2 ⟨_, Cisco.mem_of_lookup' hl, rfl⟩
  obtain ⟨r, _, h1, h2, h3, h4⟩ := key w hw on a hm hl
  constructor
  · intro h
    have := ((h1 _ h).1 rfl).1
    dsimp only at this
    subst this
    exact ⟨w, rfl, h3⟩
  · rintro ⟨w', hw', hv⟩
    cases hw'
    have := h4 _ hv rfl
    dsimp only at this
    rw [this]
    exact h2

theorem anyApp_iff {t : Term} : anyApp t = true ↔ t.sourcePort = [] ∧ t.destinationPort = [] ∧ t.icmpType = [] ∧ t.protocol = [] := by
  unfold anyApp
  simp only [Bool.and_eq_true, List.isEmpty_iff, and_assoc]

theorem srx_basic {f : Filter} {g : STerm} (fit : SrxFits f g) (hl : Live g) : Basic (noZone g.term) ∧ g.term.protocolExcept = [] ∧ g.term.icmpCode = [] := by
  have hg : ∀ e ∈ Srx.tables.subTokens, e.1 ∈ Srx.tables.tokens := by decide
  have ha : Active Srx.tables.platform (kterm g.term) := ⟨hl.2.2.1, hl.2.2.2.1⟩
  refine ⟨basic_of_zone hg rfl (by decide) ha fit.keywords, ?_, ?_⟩
  · exact Cisco.wordsVal_falsy (unset hg rfl ha fit.keywords "protocol_except" (by simp [attrsOf]) (by decide))
  · exact Cisco.listVal_falsy (unset hg rfl ha fit.keywords "icmp_code" (by simp [attrsOf]) (by decide))

/-- When a term that fits matches. -/
theorem srx_matches {f : Filter} {g : STerm} (fit : SrxFits f g) (hl : Live g) (p : Packet) : Matches g.term p ↔
    AddrMatch g.term.sourceAddress g.term.sourceAddressExclude p.ver p.src ∧
    AddrMatch g.term.destinationAddress g.term.destinationAddressExclude p.ver p.dst ∧
    (OneOf g.term.protocol p.proto ∧ PortMatch g.term.sourcePort p.sport ∧ PortMatch g.term.destinationPort p.dport ∧
      OneOf g.term.icmpType p.icmpType) ∧
    (OneOf g.term.sourceZone p.srcZone ∧ OneOf g.term.destinationZone p.dstZone) ∧ OneOf g.term.dscpMatch p.dscp ∧
    p.dscp ∉ g.term.dscpExcept := by
  obtain ⟨b, h1, h2⟩ := srx_basic fit hl
  rw [matches_zone b fit.untagged (.inl fit.family)]
  unfold MatchProto
  rw [h1, h2, fit.option]
  constructor
  · rintro ⟨⟨⟨a1, a2⟩, ⟨a3, _⟩, ⟨a4, a5⟩, ⟨a6, _⟩, _⟩, a7, a8⟩
    exact ⟨a1, a2, ⟨a3, a4, a5, a6⟩, a7, a8⟩
  · rintro ⟨a1, a2, ⟨a3, a4, a5, a6⟩, a7, a8⟩
    exact ⟨⟨⟨a1, a2⟩, ⟨a3, by simp⟩, ⟨a4, a5⟩, ⟨a6, .inl rfl⟩, by simp⟩, a7, a8⟩

theorem app_ready {t : Term} {ps : List Proto} {types : List Nat} {name : Str} {to : Option Nat} {apps : List App}
    {q : Str × List App} (hps : termProtocols (t.protocol.map .str) = .ok ps) (ht : Srx.icmpTypes t ps = .ok types)
    (h1 : ∀ s ∈ t.protocol, s ∈ srxProtos)
    (h2 : t.sourcePort ≠ [] ∨ t.destinationPort ≠ [] → t.protocol ≠ [] ∧ ∀ s ∈ t.protocol, s ∈ ["tcp", "udp", "sctp"])
    (hq : placeApp ⟨name, t.sourcePort, t.destinationPort, appProtos ps, types, to⟩ apps = .ok q)
    (hn : (apps.map App.name).Nodup) : AppReady q.2 t (if anyApp t then none else some q.1) := by
  by_cases ha : anyApp t = true
  · rw [if_pos ha]
    obtain ⟨e1, e2, e3, e4⟩ := anyApp_iff.1 ha
    left
    rw [e1, e2, e3, e4]
    exact ⟨rfl, fun p => ⟨.inl rfl, .inl rfl, .inl rfl, .inl rfl⟩⟩
  · rw [if_neg ha]
    obtain ⟨_, ⟨s, hs, e, hsame⟩, _⟩ := placeApp_spec hq hn
    obtain ⟨s1, s2, s3, s4, _⟩ := same_fields hsame
    have es : s = ⟨s.name, t.sourcePort, t.destinationPort, appProtos ps, types, s.timeout⟩ := by
      cases s
      dsimp only at s1 s2 s3 s4 ⊢
      rw [s1, s2, s3, s4]
    obtain ⟨k1, k2⟩ := entry_hits s.name s.timeout hps ht h1 h2
    rw [← es] at k1 k2
    exact .inr ⟨s, hs, by rw [e], k1 (by simpa using ha), k2⟩

theorem side_ready {U : String → Ver → Nat → Prop} {b : Zones} {zone : String} {f : Filter} {inc exc l A : List Net}
    (hp : SrxPrepared U f inc exc A) (hl : l = [] ↔ inc = [] ∧ exc = []) (hA : l = [] → A = []) (hd : ¬ (l ≠ [] ∧ A = []))
    (hb : ∀ n ∈ A, look b zone n.parent ≠ []) : SideReady U b zone f inc exc (tokensOf A) := by
  unfold tokensOf
  by_cases h : A = []
  · rw [if_pos (by simpa using h)]
    have : l = [] := Classical.not_not.1 fun hn => hd ⟨hn, h⟩
    exact .inl ⟨rfl, hl.1 this⟩
  · rw [if_neg (by simpa using h)]
    refine .inr ⟨A, rfl, ?_, hp, hb⟩
    have hn : ¬ (inc = [] ∧ exc = []) := fun hn => h (hA (hl.2 hn))
    by_cases hi : inc = []
    · exact .inr fun he => hn ⟨hi, he⟩
    · exact .inl hi

/-- No packet is meant by a term whose networks are all of the other family. -/
theorem none_wanted {U : String → Ver → Nat → Prop} {f : Filter} {inc exc : List Net} {l : List Net}
    (hp : SrxPrepared U f inc exc []) (hl : l = [] ↔ inc = [] ∧ exc = []) (hne : l ≠ []) {v : Ver} {x : Nat} (hx : x < 2 ^ v.bits)
    (hf : FamilyIs f.options v) (hm : AddrMatch inc exc v x) : False := by
  have hn : inc ≠ [] ∨ exc ≠ [] := by
    by_cases hi : inc = []
    · exact .inr fun he => hne (hl.2 ⟨hi, he⟩)
    · exact .inl hi
  have := (hp.den v x hn hf hx).2 hm
  rw [den_nil] at this
  exact this

/-- What a term leaves: a policy, or nothing if it is for no packet. -/
def SrxRendered (U : String → Ver → Nat → Prop) (st : State) (f : Filter) (g : STerm) (qs : List SPolicy) : Prop :=
  (qs = [] ∧ ∀ p v, SrxReal p → ¬ Wants p (f, g) v) ∨ ∃ q, qs = [q] ∧ Live g ∧ Ready U st f g q

theorem step_ok {fs : List Filter} {f : Filter} {g : STerm} {st : State} {r : State × Option SPolicy} {af : String} {glob : Bool}
    (co : Coherent fs) (same : ∀ f' ∈ fs, ∀ v, FamilyIs f'.options v ↔ FamilyIs f.options v) (hf : f ∈ fs) (hg : g ∈ f.terms)
    (haf : familyOf f.options = .ok af) (fit : SrxFits f g) (sane : SrxSane g) (hl : Live g) (hst : Good (Used fs) st)
    (h : step glob af f st g g.term.name = .ok r) :
    Good (Used fs) r.1 ∧ Later st r.1 ∧ SrxRendered (Used fs) r.1 f g r.2.toList := by
  unfold step at h
  obtain ⟨src, hs, h⟩ := bind_ok h
  obtain ⟨dst, hd, h⟩ := bind_ok h
  have xs := excluded_ok (f := f) hl sane.src sane.srcExclude fit.srcLeft fit.srcNaked hs
  have xd := excluded_ok (f := f) hl sane.dst sane.dstExclude fit.dstLeft fit.dstNaked hd
  obtain ⟨ps1, ns⟩ := prepared_ok (glob := glob) co same haf hst.books (.src hf hg) xs
  obtain ⟨ps2, nd⟩ := prepared_ok (glob := glob) co same haf hst.books (.dst hf hg) xd
  revert h ps1 ns ps2 nd
  generalize (if glob = true then alias st.books src else src) = S
  generalize (if glob = true then alias st.books dst else dst) = D
  intro h ps1 ns ps2 nd
  unfold finish at h
  split at h
  next h0 =>
    cases h
    refine ⟨hst, Later.refl _, .inl ⟨rfl, fun p v hp hw => ?_⟩⟩
    have h0 : S ≠ [] ∧ admitted af S = [] := by simpa using h0
    rw [h0.2] at ps1
    obtain ⟨_, w2, w3, _⟩ := hw
    exact none_wanted ps1 ns h0.1 hp.src w2 ((srx_matches fit hl p).1 w3).1
  next h0 =>
    have h0 : ¬ (S ≠ [] ∧ admitted af S = []) := by simpa using h0
    obtain ⟨b1, l1, k1⟩ := sound_enterAll hst.books f.fromZone ps1.wf ps1.full
    split at h
    next h1 =>
      cases h
      refine ⟨⟨b1, hst.apps⟩, ⟨k1, fun _ h => h⟩, .inl ⟨rfl, fun p v hp hw => ?_⟩⟩
      have h1 : D ≠ [] ∧ admitted af D = [] := by simpa using h1
      rw [h1.2] at ps2
      obtain ⟨_, w2, w3, _⟩ := hw
      exact none_wanted ps2 nd h1.1 hp.dst w2 ((srx_matches fit hl p).1 w3).2.1
    next h1 =>
      have h1 : ¬ (D ≠ [] ∧ admitted af D = []) := by simpa using h1
      obtain ⟨b2, l2, k2⟩ := sound_enterAll b1 f.toZone ps2.wf ps2.full
      obtain ⟨ps, hps, h⟩ := bind_ok h
      obtain ⟨types, ht, h⟩ := bind_ok h
      obtain ⟨q, hq, h⟩ := bind_ok h
      obtain ⟨pol, hpol, h⟩ := bind_ok h
      cases h
      unfold policyOf at hpol
      obtain ⟨thens, hth, hpol⟩ := bind_ok hpol
      cases hpol
      obtain ⟨n1, _, n2, _⟩ := placeApp_spec hq hst.apps
      refine ⟨⟨b2, n1⟩, ⟨fun z t hn => k2 z t (k1 z t hn), n2⟩, .inr ⟨_, rfl, hl, ?_⟩⟩
      exact {
        name := rfl
        src := side_ready ps1 ns (fun e => by rw [e]; rfl) h0 (fun n hn => k2 _ _ (l1 n hn))
        dst := side_ready ps2 nd (fun e => by rw [e]; rfl) h1 l2
        app := app_ready hps ht fit.protos fit.ports hq hst.apps
        dscp := rfl
        dscpExcept := rfl
        fromZones := rfl
        toZones := rfl
        thens := thens_ok fit.action hth }

/-! ### all terms -/

theorem SrxRendered.later {U : String → Ver → Nat → Prop} {st st' : State} {f : Filter} {g : STerm} {qs : List SPolicy}
    (h : SrxRendered U st f g qs) (hl : Later st st') : SrxRendered U st' f g qs :=
  h.imp id fun ⟨q, e, hlive, hr⟩ => ⟨q, e, hlive, hr.later hl⟩

theorem srx_name {name out : Str} (h : fixTermLength abbreviations 62 name false false = .ok out) : out = name := by
  unfold fixTermLength truncateName at h
  simp only [Bool.false_eq_true, if_false] at h
  split at h
  · cases h; rfl
  · cases h

theorem srx_skipped {g : STerm} (he : g.expired = false) : skipped g = false ↔ Live g := by
  unfold skipped Live
  rw [he]
  simp only [Bool.or_eq_false_iff, Bool.and_eq_false_iff, Bool.not_eq_false', List.isEmpty_iff, List.contains_eq_mem,
    decide_eq_true_eq, decide_eq_false_iff_not]
  constructor
  · rintro ⟨⟨⟨⟨h1, h2⟩, h3⟩, h4⟩, h5⟩
    refine ⟨trivial, h3, h1, ?_, h4, h5⟩
    rcases h2 with h2 | h2
    · rw [h2]; simp
    · exact h2
  · rintro ⟨_, h3, h1, h2, h4, h5⟩
    exact ⟨⟨⟨⟨h1, .inr h2⟩, h3⟩, h4⟩, h5⟩

theorem skipped_dead {g : STerm} (h : skipped g = true) : ¬ Live g := by
  intro hl
  rw [(srx_skipped hl.1).2 hl] at h
  cases h

theorem termsLoop_ok {fs : List Filter} {f : Filter} {af : String} {glob : Bool}
    (co : Coherent fs) (same : ∀ f' ∈ fs, ∀ v, FamilyIs f'.options v ↔ FamilyIs f.options v) (hf : f ∈ fs)
    (haf : familyOf f.options = .ok af) : ∀ (gs : List STerm) {names : List Str} {st : State} {r : State × List SPolicy},
    (∀ g ∈ gs, g ∈ f.terms ∧ SrxSane g ∧ (Live g → SrxFits f g)) → Good (Used fs) st →
    termsLoop glob af f names st gs = .ok r →
    Good (Used fs) r.1 ∧ Later st r.1 ∧ ∃ bs : List (STerm × List SPolicy), bs.map Prod.fst = gs ∧ bs.flatMap Prod.snd = r.2 ∧
      ∀ b ∈ bs, SrxRendered (Used fs) r.1 f b.1 b.2
  | [], names, st, r, _, hst, h => by
    cases h
    exact ⟨hst, Later.refl _, [], rfl, rfl, fun _ h => by cases h⟩
  | g :: gs, names, st, r, hg, hst, h => by
    have ih := fun {names st r} => termsLoop_ok (glob := glob) co same hf haf gs (names := names) (st := st) (r := r)
      (fun g h => hg g (List.mem_cons_of_mem _ h))
    obtain ⟨hg1, hsane, hfit⟩ := hg g (by simp)
    rw [termsLoop] at h
    have dead : ∀ {names' : List Str}, ¬ Live g → termsLoop glob af f names' st gs = .ok r →
        Good (Used fs) r.1 ∧ Later st r.1 ∧ ∃ bs : List (STerm × List SPolicy), bs.map Prod.fst = g :: gs ∧
          bs.flatMap Prod.snd = r.2 ∧ ∀ b ∈ bs, SrxRendered (Used fs) r.1 f b.1 b.2 := by
      intro names' hd h
      obtain ⟨h1, h2, bs, h3, h4, h5⟩ := ih hst h
      refine ⟨h1, h2, (g, []) :: bs, by simp [h3], by simp [h4], ?_⟩
      intro b hb
      rcases List.mem_cons.1 hb with rfl | hb
      · exact .inl ⟨rfl, fun p v _ hw => hd hw.1⟩
      · exact h5 b hb
    split at h
    next hs => exact dead (skipped_dead hs) h
    next hs =>
      obtain ⟨name, hn, h⟩ := bind_ok h
      split at h
      · cases h
      · split at h
        next he =>
          refine dead (fun hl => ?_) h
          rw [hl.1] at he
          cases he
        next he =>
          obtain ⟨x, hx, h⟩ := bind_ok h
          obtain ⟨q, hq, h⟩ := bind_ok h
          cases h
          have hl : Live g := (srx_skipped (by simpa using he)).1 (by simpa using hs)
          rw [srx_name hn] at hx
          obtain ⟨h1, h2, h3⟩ := step_ok co same hf hg1 haf (hfit hl) hsane hl hst hx
          obtain ⟨h4, h5, bs, h6, h7, h8⟩ := ih h1 hq
          refine ⟨h4, h2.trans h5, (g, x.2.toList) :: bs, by simp [h6], by simp [h7], ?_⟩
          intro b hb
          rcases List.mem_cons.1 hb with rfl | hb
          · exact h3.later h5
          · exact h8 b hb

theorem fixLarge_small {af : String} : ∀ {gs : List STerm}, (∀ g ∈ gs, SrxSane g) → fixLarge af gs = gs
  | [], _ => rfl
  | g :: gs, h => by
    have ih := fixLarge_small (af := af) fun g hg => h g (List.mem_cons_of_mem _ hg)
    unfold fixLarge at ih ⊢
    rw [List.flatMap_cons, ih]
    have : byteLength af g.term ≤ 1023 := by
      refine Nat.le_trans ?_ (h g (by simp)).small
      unfold byteLength weight
      generalize g.term.sourceAddress ++ g.term.destinationAddress = l
      induction l with
      | nil => exact Nat.le_refl _
      | cons n l ih2 =>
        rw [List.filter_cons, List.map_cons, List.sum_cons]
        split
        · rw [List.map_cons, List.sum_cons]; omega
        · omega
    rw [if_neg (by omega)]
    rfl

theorem translate_mode : ∀ {fs : List Filter} {m : Bool} {st : State} {r : Option Bool × State × List Srx.Block},
    translate (some m) st fs = .ok r → r.1 = some m
  | [], m, st, r, h => by cases h; rfl
  | f :: fs, m, st, r, h => by
    rw [translate] at h
    obtain ⟨glob, hb, h⟩ := bind_ok h
    obtain ⟨_, _, h⟩ := bind_ok h
    obtain ⟨af, _, h⟩ := bind_ok h
    obtain ⟨x, _, h⟩ := bind_ok h
    obtain ⟨q, hq, h⟩ := bind_ok h
    cases h
    rw [show q.1 = some glob from translate_mode hq]
    unfold bookType at hb
    split at hb
    · cases hb
    · split at hb
      · cases hb
      next h2 =>
        cases hb
        have : m = !f.options.contains "address-book-zone" := Classical.not_not.1 h2
        rw [this]

theorem zones_global {f : Filter} {glob : Bool} (h : zonesOk f glob = .ok ()) (hg : Global f.fromZone f.toZone) : glob = true := by
  unfold zonesOk at h
  split at h
  · cases h
  · split at h
    · cases h
    · rw [if_pos (show f.fromZone = "all" ∧ f.toZone = "all" from hg)] at h
      split at h
      next hh => exact hh
      · cases h

theorem translate_ok {fs : List Filter} (co : Coherent fs)
    (same : ∀ f ∈ fs, ∀ f' ∈ fs, ∀ v, FamilyIs f'.options v ↔ FamilyIs f.options v) :
    ∀ (fs' : List Filter) {mode : Option Bool} {st : State} {r : Option Bool × State × List Srx.Block},
    (∀ f ∈ fs', f ∈ fs ∧ ∀ g ∈ f.terms, SrxSane g ∧ (Live g → SrxFits f g)) → Good (Used fs) st →
    translate mode st fs' = .ok r →
    Good (Used fs) r.2.1 ∧ Later st r.2.1 ∧ ∃ cs : List (Filter × List (STerm × List SPolicy)), cs.map Prod.fst = fs' ∧
      r.2.2 = (cs.map fun c => ⟨c.1.fromZone, c.1.toZone, c.2.flatMap Prod.snd⟩) ∧
      ∀ c ∈ cs, c.2.map Prod.fst = c.1.terms ∧ (Global c.1.fromZone c.1.toZone → r.1 = some true) ∧
        ∀ b ∈ c.2, SrxRendered (Used fs) r.2.1 c.1 b.1 b.2
  | [], mode, st, r, _, hst, h => by
    cases h
    exact ⟨hst, Later.refl _, [], rfl, rfl, fun _ h => by cases h⟩
  | f :: fs', mode, st, r, hfs, hst, h => by
    rw [translate] at h
    obtain ⟨glob, hb, h⟩ := bind_ok h
    obtain ⟨_, hz, h⟩ := bind_ok h
    obtain ⟨af, haf, h⟩ := bind_ok h
    obtain ⟨x, hx, h⟩ := bind_ok h
    obtain ⟨q, hq, h⟩ := bind_ok h
    cases h
    obtain ⟨hf, hg⟩ := hfs f (by simp)
    rw [fixLarge_small fun g h => (hg g h).1] at hx
    obtain ⟨h1, h2, bs, h3, h4, h5⟩ := termsLoop_ok co (same f hf) hf haf f.terms (fun g h => ⟨h, hg g h⟩) hst hx
    obtain ⟨h6, h7, cs, h8, h9, h10⟩ := translate_ok co same fs' (fun f h => hfs f (List.mem_cons_of_mem _ h)) h1 hq
    refine ⟨h6, h2.trans h7, (f, bs) :: cs, by simp [h8], by simp [h9, h4], ?_⟩
    intro c hc
    rcases List.mem_cons.1 hc with rfl | hc
    · refine ⟨h3, fun hG => ?_, fun b hb => (h5 b hb).later h7⟩
      rw [zones_global hz hG] at hq
      exact (translate_mode hq : q.1 = some true)
    · exact h10 c hc

/-! ### address books of the output -/

theorem address_inj {a b : String} {i j : Nat} (h : addressName a i = addressName b j) : a = b ∧ i = j := by
  unfold addressName at h
  have h := congrArg String.toList h
  simp only [String.toList_append] at h
  have e : ∀ s : String, ∀ c, (s.toList ++ "_".toList).getLast? = some c → c.isDigit = false := by
    intro s c hc
    rw [List.getLast?_append] at hc
    have : "_".toList.getLast? = some '_' := by decide
    rw [this] at hc
    cases hc
    decide
  have hij := base_number (e a) (e b) h
  subst hij
  exact ⟨String.toList_inj.1 (List.append_cancel_right (List.append_cancel_right h)), rfl⟩

/-- A set of a book has the addresses of its groups. -/
theorem bookOf_has {zone : Option String} {groups : List (String × List Net)} (hw : ∀ e ∈ groups, ∀ n ∈ e.2, WF n)
    {token : String} {v : Ver} {x : Nat} :
    (∃ s ∈ (bookOf zone groups).sets, s.1 = token ∧ SetHas (bookOf zone groups) s v x) ↔
    ∃ e ∈ groups, e.1 = token ∧ Den e.2 v x := by
  have col : ∀ e ∈ groups, (∀ n ∈ collapse (sortAddrList e.2), WF n) ∧ SameDen (collapse (sortAddrList e.2)) e.2 := by
    intro e he
    obtain ⟨h1, h2⟩ := collapse_spec (sortAddrList e.2) (wf_sort (hw e he))
    exact ⟨h1, fun v x => (h2 v x).trans (den_perm (isort_perm _ _) v x)⟩
  constructor
  · rintro ⟨s, hs, rfl, m, hm, a, ha, rfl, hx⟩
    obtain ⟨e, he, rfl⟩ := List.mem_map.1 hs
    obtain ⟨n, hn, e1⟩ := List.mem_map.1 hm
    obtain ⟨e', he', ha⟩ := List.mem_flatMap.1 ha
    obtain ⟨n', hn', rfl⟩ := List.mem_map.1 ha
    obtain ⟨e2, _⟩ := address_inj e1
    obtain ⟨c1, c2⟩ := col e' (mem_isort.1 he')
    have hm' : n'.1 ∈ collapse (sortAddrList e'.2) := (List.mem_zipIdx' hn').2 ▸ List.getElem_mem _
    exact ⟨e', mem_isort.1 he', e2.symm, (c2 v x).1 ⟨n'.1, hm', (Flat.covers_iff (c1 _ hm') v x).1 hx⟩⟩
  · rintro ⟨e, he, rfl, hx⟩
    obtain ⟨c1, c2⟩ := col e he
    obtain ⟨n, hn, hx⟩ := (c2 v x).2 hx
    obtain ⟨i, hi, rfl⟩ := List.getElem_of_mem hn
    have hz : ((collapse (sortAddrList e.2))[i], i) ∈ (collapse (sortAddrList e.2)).zipIdx :=
      List.mem_zipIdx_iff_getElem?.2 (List.getElem?_eq_getElem hi)
    refine ⟨_, List.mem_map.2 ⟨e, mem_isort.2 he, rfl⟩, rfl, addressName e.1 i, List.mem_map.2 ⟨_, hz, rfl⟩,
      (addressName e.1 i, (collapse (sortAddrList e.2))[i]),
      List.mem_flatMap.2 ⟨e, mem_isort.2 he, List.mem_map.2 ⟨_, hz, rfl⟩⟩, rfl, (Flat.covers_iff (c1 _ hn) v x).2 hx⟩

theorem merge_mem : ∀ {es : List (String × List Net)} {m : List (String × List Net)},
    (∀ r ∈ es.foldl (fun m e => upsert e.1 [] (fun l => l ++ e.2) m) m, ∀ n ∈ r.2,
      (∃ e ∈ es, e.1 = r.1 ∧ n ∈ e.2) ∨ ∃ e ∈ m, e.1 = r.1 ∧ n ∈ e.2) ∧
    ∀ e ∈ es ++ m, ∃ r ∈ es.foldl (fun m e => upsert e.1 [] (fun l => l ++ e.2) m) m, r.1 = e.1 ∧ ∀ n ∈ e.2, n ∈ r.2
  | [], m => ⟨fun r hr n hn => .inr ⟨r, hr, rfl, hn⟩, fun e he => ⟨e, he, rfl, fun _ h => h⟩⟩
  | a :: es, m => by
    obtain ⟨h1, h2⟩ := merge_mem (es := es) (m := upsert a.1 [] (fun l => l ++ a.2) m)
    rw [List.foldl_cons]
    constructor
    · intro r hr n hn
      rcases h1 r hr n hn with ⟨e, he, h3⟩ | ⟨e, he, h3, h4⟩
      · exact .inl ⟨e, List.mem_cons_of_mem _ he, h3⟩
      · rcases upsert_mem he with he | ⟨e1, e2 | ⟨e', he', e3, e2⟩⟩
        · exact .inr ⟨e, he, h3, h4⟩
        · rw [e2] at h4
          exact .inl ⟨a, by simp, e1.symm.trans h3, by simpa using h4⟩
        · rw [e2] at h4
          rcases List.mem_append.1 h4 with h4 | h4
          · exact .inr ⟨e', he', e3.trans (e1.symm.trans h3), h4⟩
          · exact .inl ⟨a, by simp, e1.symm.trans h3, h4⟩
    · have sub : ∀ e : String × List Net, (∃ e' ∈ upsert a.1 [] (fun l => l ++ a.2) m, e'.1 = e.1 ∧ ∀ n ∈ e.2, n ∈ e'.2) →
          ∃ r ∈ es.foldl (fun m e => upsert e.1 [] (fun l => l ++ e.2) m) (upsert a.1 [] (fun l => l ++ a.2) m), r.1 = e.1 ∧
            ∀ n ∈ e.2, n ∈ r.2 := by
        rintro e ⟨e', he', e1, e2⟩
        obtain ⟨r, hr, h3, h4⟩ := h2 e' (List.mem_append_right _ he')
        exact ⟨r, hr, h3.trans e1, fun n hn => h4 n (e2 n hn)⟩
      intro e he
      rcases List.mem_append.1 he with he | he
      · rcases List.mem_cons.1 he with rfl | he
        · exact sub e (upsert_new m)
        · exact h2 e (List.mem_append_left _ he)
      · exact sub e (upsert_old he)
where
  upsert_new {k : String} {l : List Net} : ∀ m : List (String × List Net),
      ∃ e' ∈ upsert k [] (fun x => x ++ l) m, e'.1 = k ∧ ∀ n ∈ l, n ∈ e'.2
    | [] => ⟨_, List.mem_singleton.2 rfl, rfl, fun n hn => by simpa using hn⟩
    | a :: m => by
      rw [upsert]
      split
      · exact ⟨_, List.mem_cons_self, rfl, fun n hn => List.mem_append_right _ hn⟩
      · obtain ⟨e, he, h⟩ := upsert_new m
        exact ⟨e, List.mem_cons_of_mem _ he, h⟩
  upsert_old {k : String} {l : List Net} {e : String × List Net} : ∀ {m : List (String × List Net)}, e ∈ m →
      ∃ e' ∈ upsert k [] (fun x => x ++ l) m, e'.1 = e.1 ∧ ∀ n ∈ e.2, n ∈ e'.2
    | [], h => by cases h
    | a :: m, h => by
      rw [upsert]
      split
      next hk =>
        rcases List.mem_cons.1 h with rfl | h
        · exact ⟨_, List.mem_cons_self, hk.symm, fun n hn => List.mem_append_left _ hn⟩
        · exact ⟨e, List.mem_cons_of_mem _ h, rfl, fun _ h => h⟩
      next hk =>
        rcases List.mem_cons.1 h with rfl | h
        · exact ⟨e, List.mem_cons_self, rfl, fun _ h => h⟩
        · obtain ⟨e', he', h2⟩ := upsert_old h
          exact ⟨e', List.mem_cons_of_mem _ he', h2⟩

/-- The sets named by a token, in the books that count for a zone. -/
theorem books_has {U : String → Ver → Nat → Prop} {b : Zones} (hb : Sound U b) {mode : Option Bool} {zone token : String}
    {v : Ver} {x : Nat} (hz : if mode = some true then ∃ z, look b z token ≠ [] else look b zone token ≠ []) :
    (∃ k ∈ books mode b, (k.zone = none ∨ k.zone = some zone) ∧ ∃ s ∈ k.sets, s.1 = token ∧ SetHas k s v x) ↔ U token v x := by
  have wf : ∀ z ∈ b, ∀ e ∈ z.2, ∀ n ∈ e.2, WF n := fun z hz e he n hn => (hb.wf z.1 e.1 n (by rw [look_mem hb.tidy hz he]; exact hn)).1
  have den : ∀ z ∈ b, ∀ e ∈ z.2, ∀ v x, Den e.2 v x ↔ U e.1 v x := by
    intro z hz e he v x
    rw [← look_mem hb.tidy hz he]
    exact hb.same _ _ (by rw [look_mem hb.tidy hz he]; exact hb.tidy.full z hz e he) v x
  unfold books
  split
  next hm =>
    rw [if_pos hm] at hz
    obtain ⟨m1, m2⟩ := merge_mem (es := b.flatMap Prod.snd) (m := [])
    have wm : ∀ e ∈ merged b, ∀ n ∈ e.2, WF n := by
      intro r hr n hn
      rcases m1 r hr n hn with ⟨e, he, _, h⟩ | ⟨e, he, _⟩
      · obtain ⟨z, hz, he⟩ := List.mem_flatMap.1 he
        exact wf z hz e he n h
      · cases he
    constructor
    · rintro ⟨k, hk, _, h⟩
      rw [List.mem_singleton.1 hk] at h
      obtain ⟨r, hr, rfl, n, hn, hx⟩ := (bookOf_has wm).1 h
      rcases m1 r hr n hn with ⟨e, he, h1, h2⟩ | ⟨e, he, _⟩
      · obtain ⟨z, hz, he⟩ := List.mem_flatMap.1 he
        rw [← h1, ← den z hz e he]
        exact ⟨n, h2, hx⟩
      · cases he
    · intro hU
      obtain ⟨z, hz⟩ := hz
      obtain ⟨zz, h1, rfl, e, he, rfl, _⟩ := mem_look hz
      obtain ⟨n, hn, hx⟩ := (den zz h1 e he v x).2 hU
      obtain ⟨r, hr, h2, h3⟩ := m2 e (List.mem_append_left _ (List.mem_flatMap.2 ⟨zz, h1, he⟩))
      refine ⟨_, List.mem_singleton.2 rfl, .inl rfl, ?_⟩
      exact (bookOf_has wm).2 ⟨r, hr, h2, n, h3 n hn, hx⟩
  next hm =>
    rw [if_neg hm] at hz
    constructor
    · rintro ⟨k, hk, _, h⟩
      obtain ⟨z, hz', rfl⟩ := List.mem_map.1 hk
      obtain ⟨e, he, rfl, hx⟩ := (bookOf_has (wf z hz')).1 h
      exact (den z hz' e he v x).1 hx
    · intro hU
      obtain ⟨zz, h1, rfl, e, he, rfl, _⟩ := mem_look hz
      refine ⟨_, List.mem_map.2 ⟨zz, h1, rfl⟩, .inr rfl, ?_⟩
      exact (bookOf_has (wf zz h1)).2 ⟨e, he, rfl, (den zz h1 e he v x).2 hU⟩

theorem eraseDups_mem {α : Type} [BEq α] [LawfulBEq α] {l : List α} {a : α} : a ∈ l.eraseDups ↔ a ∈ l := List.mem_eraseDups

/-- The addresses a policy names on a side. -/
theorem side_hits {U : String → Ver → Nat → Prop} {b : Zones} (hb : Sound U b) {mode : Option Bool} {zone zone' : String}
    (hz : mode = some true ∨ zone = zone') {f : Filter} {inc exc : List Net} {names : Option (List String)}
    (h : SideReady U b zone f inc exc names) {apps : List App} {blocks : List Srx.Block} {v : Ver} {x : Nat} :
    (names = none ∧ inc = [] ∧ exc = [] ∧ AddrHits ⟨books mode b, blocks, apps⟩ zone' names v x) ∨
    ((inc ≠ [] ∨ exc ≠ []) ∧ ∃ l, SrxPrepared U f inc exc l ∧ (AddrHits ⟨books mode b, blocks, apps⟩ zone' names v x ↔ Den l v x)) := by
  rcases h with ⟨rfl, h1, h2⟩ | ⟨l, rfl, h1, h2, h3⟩
  · exact .inl ⟨rfl, h1, h2, Flat.ifSet_none⟩
  · refine .inr ⟨h1, l, h2, ?_⟩
    unfold AddrHits
    rw [Flat.ifSet_some]
    have loc : ∀ n ∈ l, if mode = some true then ∃ z, look b z n.parent ≠ [] else look b zone' n.parent ≠ [] := by
      intro n hn
      split
      · exact ⟨zone, h3 n hn⟩
      next hm =>
        rcases hz with hz | rfl
        · exact absurd hz hm
        · exact h3 n hn
    constructor
    · rintro ⟨token, ht, h4⟩
      obtain ⟨n, hn, rfl⟩ := List.mem_map.1 (eraseDups_mem.1 ht)
      obtain ⟨m, hm, _, hx⟩ := (h2.full n hn v x).1 ((books_has hb (loc n hn)).1 h4)
      exact ⟨m, hm, hx⟩
    · rintro ⟨n, hn, hx⟩
      refine ⟨n.parent, eraseDups_mem.2 (List.mem_map.2 ⟨n, hn, rfl⟩), ?_⟩
      exact (books_has hb (loc n hn)).2 ((h2.full n hn v x).2 ⟨n, hn, rfl, hx⟩)

theorem side_match {U : String → Ver → Nat → Prop} {b : Zones} (hb : Sound U b) {mode : Option Bool} {zone zone' : String}
    (hz : mode = some true ∨ zone = zone') {f : Filter} {inc exc : List Net} {names : Option (List String)}
    (h : SideReady U b zone f inc exc names) {apps : List App} {blocks : List Srx.Block} {v : Ver} {x : Nat} (hx : x < 2 ^ v.bits) :
    (inc ≠ [] ∨ exc ≠ [] → AddrHits ⟨books mode b, blocks, apps⟩ zone' names v x → FamilyIs f.options v) ∧
    (FamilyIs f.options v → (AddrHits ⟨books mode b, blocks, apps⟩ zone' names v x ↔ AddrMatch inc exc v x)) := by
  rcases side_hits hb hz h (blocks := blocks) (apps := apps) (v := v) (x := x) with ⟨rfl, rfl, rfl, h1⟩ | ⟨h1, l, h2, h3⟩
  · refine ⟨fun h => absurd h (by simp), fun _ => iff_of_true h1 ⟨.inl rfl, by simp [den_nil]⟩⟩
  · exact ⟨fun _ h => h2.family v x (h3.1 h), fun hf => h3.trans (h2.den v x h1 hf hx)⟩

theorem oneOf_eraseDups {l : List String} {s : String} : OneOf l.eraseDups s ↔ OneOf l s := by
  unfold OneOf
  rw [eraseDups_mem]
  refine or_congr_left ?_
  cases l with
  | nil => simp
  | cons a l =>
    refine iff_of_false (fun h => ?_) (by simp)
    have : a ∈ (a :: l).eraseDups := eraseDups_mem.2 (by simp)
    rw [h] at this
    cases this

/-- A policy does what its term says. -/
theorem ready_hits {fs : List Filter} {st : State} (hst : Good (Used fs) st) {f : Filter} {g : STerm} {q : SPolicy}
    (hl : Live g) (fit : SrxFits f g) (hr : Ready (Used fs) st f g q) {p : Packet} (hp : SrxReal p) {mode : Option Bool}
    (hz : mode = some true ∨ f.fromZone = p.srcZone ∧ f.toZone = p.dstZone) {blocks : List Srx.Block} {v : String} :
    Hits ⟨books mode st.books, blocks, st.apps⟩ p q v ↔ Wants p (f, g) v := by
  obtain ⟨s1, s2⟩ := side_match hst.books (hz.imp id And.left) hr.src (blocks := blocks) (apps := st.apps) hp.src
  obtain ⟨d1, d2⟩ := side_match hst.books (hz.imp id And.right) hr.dst (blocks := blocks) (apps := st.apps) hp.dst
  have app : Flat.IfSet q.app (fun a => AppHits (defs st.apps) p (a ++ "-app".toList)) ↔
      OneOf g.term.protocol p.proto ∧ PortMatch g.term.sourcePort p.sport ∧ PortMatch g.term.destinationPort p.dport ∧
        OneOf g.term.icmpType p.icmpType := by
    rcases hr.app with ⟨e, h⟩ | ⟨a, ha, e, hw, h⟩
    · rw [e]
      exact iff_of_true Flat.ifSet_none (h p)
    · rw [e, Flat.ifSet_some, ← h p]
      exact defs_hits hst.apps ha hw
  have thens : (∃ t, q.thens = [t] ∧ (t.action, v) ∈ words) ↔ ∃ w, g.term.action = [w] ∧ (w, v) ∈ verdicts := by
    obtain ⟨t, e, h⟩ := hr.thens
    rw [← h v, e]
    constructor
    · rintro ⟨t', e', h'⟩
      cases e'
      exact h'
    · exact fun h => ⟨t, rfl, h⟩
  unfold Hits Wants
  rw [thens, srx_matches fit hl]
  constructor
  · rintro ⟨h, w⟩
    have fam : FamilyIs f.options p.ver := by
      rcases fit.some with h1 | h1 | h1
      · exact h1 p.ver
      · exact s1 h1 h.src
      · exact d1 h1 h.dst
    refine ⟨hl, fam, ⟨(s2 fam).1 h.src, (d2 fam).1 h.dst, app.1 h.app, ⟨?_, ?_⟩, ?_, ?_⟩, w⟩
    · have := h.fromZones
      rwa [hr.fromZones, oneOf_eraseDups] at this
    · have := h.toZones
      rwa [hr.toZones, oneOf_eraseDups] at this
    · rw [← hr.dscp]; exact h.dscp
    · rw [← hr.dscpExcept]; exact h.dscpExcept
  · rintro ⟨_, fam, ⟨h1, h2, h3, ⟨h4, h5⟩, h6, h7⟩, w⟩
    refine ⟨⟨(s2 fam).2 h1, (d2 fam).2 h2, app.2 h3, ?_, ?_, ?_, ?_⟩, w⟩
    · rw [hr.dscp]; exact h6
    · rw [hr.dscpExcept]; exact h7
    · rw [hr.fromZones, oneOf_eraseDups]; exact h4
    · rw [hr.toZones, oneOf_eraseDups]; exact h5

theorem srx_unique {p : Packet} (x : Filter × STerm) (v w : String) (h1 : Wants p x v) (h2 : Wants p x w) : v = w := by
  obtain ⟨_, _, _, a, ha, h1⟩ := h1
  obtain ⟨_, _, _, b, hb, h2⟩ := h2
  rw [ha] at hb
  cases hb
  have key : ∀ x ∈ verdicts, ∀ y ∈ verdicts, x.1 = y.1 → x.2 = y.2 := by decide
  exact key _ h1 _ h2 rfl

/-- The terms of some filters with their policies. -/
def picked (cs : List (Filter × List (STerm × List SPolicy))) (k : Filter → Bool) : List ((Filter × STerm) × List SPolicy) :=
  (cs.filter fun c => k c.1).flatMap fun c => c.2.map fun b => ((c.1, b.1), b.2)

theorem pick_policies : ∀ (cs : List (Filter × List (STerm × List SPolicy))) (k : Filter → Bool) (k' : Srx.Block → Bool),
    (∀ c ∈ cs, k' ⟨c.1.fromZone, c.1.toZone, c.2.flatMap Prod.snd⟩ = k c.1) →
    ((cs.map fun c => (⟨c.1.fromZone, c.1.toZone, c.2.flatMap Prod.snd⟩ : Srx.Block)).filter k').flatMap Srx.Block.policies =
      (picked cs k).flatMap Prod.snd
  | [], _, _, _ => rfl
  | c :: cs, k, k', hk => by
    have ih := pick_policies cs k k' fun c hc => hk c (List.mem_cons_of_mem _ hc)
    unfold picked at ih ⊢
    rw [List.map_cons, List.filter_cons, List.filter_cons, hk c (by simp)]
    split
    · rw [List.flatMap_cons, List.flatMap_cons, List.flatMap_append, ih, List.flatMap_map]
    · exact ih

theorem pick_terms : ∀ (cs : List (Filter × List (STerm × List SPolicy))) (k : Filter → Bool),
    (∀ c ∈ cs, c.2.map Prod.fst = c.1.terms) →
    (((cs.map Prod.fst).filter k).flatMap fun f => f.terms.map fun g => (f, g)) = (picked cs k).map Prod.fst
  | [], _, _ => rfl
  | c :: cs, k, h4 => by
    have ih := pick_terms cs k fun c hc => h4 c (List.mem_cons_of_mem _ hc)
    unfold picked at ih ⊢
    rw [List.map_cons, List.filter_cons, List.filter_cons]
    split
    · rw [List.flatMap_cons, List.flatMap_cons, List.map_append, ih, ← h4 c (by simp), List.map_map, List.map_map]
      rfl
    · exact ih

/-- C96: the firewall does with a packet that opens a session what the policy says: the first matching live term of the
filters for the two zones of the packet, then of the global filters, decides, and otherwise the packet is denied. The
terms are as `SrxFits` says, their networks as `SrxSane` says, the filters are all for the same families, and a token
stands for the same addresses wherever it is used. Without these conditions the claim is false, see the refutations. -/
theorem C96_policy_partial {fs : List Filter} {o : Output} (h : output fs = .ok o)
    (fits : ∀ f ∈ fs, ∀ g ∈ f.terms, SrxSane g ∧ (Live g → SrxFits f g))
    (same : ∀ f ∈ fs, ∀ f' ∈ fs, ∀ v, FamilyIs f'.options v ↔ FamilyIs f.options v)
    (co : Coherent fs) {p : Packet} (hp : SrxReal p) (v : String) : Does o p v ↔ Decides fs p v := by
  unfold output at h
  obtain ⟨r, hr, h⟩ := bind_ok h
  cases h
  have h0 : Good (Used fs) {} := ⟨sound_nil _, List.nodup_nil⟩
  obtain ⟨h1, _, cs, rfl, h3, h4⟩ := translate_ok co same fs (fun f hf => ⟨hf, fits f hf⟩) h0 hr
  let k1 : Filter → Bool := fun f => decide (¬ Global f.fromZone f.toZone ∧ f.fromZone = p.srcZone ∧ f.toZone = p.dstZone)
  let k2 : Filter → Bool := fun f => decide (Global f.fromZone f.toZone)
  have et : tried ⟨books r.1 r.2.1.books, r.2.2, r.2.1.apps⟩ p = (picked cs k1 ++ picked cs k2).flatMap Prod.snd := by
    unfold tried
    rw [List.flatMap_append]
    rw [h3]
    exact congr (congrArg _ (pick_policies cs k1 _ fun _ _ => rfl)) (pick_policies cs k2 _ fun _ _ => rfl)
  have eg : terms (cs.map Prod.fst) p = (picked cs k1 ++ picked cs k2).map Prod.fst := by
    unfold terms
    rw [List.map_append]
    exact congr (congrArg _ (pick_terms cs k1 fun c hc => (h4 c hc).1)) (pick_terms cs k2 fun c hc => (h4 c hc).1)
  have key : ∀ b ∈ picked cs k1 ++ picked cs k2, ∀ w, (∃ q ∈ b.2, Hits ⟨books r.1 r.2.1.books, r.2.2, r.2.1.apps⟩ p q w) ↔ Wants p b.1 w := by
    intro b hb w
    have : ∃ c ∈ cs, (r.1 = some true ∨ c.1.fromZone = p.srcZone ∧ c.1.toZone = p.dstZone) ∧ ∃ u ∈ c.2, b = ((c.1, u.1), u.2) := by
      rcases List.mem_append.1 hb with hb | hb
      · obtain ⟨c, hc, hb⟩ := List.mem_flatMap.1 hb
        obtain ⟨hc, hk⟩ := List.mem_filter.1 hc
        obtain ⟨u, hu, rfl⟩ := List.mem_map.1 hb
        exact ⟨c, hc, .inr (of_decide_eq_true hk).2, u, hu, rfl⟩
      · obtain ⟨c, hc, hb⟩ := List.mem_flatMap.1 hb
        obtain ⟨hc, hk⟩ := List.mem_filter.1 hc
        obtain ⟨u, hu, rfl⟩ := List.mem_map.1 hb
        exact ⟨c, hc, .inl ((h4 c hc).2.1 (of_decide_eq_true hk)), u, hu, rfl⟩
    obtain ⟨c, hc, hz, u, hu, rfl⟩ := this
    have hg : u.1 ∈ c.1.terms := by
      rw [← (h4 c hc).1]
      exact List.mem_map.2 ⟨u, hu, rfl⟩
    rcases (h4 c hc).2.2 u hu with ⟨e, hn⟩ | ⟨q, e, hl, hq⟩
    · dsimp only
      rw [e]
      exact iff_of_false (fun ⟨_, h, _⟩ => by cases h) (hn p w hp)
    · have := ready_hits h1 hl ((fits c.1 (List.mem_map.2 ⟨c, hc, rfl⟩) u.1 hg).2 hl) hq hp hz (blocks := r.2.2) (v := w)
      dsimp only
      rw [e, ← this]
      simp
  unfold Does Decides
  rw [et, eg, Lemmas.first_blocks srx_unique key]
  refine or_congr_right (and_congr_left' ?_)
  constructor
  · intro hn x hx w hw
    obtain ⟨b, hb, rfl⟩ := List.mem_map.1 hx
    obtain ⟨q, hq, hh⟩ := (key b hb w).2 hw
    exact hn q (List.mem_flatMap.2 ⟨b, hb, hq⟩) w hh
  · intro hn q hq w hh
    obtain ⟨b, hb, hq⟩ := List.mem_flatMap.1 hq
    exact hn b.1 (List.mem_map.2 ⟨b, hb, rfl⟩) w ((key b hb w).1 ⟨q, hq, hh⟩)

end Verif.Props
