import Verif.Props.IptablesRefuted
import Verif.Props.IpsetConfig

/-!
C181: from the policy to a host with sets.
-/

namespace Verif.Props
open Verif Verif.Policy Verif.Ipset Verif.Aclgenerator
open Verif.Iptables (IpSet Filter ITerm)
open Verif.Spec (Packet Den WF PWF)
open Verif.Spec.Nf (Host Match All Walk Sound rulesOf Decides)
open Verif.Spec.IpsetHost (KSet Sets restore)

namespace IpsetWholeL

/-- Two hosts with the same addresses in all sets. -/
def Alike (e e' : Host) : Prop :=
  e.state = e'.state ∧ ∀ n v x, (∃ l, e.sets n = some l ∧ Den l v x) ↔ ∃ l, e'.sets n = some l ∧ Den l v x

theorem holds_alike {e e' : Host} (h : Alike e e') (p : Packet) (m : Match) : m.Holds e p ↔ m.Holds e' p := by
  cases m <;> first | exact Iff.rfl | exact h.2 _ _ _ | (unfold Match.Holds; rw [h.1])

theorem all_alike {e e' : Host} (h : Alike e e') (p : Packet) (ms : List Match) : All e p ms ↔ All e' p ms :=
  forall_congr' fun m => imp_congr Iff.rfl (holds_alike h p m)

theorem walk_alike {e e' : Host} (h : Alike e e') {p : Packet} {chains rs v} (w : Walk chains e p rs v) : Walk chains e' p rs v := by
  induction w with
  | done => exact .done
  | skip h1 h2 _ ih => exact .skip h1 (fun a => h2 ((all_alike h p _).2 a)) ih
  | hit h1 h2 h3 => exact .hit h1 ((all_alike h p _).1 h2) h3
  | ret h1 h2 => exact .ret h1 ((all_alike h p _).1 h2)
  | log h1 h2 _ ih => exact .log h1 ((all_alike h p _).1 h2) ih
  | call h1 h2 _ ih => exact .call h1 ((all_alike h p _).1 h2) ih
  | back h1 h2 _ _ i1 i2 => exact .back h1 ((all_alike h p _).1 h2) i1 i2

theorem alike_symm {e e' : Host} (h : Alike e e') : Alike e' e := ⟨h.1.symm, fun n v x => (h.2 n v x).symm⟩

/-- The terms of a printed filter have the addresses of terms of the policy. -/
theorem translate_from {c : Iptables.Cls} : ∀ {fs : List Filter} {st : Iptables.TState} {os : List Iptables.Out},
    Iptables.translate c st fs = .ok os → ∀ o ∈ os, ∀ r ∈ o.terms, ∃ g ∈ fs, ∃ q ∈ g.terms, ∃ name ports,
      r.term = { q.term with name := name, destinationPort := ports }
  | [], _, _, h => by
    cases h
    nofun
  | f :: fs, st, os, h => by
    rw [Iptables.translate] at h
    obtain ⟨⟨st', o⟩, h1, h⟩ := bind_ok h
    obtain ⟨os', h2, h⟩ := bind_ok h
    cases h
    intro o' ho r hr
    rcases List.mem_cons.1 ho with rfl | ho
    · unfold Iptables.translateFilter at h1
      split at h1
      · cases h1
      · obtain ⟨af, h3, h1⟩ := bind_ok h1
        obtain ⟨kept, h4, h1⟩ := bind_ok h1
        obtain ⟨_, _, h1⟩ := bind_ok h1
        split at h1
        · cases h1
        · cases h1
          obtain ⟨k, hk, hk'⟩ := List.mem_filterMap.1 hr
          obtain ⟨q, hq, hp⟩ := (listM_mem h4 k).1 hk
          rcases prepared hp with ⟨_, rfl⟩ | ⟨name, u, _, rfl, hu⟩
          · cases hk'
          · cases hk'
            obtain ⟨ports, rfl⟩ := restrict_fixHighPorts hu
            exact ⟨f, List.mem_cons_self, q, hq, name, ports, rfl⟩
    · obtain ⟨g, hg, rest⟩ := translate_from h2 o' ho r hr
      exact ⟨g, List.mem_cons_of_mem _ hg, rest⟩

/-- The networks of every set are of the family of its filter. -/
theorem allSets_ver {fs : List Filter} {ss : List (Ver × IpSet)} (h : allSets fs = .ok ss)
    (hw : ∀ g ∈ fs, ∀ r ∈ g.terms, ∀ n ∈ r.term.sourceAddress ++ r.term.sourceAddressExclude ++ (r.term.destinationAddress ++ r.term.destinationAddressExclude), WF n) :
    ∀ x ∈ ss, ∀ n ∈ x.2.2, n.ver = x.1 := by
  unfold allSets at h
  obtain ⟨os, h1, h⟩ := bind_ok h
  intro x hx n hn
  obtain ⟨o, ho, ys, hy, hm⟩ := ((concatM_ok h).2 x).1 hx
  unfold filterSets at hy
  obtain ⟨ps, h2, hy⟩ := bind_ok hy
  cases hy
  obtain ⟨q, hq, hm⟩ := List.mem_flatMap.1 hm
  obtain ⟨s, hs, rfl⟩ := List.mem_map.1 hm
  unfold Iptables.filterTerms at h2
  obtain ⟨r, hr, h3⟩ := (listM_mem h2 q).1 hq
  obtain ⟨g, hg, r0, hr0, name, ports, e⟩ := translate_from h1 o ho r hr
  have hw' := hw g hg r0 hr0
  obtain ⟨k1, k2⟩ := renderTerm_sets h3
  rcases List.mem_append.1 hs with hs | hs
  · have := (k1 s (Option.mem_toList.1 hs)).2
    rw [e] at this
    obtain ⟨l, l1, l2, _⟩ := C48_addresses (af := o.af) (fun m hm => hw' m (List.mem_append_left _ hm))
    rw [l1] at this
    cases this
    exact (l2 n hn).2
  · have := (k2 s (Option.mem_toList.1 hs)).2
    rw [e] at this
    obtain ⟨l, l1, l2, _⟩ := C48_addresses (af := o.af) (fun m hm => hw' m (List.mem_append_right _ hm))
    rw [l1] at this
    cases this
    exact (l2 n hn).2

theorem sound_state {track : Bool} {e : Host} {p : Packet} (f : Str → Option (List Net)) (h : Sound track e p) :
    Sound track { e with sets := f } p :=
  { h with }

theorem find_self {sets : List IpSet} (hd : (sets.map Prod.fst).Nodup) {s : IpSet} (hs : s ∈ sets) :
    sets.find? (fun x => x.1 == s.1) = some s := by
  induction sets with
  | nil => cases hs
  | cons y l ih =>
    rw [List.map_cons, List.nodup_cons] at hd
    rcases List.mem_cons.1 hs with rfl | hs
    · simp
    · rw [List.find?_cons_of_neg]
      · exact ih hd.2 hs
      · simp only [beq_iff_eq]
        exact fun e => hd.1 (e ▸ List.mem_map_of_mem hs)

/-- The kernel's networks denote the same addresses. -/
theorem den_keys {af : Ver} {l : List Net} (h : ∀ n ∈ l, n.ver = af) (v : Ver) (x : Nat) :
    Den ((l.map fun n => (n.addr, n.plen)).map fun k => { ver := af, addr := k.1, plen := k.2 }) v x ↔ Den l v x := by
  constructor
  · rintro ⟨n, hn, hm⟩
    obtain ⟨k, hk, rfl⟩ := List.mem_map.1 hn
    obtain ⟨m, hm', rfl⟩ := List.mem_map.1 hk
    refine ⟨m, hm', ?_⟩
    have := h m hm'
    subst this
    exact hm
  · rintro ⟨m, hm, hx⟩
    refine ⟨_, List.mem_map.2 ⟨_, List.mem_map.2 ⟨m, hm, rfl⟩, rfl⟩, ?_⟩
    have := h m hm
    subst this
    exact hx

end IpsetWholeL
open IpsetWholeL

/-- **C181**: on a host that has no set of one of the names, `ipset restore` takes the commands printed for the policy, and afterwards the
printed rules of a filter, walked with the sets as the host then has them, give exactly one verdict for every packet of the family of the
filter: the one that the filter asks for. Missing: hosts with such sets and sets that share a name or have a network of prefix length 0,
see C178 and C48; terms outside `IFits` and terms that pass packets on, see C48. -/
theorem C181_host_partial {pre post : List Filter} {f : Filter} {ls : List Iptables.Line} {sets : List IpSet} {cmds : List SetCmd}
    (hr : Iptables.render Iptables.ipset (pre ++ f :: post) = .ok (ls, sets)) (hc : setConfig (pre ++ f :: post) = .ok cmds)
    (hn : ((pre ++ f :: post).map Filter.name).Nodup) (hst : ∀ g ∈ pre, "nostate" ∉ g.options)
    {track : Bool} (ht : track = true ↔ "nostate" ∉ f.options) {af : Ver} (haf : af = .v6 ↔ "inet6" ∈ f.options)
    (fits : ∀ r ∈ f.terms, Spec.Nf.Live "ipset" r →
      (∃ a, a ≠ "next" ∧ IFits Iptables.ipset track af r a) ∧ PWF r.term.destinationPort)
    (hw : ∀ g ∈ pre ++ f :: post, ∀ r ∈ g.terms, ∀ n ∈ r.term.sourceAddress ++ r.term.sourceAddressExclude ++
      (r.term.destinationAddress ++ r.term.destinationAddressExclude), WF n)
    (hd : (sets.map Prod.fst).Nodup)
    (hp : ∀ s ∈ sets, (∀ n ∈ s.2, n.plen ≠ 0) ∧ (s.2.map fun n => (n.addr, n.plen)).Nodup)
    {h : Sets} (hf : ∀ s ∈ sets, h s.1 = none) :
    ∃ h', restore h cmds = some h' ∧ ∀ (e : Host) (p : Packet), Sound track e p → p.ver = af →
      (∀ n, e.sets n = (h' n).map fun k => k.nets.map fun x => { ver := k.af, addr := x.1, plen := x.2 }) →
      ∃ v, Walk (rulesOf ls) e p (rulesOf ls f.name) v ∧ (∀ w, Walk (rulesOf ls) e p (rulesOf ls f.name) w → w = v) ∧
        Decides "ipset" track f.terms p v := by
  obtain ⟨ss, hs, _⟩ := IpsetConfigL.sets_render hr
  obtain ⟨h', h1, h2, _⟩ := C178_new_partial hr hs hc hd (allSets_ver hs hw) hp hf
  refine ⟨h', h1, fun e p he hv hse => ?_⟩
  let e' : Host := { e with sets := fun n => match sets.find? (fun x => x.1 == n) with
    | some s => some s.2
    | none => e.sets n }
  have ha : Alike e e' := by
    refine ⟨rfl, fun n v x => ?_⟩
    show _ ↔ ∃ l, (match sets.find? (fun x => x.1 == n) with | some s => some s.2 | none => e.sets n) = some l ∧ Den l v x
    cases hfind : sets.find? (fun x => x.1 == n) with
    | none => exact Iff.rfl
    | some s =>
      have hm := List.mem_of_find?_eq_some hfind
      have hsn : s.1 = n := by simpa using List.find?_some hfind
      subst hsn
      obtain ⟨k, k1, k2, _, k3⟩ := h2 s hm
      have key := den_keys k3 v x
      rw [← k2] at key
      rw [hse s.1, k1]
      constructor
      · rintro ⟨l, hl, hx⟩
        cases hl
        exact ⟨_, rfl, key.1 hx⟩
      · rintro ⟨l, hl, hx⟩
        cases hl
        exact ⟨_, rfl, key.2 hx⟩
  obtain ⟨v, w1, w2, w3⟩ := C48_partial hr hn hst ht haf fits (e := e') (sound_state _ he) hv (by
    intro s hm
    show (match sets.find? (fun x => x.1 == s.1) with | some s => some s.2 | none => e.sets s.1) = _
    rw [find_self hd hm])
  exact ⟨v, walk_alike (alike_symm ha) w1, fun w hw' => w2 w (walk_alike ha hw'), w3⟩

/-- The hypotheses of C181: a filter with a term that has a set of eight networks. -/
example : ∃ ls sets cmds, Iptables.render Iptables.ipset ([] ++ nfFilter :: []) = .ok (ls, sets) ∧
    setConfig ([] ++ nfFilter :: []) = .ok cmds ∧ cmds.length = 9 ∧
    (∀ r ∈ nfFilter.terms, Spec.Nf.Live "ipset" r →
      (∃ a, a ≠ "next" ∧ IFits Iptables.ipset true .v4 r a) ∧ PWF r.term.destinationPort) ∧
    (∀ g ∈ [nfFilter], ∀ r ∈ g.terms, ∀ n ∈ r.term.sourceAddress ++ r.term.sourceAddressExclude ++
      (r.term.destinationAddress ++ r.term.destinationAddressExclude), WF n) ∧
    (sets.map Prod.fst).Nodup ∧ (∀ s ∈ sets, (∀ n ∈ s.2, n.plen ≠ 0) ∧ (s.2.map fun n => (n.addr, n.plen)).Nodup) := by
  refine ⟨_, _, _, rfl, rfl, by decide +kernel, ?_, by decide +kernel, by decide +kernel, by decide +kernel⟩
  intro r hr _
  simp only [nfFilter, List.mem_cons, List.not_mem_nil, or_false] at hr
  rcases hr with rfl | rfl
  · exact ⟨⟨"accept", by decide, nfTerm_fits (by decide)⟩, by decide⟩
  · exact ⟨⟨"deny", by decide, nfRest_fits (by decide)⟩, by decide⟩

example : Sound true { state := "NEW" } (nfPacket .v4 "tcp") := nfPacket_sound (by decide) (by decide) (by decide) (by decide)

end Verif.Props
