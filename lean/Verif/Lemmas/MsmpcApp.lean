import Verif.Lemmas.Msmpc

/-!
The applications of the MS-MPC generator: their names are distinct, and they match the packets they are made for.
-/

namespace Verif.Lemmas.MsmpcL
open Verif Policy Aclgenerator Nacaddr Verif.Msmpc Verif.Props
open Verif.Srx (STerm)
open Verif.Spec (Packet OneOf PortMatch PMem iana icmpV4 icmpV6 First)
open Verif.Spec.Msmpc (ProtoIs DefHits SetHits protoNames Defined)
open Verif.Spec.Flat (IfSet PortIn portProtos ifSet_none ifSet_some)

/-! ### protocols -/

/-- How a protocol is shown. -/
def shown (u : String) : String := if u = "icmpv6" then "icmp6" else number u

theorem number_is {w s : String} (hw : w ∈ supported) : number s = w ↔ s = w := by
  have key : ∀ e ∈ protoMap, toString e.2 ∉ supported := by decide +kernel
  unfold number
  constructor
  · intro h
    split at h
    · exact h
    next hs =>
      rw [List.contains_iff_mem] at hs
      split at h
      next n hn => exact absurd (h ▸ hw) (key _ (Cisco.mem_of_lookup' hn))
      next => exact absurd (h ▸ hw) hs
  · rintro rfl
    rw [if_pos (List.contains_iff_mem.2 hw)]

theorem proto_shown {u : String} (hu : u ∈ iana.map Prod.fst) {p : Packet} : ProtoIs p (shown u) ↔ p.proto = u := by
  have key : ∀ u ∈ iana.map Prod.fst, ∃ k ∈ iana, k.1 = u ∧ (∀ e ∈ protoNames, e.1 = shown u → e.2 = k.2) ∧
      (∀ e ∈ iana, shown u = toString e.2 → e.2 = k.2) ∧
      ((∃ e ∈ protoNames, e.1 = shown u) ∨ ∃ e ∈ iana, shown u = toString e.2) := by decide +kernel
  have inj : ∀ a ∈ iana, ∀ b ∈ iana, a.2 = b.2 → a.1 = b.1 := by decide
  obtain ⟨k, hk, rfl, h1, h2, h3⟩ := key u hu
  unfold ProtoIs
  constructor
  · rintro (⟨e, he, h4, h5⟩ | ⟨e, he, h4, h5⟩)
    · exact inj _ h5 _ hk (h1 e he h4)
    · rw [← h4]
      exact inj _ he _ hk (h2 e he h5)
  · intro hp
    rcases h3 with ⟨e, he, h4⟩ | ⟨e, he, h4⟩
    · refine .inl ⟨e, he, h4, ?_⟩
      rw [hp, h1 e he h4]
      exact hk
    · exact .inr ⟨e, he, by rw [hp]; exact inj _ he _ hk (h2 e he h4), h4⟩

theorem proto_none {p : Packet} : ¬ ProtoIs p "icmpv6" := by
  have k1 : ∀ e ∈ protoNames, e.1 ≠ "icmpv6" := by decide
  have k2 : ∀ e ∈ iana, "icmpv6" ≠ toString e.2 := by decide +kernel
  rintro (⟨e, he, h, _⟩ | ⟨e, he, _, h⟩)
  · exact k1 e he h
  · exact k2 e he h

theorem rename_mem : ∀ {l : List String},
    (∀ s ∈ renameIcmp (l.map number), (∃ u ∈ l, s = shown u) ∨ s = "icmpv6") ∧ ∀ u ∈ l, shown u ∈ renameIcmp (l.map number)
  | [] => by simp [renameIcmp]
  | a :: l => by
    obtain ⟨h1, h2⟩ := rename_mem (l := l)
    rw [List.map_cons, renameIcmp]
    have i6 : ∀ u, number u = "icmpv6" ↔ u = "icmpv6" := fun u => number_is (by decide)
    by_cases e : a = "icmpv6"
    · rw [if_pos ((i6 a).2 e)]
      constructor
      · intro s hs
        rcases List.mem_cons.1 hs with rfl | hs
        · exact .inl ⟨a, by simp, by rw [e]; rfl⟩
        · obtain ⟨u, hu, rfl⟩ := List.mem_map.1 hs
          by_cases eu : u = "icmpv6"
          · exact .inr ((i6 u).2 eu)
          · exact .inl ⟨u, List.mem_cons_of_mem _ hu, by unfold shown; rw [if_neg eu]⟩
      · intro u hu
        by_cases eu : u = "icmpv6"
        · rw [eu]; exact List.mem_cons_self
        · rcases List.mem_cons.1 hu with rfl | hu
          · exact absurd e eu
          · unfold shown
            rw [if_neg eu]
            exact List.mem_cons_of_mem _ (List.mem_map_of_mem hu)
    · rw [if_neg (fun h => e ((i6 a).1 h))]
      constructor
      · intro s hs
        rcases List.mem_cons.1 hs with rfl | hs
        · exact .inl ⟨a, by simp, by unfold shown; rw [if_neg e]⟩
        · exact (h1 s hs).imp (fun ⟨u, hu, e⟩ => ⟨u, List.mem_cons_of_mem _ hu, e⟩) id
      · intro u hu
        rcases List.mem_cons.1 hu with rfl | hu
        · unfold shown
          rw [if_neg e]
          exact List.mem_cons_self
        · exact List.mem_cons_of_mem _ (h2 u hu)

theorem rename_nil {l : List String} : renameIcmp l = [] ↔ l = [] := by
  cases l with
  | nil => simp [renameIcmp]
  | cons a l => simp only [renameIcmp]; split <;> simp

theorem ported_is : ∀ u ∈ iana.map Prod.fst, ported (some (shown u)) = true ↔ u = "tcp" ∨ u = "udp" := by decide +kernel

/-! ### types -/

theorem types_spec {t : Term} {types : List (Option Nat)}
    (h : normalizeIcmpTypes t.icmpType (change t).protocol (icmpAf (change t).protocol) = .ok types) :
    (t.icmpType = [] ∧ types.filterMap id = []) ∨ (t.icmpType ≠ [] ∧ types.filterMap id ≠ [] ∧
      ∃ v : Ver, t.protocol = [if v = .v4 then "icmp" else "icmpv6"] ∧
        ∀ p : Packet, (∃ k ∈ types.filterMap id, (p.icmpType, k) ∈ Spec.icmpNumbers v) ↔ p.icmpType ∈ t.icmpType) := by
  by_cases h0 : t.icmpType = []
  · left
    rw [h0] at h
    cases h
    exact ⟨h0, rfl⟩
  · right
    have single : ∀ w ∈ ["icmp", "icmpv6"], (change t).protocol = [w] → t.protocol = [w] := by
      intro w hw h
      have h : t.protocol.map number = [w] := h
      cases hp : t.protocol with
      | nil => rw [hp] at h; cases h
      | cons a as =>
        rw [hp] at h
        cases as with
        | nil =>
          injection h with h _
          have hw' : w ∈ supported := by
            simp only [List.mem_cons, List.not_mem_nil, or_false] at hw
            rcases hw with rfl | rfl <;> decide
          rw [(number_is hw').1 h]
        | cons => injection h with _ h; cases h
    obtain ⟨tbl, hc, hk, nums, rfl, _, hp⟩ := (C34_types h0 types).1 h
    have e : (nums.map some).filterMap id = nums := by
      rw [List.filterMap_map]
      simp
    rw [e]
    have ht : ∃ v : Ver, t.protocol = [if v = .v4 then "icmp" else "icmpv6"] ∧ tbl = Spec.icmpNumbers v := by
      rcases hc with ⟨_, hq, rfl⟩ | ⟨_, hq, rfl⟩
      · exact ⟨.v4, single _ (by simp) hq, by decide⟩
      · exact ⟨.v6, single _ (by simp) hq, by decide⟩
    obtain ⟨v, hv, rfl⟩ := ht
    have inj : ∀ v : Ver, ∀ a ∈ Spec.icmpNumbers v, ∀ b ∈ Spec.icmpNumbers v, a.2 = b.2 → a.1 = b.1 := by
      intro v
      cases v <;> decide
    have full : ∀ p : Packet, (∃ k ∈ nums, (p.icmpType, k) ∈ Spec.icmpNumbers v) ↔ p.icmpType ∈ t.icmpType := by
      intro p
      constructor
      · rintro ⟨k, h1, h2⟩
        obtain ⟨s, hs, hl⟩ := List.mem_filterMap.1 (hp.mem_iff.1 h1)
        have : p.icmpType = s := inj v _ h2 _ (Cisco.mem_of_lookup' hl) rfl
        exact this ▸ hs
      · intro h1
        obtain ⟨k, hl⟩ := hk _ h1
        exact ⟨k, hp.mem_iff.2 (List.mem_filterMap.2 ⟨_, h1, hl⟩), Cisco.mem_of_lookup' hl⟩
    refine ⟨h0, ?_, v, hv, full⟩
    obtain ⟨ty, hty⟩ := List.exists_mem_of_ne_nil _ h0
    obtain ⟨k, hk, _⟩ := (full { icmpType := ty }).2 hty
    exact List.ne_nil_of_mem hk

/-! ### what an entry matches -/

/-- What the policy says about protocols, ports and ICMP. -/
def ServiceOk (t : Term) (p : Packet) : Prop :=
  p.proto ∈ t.protocol ∧ PortMatch t.sourcePort p.sport ∧ PortMatch t.destinationPort p.dport ∧ OneOf t.icmpType p.icmpType ∧
  OneOf t.icmpCode p.icmpCode

theorem changed_ports (t : Term) : (change t).destinationPort =
    if ("udp" ∈ t.protocol ∨ "tcp" ∈ t.protocol) ∧ t.sourcePort = [] ∧ t.destinationPort = [] then [(1, 65535)] else t.destinationPort := by
  show portsOf { t with protocol := t.protocol.map number } = _
  unfold portsOf
  have h : ∀ w ∈ supported, (t.protocol.map number).contains w = decide (w ∈ t.protocol) := by
    intro w hw
    rw [Bool.eq_iff_iff, List.contains_iff_mem, decide_eq_true_iff, List.mem_map]
    constructor
    · rintro ⟨s, hs, e⟩
      rw [number_is hw] at e
      exact e ▸ hs
    · intro hs
      exact ⟨w, hs, (number_is hw).2 rfl⟩
  dsimp only
  rw [h "udp" (by decide), h "tcp" (by decide)]
  simp only [Bool.and_eq_true, Bool.or_eq_true, decide_eq_true_eq, List.isEmpty_iff, and_assoc]

theorem bodies_hit {filter set : Str} {t : Term} {timeout : Option Nat} {types : List (Option Nat)}
    (ht : normalizeIcmpTypes t.icmpType (change t).protocol (icmpAf (change t).protocol) = .ok types)
    (hp : ∀ s ∈ t.protocol, s ∈ iana.map Prod.fst)
    (hports : t.sourcePort ≠ [] ∨ t.destinationPort ≠ [] → ∀ s ∈ t.protocol, s = "tcp" ∨ s = "udp")
    (hcodes : t.icmpCode ≠ [] → t.icmpType ≠ []) (hne : t.protocol ≠ []) {p : Packet}
    (hd : p.proto = "tcp" ∨ p.proto = "udp" → 1 ≤ p.dport ∧ p.dport ≤ 65535) :
    (∃ d ∈ bodies { entry filter (change t) timeout types with name := set }, DefHits p d) ↔ ServiceOk t p := by
  have hprotos : (entry filter (change t) timeout types).protos = renameIcmp (t.protocol.map number) := rfl
  obtain ⟨r1, r2⟩ := rename_mem (l := t.protocol)
  have known : ∀ s ∈ renameIcmp (t.protocol.map number), ProtoIs p s → s = shown p.proto ∧ p.proto ∈ t.protocol := by
    intro s hs h
    rcases r1 s hs with ⟨u, hu, rfl⟩ | rfl
    · have := (proto_shown (hp u hu)).1 h
      rw [this]
      exact ⟨rfl, hu⟩
    · exact absurd h proto_none
  unfold bodies
  rcases types_spec ht with ⟨h0, h1⟩ | ⟨h0, h1, v, hv, h2⟩
  · have hc : t.icmpCode = [] := Classical.byContradiction fun h => hcodes h h0
    have e0 : (entry filter (change t) timeout types).types = [] := h1
    dsimp only
    rw [e0, hprotos]
    simp only [List.isEmpty_nil, Bool.not_true, Bool.false_eq_true, if_false, List.mem_filter]
    have en : orNone (renameIcmp (t.protocol.map number)) = (renameIcmp (t.protocol.map number)).map some := by
      unfold orNone
      rw [if_neg]
      simpa [rename_nil] using hne
    have hdp := changed_ports t
    constructor
    · rintro ⟨d, ⟨hm, _⟩, hh⟩
      rw [en] at hm
      obtain ⟨_, hs0, hm⟩ := List.mem_flatMap.1 hm
      obtain ⟨s, hs, rfl⟩ := List.mem_map.1 hs0
      obtain ⟨sp, hsp, hm⟩ := List.mem_flatMap.1 hm
      obtain ⟨dp, hdp', rfl⟩ := List.mem_map.1 hm
      obtain ⟨rfl, hmem⟩ := known s hs (ifSet_some.1 hh.proto)
      refine ⟨hmem, ?_, ?_, .inl h0, .inl hc⟩
      · by_cases es : t.sourcePort = []
        · exact .inl es
        · have hpt := (ported_is _ (hp _ hmem)).2 (hports (.inl es) _ hmem)
          have h3 : IfSet sp (PortIn p p.sport) := by simpa [hpt] using hh.sport
          have hsp : sp ∈ orNone t.sourcePort := hsp
          unfold orNone at hsp
          rw [if_neg (by simpa using es)] at hsp
          obtain ⟨r, hr, rfl⟩ := List.mem_map.1 hsp
          exact .inr ⟨r, hr, (ifSet_some.1 h3).2⟩
      · by_cases es : t.destinationPort = []
        · exact .inl es
        · have hpt := (ported_is _ (hp _ hmem)).2 (hports (.inr es) _ hmem)
          have h3 : IfSet dp (PortIn p p.dport) := by simpa [hpt] using hh.dport
          have hdp' : dp ∈ orNone (change t).destinationPort := hdp'
          rw [hdp, if_neg (fun h => es h.2.2)] at hdp'
          unfold orNone at hdp'
          rw [if_neg (by simpa using es)] at hdp'
          obtain ⟨r, hr, rfl⟩ := List.mem_map.1 hdp'
          exact .inr ⟨r, hr, (ifSet_some.1 h3).2⟩
    · rintro ⟨hmem, h3, h4, _, _⟩
      have pick : ∀ {l : List PortRange} {x : Nat}, PortMatch l x → ((l ≠ [] → p.proto = "tcp" ∨ p.proto = "udp")) →
          ∃ o ∈ orNone l, IfSet o (PortIn p x) := by
        intro l x h hl
        refine orNone_hits.2 ((ports_hit fun h => ?_).2 h)
        rcases hl h with e | e <;> rw [e] <;> decide
      obtain ⟨sp, hsp, hsp'⟩ := pick h3 fun h => hports (.inl h) _ hmem
      obtain ⟨dp, hdp1, hdp2⟩ : ∃ o ∈ orNone (change t).destinationPort, ported (some (shown p.proto)) = true → IfSet o (PortIn p p.dport) := by
        rw [hdp]
        split
        next hc =>
          refine ⟨some (1, 65535), by simp [orNone], fun h => ?_⟩
          have hq := (ported_is _ (hp _ hmem)).1 h
          refine ifSet_some.2 ⟨?_, hd hq⟩
          rcases hq with e | e <;> rw [e] <;> decide
        next hc =>
          obtain ⟨o, ho, h⟩ := pick h4 fun h => hports (.inr h) _ hmem
          exact ⟨o, ho, fun _ => h⟩
      refine ⟨_, ⟨List.mem_flatMap.2 ⟨some (shown p.proto), ?_, List.mem_flatMap.2 ⟨sp, hsp, List.mem_map.2 ⟨dp, hdp1, rfl⟩⟩⟩, rfl⟩, ?_⟩
      · rw [en]
        exact List.mem_map_of_mem (r2 _ hmem)
      · refine ⟨ifSet_some.2 ((proto_shown (hp _ hmem)).2 rfl), ?_, ?_, ifSet_none, .inl rfl⟩
        · dsimp only
          split
          · exact hsp'
          · exact ifSet_none
        · dsimp only
          split
          next h => exact hdp2 h
          · exact ifSet_none
  · have e0 : (entry filter (change t) timeout types).types = types.filterMap id := rfl
    dsimp only
    rw [e0, hprotos, if_pos (by simpa using h1)]
    have hno : t.sourcePort = [] ∧ t.destinationPort = [] := by
      have : ∀ w, w ∈ t.protocol → ¬ (w = "tcp" ∨ w = "udp") := by
        intro w hw
        rw [hv, List.mem_singleton] at hw
        subst hw
        cases v <;> decide
      have hx : ¬ ∀ s ∈ t.protocol, s = "tcp" ∨ s = "udp" := by
        intro hall
        obtain ⟨w, hw⟩ := List.exists_mem_of_ne_nil _ hne
        exact this w hw (hall w hw)
      constructor
      · apply Classical.byContradiction
        intro h
        exact hx (hports (.inl h))
      · apply Classical.byContradiction
        intro h
        exact hx (hports (.inr h))
    have ty : ∀ k, p.proto ∈ t.protocol → (((p.proto = "icmp" ∧ (p.icmpType, k) ∈ icmpV4) ∨ (p.proto = "icmpv6" ∧ (p.icmpType, k) ∈ icmpV6)) ↔
        (p.icmpType, k) ∈ Spec.icmpNumbers v) := by
      intro k hm
      rw [hv, List.mem_singleton] at hm
      rw [hm]
      cases v <;> simp [Spec.icmpNumbers]
    constructor
    · rintro ⟨d, hm, hh⟩
      obtain ⟨k, hk, hm⟩ := List.mem_flatMap.1 hm
      obtain ⟨s, hs, rfl⟩ := List.mem_map.1 hm
      obtain ⟨_, hmem⟩ := known s hs (ifSet_some.1 hh.proto)
      refine ⟨hmem, .inl hno.1, .inl hno.2, .inr ((h2 p).1 ⟨k, hk, (ty k hmem).1 (hh.type k rfl)⟩), hh.codes⟩
    · rintro ⟨hmem, _, _, h3, h4⟩
      obtain ⟨k, hk, hk'⟩ := (h2 p).2 (h3.resolve_left h0)
      exact ⟨_, List.mem_flatMap.2 ⟨k, hk, List.mem_map.2 ⟨shown p.proto, r2 _ hmem, rfl⟩⟩,
        ifSet_some.2 ((proto_shown (hp _ hmem)).2 rfl), ifSet_none, ifSet_none, ifSet_some.2 ((ty k hmem).2 hk'), h4⟩

/-! ### names -/

theorem mem_printed {apps : List App} {a : App} : a ∈ printed apps ↔ a ∈ apps ∧ busy a = true := by
  unfold printed
  rw [List.mem_filter, mem_isort]

theorem appName_is {a b : Str} {i j : Nat} (h : Msmpc.appName a i = Msmpc.appName b j) : a = b ∧ i = j := partName_inj h

/-- Entries by their names. -/
theorem entry_unique {apps : List App} (hn : (apps.map App.name).Nodup) {a b : App} (ha : a ∈ apps) (hb : b ∈ apps)
    (h : a.name = b.name) : a = b := by
  induction apps with
  | nil => cases ha
  | cons c cs ih =>
    rw [List.map_cons, List.nodup_cons] at hn
    rcases List.mem_cons.1 ha with rfl | ha'
    · rcases List.mem_cons.1 hb with rfl | hb'
      · rfl
      · exact absurd (List.mem_map.2 ⟨b, hb', h.symm⟩) hn.1
    · rcases List.mem_cons.1 hb with rfl | hb'
      · exact absurd (List.mem_map.2 ⟨a, ha', h⟩) hn.1
      · exact ih hn.2 ha' hb'

theorem mem_defsOf {a : App} {d : AppDef} : d ∈ Msmpc.defsOf a ↔ ∃ (i : Nat) (b : AppDef), (bodies a)[i]? = some b ∧ d = { b with name := Msmpc.appName a.name (i + 1) } := by
  unfold Msmpc.defsOf
  rw [List.mem_map]
  constructor
  · rintro ⟨e, he, rfl⟩
    exact ⟨e.2, e.1, List.mem_zipIdx_iff_getElem?.1 he, rfl⟩
  · rintro ⟨i, b, h, rfl⟩
    exact ⟨(b, i), List.mem_zipIdx_iff_getElem?.2 h, rfl⟩

theorem printed_nodup {apps : List App} (hn : (apps.map App.name).Nodup) : ((printed apps).map App.name).Nodup := by
  unfold printed
  have h1 : ((isort (fun x y => !PyStr.strLt y.name x.name) apps).map App.name).Nodup :=
    ((isort_perm (fun x y => !PyStr.strLt y.name x.name) apps).map App.name).nodup_iff.2 hn
  exact List.Nodup.sublist (List.Sublist.map _ List.filter_sublist) h1

/-- A set of applications matches what its entry is for. -/
theorem set_hits {o : Group} {apps : List App} (hn : (apps.map App.name).Nodup) (h1 : o.apps = (printed apps).flatMap Msmpc.defsOf)
    (h2 : o.sets = (printed apps).map fun a => (a.name ++ "-app".toList, (Msmpc.defsOf a).map AppDef.name)) {a : App} (ha : a ∈ apps)
    (hb : busy a = true) {p : Packet} : SetHits o p (a.name ++ "-app".toList) ↔ ∃ d ∈ bodies a, DefHits p d := by
  unfold SetHits
  rw [h1, h2]
  constructor
  · rintro ⟨ms, hs, m, hm, d, hd, rfl, hh⟩
    obtain ⟨b, hb', e⟩ := List.mem_map.1 hs
    simp only [Prod.mk.injEq] at e
    obtain ⟨e1, rfl⟩ := e
    have := entry_unique hn ha (mem_printed.1 hb').1 (List.append_cancel_right e1).symm
    subst this
    obtain ⟨c, hc, hd⟩ := List.mem_flatMap.1 hd
    obtain ⟨i, x, hx, rfl⟩ := mem_defsOf.1 hd
    obtain ⟨d', hd', e2⟩ := List.mem_map.1 hm
    obtain ⟨j, y, hy, rfl⟩ := mem_defsOf.1 hd'
    have := entry_unique hn ha (mem_printed.1 hc).1 (appName_is e2).1
    subst this
    exact ⟨x, List.mem_of_getElem? hx, ⟨hh.proto, hh.sport, hh.dport, hh.type, hh.codes⟩⟩
  · rintro ⟨d, hd, hh⟩
    obtain ⟨i, hi, rfl⟩ := List.getElem_of_mem hd
    have hm : { (bodies a)[i] with name := Msmpc.appName a.name (i + 1) } ∈ Msmpc.defsOf a :=
      mem_defsOf.2 ⟨i, _, List.getElem?_eq_getElem hi, rfl⟩
    exact ⟨_, List.mem_map.2 ⟨a, mem_printed.2 ⟨ha, hb⟩, rfl⟩, _, List.mem_map.2 ⟨_, hm, rfl⟩, _,
      List.mem_flatMap.2 ⟨a, mem_printed.2 ⟨ha, hb⟩, hm⟩, rfl, ⟨hh.proto, hh.sport, hh.dport, hh.type, hh.codes⟩⟩

theorem filter_one {α β : Type} [DecidableEq β] {f : α → β} : ∀ {l : List α}, (l.map f).Nodup → ∀ {x : α}, x ∈ l → (l.filter fun e => f e = f x) = [x]
  | [], _, x, h => by cases h
  | a :: l, hn, x, h => by
    rw [List.map_cons, List.nodup_cons] at hn
    rcases List.mem_cons.1 h with rfl | h
    · rw [List.filter_cons_of_pos (by simp)]
      have : (l.filter fun e => f e = f x) = [] := by
        rw [List.filter_eq_nil_iff]
        intro y hy e
        exact hn.1 (List.mem_map.2 ⟨y, hy, by simpa using e⟩)
      rw [this]
    · rw [List.filter_cons_of_neg, filter_one hn.2 h]
      intro e
      exact hn.1 (List.mem_map.2 ⟨x, h, (by simpa using e : f a = f x).symm⟩)

/-- The names of all applications are distinct. -/
theorem defs_nodup : ∀ {l : List App}, (l.map App.name).Nodup → ((l.flatMap Msmpc.defsOf).map AppDef.name).Nodup
  | [], _ => by simp
  | a :: l, hn => by
    rw [List.map_cons, List.nodup_cons] at hn
    rw [List.flatMap_cons, List.map_append, List.nodup_append]
    refine ⟨?_, defs_nodup hn.2, ?_⟩
    · unfold Msmpc.defsOf
      rw [List.map_map]
      unfold List.Nodup
      rw [List.pairwise_iff_getElem]
      intro i j hi hj hij e
      simp only [List.getElem_map, List.getElem_zipIdx, Function.comp] at e
      have := (appName_is e).2
      omega
    · intro x hx y hy e
      obtain ⟨d, hd, rfl⟩ := List.mem_map.1 hx
      obtain ⟨d', hd', rfl⟩ := List.mem_map.1 hy
      obtain ⟨b, hb, hd'⟩ := List.mem_flatMap.1 hd'
      obtain ⟨i, _, _, rfl⟩ := mem_defsOf.1 hd
      obtain ⟨j, _, _, rfl⟩ := mem_defsOf.1 hd'
      exact hn.1 (List.mem_map.2 ⟨b, hb, (appName_is e).1.symm⟩)

theorem bodies_ne {a : App} (h : a.protos ≠ []) : bodies a ≠ [] := by
  obtain ⟨s, hs⟩ := List.exists_mem_of_ne_nil _ h
  unfold bodies
  split
  next ht =>
    obtain ⟨k, hk⟩ := List.exists_mem_of_ne_nil a.types (by simpa using ht)
    exact List.ne_nil_of_mem (List.mem_flatMap.2 ⟨k, hk, List.mem_map.2 ⟨s, hs, rfl⟩⟩)
  next =>
    have ne : ∀ {α : Type} (l : List α), ∃ o, o ∈ orNone l := by
      intro α l
      unfold orNone
      cases l with
      | nil => exact ⟨none, by simp⟩
      | cons x l => exact ⟨some x, by simp⟩
    obtain ⟨sp, h1⟩ := ne a.sport
    obtain ⟨dp, h2⟩ := ne a.dport
    have hs' : some s ∈ orNone a.protos := by
      unfold orNone
      rw [if_neg (by simpa using h)]
      exact List.mem_map_of_mem hs
    exact List.ne_nil_of_mem (List.mem_filter.2 ⟨List.mem_flatMap.2 ⟨_, hs', List.mem_flatMap.2 ⟨sp, h1, List.mem_map.2 ⟨dp, h2, rfl⟩⟩⟩, rfl⟩)

/-- The set of an entry is defined once, and so are its members. -/
theorem set_defined {o : Group} {apps : List App} (hn : (apps.map App.name).Nodup) (h1 : o.apps = (printed apps).flatMap Msmpc.defsOf)
    (h2 : o.sets = (printed apps).map fun a => (a.name ++ "-app".toList, (Msmpc.defsOf a).map AppDef.name)) {a : App} (ha : a ∈ apps)
    (hb : busy a = true) (hm : a.protos ≠ []) : Defined o (a.name ++ "-app".toList) := by
  have hp := mem_printed.2 ⟨ha, hb⟩
  have hpn := printed_nodup hn
  have sn : (((printed apps).map fun a => (a.name ++ "-app".toList, (Msmpc.defsOf a).map AppDef.name)).map Prod.fst).Nodup := by
    rw [List.map_map]
    have : (Prod.fst ∘ fun a : App => (a.name ++ "-app".toList, (Msmpc.defsOf a).map AppDef.name)) = (fun n => n ++ "-app".toList) ∘ App.name := rfl
    rw [this, ← List.map_map]
    unfold List.Nodup at hpn ⊢
    rw [List.pairwise_map]
    exact hpn.imp fun h e => h (List.append_cancel_right e)
  refine ⟨(Msmpc.defsOf a).map AppDef.name, ?_, ?_, ?_⟩
  · rw [h2]
    exact filter_one (f := Prod.fst) sn (List.mem_map.2 ⟨a, hp, rfl⟩)
  · intro h0
    have h0 : Msmpc.defsOf a = [] := by simpa using h0
    unfold Msmpc.defsOf at h0
    exact bodies_ne hm (by simpa using h0)
  · intro m hm
    obtain ⟨d, hd, rfl⟩ := List.mem_map.1 hm
    refine ⟨d, ?_⟩
    rw [h1]
    exact filter_one (f := AppDef.name) (defs_nodup hpn) (List.mem_flatMap.2 ⟨a, hp, hd⟩)

end Verif.Lemmas.MsmpcL
