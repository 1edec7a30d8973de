import Verif.Spec.Srx
import Verif.Lemmas.Flat
import Verif.Lemmas.IptablesTerm
import Verif.Props.NftablesPolicy

/-!
The applications of the SRX generator: their names are distinct, and they match the packets they are made for.
-/

namespace Verif.Props
open Verif Verif.Spec Policy Aclgenerator Nacaddr Srx Verif.Spec.Srx

/-! ### names -/

theorem app_end (n : Str) : ∀ c, (appName n).getLast? = some c → c.isDigit = false := by
  intro c h
  unfold appName at h
  rw [List.getLast?_append] at h
  have : ("-app".toList).getLast? = some 'p' := by decide
  rw [this] at h
  cases h
  decide

theorem appName_inj {a b : Str} (h : appName a = appName b) : a = b := List.append_cancel_right h

theorem partName_inj {a b : Str} {i j : Nat} (h : partName a i = partName b j) : a = b ∧ i = j := by
  unfold partName at h
  have e := base_number (app_end a) (app_end b) h
  subst e
  exact ⟨appName_inj (List.append_cancel_right h), rfl⟩

theorem digits_ne (n : Nat) : (toString n).toList ≠ [] := by
  have hd : (toString n).toList = Nat.toDigits 10 n := Nat.toList_repr
  rw [hd]
  exact Nat.toDigits_ne_nil

theorem part_end (a : Str) (i : Nat) : ∃ c, (partName a i).getLast? = some c ∧ c.isDigit = true := by
  unfold partName
  obtain ⟨c, hc⟩ : ∃ c, (toString i).toList.getLast? = some c := by
    cases h : (toString i).toList.getLast? with
    | none => exact absurd (List.getLast?_eq_none_iff.1 h) (digits_ne i)
    | some c => exact ⟨c, rfl⟩
  refine ⟨c, ?_, digits_all i c (List.mem_of_getLast? hc)⟩
  rw [List.getLast?_append, hc]
  rfl

theorem app_ne_part (a b : Str) (i : Nat) : appName a ≠ partName b i := by
  intro h
  obtain ⟨c, h1, h2⟩ := part_end b i
  rw [← h] at h1
  rw [app_end a c h1] at h2
  cases h2

/-- The definition has the name. -/
def NameIs (d : Def) (n : Str) : Prop := (∃ ts, d = .app n ts) ∨ ∃ ms, d = .set n ms

theorem name_app {m n : Str} {ts : List AppTerm} : NameIs (.app m ts) n ↔ n = m := by
  unfold NameIs
  constructor
  · rintro (⟨_, h⟩ | ⟨_, h⟩)
    · injection h with h1 _; exact h1.symm
    · cases h
  · rintro rfl; exact .inl ⟨_, rfl⟩

theorem name_set {m n : Str} {ms : List Str} : NameIs (.set m ms) n ↔ n = m := by
  unfold NameIs
  constructor
  · rintro (⟨_, h⟩ | ⟨_, h⟩)
    · cases h
    · injection h with h1 _; exact h1.symm
  · rintro rfl; exact .inr ⟨_, rfl⟩

/-- The names of the definitions for an entry. -/
def Owns (a : App) (n : Str) : Prop := n = appName a.name ∨ ∃ i, n = partName a.name i

theorem owns_inj {a b : App} {n : Str} (h1 : Owns a n) (h2 : Owns b n) : a.name = b.name := by
  rcases h1 with rfl | ⟨i, rfl⟩
  · rcases h2 with h | ⟨j, h⟩
    · exact appName_inj h
    · exact absurd h (app_ne_part _ _ _)
  · rcases h2 with h | ⟨j, h⟩
    · exact absurd h.symm (app_ne_part _ _ _)
    · exact (partName_inj h).1

/-- All definitions for an entry. -/
def defsOf (a : App) : List Def := if a.types.isEmpty then portDefs a ++ [portSet a] else icmpDefs a

theorem mem_defs {apps : List App} {d : Def} : d ∈ defs apps ↔ ∃ a ∈ apps, written a = true ∧ d ∈ defsOf a := by
  have hm : ∀ a, a ∈ sortedApps apps ↔ a ∈ apps ∧ written a = true := by
    intro a
    unfold sortedApps
    rw [List.mem_filter, mem_isort]
  unfold defs
  rw [List.mem_append, List.mem_flatMap, List.mem_map]
  constructor
  · rintro (⟨a, ha, hd⟩ | ⟨a, ha, rfl⟩)
    · refine ⟨a, ((hm a).1 ha).1, ((hm a).1 ha).2, ?_⟩
      unfold defsOf
      split at hd
      next h => rw [if_pos h]; exact List.mem_append_left _ hd
      next h => rw [if_neg h]; exact hd
    · obtain ⟨h1, h2⟩ := List.mem_filter.1 ha
      refine ⟨a, ((hm a).1 h1).1, ((hm a).1 h1).2, ?_⟩
      unfold defsOf
      rw [if_pos h2]
      simp
  · rintro ⟨a, h1, h2, hd⟩
    unfold defsOf at hd
    split at hd
    next h =>
      rcases List.mem_append.1 hd with hd | hd
      · exact .inl ⟨a, (hm a).2 ⟨h1, h2⟩, by rw [if_pos h]; exact hd⟩
      · exact .inr ⟨a, List.mem_filter.2 ⟨(hm a).2 ⟨h1, h2⟩, h⟩, (List.mem_singleton.1 hd).symm⟩
    next h => exact .inl ⟨a, (hm a).2 ⟨h1, h2⟩, by rw [if_neg h]; exact hd⟩

theorem owns_of {a : App} {d : Def} {n : Str} (h : d ∈ defsOf a) (hn : NameIs d n) : Owns a n := by
  unfold defsOf at h
  split at h
  · rcases List.mem_append.1 h with h | h
    · unfold portDefs at h
      obtain ⟨t, _, rfl⟩ := List.mem_map.1 h
      exact .inr ⟨_, name_app.1 hn⟩
    · rw [List.mem_singleton.1 h] at hn
      exact .inl (name_set.1 hn)
  · unfold icmpDefs at h
    split at h
    · rcases List.mem_cons.1 h with rfl | h
      · exact .inl (name_set.1 hn)
      · obtain ⟨t, _, rfl⟩ := List.mem_map.1 h
        exact .inr ⟨_, name_app.1 hn⟩
    · rw [List.mem_singleton.1 h] at hn
      exact .inl (name_app.1 hn)

/-! ### entries -/

theorem hits_label {p : Packet} {t : AppTerm} {k : Nat} : AppTermHits p { t with label := k } ↔ AppTermHits p t := Iff.rfl

/-- The terms for an entry. -/
def termsOf (a : App) : List AppTerm := if a.types.isEmpty then portTerms a else icmpTerms a

theorem icmpTerms_length (a : App) : (icmpTerms a).length = a.protos.length * a.types.length := by
  unfold icmpTerms
  rw [List.length_flatMap]
  simp [Nat.mul_comm, List.map_const']

theorem portTerms_label {a : App} {t : AppTerm} (i : Nat) (h : (portTerms a)[i]? = some t) : t.label = i + 1 := by
  unfold portTerms at h
  rw [List.getElem?_map] at h
  obtain ⟨e, h1, rfl⟩ := Option.map_eq_some_iff.1 h
  rw [List.getElem?_zipIdx] at h1
  obtain ⟨x, _, rfl⟩ := Option.map_eq_some_iff.1 h1
  simp

theorem portTerms_nodup (a : App) : ((portTerms a).map fun t => t.label).Nodup := by
  unfold List.Nodup
  rw [List.pairwise_iff_getElem]
  intro i j hi hj hij
  rw [List.length_map] at hi hj
  rw [List.getElem_map, List.getElem_map, portTerms_label i (List.getElem?_eq_getElem hi),
    portTerms_label j (List.getElem?_eq_getElem hj)]
  omega

theorem same_app {apps : List App} (hn : (apps.map App.name).Nodup) {a b : App} (ha : a ∈ apps) (hb : b ∈ apps)
    (h : a.name = b.name) : a = b := by
  induction apps with
  | nil => cases ha
  | cons c cs ih =>
    rw [List.map_cons, List.nodup_cons] at hn
    rcases List.mem_cons.1 ha with rfl | ha'
    · rcases List.mem_cons.1 hb with rfl | hb'
      · rfl
      · exact absurd (List.mem_map.2 ⟨b, hb', h.symm⟩) hn.1
    · rcases List.mem_cons.1 hb with rfl | hb'
      · exact absurd (List.mem_map.2 ⟨a, ha', h⟩) hn.1
      · exact ih hn.2 ha' hb'

theorem single_hits {apps : List App} (hn : (apps.map App.name).Nodup) {a : App} (ha : a ∈ apps) {n : Str} (ho : Owns a n)
    {p : Packet} : SingleHits (defs apps) p n → SingleHits (defsOf a) p n := by
  rintro ⟨ts, h, t, ht, h2⟩
  obtain ⟨b, hb, _, hd⟩ := mem_defs.1 h
  have := same_app hn ha hb (owns_inj ho (owns_of hd (name_app.2 rfl)))
  subst this
  exact ⟨ts, hd, t, ht, h2⟩

theorem single_sub {apps : List App} {a : App} (ha : a ∈ apps) (hw : written a = true) {n : Str}
    {p : Packet} : SingleHits (defsOf a) p n → SingleHits (defs apps) p n := by
  rintro ⟨ts, h, t, ht, h2⟩
  exact ⟨ts, mem_defs.2 ⟨a, ha, hw, h⟩, t, ht, h2⟩

theorem defsOf_hits {a : App} {p : Packet} : AppHits (defsOf a) p (appName a.name) ↔ ∃ t ∈ termsOf a, AppTermHits p t := by
  unfold AppHits SingleHits termsOf defsOf
  by_cases h0 : a.types.isEmpty = true
  · rw [if_pos h0, if_pos h0]
    constructor
    · rintro (⟨ts, h, _⟩ | ⟨ms, h, m, hm, ts, h1, t, ht, h2⟩)
      · rcases List.mem_append.1 h with h | h
        · unfold portDefs at h
          obtain ⟨t, _, e⟩ := List.mem_map.1 h
          injection e with e _
          exact absurd e.symm (app_ne_part _ _ _)
        · rw [List.mem_singleton] at h
          cases h
      · rcases List.mem_append.1 h1 with h1 | h1
        · unfold portDefs at h1
          obtain ⟨u, hu, e⟩ := List.mem_map.1 h1
          injection e with e1 e2
          subst e2
          rw [List.mem_singleton.1 ht] at h2
          exact ⟨u, hu, h2⟩
        · rw [List.mem_singleton] at h1
          cases h1
    · rintro ⟨t, ht, h2⟩
      refine .inr ⟨_, List.mem_append_right _ (List.mem_singleton.2 rfl), partName a.name t.label,
        List.mem_map.2 ⟨t, ht, rfl⟩, [t], List.mem_append_left _ (List.mem_map.2 ⟨t, ht, rfl⟩), t, by simp, h2⟩
  · rw [if_neg h0, if_neg h0]
    unfold icmpDefs
    by_cases h8 : a.protos.length * a.types.length > 8
    · rw [if_pos h8]
      constructor
      · rintro (⟨ts, h, _⟩ | ⟨ms, h, m, hm, ts, h1, t, ht, h2⟩)
        · rcases List.mem_cons.1 h with h | h
          · cases h
          · obtain ⟨t, _, e⟩ := List.mem_map.1 h
            injection e with e _
            exact absurd e.symm (app_ne_part _ _ _)
        · rcases List.mem_cons.1 h1 with h1 | h1
          · cases h1
          · obtain ⟨u, hu, e⟩ := List.mem_map.1 h1
            injection e with e1 e2
            subst e2
            rw [List.mem_singleton.1 ht] at h2
            exact ⟨u.1, (List.mem_zipIdx' hu).2 ▸ List.getElem_mem _, hits_label.1 h2⟩
      · rintro ⟨t, ht, h2⟩
        obtain ⟨i, hi, rfl⟩ := List.getElem_of_mem ht
        refine .inr ⟨_, List.mem_cons_self, partName a.name (i + 1), ?_, [{ (icmpTerms a)[i] with label := 1 }], ?_,
          { (icmpTerms a)[i] with label := 1 }, List.mem_singleton.2 rfl, hits_label.2 h2⟩
        · exact List.mem_map.2 ⟨i, List.mem_range.2 (icmpTerms_length a ▸ hi), rfl⟩
        · refine List.mem_cons_of_mem _ (List.mem_map.2 ⟨((icmpTerms a)[i], i), ?_, rfl⟩)
          exact List.mem_zipIdx_iff_getElem?.2 (List.getElem?_eq_getElem hi)
    · rw [if_neg h8]
      constructor
      · rintro (⟨ts, h, t, ht, h2⟩ | ⟨ms, h, _⟩)
        · rw [List.mem_singleton] at h
          injection h with _ h
          subst h
          exact ⟨t, ht, h2⟩
        · rw [List.mem_singleton] at h
          cases h
      · rintro ⟨t, ht, h2⟩
        exact .inl ⟨_, List.mem_singleton.2 rfl, t, ht, h2⟩

theorem defs_hits {apps : List App} (hn : (apps.map App.name).Nodup) {a : App} (ha : a ∈ apps) (hw : written a = true)
    {p : Packet} : AppHits (defs apps) p (appName a.name) ↔ ∃ t ∈ termsOf a, AppTermHits p t := by
  rw [← defsOf_hits]
  unfold AppHits
  constructor
  · rintro (h | ⟨ms, h, m, hm, h2⟩)
    · exact .inl (single_hits hn ha (.inl rfl) h)
    · obtain ⟨b, hb, _, hd⟩ := mem_defs.1 h
      have := same_app hn ha hb (owns_inj (.inl rfl) (owns_of hd (name_set.2 rfl)))
      subst this
      refine .inr ⟨ms, hd, m, hm, single_hits hn ha ?_ h2⟩
      unfold defsOf at hd
      split at hd
      · rcases List.mem_append.1 hd with hd | hd
        · obtain ⟨_, _, e⟩ := List.mem_map.1 hd
          cases e
        · rw [List.mem_singleton] at hd
          injection hd with _ hd
          subst hd
          obtain ⟨t, _, rfl⟩ := List.mem_map.1 hm
          exact .inr ⟨_, rfl⟩
      · unfold icmpDefs at hd
        split at hd
        · rcases List.mem_cons.1 hd with hd | hd
          · injection hd with _ hd
            subst hd
            obtain ⟨t, _, rfl⟩ := List.mem_map.1 hm
            exact .inr ⟨_, rfl⟩
          · obtain ⟨_, _, e⟩ := List.mem_map.1 hd
            cases e
        · rw [List.mem_singleton] at hd
          cases hd
  · rintro (h | ⟨ms, h, m, hm, h2⟩)
    · exact .inl (single_sub ha hw h)
    · exact .inr ⟨ms, mem_defs.2 ⟨a, ha, hw, h⟩, m, hm, single_sub ha hw h2⟩

/-! ### what an entry matches -/

theorem orNone_hits {α : Type} {l : List α} {P : α → Prop} : (∃ o ∈ orNone l, Flat.IfSet o P) ↔ l = [] ∨ ∃ a ∈ l, P a := by
  unfold orNone
  by_cases h : l = []
  · subst h
    simp [Flat.ifSet_none]
  · rw [if_neg (by simpa using h)]
    constructor
    · rintro ⟨o, ho, h2⟩
      obtain ⟨a, ha, rfl⟩ := List.mem_map.1 ho
      exact .inr ⟨a, ha, Flat.ifSet_some.1 h2⟩
    · rintro (h2 | ⟨a, ha, h2⟩)
      · exact absurd h2 h
      · exact ⟨some a, List.mem_map.2 ⟨a, ha, rfl⟩, Flat.ifSet_some.2 h2⟩

theorem ifSet_map {α β : Type} {o : Option α} {f : α → β} {P : β → Prop} :
    Flat.IfSet (o.map f) P ↔ Flat.IfSet o fun a => P (f a) := by
  cases o with
  | none => exact iff_of_true Flat.ifSet_none Flat.ifSet_none
  | some a => rw [Option.map_some, Flat.ifSet_some, Flat.ifSet_some]

theorem mem_portTerms {a : App} {p : Packet} : (∃ t ∈ portTerms a, AppTermHits p t) ↔
    (a.protos = [] ∨ ∃ s ∈ a.protos, Spec.Srx.ProtoIs (vrrp s) p) ∧ (a.sport = [] ∨ ∃ r ∈ a.sport, Flat.PortIn p p.sport r) ∧
    (a.dport = [] ∨ ∃ r ∈ a.dport, Flat.PortIn p p.dport r) := by
  rw [← orNone_hits, ← orNone_hits, ← orNone_hits]
  have h : (∃ t ∈ portTerms a, AppTermHits p t) ↔ ∃ t ∈ ((orNone a.protos).flatMap fun p => (orNone a.sport).flatMap fun s =>
      (orNone a.dport).map fun d => ({ label := 0, proto := p.map vrrp, sport := s, dport := d, timeout := a.timeout } : AppTerm)),
      AppTermHits p t := by
    unfold portTerms
    constructor
    · rintro ⟨t, ht, h2⟩
      obtain ⟨e, he, rfl⟩ := List.mem_map.1 ht
      exact ⟨e.1, (List.mem_zipIdx' he).2 ▸ List.getElem_mem _, hits_label.1 h2⟩
    · rintro ⟨t, ht, h2⟩
      obtain ⟨i, hi, e⟩ := List.getElem_of_mem ht
      refine ⟨{ t with label := i + 1 }, List.mem_map.2 ⟨(t, i), ?_, rfl⟩, hits_label.2 h2⟩
      exact List.mem_zipIdx_iff_getElem?.2 (by rw [← e]; exact List.getElem?_eq_getElem hi)
  rw [h]
  constructor
  · rintro ⟨t, ht, h1, h2, h3, _⟩
    obtain ⟨x, hx, ht⟩ := List.mem_flatMap.1 ht
    obtain ⟨y, hy, ht⟩ := List.mem_flatMap.1 ht
    obtain ⟨z, hz, rfl⟩ := List.mem_map.1 ht
    exact ⟨⟨x, hx, (ifSet_map (P := fun s => Spec.Srx.ProtoIs s p)).1 h1⟩, ⟨y, hy, h2⟩, z, hz, h3⟩
  · rintro ⟨⟨x, hx, h1⟩, ⟨y, hy, h2⟩, z, hz, h3⟩
    exact ⟨_, List.mem_flatMap.2 ⟨x, hx, List.mem_flatMap.2 ⟨y, hy, List.mem_map.2 ⟨z, hz, rfl⟩⟩⟩, (ifSet_map (P := fun s => Spec.Srx.ProtoIs s p)).2 h1, h2, h3,
      Flat.ifSet_none⟩

theorem mem_icmpTerms {a : App} {p : Packet} : (∃ t ∈ icmpTerms a, AppTermHits p t) ↔
    (∃ s ∈ a.protos, Spec.Srx.ProtoIs s p) ∧
    ∃ k ∈ a.types, (p.proto = "icmp" ∧ (p.icmpType, k) ∈ icmpV4) ∨ (p.proto = "icmpv6" ∧ (p.icmpType, k) ∈ icmpV6) := by
  unfold icmpTerms
  constructor
  · rintro ⟨t, ht, h1, _, _, h2⟩
    obtain ⟨k, hk, ht⟩ := List.mem_flatMap.1 ht
    obtain ⟨s, hs, rfl⟩ := List.mem_map.1 ht
    exact ⟨⟨s, hs, h1 s rfl⟩, k.1, (List.mem_zipIdx' hk).2 ▸ List.getElem_mem _, h2 k.1 rfl⟩
  · rintro ⟨⟨s, hs, h1⟩, k, hk, h2⟩
    obtain ⟨i, hi, rfl⟩ := List.getElem_of_mem hk
    refine ⟨_, List.mem_flatMap.2 ⟨(a.types[i], i), List.mem_zipIdx_iff_getElem?.2 (List.getElem?_eq_getElem hi),
      List.mem_map.2 ⟨s, hs, rfl⟩⟩, Flat.ifSet_some.2 h1, Flat.ifSet_none, Flat.ifSet_none, Flat.ifSet_some.2 h2⟩

/-! ### the entry for a term -/

/-- Protocols the device knows by the names the generator writes. -/
def srxProtos : List String :=
  ["icmp", "igmp", "ipip", "tcp", "egp", "udp", "rsvp", "gre", "esp", "ah", "icmpv6", "ospf", "pim", "vrrp", "sctp"]

theorem protoIs_num {s : Proto} {p : Packet} {k : Nat} {w : String} (hw : (w, k) ∈ iana)
    (h1 : ∀ e ∈ Spec.Srx.protoNumbers, e.1 = s.text → e.2 = k) (h2 : ∃ e ∈ Spec.Srx.protoNumbers, e.1 = s.text) :
    Spec.Srx.ProtoIs s p ↔ p.proto = w := by
  have k1 : ∀ a ∈ iana, ∀ b ∈ iana, a.2 = b.2 → a.1 = b.1 := by decide
  unfold Spec.Srx.ProtoIs Flat.NumberIs
  constructor
  · rintro ⟨e, he, h3, j, hj, h4⟩
    have h4 : e.2 = j := by exact_mod_cast h4
    exact k1 _ hj _ hw (by rw [← h4]; exact h1 e he h3)
  · rintro rfl
    obtain ⟨e, he, h3⟩ := h2
    exact ⟨e, he, h3, k, hw, by rw [h1 e he h3]⟩

theorem protoIs_name {s : String} (hs : s ∈ srxProtos) {p : Packet} :
    Spec.Srx.ProtoIs (vrrp (if s = "icmpv6" then .str "icmp6" else protoNumber (.str s))) p ↔ p.proto = s := by
  have key : ∀ s ∈ srxProtos, ∃ k ∈ iana, k.1 = s ∧
      (∀ e ∈ Spec.Srx.protoNumbers, e.1 = (vrrp (if s = "icmpv6" then .str "icmp6" else protoNumber (.str s))).text → e.2 = k.2) ∧
      ∃ e ∈ Spec.Srx.protoNumbers, e.1 = (vrrp (if s = "icmpv6" then .str "icmp6" else protoNumber (.str s))).text := by
    decide +kernel
  obtain ⟨k, hk, rfl, h1, h2⟩ := key s hs
  exact protoIs_num hk h1 h2

theorem protoIs_icmpv6 {p : Packet} : ¬ Spec.Srx.ProtoIs (vrrp (.str "icmpv6")) p := by
  have : ∀ e ∈ Spec.Srx.protoNumbers, e.1 ≠ (vrrp (.str "icmpv6")).text := by decide
  rintro ⟨e, he, h, _⟩
  exact this e he h

theorem protos_hit {p : Packet} : ∀ {l : List String}, (∀ s ∈ l, s ∈ srxProtos) →
    ((∃ s ∈ appProtos ((l.map Proto.str).map protoNumber), Spec.Srx.ProtoIs (vrrp s) p) ↔ p.proto ∈ l)
  | [], _ => by simp [appProtos]
  | s :: l, h => by
    have hs := protoIs_name (p := p) (h s (by simp))
    unfold appProtos
    rw [List.map_cons, List.map_cons, List.replace_cons]
    by_cases e : s = "icmpv6"
    · subst e
      have : (Proto.str "icmpv6" == protoNumber (.str "icmpv6")) = true := by decide
      rw [this]
      rw [if_pos rfl] at hs
      dsimp only
      constructor
      · rintro ⟨t, ht, h2⟩
        rcases List.mem_cons.1 ht with rfl | ht
        · exact List.mem_cons.2 (.inl (hs.1 h2))
        · rw [List.map_map] at ht
          obtain ⟨u, hu, rfl⟩ := List.mem_map.1 ht
          by_cases e2 : u = "icmpv6"
          · subst e2
            exact absurd h2 (by
              have : (protoNumber ∘ Proto.str) "icmpv6" = .str "icmpv6" := by decide
              rw [this]; exact protoIs_icmpv6)
          · have := protoIs_name (p := p) (h u (by simp [hu]))
            rw [if_neg e2] at this
            exact List.mem_cons.2 (.inr (this.1 h2 ▸ hu))
      · intro hm
        by_cases e1 : p.proto = "icmpv6"
        · exact ⟨_, List.mem_cons_self, hs.2 e1⟩
        · rcases List.mem_cons.1 hm with hm | hm
          · exact absurd hm e1
          · have := protoIs_name (p := p) (h _ (List.mem_cons_of_mem _ hm))
            rw [if_neg e1] at this
            exact ⟨_, List.mem_cons_of_mem _ (List.mem_map.2 ⟨_, List.mem_map.2 ⟨_, hm, rfl⟩, rfl⟩), this.2 rfl⟩
    · have n1 : (Proto.str "icmpv6" == protoNumber (.str s)) = false := by
        have key : ∀ s ∈ srxProtos, s ≠ "icmpv6" → (Proto.str "icmpv6" == protoNumber (.str s)) = false := by decide
        exact key s (h s (by simp)) e
      rw [n1]
      rw [if_neg e] at hs
      have ih := protos_hit (p := p) (l := l) fun u hu => h u (by simp [hu])
      unfold appProtos at ih
      dsimp only
      constructor
      · rintro ⟨t, ht, h2⟩
        rcases List.mem_cons.1 ht with rfl | ht
        · exact List.mem_cons.2 (.inl (hs.1 h2))
        · exact List.mem_cons_of_mem _ (ih.1 ⟨t, ht, h2⟩)
      · intro hm
        rcases List.mem_cons.1 hm with hm | hm
        · exact ⟨_, List.mem_cons_self, hs.2 hm⟩
        · obtain ⟨t, ht, h2⟩ := ih.2 hm
          exact ⟨t, List.mem_cons_of_mem _ ht, h2⟩

theorem protos_nil {ps : List Proto} : appProtos ps = [] ↔ ps = [] := by
  unfold appProtos
  rw [← List.length_eq_zero_iff, List.length_replace, List.length_eq_zero_iff]

/-- The types of the entry. -/
theorem types_ok {t : Term} (h1 : ∀ s ∈ t.protocol, s ∈ srxProtos) {types : List Nat}
    (ht : Srx.icmpTypes t ((t.protocol.map Proto.str).map protoNumber) = .ok types) :
    (t.icmpType = [] ∧ types = []) ∨ (t.icmpType ≠ [] ∧ types ≠ [] ∧ ∃ af : Ver, t.protocol = [if af = .v4 then "icmp" else "icmpv6"] ∧
      ∀ p : Packet, (∃ k ∈ types, (p.icmpType, k) ∈ Spec.icmpNumbers af) ↔ OneOf t.icmpType p.icmpType) := by
  unfold Srx.icmpTypes at ht
  obtain ⟨l, hl, ht⟩ := bind_ok ht
  cases ht
  by_cases h0 : t.icmpType = []
  · left
    rw [h0] at hl
    cases hl
    exact ⟨h0, rfl⟩
  · right
    have text : ∀ s ∈ srxProtos, ∀ w ∈ ["icmp", "icmpv6"], (protoNumber (.str s)).text = w → s = w := by decide
    have single : ∀ w ∈ ["icmp", "icmpv6"], ((t.protocol.map Proto.str).map protoNumber).map Proto.text = [w] → t.protocol = [w] := by
      intro w hw h
      rw [List.map_map, List.map_map] at h
      cases hp : t.protocol with
      | nil => rw [hp] at h; cases h
      | cons a as =>
        cases as with
        | nil =>
          rw [hp] at h
          injection h with h _
          rw [text a (h1 a (by rw [hp]; simp)) w hw h]
        | cons => rw [hp] at h; injection h with _ h; cases h
    have key : ∀ (af : Ver), t.protocol = [if af = .v4 then "icmp" else "icmpv6"] → t.icmpType ≠ [] ∧ l.filterMap id ≠ [] ∧
        ∃ af : Ver, t.protocol = [if af = .v4 then "icmp" else "icmpv6"] ∧
          ∀ p : Packet, (∃ k ∈ l.filterMap id, (p.icmpType, k) ∈ Spec.icmpNumbers af) ↔ OneOf t.icmpType p.icmpType := by
      intro af hp
      have h4 : Iptables.icmpTypes t [if af = .v4 then "icmp" else "icmpv6"] af = .ok l := by
        unfold Iptables.icmpTypes
        rw [if_neg (by simpa using h0)]
        rw [hp] at hl
        cases af <;> exact hl
      have e3 : ∀ k, k ∈ l.filterMap id ↔ some k ∈ l := by simp
      have full : ∀ p : Packet, (∃ k ∈ l.filterMap id, (p.icmpType, k) ∈ Spec.icmpNumbers af) ↔ OneOf t.icmpType p.icmpType := by
        intro p
        obtain ⟨k1, _, k2⟩ := Iptables.icmpTypes_spec h4 p
        rw [← k1]
        constructor
        · rintro ⟨k, hk, h5⟩
          exact ⟨some k, (e3 k).1 hk, fun j e => by cases e; exact h5⟩
        · rintro ⟨ty, hty, h5⟩
          cases ty with
          | none => exact absurd hty (k2 h0).1
          | some k => exact ⟨k, (e3 k).2 hty, h5 k rfl⟩
      refine ⟨h0, ?_, af, hp, full⟩
      obtain ⟨ty, hty⟩ := List.exists_mem_of_ne_nil _ h0
      obtain ⟨k, hk, _⟩ := (full { icmpType := ty : Packet }).2 (.inr hty)
      exact List.ne_nil_of_mem hk
    obtain ⟨_, hc, _⟩ := (C34_types h0 l).1 hl
    rcases hc with ⟨_, h, _⟩ | ⟨_, h, _⟩
    · exact key .v4 (single "icmp" (by simp) h)
    · exact key .v6 (single "icmpv6" (by simp) h)

theorem ports_hit {l : List PortRange} {p : Packet} {x : Nat} (h : l ≠ [] → p.proto ∈ Flat.portProtos) :
    (l = [] ∨ ∃ r ∈ l, Flat.PortIn p x r) ↔ PortMatch l x := by
  unfold PortMatch PMem Flat.PortIn
  constructor
  · rintro (h1 | ⟨r, hr, _, h2⟩)
    · exact .inl h1
    · exact .inr ⟨r, hr, h2⟩
  · rintro (h1 | ⟨r, hr, h2⟩)
    · exact .inl h1
    · exact .inr ⟨r, hr, h (List.ne_nil_of_mem hr), h2⟩

/-- What the entry for a term matches. -/
theorem entry_hits {t : Term} {ps : List Proto} {types : List Nat} (name : Str) (to : Option Nat)
    (hps : termProtocols (t.protocol.map .str) = .ok ps) (ht : Srx.icmpTypes t ps = .ok types)
    (h1 : ∀ s ∈ t.protocol, s ∈ srxProtos)
    (h2 : t.sourcePort ≠ [] ∨ t.destinationPort ≠ [] → t.protocol ≠ [] ∧ ∀ s ∈ t.protocol, s ∈ ["tcp", "udp", "sctp"]) :
    (anyApp t = false → written ⟨name, t.sourcePort, t.destinationPort, appProtos ps, types, to⟩ = true) ∧
    ∀ p : Packet, (∃ u ∈ termsOf ⟨name, t.sourcePort, t.destinationPort, appProtos ps, types, to⟩, AppTermHits p u) ↔
      OneOf t.protocol p.proto ∧ PortMatch t.sourcePort p.sport ∧ PortMatch t.destinationPort p.dport ∧ OneOf t.icmpType p.icmpType := by
  rw [termProtocols_ok hps] at ht ⊢
  have hT := types_ok h1 ht
  have hP : ∀ p : Packet, (appProtos ((t.protocol.map Proto.str).map protoNumber) = [] ∨
      ∃ s ∈ appProtos ((t.protocol.map Proto.str).map protoNumber), Spec.Srx.ProtoIs (vrrp s) p) ↔ OneOf t.protocol p.proto := by
    intro p
    rw [protos_hit h1, protos_nil]
    simp [OneOf]
  have hport : ∀ p : Packet, OneOf t.protocol p.proto → t.sourcePort ≠ [] ∨ t.destinationPort ≠ [] → p.proto ∈ Flat.portProtos := by
    intro p h3 h4
    obtain ⟨h5, h6⟩ := h2 h4
    have := h6 _ (h3.resolve_left h5)
    have key : ∀ s ∈ ["tcp", "udp", "sctp"], s ∈ Flat.portProtos := by decide
    exact key _ this
  constructor
  · intro h
    unfold anyApp at h
    unfold written
    have e : (appProtos ((t.protocol.map Proto.str).map protoNumber)).isEmpty = t.protocol.isEmpty := by
      rw [Bool.eq_iff_iff, List.isEmpty_iff, List.isEmpty_iff, protos_nil]
      simp
    have e2 : types.isEmpty = t.icmpType.isEmpty := by
      rcases hT with ⟨a, b⟩ | ⟨a, b, _⟩
      · rw [a, b]; rfl
      · rw [Bool.eq_iff_iff, List.isEmpty_iff, List.isEmpty_iff]
        exact iff_of_false b a
    dsimp only
    rw [e, e2]
    cases h3 : t.sourcePort.isEmpty <;> cases h4 : t.destinationPort.isEmpty <;> cases h5 : t.icmpType.isEmpty <;>
      cases h6 : t.protocol.isEmpty <;> simp_all
  · intro p
    unfold termsOf
    rcases hT with ⟨h3, rfl⟩ | ⟨h3, h4, af, h5, h6⟩
    · rw [if_pos (by rfl), mem_portTerms]
      dsimp only
      rw [hP, h3]
      constructor
      · rintro ⟨a, b, c⟩
        exact ⟨a, (ports_hit fun h => hport p a (.inl h)).1 b, (ports_hit fun h => hport p a (.inr h)).1 c, .inl rfl⟩
      · rintro ⟨a, b, c, _⟩
        exact ⟨a, (ports_hit fun h => hport p a (.inl h)).2 b, (ports_hit fun h => hport p a (.inr h)).2 c⟩
    · rw [if_neg (by simpa using h4), mem_icmpTerms]
      dsimp only
      have np : ¬ (t.sourcePort ≠ [] ∨ t.destinationPort ≠ []) := by
        intro h
        have := (h2 h).2 _ (by rw [h5]; exact List.mem_singleton.2 rfl)
        revert this
        cases af <;> decide
      have e1 : t.sourcePort = [] := Classical.not_not.1 fun h => np (.inl h)
      have e2 : t.destinationPort = [] := Classical.not_not.1 fun h => np (.inr h)
      rw [e1, e2, ← h6]
      have hv : (∃ s ∈ appProtos ((t.protocol.map Proto.str).map protoNumber), Spec.Srx.ProtoIs s p) ↔ OneOf t.protocol p.proto := by
        rw [← hP, h5]
        have e0 : appProtos (([if af = .v4 then "icmp" else "icmpv6"].map Proto.str).map protoNumber) =
            [.str (if af = .v4 then "icmp" else "icmp6")] := by cases af <;> decide
        have e4 : vrrp (.str (if af = .v4 then "icmp" else "icmp6")) = .str (if af = .v4 then "icmp" else "icmp6") := by
          cases af <;> decide
        rw [e0]
        simp [e4]
      rw [hv]
      have hp : OneOf t.protocol p.proto ↔ p.proto = if af = .v4 then "icmp" else "icmpv6" := by
        rw [h5]; simp [OneOf]
      rw [hp]
      constructor
      · rintro ⟨a, k, hk, h7⟩
        refine ⟨a, .inl rfl, .inl rfl, k, hk, ?_⟩
        cases af
        · rcases h7 with ⟨_, h7⟩ | ⟨h7, _⟩
          · exact h7
          · rw [a] at h7; exact absurd h7 (by decide)
        · rcases h7 with ⟨h7, _⟩ | ⟨_, h7⟩
          · rw [a] at h7; exact absurd h7 (by decide)
          · exact h7
      · rintro ⟨a, _, _, k, hk, h7⟩
        refine ⟨a, k, hk, ?_⟩
        cases af
        · exact .inl ⟨a, h7⟩
        · exact .inr ⟨a, h7⟩

end Verif.Props
