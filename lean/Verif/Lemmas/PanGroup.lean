import Verif.Lemmas.PanSides
import Verif.Lemmas.Flat

/-!
The groups of the Palo Alto generator: which addresses they have.
-/

namespace Verif.Pan
open Verif Verif.Spec Policy Aclgenerator Nacaddr
open Verif.Srx (Zones upsert look Tidy removeAll)
open Verif.Spec.Pan (Live Use Side About familyOf Neat Steady Aligned Plain)

theorem counts_live {g : PTerm} : counts g = true ↔ Live g := by
  unfold counts skipped Live
  simp only [Bool.and_eq_true, Bool.not_eq_true', Bool.or_eq_false_iff, Bool.and_eq_false_iff, Bool.not_eq_false', List.isEmpty_iff,
    List.contains_iff_mem, ← Bool.not_eq_true (List.contains _ _)]
  constructor
  · rintro ⟨⟨⟨⟨⟨h1, h2⟩, h3⟩, h4⟩, h5⟩, h6⟩
    refine ⟨h6, h1, h4, ?_, h2, h3⟩
    rcases h5 with h | h
    · rw [h]; simp
    · exact h
  · rintro ⟨h6, h1, h4, h5, h2, h3⟩
    exact ⟨⟨⟨⟨⟨h1, h2⟩, h3⟩, h4⟩, .inr h5⟩, h6⟩

theorem ite_ok {α : Type} {c : Prop} [Decidable c] {e : Err} {a b : α} (h : (if c then Except.error e else .ok a) = .ok b) : a = b := by
  split at h
  · cases h
  · exact Except.ok.inj h

theorem header_spec {opts : List String} {h : Header} (he : parseHeader opts = .ok h) :
    opts[1]? = some h.fromZone ∧ opts[3]? = some h.toZone ∧ familyOf opts = h.af ∧ (h.af = "inet" ∨ h.af = "inet6" ∨ h.af = "mixed") := by
  unfold parseHeader at he
  split at he
  next f a t b rest =>
    split at he
    · cases he
    · unfold headerOf at he
      dsimp only at he
      split at he
      · cases he
      next h1 =>
        obtain rfl := ite_ok he
        refine ⟨rfl, rfl, ?_, ?_⟩
        · unfold familyOf
          cases rest <;> rfl
        · rw [Bool.not_eq_true', Bool.not_eq_false, List.contains_iff_mem] at h1
          simpa using h1
  · cases he

/-- A side of a term that counts: what it is, its networks, its zone. -/
def SideOf (e : Entry) (u : Use) (r : List Net) (z : String) : Prop :=
  (u = Use.src e.f e.d.g ∧ r = e.d.src ∧ z = e.h.fromZone) ∨ (u = Use.dst e.f e.d.g ∧ r = e.d.dst ∧ z = e.h.toZone)

/-- What is known of the terms that count. -/
structure Known (fs : List Filter) (es : List Entry) : Prop where
  here : ∀ e ∈ es, e.f ∈ fs ∧ e.f.here = true ∧ e.d.g ∈ e.f.terms ∧ Live e.d.g
  header : ∀ e ∈ es, parseHeader e.f.options = .ok e.h
  src : ∀ e ∈ es, SideIs e.d.g.term.sourceAddress e.d.g.term.sourceAddressExclude e.d.src
  dst : ∀ e ∈ es, SideIs e.d.g.term.destinationAddress e.d.g.term.destinationAddressExclude e.d.dst
  emptySrc : ∀ e ∈ es, e.d.g.term.sourceAddressExclude = [] → e.d.src = e.d.g.term.sourceAddress
  emptyDst : ∀ e ∈ es, e.d.g.term.destinationAddressExclude = [] → e.d.dst = e.d.g.term.destinationAddress
  ex : ∀ e ∈ es, ∀ ex, e.d.ex = some ex → ∀ v, v ∉ ex ↔ (Use.src e.f e.d.g).Carries v

theorem carries_iff {e : Entry} (hh : parseHeader e.f.options = .ok e.h)
    (hs : SideIs e.d.g.term.sourceAddress e.d.g.term.sourceAddressExclude e.d.src)
    (hd : SideIs e.d.g.term.destinationAddress e.d.g.term.destinationAddressExclude e.d.dst) (v : Ver) :
    (Use.src e.f e.d.g).Carries v ↔ AfIs e.h.af v ∧ Good e.d.src v ∧ Good e.d.dst v := by
  obtain ⟨_, _, h3, _⟩ := header_spec hh
  unfold Use.Carries About AfIs
  show (familyOf e.f.options = _ ∨ familyOf e.f.options = _) ∧ _ ↔ _
  rw [h3, hs.good, hd.good]
  rfl

theorem carries_swap (f : Filter) (g : PTerm) (v : Ver) : (Use.dst f g).Carries v ↔ (Use.src f g).Carries v := by
  unfold Use.Carries
  constructor
  · rintro ⟨a, b, c⟩
    exact ⟨a, c, b⟩
  · rintro ⟨a, b, c⟩
    exact ⟨a, c, b⟩

/-- What is known of a side. -/
structure SideKnown (fs : List Filter) (e : Entry) (u : Use) (r : List Net) (z : String) : Prop where
  side : Side fs u
  is : SideIs u.inc u.exc r
  zone : u.zone = some z
  opts : u.opts = e.f.options
  bare : u.exc = [] → r = u.inc
  carries : ∀ v, u.Carries v ↔ (Use.src e.f e.d.g).Carries v
  ex : ∀ ex, e.d.ex = some ex → ∀ v, v ∉ ex ↔ u.Carries v

theorem Known.side {fs : List Filter} {es : List Entry} (k : Known fs es) {e : Entry} (he : e ∈ es) {u : Use} {r : List Net} {z : String}
    (h : SideOf e u r z) : SideKnown fs e u r z := by
  obtain ⟨h1, h2, h3, h4⟩ := k.here e he
  obtain ⟨a1, a2, _, _⟩ := header_spec (k.header e he)
  rcases h with ⟨rfl, rfl, rfl⟩ | ⟨rfl, rfl, rfl⟩
  · exact ⟨.src h1 h2 h3 h4, k.src e he, a1, rfl, k.emptySrc e he, fun _ => Iff.rfl, k.ex e he⟩
  · refine ⟨.dst h1 h2 h3 h4, k.dst e he, a2, rfl, k.emptyDst e he, carries_swap _ _, fun ex h v => ?_⟩
    rw [carries_swap]
    exact k.ex e he ex h v

theorem mem_sides {e : Entry} {z : String} {l : List Net} : (z, l) ∈ e.sides ↔
    ∃ ex, e.d.ex = some ex ∧ ∃ u r, SideOf e u r z ∧ l = (r.flatMap subnets3).filter fun a => !ex.contains a.ver := by
  unfold Entry.sides Done.sides SideOf
  cases he : e.d.ex with
  | none => simp
  | some ex =>
    dsimp only
    rw [List.mem_cons, List.mem_singleton]
    constructor
    · rintro (h | h)
      · cases h
        exact ⟨ex, rfl, _, _, .inl ⟨rfl, rfl, rfl⟩, rfl⟩
      · cases h
        exact ⟨ex, rfl, _, _, .inr ⟨rfl, rfl, rfl⟩, rfl⟩
    · rintro ⟨_, h0, u, r, ⟨rfl, rfl, rfl⟩ | ⟨rfl, rfl, rfl⟩, rfl⟩ <;> cases h0
      · exact .inl rfl
      · exact .inr rfl

theorem mem_entered {sides : List (String × List Net)} {z t : String} {l : List Net} :
    l ∈ entered sides z t ↔ ∃ s, (z, s) ∈ sides ∧ l = s.filter fun n => decide (n.parent = t) := by
  unfold entered
  rw [List.mem_map]
  constructor
  · rintro ⟨⟨z', s⟩, h, rfl⟩
    rw [List.mem_filter, decide_eq_true_eq] at h
    obtain ⟨h, e⟩ := h
    dsimp only at e
    rw [e] at h
    exact ⟨s, h, rfl⟩
  · rintro ⟨s, h, rfl⟩
    exact ⟨(z, s), List.mem_filter.2 ⟨h, by simp⟩, rfl⟩

/-- The books are those of the terms. -/
def BooksOf (es : List Entry) (b : Zones) : Prop := b = (es.flatMap Entry.sides).foldl enterSide []

theorem BooksOf.tidy {es : List Entry} {b : Zones} (h : BooksOf es b) : Tidy b := by
  rw [h]
  exact tidy_sides ⟨List.nodup_nil, (fun _ h => by cases h), (fun _ h => by cases h)⟩

theorem BooksOf.look {es : List Entry} {b : Zones} (h : BooksOf es b) (z t : String) :
    look b z t = (entered (es.flatMap Entry.sides) z t).flatten.foldl enterNet [] := by
  rw [h, look_sides]
  rfl

/-- The networks of the books come from the terms. -/
theorem book_sound {es : List Entry} {b : Zones} (hb : BooksOf es b) {z t : String} {n : Net} (h : n ∈ look b z t) :
    ∃ e ∈ es, ∃ u r, SideOf e u r z ∧ ∃ ex, e.d.ex = some ex ∧ ∃ n0 ∈ r, n ∈ subnets3 n0 ∧ n.ver ∉ ex ∧ n.parent = t := by
  rw [hb.look] at h
  rcases enterNets_mem _ h with h | h
  · cases h
  · obtain ⟨l, hl, hn⟩ := List.mem_flatten.1 h
    obtain ⟨s, hs, rfl⟩ := mem_entered.1 hl
    obtain ⟨e, he, hs⟩ := List.mem_flatMap.1 hs
    obtain ⟨ex, h1, u, r, h2, rfl⟩ := mem_sides.1 hs
    rw [List.mem_filter, List.mem_filter, decide_eq_true_eq] at hn
    obtain ⟨⟨h3, h4⟩, h5⟩ := hn
    obtain ⟨n0, h6, h7⟩ := List.mem_flatMap.1 h3
    exact ⟨e, he, u, r, h2, ex, h1, n0, h6, h7, by simpa using h4, h5⟩

theorem book_complete {es : List Entry} {b : Zones} (hb : BooksOf es b) {e : Entry} (he : e ∈ es) {u : Use} {r : List Net} {z : String}
    (hu : SideOf e u r z) {ex : List Ver} (hex : e.d.ex = some ex) {n0 n : Net} (h0 : n0 ∈ r) (hn : n ∈ subnets3 n0) (hv : n.ver ∉ ex) :
    ∃ m ∈ look b z n.parent, n.eqv m = true := by
  rw [hb.look]
  refine enterNets_has n (List.mem_flatten.2 ⟨_, mem_entered.2 ⟨_, List.mem_flatMap.2 ⟨e, he, mem_sides.2 ⟨ex, hex, u, r, hu, rfl⟩⟩,
    rfl⟩, ?_⟩)
  rw [List.mem_filter, List.mem_filter]
  exact ⟨⟨List.mem_flatMap.2 ⟨n0, h0, hn⟩, by simpa using hv⟩, by simp⟩

/-- The address is one of a token. -/
def Grp (b : Zones) (t : String) (v : Ver) (x : Nat) : Prop := ∃ z, ∃ n ∈ look b z t, Mem n v x

theorem book_wf {fs : List Filter} {es : List Entry} {b : Zones} (k : Known fs es) (hb : BooksOf es b) {z t : String} {n : Net}
    (h : n ∈ look b z t) : WF n := by
  obtain ⟨e, he, u, r, hu, ex, hex, n0, h0, hn, _, _⟩ := book_sound hb h
  exact (subnets3_part ((k.side he hu).is.wf n0 h0) hn).1

theorem grp_sound {fs : List Filter} {es : List Entry} {b : Zones} (k : Known fs es) (hb : BooksOf es b) {t : String} {v : Ver} {x : Nat}
    (h : Grp b t v x) : ∃ w, Side fs w ∧ w.Carries v ∧ w.Has t v x := by
  obtain ⟨z, n, hn, hm⟩ := h
  obtain ⟨e, he, u, r, hu, ex, hex, n0, h0, h1, h2, h3⟩ := book_sound hb hn
  have s := k.side he hu
  obtain ⟨_, p1, p2, p3⟩ := subnets3_part (s.is.wf n0 h0) h1
  have hm0 := p3 v x hm
  refine ⟨u, s.side, ?_, n0, s.is.mem n0 h0, by rw [← p1, h3], hm0, ?_⟩
  · rw [← s.ex ex hex v, ← hm.1]
    exact h2
  · exact ((s.is.den v x).1 ⟨n0, h0, hm0⟩).2

theorem grp_complete {fs : List Filter} {es : List Entry} {b : Zones} (k : Known fs es) (hb : BooksOf es b) {e : Entry} (he : e ∈ es)
    {u : Use} {r : List Net} {z : String} (hu : SideOf e u r z) {ex : List Ver} (hex : e.d.ex = some ex) {v : Ver} {x : Nat}
    (hv : u.Carries v) {n : Net} (hn : n ∈ r) (hm : Mem n v x) : Grp b n.parent v x := by
  have s := k.side he hu
  obtain ⟨m, h1, h2⟩ := subnets3_all hm
  obtain ⟨p0, p1, p2, _⟩ := subnets3_part (s.is.wf n hn) h1
  have h3 : m.ver ∉ ex := by
    rw [h2.1, s.ex ex hex]
    exact hv
  obtain ⟨m', h4, h5⟩ := book_complete hb he hu hex hn h1 h3
  rw [p1] at h4
  refine ⟨z, m', h4, ?_⟩
  have wm' := book_wf k hb h4
  exact (mem_congr_block ((eqv_iff p0 wm').1 h5) v x).1 h2

/-- The tokens of a side have the addresses of the side. -/
theorem side_grp {fs : List Filter} {es : List Entry} {b : Zones} (k : Known fs es) (hb : BooksOf es b) (hs : Steady fs) {e : Entry}
    (he : e ∈ es) {u : Use} {r : List Net} {z : String} (hu : SideOf e u r z) {v : Ver} {x : Nat} :
    (∃ t ∈ tokensOf (r.flatMap subnets3), Grp b t v x) → About e.f.options v ∧ Den r v x := by
  have s := k.side he hu
  rintro ⟨t, ht, hg⟩
  obtain ⟨n, hn, rfl⟩ := (mem_tokens s.is.wf).1 ht
  obtain ⟨w, h1, h2, h3⟩ := grp_sound k hb hg
  have hx : u.Has n.parent n.ver n.addr :=
    ⟨n, s.is.mem n hn, rfl, mem_first n, ((s.is.den _ _).1 ⟨n, hn, mem_first n⟩).2⟩
  obtain ⟨h4, m, h5, _, h6, h7⟩ := hs u w s.side h1 n.parent ⟨_, _, hx⟩ v x h2 h3
  rw [s.opts] at h4
  exact ⟨h4, (s.is.den v x).2 ⟨⟨m, h5, h6⟩, h7⟩⟩

theorem grp_side {fs : List Filter} {es : List Entry} {b : Zones} (k : Known fs es) (hb : BooksOf es b) {e : Entry}
    (he : e ∈ es) {u : Use} {r : List Net} {z : String} (hu : SideOf e u r z) {ex : List Ver} (hex : e.d.ex = some ex) {v : Ver} {x : Nat}
    (hv : u.Carries v) : Den r v x → ∃ t ∈ tokensOf (r.flatMap subnets3), Grp b t v x := by
  rintro ⟨n, hn, hm⟩
  exact ⟨n.parent, (mem_tokens (k.side he hu).is.wf).2 ⟨n, hn, rfl⟩, grp_complete k hb he hu hex hv hn hm⟩

/-! ### the same networks in all zones -/

theorem filter_parts {t : String} {vs : List Ver} : ∀ {l : List Net}, (∀ n ∈ l, WF n) →
    ((l.flatMap subnets3).filter (fun a => vs.contains a.ver)).filter (fun n => decide (n.parent = t)) =
      ((l.filter fun n => decide (n.parent = t)).flatMap subnets3).filter (fun a => vs.contains a.ver)
  | [], _ => rfl
  | n :: l, h => by
    have ih := filter_parts (t := t) (vs := vs) fun m hm => h m (List.mem_cons_of_mem _ hm)
    have hp : ∀ m ∈ subnets3 n, m.parent = n.parent := fun m hm => (subnets3_part (h n List.mem_cons_self) hm).2.1
    rw [List.flatMap_cons, List.filter_append, List.filter_append, ih, List.filter_cons]
    by_cases e : n.parent = t
    · rw [if_pos (by simpa using e), List.flatMap_cons, List.filter_append]
      congr 1
      rw [List.filter_eq_self]
      intro m hm
      rw [List.mem_filter] at hm
      rw [hp m hm.1]
      simpa using e
    · rw [if_neg (by simpa using e)]
      have : ((subnets3 n).filter fun a => vs.contains a.ver).filter (fun n => decide (n.parent = t)) = [] := by
        rw [List.filter_eq_nil_iff]
        intro m hm
        rw [List.mem_filter] at hm
        rw [hp m hm.1]
        simpa using e
      rw [this]
      rfl

theorem has_of_entered {fs : List Filter} {e : Entry} {u : Use} {r : List Net} {z : String} (s : SideKnown fs e u r z) {n0 n : Net}
    (h0 : n0 ∈ r) (hn : n ∈ subnets3 n0) : ∃ v x, u.Has n.parent v x := by
  obtain ⟨_, p1, _, _⟩ := subnets3_part (s.is.wf n0 h0) hn
  exact ⟨n0.ver, n0.addr, n0, s.is.mem n0 h0, p1.symm, mem_first n0, ((s.is.den _ _).1 ⟨n0, h0, mem_first n0⟩).2⟩

theorem agree {fs : List Filter} {es : List Entry} {b : Zones} (k : Known fs es) (hb : BooksOf es b) (ha : Aligned fs) (t : String) :
    ∃ L, Agree b t L := by
  rcases ha t with ⟨z0, h⟩ | ⟨l, vs, h⟩
  · cases z0 with
    | none =>
      refine ⟨[], fun z hz => ?_⟩
      obtain ⟨n, hn⟩ := List.exists_mem_of_ne_nil _ hz
      obtain ⟨e, he, u, r, hu, ex, hex, n0, h0, h1, h2, rfl⟩ := book_sound hb hn
      have s := k.side he hu
      have := h u s.side (has_of_entered s h0 h1)
      rw [s.zone] at this
      cases this
    | some z0 =>
      refine ⟨look b z0 t, fun z hz => ?_⟩
      obtain ⟨n, hn⟩ := List.exists_mem_of_ne_nil _ hz
      obtain ⟨e, he, u, r, hu, ex, hex, n0, h0, h1, h2, rfl⟩ := book_sound hb hn
      have s := k.side he hu
      have := h u s.side (has_of_entered s h0 h1)
      rw [s.zone] at this
      rw [Option.some.inj this]
  · refine ⟨((l.flatMap subnets3).filter fun a => vs.contains a.ver).foldl enterNet [], fun z hz => ?_⟩
    have hblocks : ∀ c ∈ entered (es.flatMap Entry.sides) z t, c = [] ∨ c = (l.flatMap subnets3).filter fun a => vs.contains a.ver := by
      intro c hc
      obtain ⟨s, hs, rfl⟩ := mem_entered.1 hc
      obtain ⟨e, he, hs⟩ := List.mem_flatMap.1 hs
      obtain ⟨ex, hex, u, r, hu, rfl⟩ := mem_sides.1 hs
      have s := k.side he hu
      refine Classical.or_iff_not_imp_left.2 fun hne => ?_
      obtain ⟨n, hn⟩ := List.exists_mem_of_ne_nil _ hne
      rw [List.mem_filter, List.mem_filter, decide_eq_true_eq] at hn
      obtain ⟨⟨h3, h4⟩, rfl⟩ := hn
      obtain ⟨n0, h6, h7⟩ := List.mem_flatMap.1 h3
      obtain ⟨g1, g2, g3⟩ := h u s.side (has_of_entered s h6 h7)
      have er := s.bare g1
      subst er
      have step : (u.inc.flatMap subnets3).filter (fun a => !ex.contains a.ver) =
          (u.inc.flatMap subnets3).filter (fun a => ([Ver.v4, Ver.v6].filter fun v => !ex.contains v).contains a.ver) := by
        apply List.filter_congr
        intro a _
        cases a.ver <;> simp
      rw [step, filter_parts s.is.wf, g2]
      apply List.filter_congr
      intro a ha
      obtain ⟨m, hm, ha⟩ := List.mem_flatMap.1 ha
      have hmi : m ∈ u.inc := by
        rw [← g2] at hm
        exact (List.mem_filter.1 hm).1
      have hv := (subnets3_part (s.is.wf m hmi) ha).2.2.1
      have h8 := g3 m hm
      rw [← s.ex ex hex, ← hv] at h8
      rw [Bool.eq_iff_iff, List.contains_iff_mem, List.contains_iff_mem, h8, List.mem_filter]
      cases a.ver <;> simp
    rw [hb.look] at hz ⊢
    rcases enterNets_blocks (l := []) hblocks (.inl rfl) with h1 | h1
    · rw [h1] at hz
      exact absurd rfl hz
    · exact h1

/-- The token is one of the policy. -/
theorem token_known {fs : List Filter} {es : List Entry} {b : Zones} (k : Known fs es) (hb : BooksOf es b) {z t : String}
    (h : look b z t ≠ []) : ∃ u, Side fs u ∧ ∃ n ∈ u.inc, n.parent = t := by
  obtain ⟨n, hn⟩ := List.exists_mem_of_ne_nil _ h
  obtain ⟨e, he, u, r, hu, ex, hex, n0, h0, h1, h2, rfl⟩ := book_sound hb hn
  have s := k.side he hu
  exact ⟨u, s.side, n0, s.is.mem n0 h0, (subnets3_part (s.is.wf n0 h0) h1).2.1.symm⟩

end Verif.Pan
