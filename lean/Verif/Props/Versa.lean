import Verif.Lemmas.Versa
import Verif.Lemmas.Zone
import Verif.Props.NftablesPolicy

/-!
C151 to C154: what the rules of capirca/lib/versa.py carry, refer to and decide.
-/

namespace Verif.Props
open Verif Verif.Spec Policy Aclgenerator Nacaddr PyStr
open Verif.Lemmas (first_blocks first_nil)
open Verif.Lemmas.VersaL
open Verif.Versa (VTerm Filter Output VRule App Side State Book Service output outputOf translate)
open Verif.Spec.Versa (Live About Head Wants Hits Decides Rendered Block NamesAre Holds Dangling Busy Small GroupHas SideHits ServiceHits
  PredefinedHits ZoneIs Carries Sided Void)

/-- C151: the rules of the policy are those of the filters of the platform, one after the other, and the names in the output are the
last ones that their headers give. -/
theorem C151_rules {fs : List Filter} {o : Output} (h : output fs = .ok o) :
    ∃ bs : List Block, bs.map Block.filter = fs.filter Filter.here ∧ (∀ b ∈ bs, Rendered b) ∧ o.rules = bs.flatMap Block.rules ∧
      NamesAre (bs.flatMap Block.pairs) o.names := by
  unfold output at h
  obtain ⟨st, hst, h⟩ := bind_ok h
  cases h
  obtain ⟨bs, b1, b2, b3, _, _, b5⟩ := translate_blocks hst entered_nil
  refine ⟨bs, b1, b2, ?_, ?_⟩
  · have : (outputOf st).rules = st.rules := by unfold outputOf; split <;> rfl
    rw [this, b3]
    rfl
  · have : (outputOf st).names = st.names := by unfold outputOf; split <;> rfl
    rw [this, b5]
    refine named_foldl _ _ ?_
    intro kv hkv
    obtain ⟨b, hb, hkv⟩ := List.mem_flatMap.1 hkv
    obtain ⟨_, _, hs⟩ := (b2 b hb).head
    exact says_words hs kv hkv

/-! ### one filter -/

/-- What is known about a policy with one filter of the platform. -/
structure VersaOne (f : Filter) (o : Output) (st : State) (b : Block) (af : String) : Prop where
  out : o = outputOf st
  filter : b.filter = f
  rendered : Rendered b
  family : ∀ v, Verif.Srx.inFamily af v = true ↔ About b.family v
  rules : st.rules = b.rules
  entered : Entered st.apps st.rules
  tidy : ∃ used c, Tidy used st.book c
  inBook : ∀ g ∈ b.outs.map Prod.fst, Live g →
    ¬ (g.base.term.sourceAddress ≠ [] ∧ Verif.Srx.admitted af g.base.term.sourceAddress = []) →
    InBook st.book ("src-".toList ++ g.base.term.name) (Verif.Srx.admitted af g.base.term.sourceAddress) ∧
    (¬ (g.base.term.destinationAddress ≠ [] ∧ Verif.Srx.admitted af g.base.term.destinationAddress = []) →
      InBook st.book ("dest-".toList ++ g.base.term.name) (Verif.Srx.admitted af g.base.term.destinationAddress))
  apps : (b.outs.map Prod.fst).Pairwise (fun g g' => ¬ (Live g ∧ Needs g ∧ Live g' ∧ Needs g')) →
    ∀ g ∈ b.outs.map Prod.fst, Live g → Needs g → Kept af g → st.apps = [appOf g]

theorem versa_one {fs : List Filter} {f : Filter} {o : Output} (one : fs.filter Filter.here = [f]) (h : output fs = .ok o) :
    ∃ st b af, VersaOne f o st b af := by
  unfold output at h
  obtain ⟨st, hst, h⟩ := bind_ok h
  cases h
  rw [translate_here, one] at hst
  have hh : f.here = true := by
    have : f ∈ fs.filter Filter.here := by rw [one]; exact List.mem_singleton.2 rfl
    exact (List.mem_filter.1 this).2
  unfold translate at hst
  rw [if_pos hh] at hst
  obtain ⟨hd, h1, hst⟩ := bind_ok hst
  obtain ⟨st1, h2, hst⟩ := bind_ok hst
  cases hst
  obtain ⟨ns, q, hhead, hf, hns⟩ := header_ok h1
  obtain ⟨outs, a1, a2, a3, a4, a5, a6, a7, a8, a9, _⟩ := loop_carries hf h2 entered_nil
  obtain ⟨t1, _, t3⟩ := loop_book h2 (⟨rfl, List.nodup_nil, (by simp)⟩ : Tidy [] [] 0)
  refine ⟨st, ⟨f, hd.1, hd.2.1, ns, q, f.terms.map fun g => (g, piecesOf hd.2.2.1 g), outs⟩, hd.2.2.1, rfl, rfl, ?_, hf, a2, a4, t1, ?_, ?_⟩
  · refine ⟨hhead, ?_, ?_, ?_, a5, a6, a7, a8, a9⟩
    · dsimp only
      rw [List.map_map]
      exact List.map_id _
    · intro x hx
      obtain ⟨g, _, rfl⟩ := List.mem_map.1 hx
      exact cut_pieces _ _
    · dsimp only
      rw [a1, fixLarge_eq, List.flatMap_map]
  · dsimp only
    rw [a1]
    exact t3
  · dsimp only
    rw [a1]
    exact fun hp => loop_apps h2 hp rfl

theorem versa_map_inj {α β : Type} {f : α → β} {l : List α} (h : (l.map f).Nodup) {e e' : α} (he : e ∈ l) (he' : e' ∈ l)
    (hk : f e = f e') : e = e' := by
  obtain ⟨i, hi, rfl⟩ := List.getElem_of_mem he
  obtain ⟨j, hj, rfl⟩ := List.getElem_of_mem he'
  have := (List.getElem_inj (i := i) (j := j) (h₀ := by simpa using hi) (h₁ := by simpa using hj) h).1 (by simpa using hk)
  subst this
  rfl

theorem versa_key_unique {α β : Type} {l : List (α × β)} (h : (l.map Prod.fst).Nodup) {e e' : α × β} (he : e ∈ l) (he' : e' ∈ l)
    (hk : e.1 = e'.1) : e = e' := versa_map_inj h he he' hk

theorem versa_address_inj {i j : Nat} (h : Verif.Versa.addressName i = Verif.Versa.addressName j) : i = j := by
  unfold Verif.Versa.addressName at h
  injection h with _ h
  exact number_inj h

/-- A group stands for what it was made from. -/
theorem group_holds {used : List Str} {st : State} {c : Nat} (t : Tidy used st.book c) {z : Str} {k : Nat} {l : List Net}
    (hb : (z, numbered k l) ∈ st.book) : ∃ ms, (∀ ms', (z, ms') ∈ (outputOf st).groups ↔ ms' = ms) ∧
      ∀ n, (∃ m ∈ ms, (m, n) ∈ (outputOf st).addresses) ↔ n ∈ l := by
  have hne : ¬ st.book.isEmpty = true := by
    rw [List.isEmpty_iff]
    intro h0
    rw [h0] at hb; cases hb
  have hnd : ((st.book.flatMap Prod.snd).map Prod.fst).Nodup := by rw [t.nums]; exact List.nodup_range
  unfold outputOf
  rw [if_neg hne]
  refine ⟨(numbered k l).map fun e => Verif.Versa.addressName e.1, fun ms' => ?_, fun n => ?_⟩
  · dsimp only
    rw [List.mem_map]
    constructor
    · rintro ⟨x, hx, e⟩
      have e1 : x.1 = z := congrArg Prod.fst e
      have e2 : _ = ms' := congrArg Prod.snd e
      have := versa_key_unique t.keys hx hb e1
      subst this
      exact e2.symm
    · rintro rfl
      exact ⟨_, hb, rfl⟩
  · dsimp only
    constructor
    · rintro ⟨m, hm, ha⟩
      obtain ⟨e, he, rfl⟩ := List.mem_map.1 hm
      obtain ⟨z', hz, ha⟩ := List.mem_flatMap.1 ha
      obtain ⟨e', he', e2⟩ := List.mem_map.1 ha
      have e3 : Verif.Versa.addressName e'.1 = Verif.Versa.addressName e.1 := congrArg Prod.fst e2
      have e4 : e'.2 = n := congrArg Prod.snd e2
      have := versa_key_unique hnd (List.mem_flatMap.2 ⟨_, hz, he'⟩) (List.mem_flatMap.2 ⟨_, hb, he⟩) (versa_address_inj e3)
      subst this
      rw [← e4, ← numbered_snd k l]
      exact List.mem_map.2 ⟨_, he, rfl⟩
    · intro hn
      rw [← numbered_snd k l] at hn
      obtain ⟨e, he, rfl⟩ := List.mem_map.1 hn
      exact ⟨_, List.mem_map.2 ⟨e, he, rfl⟩, List.mem_flatMap.2 ⟨_, hb, List.mem_map.2 ⟨e, he, rfl⟩⟩⟩

theorem side_holds {used : List Str} {st : State} {c : Nat} (t : Tidy used st.book c) {af : String} {q : Option String}
    (hf : ∀ v, Verif.Srx.inFamily af v = true ↔ About q v) {own : List String} {zone : String} {z : Str} {inc exc : List Net}
    {s : Option Side} (hs : Sided q own zone z inc exc s) (hb : InBook st.book z (Verif.Srx.admitted af inc)) :
    Holds (outputOf st) q inc s := by
  intro x g hx hg
  rw [hs.group x hx] at hg
  split at hg
  · cases hg
  next hne =>
    cases hg
    obtain ⟨n, hn, ha⟩ := hs.some hne
    have hadm : Verif.Srx.admitted af inc ≠ [] := by
      intro h0
      have : n ∈ Verif.Srx.admitted af inc := List.mem_filter.2 ⟨hn, (hf n.ver).2 ha⟩
      rw [h0] at this; cases this
    obtain ⟨k, hk⟩ := hb hadm
    obtain ⟨ms, h1, h2⟩ := group_holds t hk
    refine ⟨ms, h1, fun n => ?_⟩
    rw [h2]
    unfold Verif.Srx.admitted
    rw [List.mem_filter]
    exact and_congr_right fun _ => hf n.ver

theorem kept_of {af : String} {q : Option String} (hf : ∀ v, Verif.Srx.inFamily af v = true ↔ About q v) {a b : String} {g : VTerm}
    {r : VRule} (h : Carries q a b g r) : Kept af g := by
  have key : ∀ l : List Net, (l ≠ [] → ∃ n ∈ l, About q n.ver) → ¬ (l ≠ [] ∧ Verif.Srx.admitted af l = []) := by
    rintro l h ⟨h1, h2⟩
    obtain ⟨n, hn, ha⟩ := h h1
    have : n ∈ Verif.Srx.admitted af l := List.mem_filter.2 ⟨hn, (hf n.ver).2 ha⟩
    rw [h2] at this; cases this
  exact ⟨key _ h.src.some, key _ h.dst.some⟩

theorem VersaOne.holds {f : Filter} {o : Output} {st : State} {b : Block} {af : String} (v : VersaOne f o st b af)
    {x : VTerm × List VRule} (hx : x ∈ b.outs) {r : VRule} (hr : r ∈ x.2) :
    Holds o b.family x.1.base.term.sourceAddress r.src ∧ Holds o b.family x.1.base.term.destinationAddress r.dst := by
  have hl : Live x.1 := Classical.byContradiction fun hn => by rw [v.rendered.dead x hx hn] at hr; cases hr
  obtain ⟨hn, hcar⟩ := v.rendered.carries x hx r hr
  obtain ⟨k1, k2⟩ := kept_of v.family hcar
  obtain ⟨b1, b2⟩ := v.inBook x.1 (List.mem_map.2 ⟨x, hx, rfl⟩) hl k1
  obtain ⟨used, c, t⟩ := v.tidy
  rw [v.out]
  have s1 := hcar.src
  have s2 := hcar.dst
  rw [hn] at s1 s2
  exact ⟨side_holds t v.family s1 b1, side_holds t v.family s2 (b2 k2)⟩

/-- C152: in the output for a policy with one filter of the platform, addresses are defined once, and so is the group of each side of a
rule, which stands for the addresses of the family that the term has there. -/
theorem C152_partial {fs : List Filter} {f : Filter} {o : Output} (one : fs.filter Filter.here = [f]) (h : output fs = .ok o) :
    ∃ b : Block, b.filter = f ∧ Rendered b ∧ o.rules = b.rules ∧ (o.addresses.map Prod.fst).Nodup ∧
      ∀ x ∈ b.outs, ∀ r ∈ x.2, Holds o b.family x.1.base.term.sourceAddress r.src ∧
        Holds o b.family x.1.base.term.destinationAddress r.dst := by
  obtain ⟨st, b, af, v⟩ := versa_one one h
  refine ⟨b, v.filter, v.rendered, ?_, ?_, fun x hx r hr => v.holds hx hr⟩
  · rw [v.out, ← v.rules]
    unfold outputOf
    split <;> rfl
  · obtain ⟨used, c, t⟩ := v.tidy
    rw [v.out]
    unfold outputOf
    split
    · exact List.nodup_nil
    · dsimp only
      rw [List.map_flatMap]
      have e : (st.book.flatMap fun z => List.map Prod.fst (z.2.map fun e => (Verif.Versa.addressName e.1, e.2))) =
          ((st.book.flatMap Prod.snd).map Prod.fst).map Verif.Versa.addressName := by
        rw [List.map_flatMap, List.map_flatMap]
        congr 1
        funext z
        rw [List.map_map, List.map_map]
        rfl
      rw [e, t.nums]
      exact List.Pairwise.map _ (fun i j hij he => hij (versa_address_inj he)) List.nodup_range

/-! ### services -/

theorem versa_service_inj {n m : Str} {i j : Nat} (h : Verif.Versa.serviceName n i = Verif.Versa.serviceName m j) : n = m ∧ i = j := by
  unfold Verif.Versa.serviceName at h
  have app : ∀ n : Str, ∀ c, (n ++ "-app".toList).getLast? = some c → c.isDigit = false := by
    intro n c hc
    rw [List.getLast?_append] at hc
    have : "-app".toList.getLast? = some 'p' := by decide
    rw [this] at hc
    cases hc
    decide
  have hij := base_number (app n) (app m) h
  subst hij
  exact ⟨List.append_cancel_right (List.append_cancel_right h), rfl⟩

/-- C153: if no group of addresses is defined then no service is, whatever rules refer to. -/
theorem C153_refuted_empty {fs : List Filter} {o : Output} (h : output fs = .ok o) (hg : o.groups = []) :
    ∀ r ∈ o.rules, ∀ s ∈ r.services, Dangling o s := by
  intro r _ s _ q hq
  unfold output at h
  obtain ⟨st, _, h⟩ := bind_ok h
  cases h
  unfold outputOf at hq hg
  split at hq
  · cases hq
  next hne =>
    rw [if_neg hne] at hg
    rw [List.isEmpty_iff] at hne
    exact absurd (List.map_eq_nil_iff.1 hg) hne

/-- C153: if two rules have services then there is a rule that refers to a service that is not defined. -/
theorem C153_refuted {fs : List Filter} {o : Output} (h : output fs = .ok o) {r r' : VRule} (hr : r ∈ o.rules) (hr' : r' ∈ o.rules)
    (hn : r.name ≠ r'.name) (hs : r.services ≠ []) (hs' : r'.services ≠ []) : ∃ q ∈ o.rules, ∃ s ∈ q.services, Dangling o s := by
  unfold output at h
  obtain ⟨st, hst, h⟩ := bind_ok h
  cases h
  obtain ⟨_, _, _, _, ent, _⟩ := translate_blocks hst entered_nil
  have hrules : (outputOf st).rules = st.rules := by unfold outputOf; split <;> rfl
  rw [hrules] at hr hr' ⊢
  obtain ⟨a, ha, e1, e2⟩ := ent.sound r hr hs
  obtain ⟨a', ha', e1', e2'⟩ := ent.sound r' hr' hs'
  have first : ∀ {q : VRule} {x : App}, q.services ≠ [] →
      q.services = (List.range x.protos.length).map (fun j => Verif.Versa.serviceName x.name (j + 1)) →
      Verif.Versa.serviceName x.name 1 ∈ q.services := by
    intro q x hne e
    rw [e]
    refine List.mem_map.2 ⟨0, ?_, rfl⟩
    rw [List.mem_range]
    refine Nat.pos_of_ne_zero fun h0 => hne ?_
    rw [e, h0]
    rfl
  -- the first service is not that of both
  have key : ∀ x ∈ st.apps, (∃ s ∈ (outputOf st).services, s.name = Verif.Versa.serviceName x.name 1) →
      ∃ l, Verif.isort (fun x y : App => !strLt y.name x.name) st.apps = x :: l := by
    rintro x hx ⟨s, hs, e⟩
    unfold outputOf at hs
    split at hs
    · cases hs
    · unfold Verif.Versa.servicesOf at hs
      obtain ⟨y, hy, rfl⟩ := List.mem_map.1 hs
      obtain ⟨en, ei⟩ := versa_service_inj e
      cases hl : Verif.isort (fun x y : App => !strLt y.name x.name) st.apps with
      | nil => rw [hl] at hy; cases hy
      | cons w l =>
        refine ⟨l, ?_⟩
        rw [hl, List.flatMap_cons] at hy
        have hy := (List.mem_zipIdx' hy)
        have h0 : y.2 = 0 := by omega
        have hp : (Verif.Versa.protosOf w) ≠ [] := by
          unfold Verif.Versa.protosOf
          split
          · simp
          next h => simpa using h
        have hy1 : y.1.1 = w := by
          have := hy.2
          cases hpw : Verif.Versa.protosOf w with
          | nil => exact absurd hpw hp
          | cons p ps =>
            simp only [h0, hpw, List.map_cons, List.cons_append, List.getElem_cons_zero] at this
            rw [this]
        have hw : w ∈ st.apps := (Verif.isort_perm _ _).mem_iff.1 (by rw [hl]; exact List.mem_cons_self ..)
        rw [hy1] at en
        have := versa_map_inj ent.names hw hx en
        rw [this]
  by_cases d : Dangling (outputOf st) (Verif.Versa.serviceName a.name 1)
  · exact ⟨r, hr, _, first hs e2, d⟩
  · refine ⟨r', hr', _, first hs' e2', fun s hss e => ?_⟩
    obtain ⟨l', hl'⟩ := key a' ha' ⟨s, hss, e⟩
    have : ∃ s ∈ (outputOf st).services, s.name = Verif.Versa.serviceName a.name 1 := by
      refine Classical.byContradiction fun hn => d fun s hs e => hn ⟨s, hs, e⟩
    obtain ⟨l, hl⟩ := key a ha this
    rw [hl] at hl'
    injection hl' with e _
    exact hn (e1.symm.trans (congrArg App.name e |>.trans e1'))

/-- C155: a rule for a term with the ports and the protocols of a term before, as the parts of a large term have, refers to no
services, and so it is for any. -/
theorem C155_refuted {fs : List Filter} {o : Output} (h : output fs = .ok o) :
    ∃ bs : List Block, bs.map Block.filter = fs.filter Filter.here ∧ (∀ b ∈ bs, Rendered b) ∧ o.rules = bs.flatMap Block.rules ∧
      ∀ b ∈ bs, b.outs.Pairwise fun x y => x.1.base.term.sourcePort = y.1.base.term.sourcePort →
        x.1.base.term.destinationPort = y.1.base.term.destinationPort →
        x.1.base.term.protocol.erase "icmp" = y.1.base.term.protocol.erase "icmp" → x.2 ≠ [] → ∀ r ∈ y.2, r.services = [] := by
  unfold output at h
  obtain ⟨st, hst, h⟩ := bind_ok h
  cases h
  obtain ⟨bs, b1, b2, b3, _, b4, _⟩ := translate_blocks hst entered_nil
  refine ⟨bs, b1, b2, ?_, fun b hb => (b4 b hb).imp fun h h1 h2 h3 => h ⟨h1, h2, h3⟩⟩
  have : (outputOf st).rules = st.rules := by unfold outputOf; split <;> rfl
  rw [this, b3]
  rfl

/-- The pieces of terms want what the terms want. -/
theorem rendered_pieces {b : Block} (h : Rendered b) (p : Packet) (w : String) :
    First (Wants b.src b.dst p) (b.outs.map Prod.fst) w ↔ First (Wants b.src b.dst p) b.filter.terms w := by
  have names : ∀ e ∈ Spec.Versa.verdicts, ∀ e' ∈ Spec.Versa.verdicts, e.1 = e'.1 → e.2 = e'.2 := by decide
  rw [h.outs, ← h.terms]
  refine first_blocks ?_ ?_
  · rintro g w w' ⟨_, _, _, _, u, hu, hw⟩ ⟨_, _, _, _, u', hu', hw'⟩
    rw [hu] at hu'
    cases hu'
    exact names _ hw _ hw' rfl
  · intro x hx w
    rcases h.cut x hx with e | ⟨_, h1, h2⟩
    · rw [e]; simp
    · constructor
      · rintro ⟨g', hg, hw⟩
        have hm := (h2 p).1 ⟨g', hg, hw.2.2.2.1⟩
        obtain ⟨i, s, d, rfl, _⟩ := h1 g' hg
        exact ⟨hw.1, hw.2.1, hw.2.2.1, hm, hw.2.2.2.2⟩
      · rintro ⟨a1, a2, a3, a4, a5⟩
        obtain ⟨g', hg, hm⟩ := (h2 p).2 a4
        refine ⟨g', hg, ?_⟩
        obtain ⟨i, s, d, rfl, _⟩ := h1 g' hg
        exact ⟨a1, a2, a3, hm, a5⟩

/-- C155: the parts that rules are made of want together what the terms want, whatever is lost on the way into the rules. -/
theorem C155_partial {fs : List Filter} {o : Output} (h : output fs = .ok o) :
    ∃ bs : List Block, bs.map Block.filter = fs.filter Filter.here ∧ (∀ b ∈ bs, Rendered b) ∧ o.rules = bs.flatMap Block.rules ∧
      ∀ b ∈ bs, ∀ p w, First (Wants b.src b.dst p) (b.outs.map Prod.fst) w ↔ First (Wants b.src b.dst p) b.filter.terms w := by
  obtain ⟨bs, b1, b2, b3, _⟩ := C151_rules h
  exact ⟨bs, b1, b2, b3, fun b hb p w => rendered_pieces (b2 b hb) p w⟩

/-! ### one filter with one term that needs services -/

theorem needs_busy {g : VTerm} : Needs g ↔ Busy g := by
  unfold Needs Busy appOf
  dsimp only
  constructor
  · intro h
    refine Classical.byContradiction fun hn => h ?_
    rw [not_or, not_or] at hn
    exact ⟨Classical.not_not.1 hn.1, Classical.not_not.1 hn.2.1, Classical.not_not.1 hn.2.2⟩
  · rintro h ⟨h1, h2, h3⟩
    rcases h with h | h | h
    · exact h h1
    · exact h h2
    · exact h h3

theorem versa_whole {f : Filter} {o : Output} {st : State} {b : Block} {af : String} (v : VersaOne f o st b af)
    (small : ∀ g ∈ f.terms, Small g) : b.outs.map Prod.fst = f.terms := by
  rw [v.rendered.outs, ← v.filter, ← v.rendered.terms]
  have : ∀ x ∈ b.pieces, x.2 = [x.1] := by
    intro x hx
    rcases v.rendered.cut x hx with h | h
    · exact h
    · refine absurd (small x.1 ?_) h.1
      rw [← v.filter, ← v.rendered.terms]
      exact List.mem_map.2 ⟨x, hx, rfl⟩
  generalize b.pieces = l at this
  induction l with
  | nil => rfl
  | cons x l ih =>
    rw [List.flatMap_cons, List.map_cons, this x (List.mem_cons_self ..), ih fun y hy => this y (List.mem_cons_of_mem _ hy)]
    rfl

/-- Names of a rule with services are the names of what is defined. -/
theorem VersaOne.services {f : Filter} {o : Output} {st : State} {b : Block} {af : String} (v : VersaOne f o st b af)
    (alone : (b.outs.map Prod.fst).Pairwise fun g g' => ¬ (Live g ∧ Busy g ∧ Live g' ∧ Busy g'))
    {x : VTerm × List VRule} (hx : x ∈ b.outs) {r : VRule} (hr : r ∈ x.2) (hb : Busy x.1) (hg : o.groups ≠ []) :
    r.services = (List.range (x.1.base.term.protocol.erase "icmp").length).map (fun j => Verif.Versa.serviceName r.name (j + 1)) ∧
    o.services = (if x.1.base.term.protocol.erase "icmp" = [] then [""] else x.1.base.term.protocol.erase "icmp").zipIdx.map fun e =>
      ⟨Verif.Versa.serviceName r.name (e.2 + 1), PyStr.upper e.1.toList, x.1.base.term.sourcePort, x.1.base.term.destinationPort⟩ := by
  have hl : Live x.1 := Classical.byContradiction fun hn => by rw [v.rendered.dead x hx hn] at hr; cases hr
  obtain ⟨hn, hcar⟩ := v.rendered.carries x hx r hr
  have happs := v.apps (alone.imp fun h => by simpa only [needs_busy] using h) x.1 (List.mem_map.2 ⟨x, hx, rfl⟩) hl (needs_busy.2 hb)
    (kept_of v.family hcar)
  have hmem : r ∈ st.rules := by
    rw [v.rules]
    exact List.mem_flatMap.2 ⟨x, hx, hr⟩
  obtain ⟨r', hr', e1, e2⟩ := v.entered.rule (appOf x.1) (by rw [happs]; exact List.mem_singleton.2 rfl)
  have hnd : (st.rules.map VRule.name).Nodup := by rw [v.rules]; exact v.rendered.names
  have : r' = r := versa_map_inj hnd hr' hmem (e1.trans hn.symm)
  subst this
  refine ⟨by rw [e2, ← e1]; rfl, ?_⟩
  rw [v.out] at hg ⊢
  unfold outputOf at hg ⊢
  split
  next h0 => rw [if_pos h0] at hg; exact absurd rfl hg
  · dsimp only
    rw [happs]
    unfold Verif.Versa.servicesOf
    have e3 : Verif.isort (fun x y : App => !strLt y.name x.name) [appOf x.1] = [appOf x.1] := rfl
    rw [e3, List.flatMap_cons, List.flatMap_nil, List.append_nil, List.zipIdx_map, List.map_map]
    have e4 : Verif.Versa.protosOf (appOf x.1) =
        if x.1.base.term.protocol.erase "icmp" = [] then [""] else x.1.base.term.protocol.erase "icmp" := by
      unfold Verif.Versa.protosOf appOf
      dsimp only
      simp only [List.isEmpty_iff]
    rw [e4, hn]
    rfl

/-- C153: if the policy has one filter of the platform with one term that needs services, and there are addresses, then its rule refers
to services that are defined once, one for each protocol with the ports of the term. -/
theorem C153_partial {fs : List Filter} {f : Filter} {o : Output} (one : fs.filter Filter.here = [f]) (h : output fs = .ok o)
    (small : ∀ g ∈ f.terms, Small g) (alone : f.terms.Pairwise fun g g' => ¬ (Live g ∧ Busy g ∧ Live g' ∧ Busy g')) (hg : o.groups ≠ []) :
    ∃ b : Block, b.filter = f ∧ Rendered b ∧ o.rules = b.rules ∧ ∀ x ∈ b.outs, ∀ r ∈ x.2,
      r.services.length = (x.1.base.term.protocol.erase "icmp").length ∧
      ∀ i (hi : i < r.services.length) (hj : i < (x.1.base.term.protocol.erase "icmp").length), ∀ s,
        (s ∈ o.services ∧ s.name = r.services[i]) ↔ s = ⟨r.services[i], (x.1.base.term.protocol.erase "icmp")[i].toList.map Char.toUpper,
          x.1.base.term.sourcePort, x.1.base.term.destinationPort⟩ := by
  obtain ⟨st, b, af, v⟩ := versa_one one h
  have houts := versa_whole v small
  refine ⟨b, v.filter, v.rendered, ?_, fun x hx r hr => ?_⟩
  · rw [v.out, ← v.rules]
    unfold outputOf
    split <;> rfl
  · by_cases hb : Busy x.1
    · obtain ⟨e1, e2⟩ := v.services (by rw [houts]; exact alone) hx hr hb hg
      have hlen : r.services.length = (x.1.base.term.protocol.erase "icmp").length := by rw [e1]; simp
      refine ⟨hlen, fun i hi hj s => ?_⟩
      have hne : x.1.base.term.protocol.erase "icmp" ≠ [] := by
        intro h0
        rw [h0] at hj
        exact absurd hj (Nat.not_lt_zero _)
      rw [if_neg hne] at e2
      have e3 : r.services[i] = Verif.Versa.serviceName r.name (i + 1) := by simp [e1]
      rw [e3, e2]
      constructor
      · rintro ⟨hs, en⟩
        obtain ⟨e, he, rfl⟩ := List.mem_map.1 hs
        obtain ⟨_, ei⟩ := versa_service_inj en
        have ei : e.2 = i := by omega
        subst ei
        have := (List.mem_zipIdx' he).2
        rw [← this]
        rfl
      · rintro rfl
        refine ⟨List.mem_map.2 ⟨((x.1.base.term.protocol.erase "icmp")[i], i), ?_, rfl⟩, rfl⟩
        exact List.mem_zipIdx_iff_getElem?.2 (List.getElem?_eq_getElem hj)
    · have hcar := (v.rendered.carries x hx r hr).2
      have h0 : x.1.base.term.protocol.erase "icmp" = [] := Classical.byContradiction fun hn => hb (.inr (.inr hn))
      have hs : r.services = [] := by
        rcases hcar.services with h | h
        · exact h
        · rw [h, h0]; rfl
      refine ⟨by rw [hs, h0]; rfl, fun i hi => ?_⟩
      rw [hs] at hi
      exact absurd hi (Nat.not_lt_zero _)

/-! ### decisions -/

/-- A term whose rule does what the term says, in a filter between the zones. -/
structure VersaFits (a b : String) (p : Packet) (g : VTerm) : Prop where
  keywords : initCheck Verif.Versa.tables [([Verif.Versa.tables.platform], [kterm g.base.term])] = .ok ()
  untagged : Untagged g.base.term
  family : FamilyOk p.ver g.base.term
  option : g.base.term.option = []
  apps : g.apps = []
  action : ∃ u ∈ ["accept", "deny", "reject"], g.base.term.action = [u]
  src : ∀ n ∈ g.base.term.sourceAddress, WF n
  dst : ∀ n ∈ g.base.term.destinationAddress, WF n
  srcAll : g.base.term.sourceAddressExclude = []
  dstAll : g.base.term.destinationAddressExclude = []
  srcZone : g.base.term.sourceZone = [] → a = "all" → g.base.term.sourceAddress = []
  dstZone : g.base.term.destinationZone = [] → b = "all" → g.base.term.destinationAddress = []
  protos : ∀ s ∈ g.base.term.protocol, s ∈ ["tcp", "udp", "sctp", "esp", "ah", "gre", "igmp", "pim", "ospf", "icmp"]
  ports : g.base.term.sourcePort ≠ [] ∨ g.base.term.destinationPort ≠ [] →
    g.base.term.protocol ≠ [] ∧ ∀ s ∈ g.base.term.protocol, s ∈ ["tcp", "udp", "sctp"]
  dscp : ∀ d ∈ g.base.term.dscpMatch, ∃ k : Int, pyInt d.toList = some k ∧ 0 ≤ k ∧ k ≤ 63

theorem versa_tables_ok : ∀ e ∈ Verif.Versa.tables.subTokens, e.1 ∈ Verif.Versa.tables.tokens := by decide

theorem versa_matches {a b : String} {p : Packet} {g : VTerm} (fit : VersaFits a b p g) (hl : Live g)
    (hi : g.base.term.icmpType = []) : Matches g.base.term p ↔
    ((g.base.term.sourceAddress = [] ∨ Den g.base.term.sourceAddress p.ver p.src) ∧ OneOf g.base.term.sourceZone p.srcZone) ∧
    ((g.base.term.destinationAddress = [] ∨ Den g.base.term.destinationAddress p.ver p.dst) ∧ OneOf g.base.term.destinationZone p.dstZone) ∧
    (OneOf g.base.term.protocol p.proto ∧ PortMatch g.base.term.sourcePort p.sport ∧ PortMatch g.base.term.destinationPort p.dport) ∧
    OneOf g.base.term.dscpMatch p.dscp := by
  have ha : Active Verif.Versa.tables.platform (kterm g.base.term) := ⟨hl.2.2.1, hl.2.2.2.1⟩
  have bas : Basic (noZone g.base.term) := basic_of_zone versa_tables_ok rfl (by decide) ha fit.keywords
  have un := fun (s : String) {v : Val} => unset (g := Verif.Versa.tables) versa_tables_ok rfl ha fit.keywords s (v := v)
  have h1 : g.base.term.protocolExcept = [] := Cisco.wordsVal_falsy (un "protocol_except" (by simp [attrsOf]) (by decide))
  have h2 : g.base.term.icmpCode = [] := Cisco.listVal_falsy (un "icmp_code" (by simp [attrsOf]) (by decide))
  have h3 : g.base.term.dscpExcept = [] := Cisco.wordsVal_falsy (un "dscp_except" (by simp [attrsOf]) (by decide))
  rw [matches_zone bas fit.untagged fit.family]
  unfold MatchProto AddrMatch
  rw [h1, h2, h3, fit.option, fit.srcAll, fit.dstAll, hi]
  have nd : ∀ v x, ¬ Den [] v x := by rintro v x ⟨n, hn, _⟩; cases hn
  constructor
  · rintro ⟨⟨⟨⟨a1, _⟩, a2, _⟩, ⟨a3, _⟩, ⟨a4, a5⟩, _⟩, ⟨a6, a7⟩, a8, _⟩
    exact ⟨⟨a1, a6⟩, ⟨a2, a7⟩, ⟨a3, a4, a5⟩, a8⟩
  · rintro ⟨⟨a1, a6⟩, ⟨a2, a7⟩, ⟨a3, a4, a5⟩, a8⟩
    exact ⟨⟨⟨⟨a1, nd _ _⟩, a2, nd _ _⟩, ⟨a3, by simp⟩, ⟨a4, a5⟩, ⟨.inl rfl, .inl rfl⟩, by simp⟩, ⟨a6, a7⟩, a8, by simp⟩

theorem versa_side {o : Output} {af : Option String} {own : List String} {z zone : String} {group : Str} {inc : List Net} {s : Option Side}
    (hs : Sided af own z group inc [] s) (hh : Holds o af inc s) (hw : ∀ n ∈ inc, WF n) (hz : own = [] → z = "all" → inc = [])
    {v : Ver} {x : Nat} (ha : About af v) :
    SideHits o s zone v x ↔ ZoneIs own z zone ∧ (inc = [] ∨ Den inc v x) ∧ OneOf own zone := by
  unfold SideHits ZoneIs OneOf
  cases s with
  | none =>
    obtain ⟨e1, e2⟩ := hs.any.1 rfl
    have e3 := hz e1 e2
    refine iff_of_true (by intro a h; cases h) ⟨.inr (.inl e2), .inl e3, .inl e1⟩
  | some y =>
    have hne : ¬ (own = [] ∧ z = "all") := fun h => by have := hs.any.2 h; cases this
    have zones : zone ∈ y.zones ↔ (own ≠ [] ∨ z = "all" ∨ z = zone) ∧ (own = [] ∨ zone ∈ own) := by
      rcases hs.zones y rfl with ⟨h1, h2⟩ | ⟨h1, h2⟩
      · rw [h2]; simp [h1]
      · have : z ≠ "all" := fun h => hne ⟨h1, h⟩
        rw [h2]; simp [h1, this, eq_comm]
    have neg : y.negate = false := by
      cases hn : y.negate with
      | false => rfl
      | true => exact absurd rfl ((hs.negate y rfl).1 hn).2
    have group : (Flat.IfSet y.group fun g => if y.negate then ¬ GroupHas o g v x else GroupHas o g v x) ↔ (inc = [] ∨ Den inc v x) := by
      unfold Flat.IfSet
      simp only [neg, Bool.false_eq_true, if_false]
      by_cases h0 : inc = []
      · have := hs.group y rfl
        rw [if_pos h0] at this
        rw [this]
        exact iff_of_true (fun a h => by cases h) (.inl h0)
      · have hg := hs.group y rfl
        rw [if_neg h0] at hg
        obtain ⟨ms, h1, h2⟩ := hh y _ rfl hg
        rw [hg]
        simp only [Option.some.injEq, forall_eq', h0, false_or]
        unfold GroupHas
        constructor
        · rintro ⟨ms', hm, m, hmm, n, hn, hc⟩
          rw [(h1 ms').1 hm] at hmm
          obtain ⟨hi, _⟩ := (h2 n).1 ⟨m, hmm, hn⟩
          exact ⟨n, hi, (Flat.covers_iff (hw n hi) v x).1 hc⟩
        · rintro ⟨n, hn, hm⟩
          obtain ⟨m, hmm, hma⟩ := (h2 n).2 ⟨hn, by rw [hm.1]; exact ha⟩
          exact ⟨ms, (h1 ms).2 rfl, m, hmm, n, hma, (Flat.covers_iff (hw n hn) v x).2 hm⟩
    have : (Flat.IfSet (some y) fun s => zone ∈ s.zones ∧ Flat.IfSet s.group fun g => if s.negate then ¬ GroupHas o g v x else GroupHas o g v x) ↔
        (zone ∈ y.zones ∧ Flat.IfSet y.group fun g => if y.negate then ¬ GroupHas o g v x else GroupHas o g v x) := by
      unfold Flat.IfSet
      simp only [Option.some.injEq, forall_eq']
    rw [this, zones, group]
    constructor
    · rintro ⟨⟨a1, a2⟩, a3⟩; exact ⟨a1, a3, a2⟩
    · rintro ⟨a1, a3, a2⟩; exact ⟨⟨a1, a2⟩, a3⟩

theorem versa_protos : ∀ s ∈ ["tcp", "udp", "sctp", "esp", "ah", "gre", "igmp", "pim", "ospf", "icmp"], ∀ q ∈ iana,
    (∃ e ∈ Spec.Versa.serviceProtos, e.1.toList = PyStr.upper s.toList ∧ (q.2 : Int) = e.2) ↔ q.1 = s ∧ s ≠ "icmp" := by decide

theorem versa_known : ∀ s ∈ ["tcp", "udp", "sctp", "esp", "ah", "gre", "igmp", "pim", "ospf", "icmp"], ∃ q ∈ iana, q.1 = s := by decide

theorem versa_icmp : ∀ q ∈ iana, q.2 = 1 ↔ q.1 = "icmp" := by decide

theorem versa_number {s : String} (hs : s ∈ ["tcp", "udp", "sctp", "esp", "ah", "gre", "igmp", "pim", "ospf", "icmp"]) {p : Packet} :
    (∃ e ∈ Spec.Versa.serviceProtos, e.1.toList = PyStr.upper s.toList ∧ Flat.NumberIs p e.2) ↔ p.proto = s ∧ s ≠ "icmp" := by
  constructor
  · rintro ⟨e, he, e1, k, hk, e2⟩
    exact (versa_protos s hs _ hk).1 ⟨e, he, e1, e2.symm⟩
  · rintro ⟨rfl, hne⟩
    obtain ⟨⟨q, k⟩, hq, e⟩ := versa_known _ hs
    dsimp only at e
    subst e
    obtain ⟨e, he, e1, e2⟩ := (versa_protos _ hs _ hq).2 ⟨rfl, hne⟩
    exact ⟨e, he, e1, k, hq, e2.symm⟩

theorem versa_ports {l : List PortRange} {p : Packet} {x : Nat} (h : l ≠ [] → p.proto ∈ ["tcp", "udp", "sctp"]) :
    (l = [] ∨ ∃ r ∈ l, Flat.PortIn p x r) ↔ PortMatch l x := by
  unfold PortMatch PMem Flat.PortIn
  by_cases h0 : l = []
  · exact iff_of_true (.inl h0) (.inl h0)
  · refine or_congr_right (exists_congr fun r => and_congr_right fun _ => and_iff_right ?_)
    have := h h0
    simp only [List.mem_cons, List.not_mem_nil, or_false] at this
    unfold Flat.portProtos
    rcases this with h | h | h <;> simp [h]

/-- The services of a rule match what the term says. -/
theorem versa_service {a b : String} {p : Packet} {g : VTerm} (fit : VersaFits a b p g) {o : Output} {r : VRule}
    (hpre : r.predefined = g.apps ++ if "icmp" ∈ g.base.term.protocol then ["ICMP"] else [])
    (hsv : g.base.term.protocol.erase "icmp" = [] → r.services = [])
    (hdef : g.base.term.protocol.erase "icmp" ≠ [] →
      r.services = (List.range (g.base.term.protocol.erase "icmp").length).map (fun j => Verif.Versa.serviceName r.name (j + 1)) ∧
      o.services = (g.base.term.protocol.erase "icmp").zipIdx.map fun e =>
        ⟨Verif.Versa.serviceName r.name (e.2 + 1), PyStr.upper e.1.toList, g.base.term.sourcePort, g.base.term.destinationPort⟩) :
    ((r.services = [] ∧ r.predefined = []) ∨ (∃ s ∈ r.services, ServiceHits o p s) ∨ ∃ s ∈ r.predefined, PredefinedHits p s) ↔
    OneOf g.base.term.protocol p.proto ∧ PortMatch g.base.term.sourcePort p.sport ∧ PortMatch g.base.term.destinationPort p.dport := by
  rw [fit.apps, List.nil_append] at hpre
  have pre : (∃ s ∈ r.predefined, PredefinedHits p s) ↔ "icmp" ∈ g.base.term.protocol ∧ p.proto = "icmp" := by
    rw [hpre]
    unfold PredefinedHits Flat.NumberIs
    constructor
    · rintro ⟨s, hs, _, k, hk, e⟩
      split at hs
      next hm => exact ⟨hm, (versa_icmp _ hk).1 (by exact_mod_cast e.symm)⟩
      · cases hs
    · rintro ⟨hm, e⟩
      rw [if_pos hm]
      exact ⟨"ICMP", List.mem_singleton.2 rfl, rfl, 1, by rw [e]; decide, rfl⟩
  have noports : "icmp" ∈ g.base.term.protocol ∨ g.base.term.protocol = [] → g.base.term.sourcePort = [] ∧ g.base.term.destinationPort = [] := by
    intro hm
    refine Classical.byContradiction fun hn => ?_
    have : g.base.term.sourcePort ≠ [] ∨ g.base.term.destinationPort ≠ [] := by
      by_cases h1 : g.base.term.sourcePort = []
      · exact .inr fun h2 => hn ⟨h1, h2⟩
      · exact .inl h1
    obtain ⟨h1, h2⟩ := fit.ports this
    rcases hm with hm | hm
    · exact absurd (h2 _ hm) (by decide)
    · exact h1 hm
  by_cases h0 : g.base.term.protocol.erase "icmp" = []
  · have hs := hsv h0
    rw [hs, pre]
    have hpr : g.base.term.protocol = [] ∨ g.base.term.protocol = ["icmp"] := by
      cases hl : g.base.term.protocol with
      | nil => exact .inl rfl
      | cons s l =>
        rw [hl, List.erase_cons] at h0
        split at h0
        next he => rw [h0, beq_iff_eq.1 he]; exact .inr rfl
        · cases h0
    have np := noports (hpr.elim .inr fun h => .inl (by rw [h]; exact List.mem_singleton.2 rfl))
    rw [np.1, np.2]
    rcases hpr with h | h
    · rw [hpre, h]
      exact iff_of_true (.inl ⟨rfl, rfl⟩) ⟨.inl rfl, .inl rfl, .inl rfl⟩
    · rw [hpre, h]
      unfold OneOf PortMatch
      simp
  · obtain ⟨e1, e2⟩ := hdef h0
    have hne : ¬ (r.services = [] ∧ r.predefined = []) := by
      rintro ⟨h, _⟩
      rw [e1, List.map_eq_nil_iff, List.range_eq_nil, List.length_eq_zero_iff] at h
      exact h0 h
    have sub : ∀ s ∈ g.base.term.protocol.erase "icmp", s ∈ g.base.term.protocol := fun s hs => List.mem_of_mem_erase hs
    have svc : (∃ s ∈ r.services, ServiceHits o p s) ↔ (p.proto ∈ g.base.term.protocol.erase "icmp" ∧ p.proto ≠ "icmp") ∧
        (g.base.term.sourcePort = [] ∨ ∃ q ∈ g.base.term.sourcePort, Flat.PortIn p p.sport q) ∧
        (g.base.term.destinationPort = [] ∨ ∃ q ∈ g.base.term.destinationPort, Flat.PortIn p p.dport q) := by
      unfold ServiceHits
      rw [e1, e2]
      constructor
      · rintro ⟨_, _, s, hs, _, hp, h1, h2⟩
        obtain ⟨e, he, rfl⟩ := List.mem_map.1 hs
        have hm : e.1 ∈ g.base.term.protocol.erase "icmp" := (List.mem_zipIdx' he).2 ▸ List.getElem_mem _
        obtain ⟨a1, a2⟩ := (versa_number (fit.protos _ (sub _ hm))).1 hp
        exact ⟨⟨a1 ▸ hm, a1 ▸ a2⟩, h1, h2⟩
      · rintro ⟨⟨hm, hi⟩, h1, h2⟩
        obtain ⟨j, hj, e⟩ := List.getElem_of_mem hm
        refine ⟨_, List.mem_map.2 ⟨j, List.mem_range.2 hj, rfl⟩, _, List.mem_map.2 ⟨(p.proto, j),
          List.mem_zipIdx_iff_getElem?.2 (by rw [List.getElem?_eq_getElem hj, e]), rfl⟩, rfl, ?_, h1, h2⟩
        exact (versa_number (fit.protos _ (sub _ hm))).2 ⟨rfl, hi⟩
    rw [or_iff_right hne, svc, pre]
    have pp : p.proto ∈ g.base.term.protocol → ∀ l, l = g.base.term.sourcePort ∨ l = g.base.term.destinationPort →
        l ≠ [] → p.proto ∈ ["tcp", "udp", "sctp"] := by
      rintro hm l (rfl | rfl) hl
      · exact (fit.ports (.inl hl)).2 _ hm
      · exact (fit.ports (.inr hl)).2 _ hm
    have hpn : g.base.term.protocol ≠ [] := fun h => h0 (by rw [h]; rfl)
    constructor
    · rintro (⟨⟨hm, _⟩, h1, h2⟩ | ⟨hm, hi⟩)
      · have hm := sub _ hm
        exact ⟨.inr hm, (versa_ports (pp hm _ (.inl rfl))).1 h1, (versa_ports (pp hm _ (.inr rfl))).1 h2⟩
      · obtain ⟨n1, n2⟩ := noports (.inl hm)
        rw [n1, n2, hi]
        exact ⟨.inr hm, .inl rfl, .inl rfl⟩
    · rintro ⟨h | hm, h1, h2⟩
      · exact absurd h hpn
      · by_cases hi : p.proto = "icmp"
        · rw [hi] at hm
          exact .inr ⟨hm, hi⟩
        · refine .inl ⟨⟨(List.mem_erase_of_ne hi).2 hm, hi⟩, (versa_ports (pp hm _ (.inl rfl))).2 h1, (versa_ports (pp hm _ (.inr rfl))).2 h2⟩

/-- C154: for a policy with one filter of the platform, in which one term at most needs services, and there are addresses if one does,
the firewall does with a packet what the first term that matches says. -/
theorem C154_partial {fs : List Filter} {f : Filter} {o : Output} (one : fs.filter Filter.here = [f]) (h : output fs = .ok o)
    {a b : String} {ns : List (String × String)} {af : Option String} (hd : Head f.options a b ns af) {p : Packet} (ha : About af p.ver)
    (small : ∀ g ∈ f.terms, Small g) (fits : ∀ g ∈ f.terms, Live g → VersaFits a b p g)
    (alone : f.terms.Pairwise fun g g' => ¬ (Live g ∧ Busy g ∧ Live g' ∧ Busy g'))
    (anchor : ∀ g ∈ f.terms, Live g → Busy g → ∃ g' ∈ f.terms, Live g' ∧ ∃ n ∈ g'.base.term.sourceAddress, About af n.ver) (w : String) :
    Decides o p w ↔ First (Wants a b p) f.terms w := by
  obtain ⟨st, blk, fam, v⟩ := versa_one one h
  have houts := versa_whole v small
  have hhead := v.rendered.head
  rw [v.filter] at hhead
  obtain ⟨ea, eb, _, eaf⟩ := head_unique hd hhead
  subst ea; subst eb; subst eaf
  have hrules : o.rules = blk.outs.flatMap Prod.snd := by
    rw [v.out]
    show _ = blk.rules
    rw [← v.rules]
    unfold outputOf
    split <;> rfl
  have names : ∀ e ∈ Spec.Versa.verdicts, ∀ e' ∈ Spec.Versa.verdicts, e.1 = e'.1 → e.2 = e'.2 := by decide
  unfold Decides
  rw [hrules, first_blocks (want := Wants blk.src blk.dst p), houts]
  · rintro g w w' ⟨_, _, _, _, u, hu, hw⟩ ⟨_, _, _, _, u', hu', hw'⟩
    rw [hu] at hu'
    cases hu'
    exact names _ hw _ hw' rfl
  · intro x hx w
    have hxt : x.1 ∈ f.terms := by rw [← houts]; exact List.mem_map.2 ⟨x, hx, rfl⟩
    by_cases hl : Live x.1
    · have fit := fits x.1 hxt hl
      cases hr : x.2 with
      | nil =>
        refine iff_of_false (by simp) ?_
        rintro ⟨_, _, _, hm, _⟩
        obtain ⟨⟨_, ⟨m1, _⟩, m2, _⟩, _⟩ := hm
        have none : ∀ {l : List Net} {y : Nat}, Void blk.family l → ¬ (l = [] ∨ Den l p.ver y) := by
          rintro l y ⟨h1, h2⟩ (h | ⟨n, hn, hm⟩)
          · exact h1 h
          · exact h2 n hn (by rw [hm.1]; exact ha)
        rcases v.rendered.void x hx hl hr with h | h
        · exact none h m1
        · exact none h m2
      | cons r rest =>
        have hrest : rest = [] := by
          have := v.rendered.one x hx
          rw [hr, List.length_cons] at this
          exact List.length_eq_zero_iff.1 (by omega)
        subst hrest
        have hrm : r ∈ x.2 := by rw [hr]; exact List.mem_singleton.2 rfl
        obtain ⟨_, hcar⟩ := v.rendered.carries x hx r hrm
        obtain ⟨g1, g2⟩ := v.holds hx hrm
        have c1 := hcar.src
        have c2 := hcar.dst
        rw [fit.srcAll] at c1
        rw [fit.dstAll] at c2
        have s1 := versa_side (zone := p.srcZone) (x := p.src) c1 g1 fit.src fit.srcZone ha
        have s2 := versa_side (zone := p.dstZone) (x := p.dst) c2 g2 fit.dst fit.dstZone ha
        have groups : Busy x.1 → o.groups ≠ [] := by
          intro hb h0
          obtain ⟨g', hg', hl', n, hn, hab⟩ := anchor x.1 hxt hl hb
          have hadm : n ∈ Verif.Srx.admitted fam g'.base.term.sourceAddress := List.mem_filter.2 ⟨hn, (v.family n.ver).2 hab⟩
          have hne : Verif.Srx.admitted fam g'.base.term.sourceAddress ≠ [] := fun h => by rw [h] at hadm; cases hadm
          obtain ⟨k, hk⟩ := (v.inBook g' (by rw [houts]; exact hg') hl' fun h => hne h.2).1 hne
          rw [v.out] at h0
          unfold outputOf at h0
          split at h0
          next he => rw [List.isEmpty_iff] at he; rw [he] at hk; cases hk
          · rw [List.map_eq_nil_iff] at h0; rw [h0] at hk; cases hk
        have sv := versa_service fit (o := o) hcar.predefined
          (by
            intro h0
            rcases hcar.services with h | h
            · exact h
            · rw [h, h0]; rfl)
          (by
            intro h0
            have hb : Busy x.1 := .inr (.inr h0)
            have := v.services (by rw [houts]; exact alone) hx hrm hb (groups hb)
            rw [if_neg h0] at this
            exact this)
        have ds : OneOf r.dscp p.dscp ↔ OneOf x.1.base.term.dscpMatch p.dscp := by
          have same : ∀ d, d ∈ r.dscp ↔ d ∈ x.1.base.term.dscpMatch := fun d => by
            rw [hcar.dscp]
            exact and_iff_left_of_imp (fit.dscp d)
          unfold OneOf
          rw [same, List.eq_nil_iff_forall_not_mem, List.eq_nil_iff_forall_not_mem]
          simp only [same]
        obtain ⟨u, hu, hact⟩ := fit.action
        obtain ⟨e, he, _⟩ := hcar.act u [] hact
        have verdict : ∀ u ∈ ["accept", "deny", "reject"], (u, if u = "accept" then "allow" else u) ∈ Spec.Versa.verdicts := by decide
        simp only [List.mem_singleton, exists_eq_left]
        unfold Wants
        rw [versa_matches fit hl hcar.icmpType]
        constructor
        · rintro ⟨⟨h1, h2, h3, h4⟩, e', he'⟩
          rw [he] at he'
          obtain ⟨z1, m1, o1⟩ := s1.1 h1
          obtain ⟨z2, m2, o2⟩ := s2.1 h2
          refine ⟨hl, z1, z2, ⟨⟨m1, o1⟩, ⟨m2, o2⟩, sv.1 h3, ds.1 h4⟩, u, hact, ?_⟩
          have : w = if u = "accept" then "allow" else u := by
            injection he' with he'
            exact (congrArg Prod.fst he').symm
          rw [this]
          exact verdict u hu
        · rintro ⟨_, z1, z2, ⟨⟨m1, o1⟩, ⟨m2, o2⟩, h3, h4⟩, u', hu', hw⟩
          rw [hact] at hu'
          cases hu'
          refine ⟨⟨s1.2 ⟨z1, m1, o1⟩, s2.2 ⟨z2, m2, o2⟩, sv.2 h3, ds.2 h4⟩, e, ?_⟩
          have : (if u = "accept" then "allow" else u) = w := names _ (verdict u hu) _ hw rfl
          rw [he, this]
    · rw [v.rendered.dead x hx hl]
      exact iff_of_false (by simp) fun hw => hl hw.1

end Verif.Props
