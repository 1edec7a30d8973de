import Verif.Lemmas.PanGroup

/-!
The rules of the Palo Alto generator: the addresses, services and applications they match.
-/

namespace Verif.Pan
open Verif Verif.Spec Policy Aclgenerator Nacaddr
open Verif.Srx (Zones upsert look Tidy removeAll)
open Verif.Spec.Pan (Live Use Side About familyOf Neat Steady Aligned Plain Has MemberHas SideHas)

/-! ### members -/

theorem groups_keys {b : Zones} (ht : Tidy b) : ((groupsDict b).map Prod.fst).Nodup ∧
    ∀ t, t ∈ (groupsDict b).map Prod.fst ↔ ∃ z, look b z t ≠ [] := by
  obtain ⟨h1, h2⟩ := fold_keys (d := fun _ : String × List Net => ([] : List String))
    (f := fun e _ => (List.range e.2.length).map (addressName e.1)) (key := Prod.fst) (seq := b.flatMap fun z => z.2) (dict := [])
    List.nodup_nil
  refine ⟨h1, fun t => ?_⟩
  rw [groupsDict, h2]
  simp only [List.map_nil, List.not_mem_nil, false_or]
  constructor
  · rintro ⟨e, he, rfl⟩
    obtain ⟨z, hz, he⟩ := List.mem_flatMap.1 he
    refine ⟨z.1, ?_⟩
    rw [Verif.Srx.look_mem ht hz he]
    exact ht.full z hz e he
  · rintro ⟨z, hz⟩
    obtain ⟨n, hn⟩ := List.exists_mem_of_ne_nil _ hz
    obtain ⟨i, hi⟩ := List.mem_iff_getElem?.1 hn
    have := (names_seq ht (e := (addressName t i, n))).2 ⟨z, t, i, hi, rfl⟩
    obtain ⟨z', hz', h⟩ := List.mem_flatMap.1 this
    obtain ⟨g, hg, h⟩ := List.mem_flatMap.1 h
    obtain ⟨n', _, h⟩ := List.mem_map.1 h
    have := (address_inj (Prod.mk.inj h).1).1
    exact ⟨g, List.mem_flatMap.2 ⟨z', hz', hg⟩, this⟩

theorem names_keys {b : Zones} (ht : Tidy b) : ((namesDict b).map Prod.fst).Nodup ∧
    ∀ s, s ∈ (namesDict b).map Prod.fst ↔ ∃ z t i n, (look b z t)[i]? = some n ∧ s = addressName t i := by
  obtain ⟨h1, h2⟩ := fold_keys (d := fun e : String × Net => e.2) (f := fun e old => if old.supernetOf e.2 then old else e.2)
    (key := Prod.fst) (seq := b.flatMap fun z => z.2.flatMap fun g => g.2.zipIdx.map fun n => (addressName g.1 n.2, n.1)) (dict := [])
    List.nodup_nil
  refine ⟨h1, fun s => ?_⟩
  rw [namesDict, h2]
  simp only [List.map_nil, List.not_mem_nil, false_or]
  constructor
  · rintro ⟨e, he, rfl⟩
    obtain ⟨z, t, i, h3, h4⟩ := (names_seq ht).1 he
    exact ⟨z, t, i, e.2, h3, h4⟩
  · rintro ⟨z, t, i, n, h3, rfl⟩
    exact ⟨(addressName t i, n), (names_seq ht).2 ⟨z, t, i, h3, rfl⟩, rfl⟩

theorem address_ne (t : String) (i : Nat) : addressName t i ≠ "" := by
  intro h
  have := congrArg String.length h
  unfold addressName at this
  rw [String.length_append, String.length_append] at this
  have h1 : "_".length = 1 := rfl
  have h2 : "".length = 0 := rfl
  omega

/-- The token can be the name of a group. -/
def Fine (fs : List Filter) (t : String) : Prop :=
  t ≠ "" ∧ ∀ w, Side fs w → ∀ m ∈ w.inc, ∀ i : Nat, t ≠ m.parent ++ "_" ++ toString i

theorem group_has {fs : List Filter} {es : List Entry} {b : Zones} (k : Known fs es) (hb : BooksOf es b) (ha : Aligned fs)
    (hp : Plain fs) {o : Output} (hg : o.groups = groupsDict b) (hn : o.addresses = namesDict b) {t : String} (ht : Fine fs t) {v : Ver}
    {x : Nat} : Has o v x t ↔ Grp b t v x := by
  obtain ⟨L, hL⟩ := agree k hb ha t
  have td := hb.tidy
  obtain ⟨g1, g2⟩ := groups_keys td
  obtain ⟨n1, n2⟩ := names_keys td
  have gl := groups_lookup td hL
  constructor
  · intro h
    cases h with
    | @address _ n h1 h2 h3 =>
      rw [hn] at h1
      obtain ⟨z, t', i, n', h4, h5⟩ := (n2 t).1 (List.mem_map.2 ⟨_, h1, rfl⟩)
      have : look b z t' ≠ [] := by
        intro e
        rw [e] at h4
        cases h4
      obtain ⟨u, hu, m, hm, rfl⟩ := token_known k hb this
      exact absurd h5 (ht.2 u hu m hm i)
    | @group _ m ms h1 h2 h3 h4 =>
      rw [hg] at h1
      have hlk := Verif.Srx.lookup_nodup g1 h1
      rw [gl] at hlk
      have hz : ∃ z, look b z t ≠ [] := (g2 t).1 (List.mem_map.2 ⟨_, h1, rfl⟩)
      rw [if_pos hz] at hlk
      obtain ⟨z, hz⟩ := hz
      have e := hL z hz
      have hlk : (List.range L.length).map (addressName t) = ms := Option.some.inj hlk
      rw [← hlk] at h3
      obtain ⟨i, hi, rfl⟩ := List.mem_map.1 h3
      rw [List.mem_range] at hi
      have hi' := List.getElem?_eq_getElem hi
      cases h4 with
      | @address _ n h5 h6 h7 =>
        rw [hn] at h5
        have h8 := Verif.Srx.lookup_nodup n1 h5
        rw [names_lookup td hL hz hi'] at h8
        obtain rfl := Option.some.inj h8
        have hm : L[i] ∈ look b z t := by
          rw [e]
          exact List.getElem_mem hi
        exact ⟨z, _, hm, (Flat.covers_iff (book_wf k hb hm) v x).1 h7⟩
      | @group _ _ _ h5 _ _ _ =>
        rw [hg] at h5
        obtain ⟨z', hz'⟩ := (g2 _).1 (List.mem_map.2 ⟨_, h5, rfl⟩)
        obtain ⟨u, hu, n, hm, hn'⟩ := token_known k hb hz'
        obtain ⟨u', hu', n', hm', hn''⟩ := token_known k hb hz
        have := (hp u hu n hm).2 u' hu' n' hm' i
        rw [hn', hn''] at this
        exact absurd rfl this
  · rintro ⟨z, n, h1, h2⟩
    have hz : look b z t ≠ [] := by
      intro e
      rw [e] at h1
      cases h1
    have e := hL z hz
    rw [if_pos ⟨z, hz⟩] at gl
    have hm := h1
    rw [e] at h1
    obtain ⟨i, hi⟩ := List.mem_iff_getElem?.1 h1
    have hl : i < L.length := (List.getElem?_eq_some_iff.1 hi).1
    refine .group (by rw [hg]; exact Cisco.mem_of_lookup' gl) ht.1 (List.mem_map.2 ⟨i, List.mem_range.2 hl, rfl⟩)
      (.address (by rw [hn]; exact Cisco.mem_of_lookup' (names_lookup td hL hz hi)) (address_ne t i)
        ((Flat.covers_iff (book_wf k hb hm) v x).2 h2))

theorem token_members {fs : List Filter} {es : List Entry} {b : Zones} (k : Known fs es) (hb : BooksOf es b) (ha : Aligned fs)
    (hp : Plain fs) {o : Output} {noObj : Bool} (hg : noObj = false → o.groups = groupsDict b ∧ o.addresses = namesDict b) {t : String}
    (ht : Fine fs t) {ms : List Member} (h : membersFor noObj b t = .ok ms) {v : Ver} {x : Nat} :
    (∃ m ∈ ms, MemberHas o v x m) ↔ Grp b t v x := by
  unfold membersFor at h
  cases noObj with
  | false =>
    cases h
    obtain ⟨h1, h2⟩ := hg rfl
    simp only [List.mem_singleton, exists_eq_left]
    exact group_has k hb ha hp h1 h2 ht
  | true =>
    rw [if_pos rfl] at h
    obtain ⟨L, hL⟩ := agree k hb ha t
    have td := hb.tidy
    have gl := groups_lookup td hL
    split at h
    · cases h
    next names hl =>
      rw [gl] at hl
      split at hl
      next hz =>
        obtain ⟨z, hz⟩ := hz
        have e := hL z hz
        obtain rfl := Option.some.inj hl
        have mems : ∀ m, m ∈ ms ↔ ∃ n ∈ L, m = .net n := by
          intro m
          rw [listM_mem h m]
          constructor
          · rintro ⟨s, hs, hm⟩
            obtain ⟨i, hi, rfl⟩ := List.mem_map.1 hs
            rw [List.mem_range] at hi
            rw [names_lookup td hL hz (List.getElem?_eq_getElem hi)] at hm
            cases hm
            exact ⟨_, List.getElem_mem hi, rfl⟩
          · rintro ⟨n, hn, rfl⟩
            obtain ⟨i, hi⟩ := List.mem_iff_getElem?.1 hn
            have hl : i < L.length := (List.getElem?_eq_some_iff.1 hi).1
            refine ⟨addressName t i, List.mem_map.2 ⟨i, List.mem_range.2 hl, rfl⟩, ?_⟩
            rw [names_lookup td hL hz hi]
        have wf : ∀ n ∈ L, WF n := by
          intro n hn
          rw [← e] at hn
          exact book_wf k hb hn
        constructor
        · rintro ⟨m, hm, h1⟩
          obtain ⟨n, hn, rfl⟩ := (mems m).1 hm
          exact ⟨z, n, by rw [e]; exact hn, (Flat.covers_iff (wf n hn) v x).1 h1⟩
        · rintro ⟨z', n, hn, h1⟩
          have hz' : look b z' t ≠ [] := by
            intro e
            rw [e] at hn
            cases hn
          rw [hL z' hz'] at hn
          exact ⟨_, (mems _).2 ⟨n, hn, rfl⟩, (Flat.covers_iff (wf n hn) v x).2 h1⟩
      · cases hl

theorem side_members {fs : List Filter} {es : List Entry} {b : Zones} (k : Known fs es) (hb : BooksOf es b) (ha : Aligned fs)
    (hp : Plain fs) {o : Output} {noObj : Bool} (hg : noObj = false → o.groups = groupsDict b ∧ o.addresses = namesDict b) {af : String}
    {tokens other : List String} (hne : tokens ≠ []) (ht : ∀ t ∈ tokens, Fine fs t) {ms : List Member}
    (h : sideMembers noObj b af tokens other = .ok ms) {v : Ver} {x : Nat} :
    (∃ m ∈ ms, MemberHas o v x m) ↔ ∃ t ∈ tokens, Grp b t v x := by
  unfold sideMembers at h
  rw [if_neg (by simpa using hne)] at h
  obtain ⟨l, hl, h⟩ := bind_ok h
  obtain rfl := ite_ok h
  constructor
  · rintro ⟨m, hm, h1⟩
    obtain ⟨c, hc, hm⟩ := List.mem_flatten.1 hm
    obtain ⟨t, h2, h3⟩ := (listM_mem hl c).1 hc
    exact ⟨t, h2, (token_members k hb ha hp hg (ht t h2) h3).1 ⟨m, hm, h1⟩⟩
  · rintro ⟨t, h2, h3⟩
    obtain ⟨c, hc⟩ := Cisco.listM_each hl t h2
    obtain ⟨m, hm, h4⟩ := (token_members k hb ha hp hg (ht t h2) hc).2 h3
    exact ⟨m, List.mem_flatten.2 ⟨c, (listM_mem hl c).2 ⟨t, h2, hc⟩, hm⟩, h4⟩

theorem iff_and_right {p q : Prop} (h : q) : (p ∧ q) = p := propext ⟨fun h => h.1, fun hp => ⟨hp, h⟩⟩

theorem plain_tokens {fs : List Filter} {es : List Entry} (k : Known fs es) (hp : Plain fs) {e : Entry} (he : e ∈ es) {u : Use}
    {r : List Net} {z : String} (hu : SideOf e u r z) : ∀ t ∈ tokensOf (r.flatMap subnets3), Fine fs t := by
  have s := k.side he hu
  intro t ht
  obtain ⟨n, hn, rfl⟩ := (mem_tokens s.is.wf).1 ht
  exact hp u s.side n (s.is.mem n hn)

/-- One side of a rule, if not both are for any address. -/
theorem one_side {fs : List Filter} {es : List Entry} {b : Zones} (k : Known fs es) (hb : BooksOf es b) (ha : Aligned fs)
    (hp : Plain fs) {o : Output} {noObj : Bool} (hg : noObj = false → o.groups = groupsDict b ∧ o.addresses = namesDict b) {af : String}
    {e : Entry} (he : e ∈ es) {u : Use} {r : List Net} {z : String} (hu : SideOf e u r z) {other : List String}
    (hne : r = [] → other ≠ []) {ms : List Member} (h : sideMembers noObj b af (tokensOf (r.flatMap subnets3)) other = .ok ms) {v : Ver}
    {x : Nat} : (∃ m ∈ ms, MemberHas o v x m) ↔ r = [] ∨ ∃ t ∈ tokensOf (r.flatMap subnets3), Grp b t v x := by
  by_cases hr : r = []
  · refine iff_of_true ?_ (.inl hr)
    unfold sideMembers at h
    rw [tokens_nil.2 hr] at h
    have : other.isEmpty = false := by simpa using hne hr
    rw [if_pos (by rfl), this] at h
    cases h
    exact ⟨.any, by simp, trivial⟩
  · rw [or_iff_right hr]
    exact side_members k hb ha hp hg (fun e => hr (tokens_nil.1 e)) (plain_tokens k hp he hu) h

/-- The addresses a rule matches. -/
theorem rule_sides {fs : List Filter} {es : List Entry} {b : Zones} (k : Known fs es) (hb : BooksOf es b) (ha : Aligned fs)
    (hp : Plain fs) (hs : Steady fs) {o : Output} {e : Entry} (he : e ∈ es)
    (hg : e.h.noObj = false → o.groups = groupsDict b ∧ o.addresses = namesDict b) {ex : List Ver} (hex : e.d.ex = some ex) {nm : Str}
    {opts : Options} {R : PRule} (h : ruleOf e.h b (nm, opts) = .ok R) (h1 : opts.source = tokensOf (e.d.src.flatMap subnets3))
    (h2 : opts.destination = tokensOf (e.d.dst.flatMap subnets3)) (hany : Member.anyIpv4 ∈ R.src → o.anyIpv4 = true) {v : Ver}
    {x y : Nat} : (SideHas o R.negate R.src v x ∧ SideHas o R.negate R.dst v y) ↔
      About e.f.options v ∧ AddrMatch e.d.g.term.sourceAddress e.d.g.term.sourceAddressExclude v x ∧
        AddrMatch e.d.g.term.destinationAddress e.d.g.term.destinationAddressExclude v y := by
  unfold ruleOf at h
  dsimp only at h
  rw [h1, h2] at h
  obtain ⟨sm, hsm, h⟩ := bind_ok h
  obtain ⟨dm, hdm, h⟩ := bind_ok h
  cases h
  dsimp only at hany ⊢
  obtain ⟨_, _, h3, h4⟩ := header_spec (k.header e he)
  have hsu : SideOf e (Use.src e.f e.d.g) e.d.src e.h.fromZone := .inl ⟨rfl, rfl, rfl⟩
  have hdu : SideOf e (Use.dst e.f e.d.g) e.d.dst e.h.toZone := .inr ⟨rfl, rfl, rfl⟩
  have ks := k.side he hsu
  have kd := k.side he hdu
  have habout : About e.f.options v ↔ AfIs e.h.af v := by
    unfold About AfIs
    rw [h3]
  by_cases hempty : e.d.src = [] ∧ e.d.dst = []
  · obtain ⟨e1, e2⟩ := hempty
    rw [iff_and_right (p := About e.f.options v) ⟨((k.src e he).matched v x).2 (.inl e1), ((k.dst e he).matched v y).2 (.inl e2)⟩, habout]
    rw [tokens_nil.2 e1, tokens_nil.2 e2] at hsm hdm ⊢
    have em : sm = [if e.h.af ≠ "mixed" then .anyIpv4 else .any] := by
      unfold sideMembers at hsm
      simpa using hsm.symm
    have ed : dm = [if e.h.af ≠ "mixed" then .anyIpv4 else .any] := by
      unfold sideMembers at hdm
      simpa using hdm.symm
    subst em ed
    generalize e.h.af = af at *
    rcases h4 with rfl | rfl | rfl
    · have := hany (by simp)
      cases v <;> simp [SideHas, MemberHas, AfIs, this]
    · have := hany (by simp)
      cases v <;> simp [SideHas, MemberHas, AfIs, this]
    · cases v <;> simp [SideHas, MemberHas, AfIs]
  · have hneg : ((tokensOf (e.d.src.flatMap subnets3)).isEmpty && (tokensOf (e.d.dst.flatMap subnets3)).isEmpty && e.h.af == "inet6") =
        false := by
      rw [Bool.and_eq_false_iff, Bool.and_eq_false_iff, List.isEmpty_eq_false_iff, List.isEmpty_eq_false_iff]
      refine .inl (Classical.or_iff_not_imp_left.2 fun h5 h6 => hempty ?_)
      exact ⟨tokens_nil.1 (Classical.not_not.1 h5), tokens_nil.1 h6⟩
    rw [hneg]
    unfold SideHas
    rw [if_neg (by simp), if_neg (by simp),
      one_side k hb ha hp hg he hsu (fun e1 e2 => hempty ⟨e1, tokens_nil.1 e2⟩) hsm,
      one_side k hb ha hp hg he hdu (fun e1 e2 => hempty ⟨tokens_nil.1 e2, e1⟩) hdm,
      (k.src e he).matched, (k.dst e he).matched]
    constructor
    · rintro ⟨a, c⟩
      have a' : About e.f.options v ∨ e.d.src = [] := a.elim .inr fun a => .inl (side_grp k hb hs he hsu a).1
      have c' : About e.f.options v ∨ e.d.dst = [] := c.elim .inr fun c => .inl (side_grp k hb hs he hdu c).1
      refine ⟨?_, a.imp_right fun a => (side_grp k hb hs he hsu a).2, c.imp_right fun c => (side_grp k hb hs he hdu c).2⟩
      rcases a' with a' | a'
      · exact a'
      · rcases c' with c' | c'
        · exact c'
        · exact absurd ⟨a', c'⟩ hempty
    · rintro ⟨ab, a, c⟩
      have good : ∀ {r : List Net} {x : Nat}, r = [] ∨ Den r v x → Good r v := by
        rintro r x (h | ⟨n, hn, hm⟩)
        · exact .inl h
        · exact .inr ⟨n, hn, hm.1⟩
      have hc : (Use.src e.f e.d.g).Carries v :=
        (carries_iff (k.header e he) (k.src e he) (k.dst e he) v).2 ⟨habout.1 ab, good a, good c⟩
      exact ⟨a.imp_right (grp_side k hb he hsu hex ((ks.carries v).2 hc)), c.imp_right (grp_side k hb he hdu hex ((kd.carries v).2 hc))⟩

end Verif.Pan
