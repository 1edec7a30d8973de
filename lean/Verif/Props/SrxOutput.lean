import Verif.Props.Srx

/-!
C97, C98: what the policies of the SRX generator refer to is there. These theorems are for all filters the generator
accepts.
-/

namespace Verif.Props
open Verif Verif.Spec Policy Aclgenerator Nacaddr Verif.Srx Verif.Spec.Srx

/-! ### states -/

/-- Every group has networks of its token only, and the names of applications are distinct. -/
structure Clean (st : State) : Prop where
  tidy : Tidy st.books
  parents : ∀ z token, ∀ n ∈ look st.books z token, n.parent = token
  apps : (st.apps.map App.name).Nodup

theorem enterNet_parents {l : List Net} {a : Net} {token : String} (h : ∀ n ∈ l, n.parent = token) (ha : a.parent = token) :
    ∀ n ∈ enterNet l a, n.parent = token := by
  intro n hn
  unfold enterNet at hn
  split at hn
  · rcases List.mem_append.1 hn with h1 | h1
    · exact h n h1
    · rw [List.mem_singleton.1 h1]; exact ha
  · split at hn
    · exact h n hn
    · obtain ⟨m, hm, rfl⟩ := List.mem_map.1 hn
      split
      · exact ha
      · exact h m hm

theorem enterNets_parents {token : String} : ∀ {as l : List Net}, (∀ n ∈ l, n.parent = token) → (∀ n ∈ as, n.parent = token) →
    ∀ n ∈ as.foldl enterNet l, n.parent = token
  | [], _, h, _ => h
  | a :: as, _, h, ha => enterNets_parents (as := as) (enterNet_parents h (ha a (by simp))) fun n hn => ha n (List.mem_cons_of_mem _ hn)

theorem parents_enterAll {b : Zones} (h : ∀ z token, ∀ n ∈ look b z token, n.parent = token) (zone : String) (l : List Net) :
    ∀ z token, ∀ n ∈ look (enterAll b zone l) z token, n.parent = token := by
  intro z token
  rw [look_enterAll]
  split
  · exact enterNets_parents (h z token) fun n hn => of_decide_eq_true (List.mem_filter.1 hn).2
  · exact h z token

theorem entered {b : Zones} {zone : String} {l : List Net} : ∀ n ∈ l, look (enterAll b zone l) zone n.parent ≠ [] := by
  intro n hn
  rw [look_enterAll, if_pos rfl]
  exact enterNets_ne (.inr (List.ne_nil_of_mem (List.mem_filter.2 ⟨hn, by simp⟩)))

theorem enterAll_keeps {b : Zones} {zone : String} {l : List Net} : ∀ z token, look b z token ≠ [] → look (enterAll b zone l) z token ≠ [] := by
  intro z token h
  rw [look_enterAll]
  split
  · exact enterNets_ne (.inl h)
  · exact h

/-! ### policies -/

/-- How a policy comes about. -/
structure Arises (st : State) (f : Filter) (g : STerm) (q : SPolicy) : Prop where
  live : Live g
  name : q.name = g.term.name
  src : ∀ names, q.src = some names → names ≠ [] ∧ ∀ t ∈ names, look st.books f.fromZone t ≠ []
  dst : ∀ names, q.dst = some names → names ≠ [] ∧ ∀ t ∈ names, look st.books f.toZone t ≠ []
  app : ∃ ps types, termProtocols (g.term.protocol.map .str) = .ok ps ∧ Srx.icmpTypes g.term ps = .ok types ∧
    ∃ a ∈ st.apps, q.app = (if anyApp g.term then none else some a.name) ∧
      ∃ name, a.same ⟨name, g.term.sourcePort, g.term.destinationPort, appProtos ps, types, g.timeout⟩ = true
  thens : listM (thenOf g) (express (f.options.contains "expresspath") g.term.action) = .ok q.thens

theorem Arises.later {st st' : State} {f : Filter} {g : STerm} {q : SPolicy} (h : Arises st f g q) (hl : Later st st') : Arises st' f g q :=
  { h with
    src := fun names e => ⟨(h.src names e).1, fun t ht => hl.books _ _ ((h.src names e).2 t ht)⟩
    dst := fun names e => ⟨(h.dst names e).1, fun t ht => hl.books _ _ ((h.dst names e).2 t ht)⟩
    app := by
      obtain ⟨ps, types, h1, h2, a, ha, h3⟩ := h.app
      exact ⟨ps, types, h1, h2, a, hl.apps a ha, h3⟩ }

theorem tokens_ne {l : List Net} {names : List String} (h : tokensOf l = some names) :
    names ≠ [] ∧ ∀ t ∈ names, ∃ n ∈ l, n.parent = t := by
  unfold tokensOf at h
  split at h
  · cases h
  next hl =>
    cases h
    have mem : ∀ t, t ∈ (l.map Net.parent).eraseDups ↔ ∃ n ∈ l, n.parent = t := by
      intro t
      rw [eraseDups_mem, List.mem_map]
    refine ⟨?_, fun t ht => (mem t).1 ht⟩
    obtain ⟨n, hn⟩ := List.exists_mem_of_ne_nil l (by simpa using hl)
    exact List.ne_nil_of_mem ((mem n.parent).2 ⟨n, hn, rfl⟩)

theorem step_made {f : Filter} {g : STerm} {st : State} {r : State × Option SPolicy} {af : String} {glob : Bool}
    (hl : Live g) (hst : Clean st) (h : step glob af f st g g.term.name = .ok r) :
    Clean r.1 ∧ Later st r.1 ∧ ∀ q ∈ r.2.toList, Arises r.1 f g q := by
  unfold step at h
  obtain ⟨src, _, h⟩ := bind_ok h
  obtain ⟨dst, _, h⟩ := bind_ok h
  revert h
  generalize (if glob = true then alias st.books src else src) = S
  generalize (if glob = true then alias st.books dst else dst) = D
  intro h
  unfold finish at h
  split at h
  · cases h
    exact ⟨hst, Later.refl _, fun _ h => by cases h⟩
  · split at h
    · cases h
      exact ⟨⟨tidy_enterAll _ _ hst.tidy, parents_enterAll hst.parents _ _, hst.apps⟩, ⟨enterAll_keeps, fun _ h => h⟩, fun _ h => by cases h⟩
    · obtain ⟨ps, hps, h⟩ := bind_ok h
      obtain ⟨types, ht, h⟩ := bind_ok h
      obtain ⟨q, hq, h⟩ := bind_ok h
      obtain ⟨pol, hpol, h⟩ := bind_ok h
      cases h
      unfold policyOf at hpol
      obtain ⟨thens, hth, hpol⟩ := bind_ok hpol
      cases hpol
      obtain ⟨n1, ⟨s, hs, e, hsame⟩, n2, _⟩ := placeApp_spec hq hst.apps
      refine ⟨⟨tidy_enterAll _ _ (tidy_enterAll _ _ hst.tidy), parents_enterAll (parents_enterAll hst.parents _ _) _ _, n1⟩,
        ⟨fun z t hn => enterAll_keeps z t (enterAll_keeps z t hn), n2⟩, ?_⟩
      intro p hp
      rw [Option.toList_some, List.mem_singleton] at hp
      subst hp
      refine { live := hl, name := rfl, src := ?_, dst := ?_, app := ⟨ps, types, hps, ht, s, hs, by rw [e], _, hsame⟩, thens := hth }
      · intro names hn
        obtain ⟨h1, h2⟩ := tokens_ne hn
        refine ⟨h1, fun t ht => ?_⟩
        obtain ⟨n, hn, rfl⟩ := h2 t ht
        exact enterAll_keeps _ _ (entered n hn)
      · intro names hn
        obtain ⟨h1, h2⟩ := tokens_ne hn
        refine ⟨h1, fun t ht => ?_⟩
        obtain ⟨n, hn, rfl⟩ := h2 t ht
        exact entered n hn

theorem termsLoop_made {f : Filter} {af : String} {glob : Bool} : ∀ (gs : List STerm) {names : List Str} {st : State}
    {r : State × List SPolicy}, Clean st → termsLoop glob af f names st gs = .ok r →
    Clean r.1 ∧ Later st r.1 ∧ (∀ q ∈ r.2, ∃ g ∈ gs, Arises r.1 f g q) ∧
      (r.2.map SPolicy.name).Nodup ∧ ∀ q ∈ r.2, q.name ∉ names
  | [], names, st, r, hst, h => by
    cases h
    exact ⟨hst, Later.refl _, (fun _ h => by cases h), List.nodup_nil, (fun _ h => by cases h)⟩
  | g :: gs, names, st, r, hst, h => by
    have up : ∀ {r : State × List SPolicy}, (∀ q ∈ r.2, ∃ g ∈ gs, Arises r.1 f g q) → ∀ q ∈ r.2, ∃ g' ∈ g :: gs, Arises r.1 f g' q :=
      fun h q hq => (h q hq).imp fun g' hg => ⟨List.mem_cons_of_mem _ hg.1, hg.2⟩
    rw [termsLoop] at h
    split at h
    · obtain ⟨h1, h2, h3, h4, h5⟩ := termsLoop_made gs hst h
      exact ⟨h1, h2, up h3, h4, h5⟩
    next hs =>
      obtain ⟨name, hn, h⟩ := bind_ok h
      split at h
      · cases h
      next hnew =>
        have hnew : name ∉ names := by simpa using hnew
        split at h
        · obtain ⟨h1, h2, h3, h4, h5⟩ := termsLoop_made gs hst h
          exact ⟨h1, h2, up h3, h4, fun q hq hm => h5 q hq (List.mem_cons_of_mem _ hm)⟩
        next he =>
          obtain ⟨x, hx, h⟩ := bind_ok h
          obtain ⟨q, hq, h⟩ := bind_ok h
          cases h
          have hl : Live g := (srx_skipped (by simpa using he)).1 (by simpa using hs)
          rw [srx_name hn] at hx hq hnew
          obtain ⟨h1, h2, h3⟩ := step_made hl hst hx
          obtain ⟨h4, h5, h6, h7, h8⟩ := termsLoop_made gs h1 hq
          refine ⟨h4, h2.trans h5, ?_, ?_, ?_⟩
          · intro p hp
            rcases List.mem_append.1 hp with hp | hp
            · exact ⟨g, by simp, (h3 p hp).later h5⟩
            · exact up h6 p hp
          · rw [List.map_append, List.nodup_append]
            refine ⟨?_, h7, ?_⟩
            · cases x.2 <;> simp
            · intro a ha b hb
              obtain ⟨p, hp, rfl⟩ := List.mem_map.1 ha
              obtain ⟨p', hp', rfl⟩ := List.mem_map.1 hb
              rw [(h3 p hp).name]
              exact fun e => h8 p' hp' (by rw [← e]; simp)
          · intro p hp
            rcases List.mem_append.1 hp with hp | hp
            · rw [(h3 p hp).name]; exact hnew
            · exact fun hm => h8 p hp (List.mem_cons_of_mem _ hm)

/-- A term of the policy, or a part of a large one. -/
def SrxPartOf (g g' : STerm) : Prop :=
  g' = g ∨ ∃ s d, ∃ i : Nat, g' = { g with term := { g.term with
    sourceAddress := s, destinationAddress := d, name := g.term.name ++ '_' :: (toString i : String).toList } }

theorem fixLarge_part {af : String} {gs : List STerm} {g' : STerm} (h : g' ∈ fixLarge af gs) : ∃ g ∈ gs, SrxPartOf g g' := by
  unfold fixLarge at h
  obtain ⟨g, hg, h⟩ := List.mem_flatMap.1 h
  refine ⟨g, hg, ?_⟩
  split at h
  · unfold parts at h
    obtain ⟨e, _, rfl⟩ := List.mem_map.1 h
    exact .inr ⟨_, _, _, rfl⟩
  · exact .inl (List.mem_singleton.1 h)

theorem translate_made : ∀ (fs : List Filter) {mode : Option Bool} {st : State} {r : Option Bool × State × List Srx.Block},
    Clean st → translate mode st fs = .ok r →
    Clean r.2.1 ∧ Later st r.2.1 ∧ ∀ b ∈ r.2.2, ∃ f ∈ fs, b.fromZone = f.fromZone ∧ b.toZone = f.toZone ∧
      (Global f.fromZone f.toZone → r.1 = some true) ∧ (b.policies.map SPolicy.name).Nodup ∧
      ∀ q ∈ b.policies, ∃ g ∈ f.terms, ∃ g', SrxPartOf g g' ∧ Arises r.2.1 f g' q
  | [], mode, st, r, hst, h => by
    cases h
    exact ⟨hst, Later.refl _, fun _ h => by cases h⟩
  | f :: fs', mode, st, r, hst, h => by
    rw [translate] at h
    obtain ⟨glob, hb, h⟩ := bind_ok h
    obtain ⟨_, hz, h⟩ := bind_ok h
    obtain ⟨af, haf, h⟩ := bind_ok h
    obtain ⟨x, hx, h⟩ := bind_ok h
    obtain ⟨q, hq, h⟩ := bind_ok h
    cases h
    obtain ⟨h1, h2, h3, h4, _⟩ := termsLoop_made _ hst hx
    obtain ⟨h5, h6, h7⟩ := translate_made fs' h1 hq
    refine ⟨h5, h2.trans h6, ?_⟩
    intro b hb
    rcases List.mem_cons.1 hb with rfl | hb
    · refine ⟨f, by simp, rfl, rfl, fun hG => ?_, h4, fun p hp => ?_⟩
      · rw [zones_global hz hG] at hq
        exact (translate_mode hq : q.1 = some true)
      · obtain ⟨g', hg', hm⟩ := h3 p hp
        obtain ⟨g, hg, hpart⟩ := fixLarge_part hg'
        exact ⟨g, hg, g', hpart, hm.later h6⟩
    · obtain ⟨f', hf', h⟩ := h7 b hb
      exact ⟨f', List.mem_cons_of_mem _ hf', h⟩

theorem output_made {fs : List Filter} {o : Output} (h : output fs = .ok o) : ∃ mode st, Clean st ∧
    o.books = books mode st.books ∧ o.apps = st.apps ∧ ∀ b ∈ o.blocks, ∃ f ∈ fs, b.fromZone = f.fromZone ∧ b.toZone = f.toZone ∧
      (Global f.fromZone f.toZone → mode = some true) ∧ (b.policies.map SPolicy.name).Nodup ∧
      ∀ q ∈ b.policies, ∃ g ∈ f.terms, ∃ g', SrxPartOf g g' ∧ Arises st f g' q := by
  unfold output at h
  obtain ⟨r, hr, h⟩ := bind_ok h
  cases h
  have h0 : Clean {} := ⟨tidy_nil, (fun _ _ _ h => by cases h), List.nodup_nil⟩
  obtain ⟨h1, _, h2⟩ := translate_made fs h0 hr
  exact ⟨r.1, r.2.1, h1, rfl, rfl, h2⟩

/-! ### C97 -/

/-- An address book the firewall loads: no address, no set and no member twice, sets are not empty, and the addresses of
a set are in the book. -/
structure BookOk (b : Book) : Prop where
  addresses : (b.addresses.map Prod.fst).Nodup
  sets : (b.sets.map Prod.fst).Nodup
  full : ∀ s ∈ b.sets, s.2 ≠ []
  members : ∀ s ∈ b.sets, s.2.Nodup ∧ ∀ m ∈ s.2, m ∈ b.addresses.map Prod.fst

theorem zipIdx_names (token : String) (l : List Net) : (l.zipIdx.map fun n => addressName token n.2).Nodup := by
  unfold List.Nodup
  rw [List.pairwise_iff_getElem]
  intro i j hi hj hij e
  rw [List.getElem_map, List.getElem_map] at e
  have := (address_inj e).2
  simp only [List.getElem_zipIdx] at this
  omega

theorem push0_ne : ∀ (l : List Net) (a : Net), push0 l a ≠ []
  | [], _ => by simp [push0]
  | p :: rest, a => by
    rw [push0]
    split
    · simp
    · split
      · exact push0_ne rest _
      · simp

theorem collapse_ne {l : List Net} (h : l ≠ []) : collapse l ≠ [] := by
  have key : ∀ (as acc : List Net), acc ≠ [] ∨ as ≠ [] → as.foldl push0 acc ≠ [] := by
    intro as
    induction as with
    | nil => intro acc h; simpa using h
    | cons a as ih => intro acc _; exact ih _ (.inl (push0_ne _ _))
  unfold collapse
  have : sortAddrList l ≠ [] := fun h0 => h (by
    have := (isort_perm Net.keyLe l).length_eq
    unfold sortAddrList at h0
    rw [h0] at this
    exact List.length_eq_zero_iff.1 this.symm)
  intro h0
  exact key _ [] (.inr this) (List.reverse_eq_nil_iff.1 h0)

theorem bookOf_ok {zone : Option String} {groups : List (String × List Net)} (h1 : (groups.map Prod.fst).Nodup)
    (h2 : ∀ e ∈ groups, e.2 ≠ []) : BookOk (bookOf zone groups) := by
  have hp : ((isort (fun x y : String × List Net => !decide (y.1 < x.1)) groups).map Prod.fst).Nodup :=
    ((isort_perm _ groups).map Prod.fst).nodup_iff.2 h1
  have ne : ∀ e ∈ groups, (collapse (sortAddrList e.2)) ≠ [] := by
    intro e he
    refine collapse_ne fun h0 => h2 e he ?_
    have := (isort_perm Net.keyLe e.2).length_eq
    unfold sortAddrList at h0
    rw [h0] at this
    exact List.length_eq_zero_iff.1 this.symm
  constructor
  · unfold bookOf
    dsimp only
    rw [List.map_flatMap]
    unfold List.Nodup
    rw [List.pairwise_flatMap]
    constructor
    · intro e _
      rw [List.map_map]
      exact zipIdx_names e.1 _
    · have := List.pairwise_map.1 hp
      refine this.imp ?_
      intro a b hab x hx y hy e
      rw [List.map_map] at hx hy
      obtain ⟨u, _, rfl⟩ := List.mem_map.1 hx
      obtain ⟨w, _, rfl⟩ := List.mem_map.1 hy
      exact hab (address_inj e).1
  · unfold bookOf
    dsimp only
    rw [List.map_map]
    exact hp
  · intro s hs
    obtain ⟨e, he, rfl⟩ := List.mem_map.1 hs
    have := ne e (mem_isort.1 he)
    intro h0
    apply this
    have h0 : (collapse (sortAddrList e.2)).zipIdx.map (fun n => addressName e.1 n.2) = [] := h0
    simpa using h0
  · intro s hs
    obtain ⟨e, he, rfl⟩ := List.mem_map.1 hs
    refine ⟨zipIdx_names _ _, fun m hm => ?_⟩
    obtain ⟨n, hn, rfl⟩ := List.mem_map.1 hm
    exact List.mem_map.2 ⟨(addressName e.1 n.2, n.1), List.mem_flatMap.2 ⟨e, he, List.mem_map.2 ⟨n, hn, rfl⟩⟩, rfl⟩

theorem merged_ok {b : Zones} (h : Tidy b) : ((merged b).map Prod.fst).Nodup ∧ ∀ e ∈ merged b, e.2 ≠ [] := by
  have key : ∀ (es m : List (String × List Net)), (∀ e ∈ es, e.2 ≠ []) → (m.map Prod.fst).Nodup → (∀ e ∈ m, e.2 ≠ []) →
      ((es.foldl (fun m e => upsert e.1 [] (fun l => l ++ e.2) m) m).map Prod.fst).Nodup ∧
      ∀ e ∈ es.foldl (fun m e => upsert e.1 [] (fun l => l ++ e.2) m) m, e.2 ≠ [] := by
    intro es
    induction es with
    | nil => exact fun m _ h1 h2 => ⟨h1, h2⟩
    | cons a es ih =>
      intro m h0 h1 h2
      refine ih _ (fun e he => h0 e (List.mem_cons_of_mem _ he)) (upsert_keys h1).1 ?_
      intro e he
      rcases upsert_mem he with he | ⟨_, e2 | ⟨e', he', _, e2⟩⟩
      · exact h2 e he
      · rw [e2]; simpa using h0 a (by simp)
      · rw [e2]
        intro h3
        exact h0 a (by simp) (List.append_eq_nil_iff.1 h3).2
  refine key _ [] ?_ List.nodup_nil (fun _ h => by cases h)
  intro e he
  obtain ⟨z, hz, he⟩ := List.mem_flatMap.1 he
  exact h.full z hz e he

/-- C97: address books are well formed and for distinct zones. -/
theorem C97_books {fs : List Filter} {o : Output} (h : output fs = .ok o) :
    (∀ b ∈ o.books, BookOk b) ∧ (o.books.map Book.zone).Nodup ∧ ((∃ b ∈ o.books, b.zone = none) → ∀ b ∈ o.books, b.zone = none) := by
  obtain ⟨mode, st, hst, hb, _, _⟩ := output_made h
  rw [hb]
  unfold books
  split
  · obtain ⟨h1, h2⟩ := merged_ok hst.tidy
    refine ⟨fun b hb => ?_, by simp, fun _ b hb => ?_⟩
    · rw [List.mem_singleton.1 hb]; exact bookOf_ok h1 h2
    · rw [List.mem_singleton.1 hb]; rfl
  · refine ⟨fun b hb => ?_, ?_, ?_⟩
    · obtain ⟨z, hz, rfl⟩ := List.mem_map.1 hb
      exact bookOf_ok (hst.tidy.tokens z hz) (hst.tidy.full z hz)
    · rw [List.map_map]
      have : (st.books.map ((fun b : Book => b.zone) ∘ fun z => bookOf (some z.1) z.2)) = (st.books.map Prod.fst).map some := by
        rw [List.map_map]; rfl
      refine (congrArg List.Nodup this).mpr ?_
      unfold List.Nodup
      rw [List.pairwise_map]
      exact List.Pairwise.imp (fun h e => h (Option.some.inj e)) hst.tidy.zones
    · rintro ⟨b, hb, e⟩
      obtain ⟨z, hz, rfl⟩ := List.mem_map.1 hb
      cases e

theorem set_there {st : State} {mode : Option Bool} {zone token : String} (h : look st.books zone token ≠ []) :
    ∃ k ∈ books mode st.books, (if mode = some true then k.zone = none else k.zone = some zone) ∧ token ∈ k.sets.map Prod.fst := by
  obtain ⟨zz, h1, rfl, e, he, rfl, _⟩ := mem_look h
  unfold books
  split
  · obtain ⟨_, m2⟩ := merge_mem (es := st.books.flatMap Prod.snd) (m := [])
    obtain ⟨r, hr, h2, _⟩ := m2 e (List.mem_append_left _ (List.mem_flatMap.2 ⟨zz, h1, he⟩))
    refine ⟨_, List.mem_singleton.2 rfl, rfl, ?_⟩
    unfold bookOf
    dsimp only
    rw [List.map_map]
    exact List.mem_map.2 ⟨r, mem_isort.2 hr, h2⟩
  · refine ⟨_, List.mem_map.2 ⟨zz, h1, rfl⟩, rfl, ?_⟩
    unfold bookOf
    dsimp only
    rw [List.map_map]
    exact List.mem_map.2 ⟨e, mem_isort.2 he, rfl⟩

/-- C97: every set a policy names is in the book the firewall looks into: the global one, or the one of the zone. -/
theorem C97_referred {fs : List Filter} {o : Output} (h : output fs = .ok o) {b : Srx.Block} (hb : b ∈ o.blocks) {q : SPolicy}
    (hq : q ∈ b.policies) {zone : String} {names : List String}
    (hn : (zone = b.fromZone ∧ q.src = some names) ∨ (zone = b.toZone ∧ q.dst = some names)) :
    names ≠ [] ∧ ∀ name ∈ names, ∃ k ∈ o.books, (k.zone = none ∨ (¬ Global b.fromZone b.toZone ∧ k.zone = some zone)) ∧
      name ∈ k.sets.map Prod.fst := by
  obtain ⟨mode, st, hst, hk, _, hm⟩ := output_made h
  obtain ⟨f, hf, e1, e2, hG, _, hp⟩ := hm b hb
  obtain ⟨g, hg, g', _, hmade⟩ := hp q hq
  have key : names ≠ [] ∧ ∀ t ∈ names, look st.books zone t ≠ [] := by
    rcases hn with ⟨rfl, hn⟩ | ⟨rfl, hn⟩
    · rw [e1]; exact hmade.src names hn
    · rw [e2]; exact hmade.dst names hn
  refine ⟨key.1, fun t ht => ?_⟩
  obtain ⟨k, hk1, hk2, hk3⟩ := set_there (mode := mode) (key.2 t ht)
  refine ⟨k, hk ▸ hk1, ?_, hk3⟩
  split at hk2
  · exact .inl hk2
  next hne =>
    refine .inr ⟨fun hg => hne (hG ?_), hk2⟩
    rw [← e1, ← e2]
    exact hg

/-! ### C98 -/

theorem defsOf_names (a : App) : (defsOf a).Pairwise fun d e => ∀ n, ¬ (NameIs d n ∧ NameIs e n) := by
  have parts : ∀ (l : List (Nat × List AppTerm)), (l.map Prod.fst).Nodup →
      (l.map fun e => Def.app (partName a.name e.1) e.2).Pairwise fun d e => ∀ n, ¬ (NameIs d n ∧ NameIs e n) := by
    intro l hl
    rw [List.pairwise_map]
    refine (List.pairwise_map.1 hl).imp ?_
    rintro x y hxy n ⟨h1, h2⟩
    exact hxy (partName_inj ((name_app.1 h1).symm.trans (name_app.1 h2))).2
  unfold defsOf
  split
  · rw [List.pairwise_append]
    refine ⟨?_, by simp, ?_⟩
    · have := parts ((portTerms a).map fun t => (t.label, [t])) (by rw [List.map_map]; exact portTerms_nodup a)
      rw [List.map_map] at this
      exact this
    · intro d hd e he n hn
      unfold portDefs at hd
      obtain ⟨t, _, rfl⟩ := List.mem_map.1 hd
      rw [List.mem_singleton.1 he] at hn
      exact app_ne_part _ _ _ ((name_set.1 hn.2).symm.trans (name_app.1 hn.1))
  · unfold icmpDefs
    split
    · rw [List.pairwise_cons]
      constructor
      · intro d hd n hn
        obtain ⟨t, _, rfl⟩ := List.mem_map.1 hd
        exact app_ne_part _ _ _ ((name_set.1 hn.1).symm.trans (name_app.1 hn.2))
      · have := parts ((icmpTerms a).zipIdx.map fun e => (e.2 + 1, [{ e.1 with label := 1 }])) (by
          rw [List.map_map]
          unfold List.Nodup
          rw [List.pairwise_iff_getElem]
          intro i j hi hj hij
          rw [List.getElem_map, List.getElem_map]
          simp only [List.getElem_zipIdx, Function.comp]
          omega)
        rw [List.map_map] at this
        exact this
    · simp

/-- The definitions of all entries, entry by entry. -/
theorem defs_perm (apps : List App) : (defs apps).Perm ((sortedApps apps).flatMap defsOf) := by
  unfold defs
  generalize sortedApps apps = l
  induction l with
  | nil => exact .nil
  | cons a l ih =>
    rw [List.flatMap_cons, List.flatMap_cons, List.filter_cons]
    by_cases h : a.types.isEmpty = true
    · have e : defsOf a = portDefs a ++ [portSet a] := if_pos h
      rw [if_pos h, if_pos h, e, List.map_cons, List.append_assoc, List.append_assoc]
      refine List.Perm.append_left _ ?_
      refine List.perm_middle.trans ?_
      exact List.Perm.cons _ ih
    · have e : defsOf a = icmpDefs a := if_neg h
      rw [if_neg h, if_neg h, e, List.append_assoc]
      exact List.Perm.append_left _ ih

/-- C98: no two applications or sets have the same name, and the members of a set are applications. -/
theorem C98_names {fs : List Filter} {o : Output} (h : output fs = .ok o) :
    (defs o.apps).Pairwise (fun d e => ∀ n, ¬ (NameIs d n ∧ NameIs e n)) ∧
    ∀ n ms, Def.set n ms ∈ defs o.apps → ms ≠ [] ∧ ms.Nodup ∧ ∀ m ∈ ms, ∃ ts, Def.app m ts ∈ defs o.apps := by
  obtain ⟨mode, st, hst, _, ha, _⟩ := output_made h
  rw [ha]
  constructor
  · refine (defs_perm st.apps).symm.pairwise ?_ fun {x y} h n hn => h n hn.symm
    rw [List.pairwise_flatMap]
    refine ⟨fun a _ => defsOf_names a, ?_⟩
    have : ((isort (fun x y : App => !decide (y.name < x.name)) st.apps).map App.name).Nodup :=
      ((isort_perm _ st.apps).map App.name).nodup_iff.2 hst.apps
    have := List.Pairwise.filter written (List.pairwise_map.1 this)
    refine List.Pairwise.imp ?_ this
    intro a b hab d hd e he n hn
    exact hab (owns_inj (owns_of hd hn.1) (owns_of he hn.2))
  · intro n ms hd
    obtain ⟨a, h1, h2, h3⟩ := mem_defs.1 hd
    have sub : ∀ m ts, Def.app m ts ∈ defsOf a → ∃ ts, Def.app m ts ∈ defs st.apps := fun m ts h => ⟨ts, mem_defs.2 ⟨a, h1, h2, h⟩⟩
    have h4 := h3
    unfold defsOf at h3
    split at h3
    next hty =>
      rcases List.mem_append.1 h3 with h3 | h3
      · unfold portDefs at h3
        obtain ⟨t, _, e⟩ := List.mem_map.1 h3
        cases e
      · have e := List.mem_singleton.1 h3
        unfold portSet at e
        injection e with _ e
        subst e
        refine ⟨?_, ?_, ?_⟩
        · have : portTerms a ≠ [] := by
            have ne : ∀ {α : Type} (l : List α), orNone l ≠ [] := by
              intro α l
              unfold orNone
              split
              · simp
              next h => simpa using h
            unfold portTerms
            intro h0
            have h0 := List.map_eq_nil_iff.1 h0
            rw [List.zipIdx_eq_nil_iff] at h0
            obtain ⟨p, hp⟩ := List.exists_mem_of_ne_nil _ (ne a.protos)
            obtain ⟨s, hs⟩ := List.exists_mem_of_ne_nil _ (ne a.sport)
            obtain ⟨d, hd⟩ := List.exists_mem_of_ne_nil _ (ne a.dport)
            exact absurd (List.mem_flatMap.2 ⟨p, hp, List.mem_flatMap.2 ⟨s, hs, List.mem_map.2 ⟨d, hd, rfl⟩⟩⟩) (by rw [h0]; simp)
          simpa using this
        · have := portTerms_nodup a
          unfold List.Nodup at this ⊢
          rw [List.pairwise_map] at this ⊢
          exact this.imp fun h e => h (partName_inj e).2
        · intro m hm
          obtain ⟨t, ht, rfl⟩ := List.mem_map.1 hm
          refine sub _ [t] ?_
          unfold defsOf
          rw [if_pos hty]
          exact List.mem_append_left _ (List.mem_map.2 ⟨t, ht, rfl⟩)
    next hty =>
      unfold icmpDefs at h3
      split at h3
      next hlen =>
        rcases List.mem_cons.1 h3 with e | h3
        · injection e with _ e
          subst e
          refine ⟨?_, ?_, ?_⟩
          · intro h0
            have := congrArg List.length h0
            rw [List.length_map, List.length_range, List.length_nil] at this
            omega
          · unfold List.Nodup
            rw [List.pairwise_map]
            refine List.Pairwise.imp ?_ List.nodup_range
            intro i j hij e
            exact hij (by have := (partName_inj e).2; omega)
          · intro m hm
            obtain ⟨i, hi, rfl⟩ := List.mem_map.1 hm
            have hi : i < (icmpTerms a).length := by rw [icmpTerms_length]; exact List.mem_range.1 hi
            refine sub _ [{ (icmpTerms a)[i] with label := 1 }] ?_
            unfold defsOf icmpDefs
            rw [if_neg hty, if_pos hlen]
            refine List.mem_cons_of_mem _ (List.mem_map.2 ⟨((icmpTerms a)[i], i), ?_, rfl⟩)
            exact List.mem_zipIdx_iff_getElem?.2 (List.getElem?_eq_getElem hi)
        · obtain ⟨t, _, e⟩ := List.mem_map.1 h3
          cases e
      · cases List.mem_singleton.1 h3

theorem types_ne {t : Term} {ps : List Proto} {types : List Nat} (ht : Srx.icmpTypes t ps = .ok types) (h : t.icmpType ≠ []) : ps ≠ [] := by
  unfold Srx.icmpTypes at ht
  obtain ⟨l, hl, _⟩ := bind_ok ht
  rintro rfl
  unfold normalizeIcmpTypes at hl
  rw [if_neg (by simpa using h), if_pos (by simp)] at hl
  cases hl

theorem app_there {st : State} {f : Filter} {g : STerm} {q : SPolicy} (h : Arises st f g q) {name : Str} (hn : q.app = some name) :
    ∃ a ∈ st.apps, a.name = name ∧ written a = true := by
  obtain ⟨ps, types, h1, h2, a, ha, e, n, hsame⟩ := h.app
  rw [e] at hn
  split at hn
  · cases hn
  next hany =>
    cases hn
    refine ⟨a, ha, rfl, ?_⟩
    obtain ⟨s1, s2, s3, s4, _⟩ := same_fields hsame
    unfold written
    rw [s1, s2, s3, s4]
    have hp := termProtocols_ok h1
    have ne : g.term.protocol ≠ [] ∨ g.term.icmpType ≠ [] → appProtos ps ≠ [] := by
      intro h0
      rw [Ne, protos_nil]
      rcases h0 with h0 | h0
      · rw [hp]; simpa using h0
      · exact types_ne h2 h0
    have hany : ¬ (g.term.sourcePort = [] ∧ g.term.destinationPort = [] ∧ g.term.icmpType = [] ∧ g.term.protocol = []) :=
      fun h0 => hany (anyApp_iff.2 h0)
    simp only [Bool.or_eq_true, Bool.not_eq_true', List.isEmpty_eq_false_iff]
    by_cases c1 : g.term.sourcePort = []
    · by_cases c2 : g.term.destinationPort = []
      · refine .inl (.inl (.inl (ne ?_)))
        by_cases c3 : g.term.icmpType = []
        · exact .inl fun c4 => hany ⟨c1, c2, c3, c4⟩
        · exact .inr c3
      · exact .inl (.inr c2)
    · exact .inl (.inl (.inr c1))

/-- C98: the application of a policy is there. -/
theorem C98_referred {fs : List Filter} {o : Output} (h : output fs = .ok o) {b : Srx.Block} (hb : b ∈ o.blocks) {q : SPolicy}
    (hq : q ∈ b.policies) {name : Str} (hn : q.app = some name) : ∃ d ∈ defs o.apps, NameIs d (name ++ "-app".toList) := by
  obtain ⟨mode, st, hst, _, happs, hm⟩ := output_made h
  obtain ⟨f, hf, _, _, _, _, hp⟩ := hm b hb
  obtain ⟨g, hg, g', _, hmade⟩ := hp q hq
  obtain ⟨a, ha, rfl, hw⟩ := app_there hmade hn
  rw [happs]
  have : ∃ d ∈ defsOf a, NameIs d (appName a.name) := by
    unfold defsOf
    split
    · exact ⟨_, List.mem_append_right _ (List.mem_singleton.2 rfl), name_set.2 rfl⟩
    · unfold icmpDefs
      split
      · exact ⟨_, List.mem_cons_self, name_set.2 rfl⟩
      · exact ⟨_, List.mem_singleton.2 rfl, name_app.2 rfl⟩
  obtain ⟨d, hd, h1⟩ := this
  exact ⟨d, mem_defs.2 ⟨a, ha, hw, hd⟩, h1⟩

/-- C98: the application of a policy admits exactly the protocols, ports and ICMP types of its term. Protocols are among
those the firewall knows by the name the generator writes, and ports are for protocols that have ports. -/
theorem C98_admits_partial {fs : List Filter} {o : Output} (h : output fs = .ok o) {b : Srx.Block} (hb : b ∈ o.blocks) {q : SPolicy}
    (hq : q ∈ b.policies) :
    ∃ f ∈ fs, b.fromZone = f.fromZone ∧ b.toZone = f.toZone ∧ ∃ g ∈ f.terms, Live g ∧
      (q.name = g.term.name ∨ ∃ i : Nat, q.name = g.term.name ++ '_' :: (toString i).toList) ∧
      ((∀ s ∈ g.term.protocol, s ∈ srxProtos) →
       (g.term.sourcePort ≠ [] ∨ g.term.destinationPort ≠ [] →
          g.term.protocol ≠ [] ∧ ∀ s ∈ g.term.protocol, s ∈ ["tcp", "udp", "sctp"]) →
       ∀ p : Packet, Flat.IfSet q.app (fun a => AppHits (defs o.apps) p (a ++ "-app".toList)) ↔
         OneOf g.term.protocol p.proto ∧ PortMatch g.term.sourcePort p.sport ∧ PortMatch g.term.destinationPort p.dport ∧
           OneOf g.term.icmpType p.icmpType) := by
  obtain ⟨mode, st, hst, _, happs, hm⟩ := output_made h
  obtain ⟨f, hf, e1, e2, _, _, hp⟩ := hm b hb
  obtain ⟨g, hg, g', hpart, hmade⟩ := hp q hq
  have key : (∀ s ∈ g'.term.protocol, s ∈ srxProtos) →
       (g'.term.sourcePort ≠ [] ∨ g'.term.destinationPort ≠ [] →
          g'.term.protocol ≠ [] ∧ ∀ s ∈ g'.term.protocol, s ∈ ["tcp", "udp", "sctp"]) →
       ∀ p : Packet, Flat.IfSet q.app (fun a => AppHits (defs o.apps) p (a ++ "-app".toList)) ↔
         OneOf g'.term.protocol p.proto ∧ PortMatch g'.term.sourcePort p.sport ∧ PortMatch g'.term.destinationPort p.dport ∧
           OneOf g'.term.icmpType p.icmpType := by
    intro h1 h2 p
    obtain ⟨ps, types, hps, ht, a, ha, e, n, hsame⟩ := hmade.app
    by_cases hany : anyApp g'.term = true
    · rw [if_pos hany] at e
      rw [e]
      obtain ⟨a1, a2, a3, a4⟩ := anyApp_iff.1 hany
      rw [a1, a2, a3, a4]
      exact iff_of_true Flat.ifSet_none ⟨.inl rfl, .inl rfl, .inl rfl, .inl rfl⟩
    · rw [if_neg hany] at e
      obtain ⟨s1, s2, s3, s4, _⟩ := same_fields hsame
      have es : a = ⟨a.name, g'.term.sourcePort, g'.term.destinationPort, appProtos ps, types, a.timeout⟩ := by
        cases a
        dsimp only at s1 s2 s3 s4 ⊢
        rw [s1, s2, s3, s4]
      obtain ⟨k1, k2⟩ := entry_hits a.name a.timeout hps ht h1 h2
      rw [← es] at k1 k2
      rw [e, Flat.ifSet_some, happs, ← k2 p]
      exact defs_hits hst.apps ha (k1 (by simpa using hany))
  refine ⟨f, hf, e1, e2, g, hg, ?_⟩
  have hl := hmade.live
  rcases hpart with rfl | ⟨s, d, i, rfl⟩
  · exact ⟨hl, .inl hmade.name, key⟩
  · exact ⟨hl, .inr ⟨i, hmade.name⟩, key⟩

/-- C98: policies for the same filter have distinct names. -/
theorem C98_policies {fs : List Filter} {o : Output} (h : output fs = .ok o) {b : Srx.Block} (hb : b ∈ o.blocks) :
    (b.policies.map SPolicy.name).Nodup := by
  obtain ⟨_, _, _, _, _, hm⟩ := output_made h
  obtain ⟨_, _, _, _, _, hn, _⟩ := hm b hb
  exact hn

end Verif.Props
