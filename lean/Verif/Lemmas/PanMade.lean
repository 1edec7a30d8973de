import Verif.Lemmas.PanLoop

/-!
All filters of the Palo Alto generator, term by term.
-/

namespace Verif.Pan
open Verif Verif.Spec Policy Aclgenerator Nacaddr
open Verif.Srx (Zones upsert look Tidy removeAll)

/-- A term of a filter, what became of it, and its rules. -/
structure Entry where
  f : Filter
  h : Header
  d : Done
  rules : List (Str × Options)

/-- The networks a term enters. -/
def Entry.sides (e : Entry) : List (String × List Net) := e.d.sides e.h

/-- The term is treated as the generator does. -/
structure EntryOk (hex : String → Str) (refs : List IcmpApp) (svcs : List Service) (e : Entry) : Prop where
  header : parseHeader e.f.options = .ok e.h
  done : DoneOk hex e.h refs e.d
  none : e.d.kept = none → e.rules = []
  some : ∀ k, e.d.kept = some k → Ruled svcs k (e.rules.map Prod.snd) ∧ NamesOf k.name e.rules ∧ zonesOk e.h = .ok ()

theorem EntryOk.mono {hex : String → Str} {refs refs' : List IcmpApp} {svcs svcs' : List Service} (hr : ∀ r ∈ refs, r ∈ refs')
    (hs : ∀ s ∈ svcs, s ∈ svcs') {e : Entry} (h : EntryOk hex refs svcs e) : EntryOk hex refs' svcs' e := by
  refine ⟨h.header, h.done.mono hr, h.none, fun k hk => ?_⟩
  obtain ⟨h1, h2⟩ := h.some k hk
  exact ⟨h1.mono hs, h2⟩

/-- No term that counts has the name of another with a number. -/
def Apart (f : Filter) : Prop :=
  ∀ g ∈ f.terms, ∀ g' ∈ f.terms, counts g = true → counts g' = true →
    g'.term.name ≠ g.term.name ++ "-1".toList ∧ g'.term.name ≠ g.term.name ++ "-2".toList

theorem long_append {hex : String → Str} {h : Header} {a b s : Str} (e : longName hex h a = longName hex h b ++ s) : a = b ++ s := by
  unfold longName at e
  split at e
  · rw [List.append_assoc, List.append_cancel_left_eq, List.cons_append, List.cons.injEq] at e
    exact e.2
  · exact e

theorem names_ne {a b x y : Str} {s t : List (Str × Options)} (ha : NamesOf a s) (hb : NamesOf b t) (hne : a ≠ b)
    (h1 : b ≠ a ++ "-1".toList ∧ b ≠ a ++ "-2".toList) (h2 : a ≠ b ++ "-1".toList ∧ a ≠ b ++ "-2".toList) (hx : x ∈ s.map Prod.fst)
    (hy : y ∈ t.map Prod.fst) : x ≠ y := by
  have h12 : a ++ "-1".toList ≠ b ++ "-2".toList := by
    intro e
    have := congrArg List.getLast? e
    rw [List.getLast?_append, List.getLast?_append] at this
    have k : some '1' = some '2' := this
    revert k
    decide
  have h21 : a ++ "-2".toList ≠ b ++ "-1".toList := by
    intro e
    have := congrArg List.getLast? e
    rw [List.getLast?_append, List.getLast?_append] at this
    have k : some '2' = some '1' := this
    revert k
    decide
  have h11 : a ++ "-1".toList ≠ b ++ "-1".toList := fun e => hne (List.append_cancel_right e)
  have h22 : a ++ "-2".toList ≠ b ++ "-2".toList := fun e => hne (List.append_cancel_right e)
  have kx : x = a ∨ x = a ++ "-1".toList ∨ x = a ++ "-2".toList := by
    rcases ha with ⟨o, rfl⟩ | ⟨o, o', rfl, _⟩
    · simp only [List.map_cons, List.map_nil, List.mem_singleton] at hx
      exact .inl hx
    · simp only [List.map_cons, List.map_nil, List.mem_cons, List.not_mem_nil, or_false] at hx
      exact .inr hx
  have ky : y = b ∨ y = b ++ "-1".toList ∨ y = b ++ "-2".toList := by
    rcases hb with ⟨o, rfl⟩ | ⟨o, o', rfl, _⟩
    · simp only [List.map_cons, List.map_nil, List.mem_singleton] at hy
      exact .inl hy
    · simp only [List.map_cons, List.map_nil, List.mem_cons, List.not_mem_nil, or_false] at hy
      exact .inr hy
  rcases kx with rfl | rfl | rfl <;> rcases ky with rfl | rfl | rfl
  · exact hne
  · exact h2.1
  · exact h2.2
  · exact fun e => h1.1 e.symm
  · exact h11
  · exact h12
  · exact fun e => h1.2 e.symm
  · exact h21
  · exact h22

theorem names_self {a : Str} {s : List (Str × Options)} (ha : NamesOf a s) : (s.map Prod.fst).Nodup := by
  rcases ha with ⟨o, rfl⟩ | ⟨o, o', rfl, _⟩
  · simp
  · rw [List.map_cons, List.map_cons, List.map_nil, List.nodup_cons]
    refine ⟨fun hm => ?_, by simp⟩
    rw [List.mem_singleton] at hm
    have := List.append_cancel_left hm
    revert this
    decide

/-- The rules of the terms have different names. -/
theorem blocks_nodup : ∀ {bs : List (Kept × List (Str × Options))}, (∀ b ∈ bs, NamesOf b.1.name b.2) → (bs.map fun b => b.1.name).Nodup →
    (∀ b ∈ bs, ∀ c ∈ bs, c.1.name ≠ b.1.name ++ "-1".toList ∧ c.1.name ≠ b.1.name ++ "-2".toList) →
    ((bs.flatMap Prod.snd).map Prod.fst).Nodup
  | [], _, _, _ => List.nodup_nil
  | b :: bs, h1, h2, h3 => by
    rw [List.map_cons, List.nodup_cons] at h2
    rw [List.flatMap_cons, List.map_append, List.nodup_append]
    refine ⟨names_self (h1 b List.mem_cons_self), blocks_nodup (fun c hc => h1 c (List.mem_cons_of_mem _ hc)) h2.2
      (fun c hc d hd => h3 c (List.mem_cons_of_mem _ hc) d (List.mem_cons_of_mem _ hd)), ?_⟩
    intro x hx y hy
    obtain ⟨r, hr, rfl⟩ := List.mem_map.1 hy
    obtain ⟨c, hc, hr⟩ := List.mem_flatMap.1 hr
    have hc' := List.mem_cons_of_mem b hc
    refine names_ne (h1 b List.mem_cons_self) (h1 c hc') ?_ (h3 b List.mem_cons_self c hc') (h3 c hc' b List.mem_cons_self) hx
      (List.mem_map.2 ⟨r, hr, rfl⟩)
    intro e
    exact h2.1 (List.mem_map.2 ⟨c, hc, e.symm⟩)

theorem kept_names {nm : Done → Str} : ∀ {ds : List Done}, (∀ d ∈ ds, ∀ k, d.kept = some k → k.name = nm d) →
    ((ds.filterMap Done.kept).map Kept.name).Sublist (ds.map nm)
  | [], _ => List.Sublist.refl _
  | d :: ds, h => by
    have ih := kept_names (nm := nm) fun d' hd' => h d' (List.mem_cons_of_mem d hd')
    rw [List.filterMap_cons]
    cases hk : d.kept with
    | none =>
      dsimp only
      exact ih.cons _
    | some k =>
      dsimp only
      rw [List.map_cons, List.map_cons, h d List.mem_cons_self k hk]
      exact ih.cons_cons _

theorem zip_blocks : ∀ {ds : List Done} {bs : List (Kept × List (Str × Options))}, bs.map Prod.fst = ds.filterMap Done.kept →
    ∃ es : List (Done × List (Str × Options)), es.map Prod.fst = ds ∧ es.flatMap Prod.snd = bs.flatMap Prod.snd ∧
      (∀ e ∈ es, (e.1.kept = none ∧ e.2 = []) ∨ ∃ k, e.1.kept = some k ∧ (k, e.2) ∈ bs)
  | [], bs, h => by
    cases bs with
    | nil => exact ⟨[], rfl, rfl, fun _ h => by cases h⟩
    | cons b bs => cases h
  | d :: ds, bs, h => by
    rw [List.filterMap_cons] at h
    cases hk : d.kept with
    | none =>
      rw [hk] at h
      obtain ⟨es, h1, h2, h3⟩ := zip_blocks h
      refine ⟨(d, []) :: es, by rw [List.map_cons, h1], by rw [List.flatMap_cons, h2]; rfl, ?_⟩
      intro e he
      rcases List.mem_cons.1 he with rfl | he
      · exact .inl ⟨hk, rfl⟩
      · exact h3 e he
    | some k =>
      rw [hk] at h
      cases bs with
      | nil => cases h
      | cons b bs =>
        simp only [List.map_cons, List.cons.injEq] at h
        obtain ⟨h0, h⟩ := h
        obtain ⟨es, h1, h2, h3⟩ := zip_blocks h
        refine ⟨(d, b.2) :: es, by rw [List.map_cons, h1], by rw [List.flatMap_cons, h2]; rfl, ?_⟩
        intro e he
        rcases List.mem_cons.1 he with rfl | he
        · exact .inr ⟨k, hk, by rw [← h0]; exact List.mem_cons_self⟩
        · rcases h3 e he with h | ⟨k', h4, h5⟩
          · exact .inl h
          · exact .inr ⟨k', h4, List.mem_cons_of_mem _ h5⟩

/-- What the filters leave behind, term by term. -/
structure MadeOk (hex : String → Str) (fs : List Filter) (mode : Option Bool) (st : State) (svcs : List Service) (m : Made)
    (es : List Entry) : Prop where
  terms : es.map (fun e => (e.f, e.d.g)) = (fs.filter Filter.here).flatMap fun f => (f.terms.filter counts).map fun g => (f, g)
  books : m.state.books = (es.flatMap Entry.sides).foldl enterSide st.books
  refs : RefsOk m.state.refs
  refsMono : ∀ r ∈ st.refs, r ∈ m.state.refs
  services : Sound svcs → Sound m.services
  servicesMono : ∀ s ∈ svcs, s ∈ m.services
  each : ∀ e ∈ es, EntryOk hex m.state.refs m.services e
  headers : ∀ x ∈ m.rulesets, mode.getD x.1.noObj = x.1.noObj ∧ (∀ y ∈ m.rulesets, x.1.noObj = y.1.noObj)
  rulesets : ∀ x ∈ m.rulesets, (x.2.map Prod.fst).Nodup ∧ ∀ r ∈ x.2, ∃ e ∈ es, e.h = x.1 ∧ r ∈ e.rules
  modes : ∀ e ∈ es, ∃ x ∈ m.rulesets, x.1 = e.h
  rules : (∀ f ∈ fs, f.here = true → Apart f) →
    (m.rulesets.flatMap fun x => x.2.map fun r => (x.1, r)) = es.flatMap fun e => e.rules.map fun r => (e.h, r)

theorem filters_loop {hex : String → Str} : ∀ {fs : List Filter} {mode : Option Bool} {st : State} {svcs : List Service} {m : Made},
    RefsOk st.refs → filtersLoop hex mode st svcs fs = .ok m → ∃ es, MadeOk hex fs mode st svcs m es
  | [], mode, st, svcs, m, hr, he => by
    cases he
    exact ⟨[], rfl, rfl, hr, fun _ h => h, fun h => h, fun _ h => h, (fun _ h => by cases h), (fun _ h => by cases h),
      (fun _ h => by cases h), (fun _ h => by cases h), fun _ => rfl⟩
  | f :: fs, mode, st, svcs, m, hr, he => by
    rw [filtersLoop] at he
    split at he
    next hh =>
      obtain ⟨es, h⟩ := filters_loop hr he
      refine ⟨es, ?_, h.books, h.refs, h.refsMono, h.services, h.servicesMono, h.each, h.headers, h.rulesets, h.modes,
        fun ha => h.rules fun f hf => ha f (List.mem_cons_of_mem _ hf)⟩
      rw [List.filter_cons_of_neg (by simpa using hh)]
      exact h.terms
    next hh =>
      have hh : f.here = true := by simpa using hh
      obtain ⟨hd, hhd, he⟩ := bind_ok he
      split at he
      · cases he
      next hmode =>
        obtain ⟨x, hx, he⟩ := bind_ok he
        obtain ⟨y, hy, he⟩ := bind_ok he
        obtain ⟨q, hq, he⟩ := bind_ok he
        cases he
        obtain ⟨st1, ks⟩ := x
        obtain ⟨rs, svcs1⟩ := y
        obtain ⟨ds, d1, d2, d3, d4, d5, d6, d7⟩ := terms_loop hr hx
        obtain ⟨bs, b1, b2, b3, b4, b5, b6, b7, b8⟩ := rules_loop hy
        obtain ⟨es, h⟩ := filters_loop d4 hq
        dsimp only at d2 d3 d4 d5 d6 b1 b2 b3 b4 b5 b6 b7 b8 h
        subst d2
        obtain ⟨zs, z1, z2, z3⟩ := zip_blocks b1
        have hzs : (zs.map fun z => (⟨f, hd, z.1, z.2⟩ : Entry)).map (fun e => (e.f, e.d.g)) =
            (f.terms.filter counts).map fun g => (f, g) := by
          rw [← d1, ← z1]
          simp [List.map_map, Function.comp_def]
        have hrules : rs = bs.flatMap Prod.snd → rs.map (fun r => (hd, r)) =
            (zs.map fun z => (⟨f, hd, z.1, z.2⟩ : Entry)).flatMap fun e => e.rules.map fun r => (e.h, r) := by
          intro e
          rw [e, ← z2, List.map_flatMap, List.flatMap_map]
        refine ⟨(zs.map fun z => (⟨f, hd, z.1, z.2⟩ : Entry)) ++ es, ?_, ?_, h.refs, fun r hm => h.refsMono r (d5 r hm),
          fun hs => h.services (b4 hs), fun s hs => h.servicesMono s (b3 s hs), ?_, ?_, ?_, ?_, ?_⟩
        · rw [List.map_append, hzs, h.terms, List.filter_cons_of_pos hh, List.flatMap_cons]
        · rw [List.flatMap_append, List.foldl_append]
          show q.state.books = _
          rw [h.books, d3]
          congr 2
          rw [← z1, List.flatMap_map, List.flatMap_map]
          rfl
        · intro e he
          rcases List.mem_append.1 he with he | he
          · obtain ⟨z, hz, rfl⟩ := List.mem_map.1 he
            have hzd : z.1 ∈ ds := by
              rw [← z1]
              exact List.mem_map.2 ⟨z, hz, rfl⟩
            have hcase := z3 z hz
            refine ⟨hhd, (d6 z.1 hzd).1.mono h.refsMono, ?_, ?_⟩
            · intro e
              rcases hcase with ⟨_, h2⟩ | ⟨k, hk, _⟩
              · exact h2
              · dsimp only at e
                rw [hk] at e
                cases e
            · intro k hk
              dsimp only at hk
              rcases hcase with ⟨h1, _⟩ | ⟨k', hk', hb⟩
              · rw [h1] at hk
                cases hk
              · rw [hk'] at hk
                cases hk
                obtain ⟨c1, c2⟩ := b2 _ hb
                refine ⟨c1.mono h.servicesMono, c2, b5 ?_⟩
                rw [← b1]
                intro e
                rw [List.map_eq_nil_iff] at e
                rw [e] at hb
                cases hb
          · exact h.each e he
        · have hm : ∀ x ∈ q.rulesets, hd.noObj = x.1.noObj := fun x hx => (h.headers x hx).1
          intro x hx
          rcases List.mem_cons.1 hx with rfl | hx
          · refine ⟨Classical.not_not.1 hmode, fun y hy => ?_⟩
            rcases List.mem_cons.1 hy with rfl | hy
            · rfl
            · exact hm y hy
          · refine ⟨?_, fun y hy => ?_⟩
            · rw [← hm x hx]
              exact Classical.not_not.1 hmode
            · rcases List.mem_cons.1 hy with rfl | hy
              · exact (hm x hx).symm
              · exact (h.headers x hx).2 y hy
        · intro x hx
          rcases List.mem_cons.1 hx with rfl | hx
          · refine ⟨b7 List.nodup_nil, fun r hr => ?_⟩
            rcases b6 r hr with h0 | ⟨b, hb, h0⟩
            · cases h0
            · have : r ∈ zs.flatMap Prod.snd := by
                rw [z2]
                exact List.mem_flatMap.2 ⟨b, hb, h0⟩
              obtain ⟨z, hz, hr'⟩ := List.mem_flatMap.1 this
              exact ⟨⟨f, hd, z.1, z.2⟩, List.mem_append_left _ (List.mem_map.2 ⟨z, hz, rfl⟩), rfl, hr'⟩
          · obtain ⟨h1, h2⟩ := h.rulesets x hx
            refine ⟨h1, fun r hr => ?_⟩
            obtain ⟨e, he, h3⟩ := h2 r hr
            exact ⟨e, List.mem_append_right _ he, h3⟩
        · intro e he
          rcases List.mem_append.1 he with he | he
          · obtain ⟨z, hz, rfl⟩ := List.mem_map.1 he
            exact ⟨(hd, rs), List.mem_cons_self, rfl⟩
          · obtain ⟨x, hx, h1⟩ := h.modes e he
            exact ⟨x, List.mem_cons_of_mem _ hx, h1⟩
        · intro ha
          rw [List.flatMap_append, List.flatMap_cons, ← h.rules fun f hf => ha f (List.mem_cons_of_mem _ hf)]
          congr 1
          refine hrules ?_
          have := b8 ?_
          · simpa using this
          · rw [List.nil_append]
            have hname : ∀ d ∈ ds, ∀ k, d.kept = some k → k.name = longName hex hd d.g.term.name := by
              intro d hdm k hk
              have hok := (d6 d hdm).1
              by_cases hex' : d.ex = none
              · rw [hok.dropped hex'] at hk
                cases hk
              · obtain ⟨apps, h1, _⟩ := hok.kept hex'
                rw [h1] at hk
                cases hk
                rfl
            have hfrom : ∀ b ∈ bs, ∃ d ∈ ds, b.1.name = longName hex hd d.g.term.name := by
              intro b hb
              have : b.1 ∈ ds.filterMap Done.kept := by
                rw [← b1]
                exact List.mem_map.2 ⟨b, hb, rfl⟩
              obtain ⟨d, hd', hk⟩ := List.mem_filterMap.1 this
              exact ⟨d, hd', hname d hd' _ hk⟩
            have hin : ∀ d ∈ ds, d.g ∈ f.terms ∧ counts d.g = true := by
              intro d hd'
              have : d.g ∈ f.terms.filter counts := by
                rw [← d1]
                exact List.mem_map.2 ⟨d, hd', rfl⟩
              exact List.mem_filter.1 this
            refine blocks_nodup (fun b hb => (b2 b hb).2) ?_ ?_
            · have : (bs.map fun b => b.1.name) = (ds.filterMap Done.kept).map Kept.name := by
                rw [← b1, List.map_map]
                rfl
              rw [this]
              exact (kept_names hname).nodup d7
            · intro b hb c hc
              obtain ⟨d, hd1, e1⟩ := hfrom b hb
              obtain ⟨d', hd2, e2⟩ := hfrom c hc
              rw [e1, e2]
              obtain ⟨p1, p2⟩ := hin d hd1
              obtain ⟨q1, q2⟩ := hin d' hd2
              obtain ⟨r1, r2⟩ := ha f List.mem_cons_self hh d.g p1 d'.g q1 p2 q2
              exact ⟨fun e => r1 (long_append e), fun e => r2 (long_append e)⟩

end Verif.Pan
