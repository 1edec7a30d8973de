import Verif.Props.Tf
import Verif.Props.GceLimits

/-!
Properties of the model of capirca/lib/gce_vpc_tf.py: C138 (sizes), C139 (names), C140 (priorities), C141 (descriptions).
-/

namespace Verif.Props
open Verif Policy Aclgenerator Nacaddr
open Verif.Gce (GTerm Rule Ctx Filter families)
open Verif.Spec.Gce (Header Number Attributes NameOf CatchAll Text)
open Verif.Spec.Tf (Live Sizes)

/-! ### sizes -/

theorem tf_terms_pass {c : Ctx} {limit : Nat} {vs : List Ver} {gs : List GTerm} {names header : List Str} {n k : Nat} {o : Tf.Out}
    (h : Tf.termsLoop c limit vs names header n k gs = .ok o) {r : Rule} (hr : r ∈ o.rules) : ∃ g v t name desc k ps rs,
    Tf.convert c v g t name desc k ps = .ok rs ∧ r ∈ rs := by
  obtain ⟨bs, e1, e2, e3⟩ := Tf.termsLoop_blocks h
  rw [e1] at hr
  obtain ⟨b, hb, hr⟩ := List.mem_flatMap.1 hr
  rcases e3 b hb with ⟨_, e⟩ | ⟨y1, name, hdr, n', k', o', _, y3, y4⟩
  · rw [e] at hr; cases hr
  · by_cases hl : Live b.1
    · rw [← y4] at hr
      obtain ⟨_, comment, o1, h1, e, _⟩ := Tf.oneTerm_live y3 hl
      rw [← e] at hr
      obtain ⟨v, t', desc, k'', ps', rs, _, h7, h8⟩ := tf_fam h1 r hr
      exact ⟨b.1, v, t', name, desc, k'', ps', rs, h7, h8⟩
    · rw [← y4, (Tf.oneTerm_dead y3 y1 hl).1] at hr
      cases hr

theorem tf_filters_pass : ∀ {fs : List Filter} {limit n k : Nat} {rs : List Rule}, Tf.filtersLoop limit n k fs = .ok rs → ∀ r ∈ rs,
    ∃ c v g t name desc k ps rs', Tf.convert c v g t name desc k ps = .ok rs' ∧ r ∈ rs'
  | [], _, _, _, _, h, _, hr => by cases h; cases hr
  | f :: fs, limit, n, k, rs, h, r, hr => by
    rw [Tf.filtersLoop] at h
    split at h
    · cases h
    · split at h
      · cases h
      · obtain ⟨o, h1, h⟩ := bind_ok h
        obtain ⟨rs', h2, h⟩ := bind_ok h
        cases h
        rcases List.mem_append.1 hr with hr | hr
        · obtain ⟨g, x⟩ := tf_terms_pass h1 hr
          obtain ⟨v, x⟩ := x
          exact ⟨_, v, g, x⟩
        · exact tf_filters_pass h2 r hr

theorem tf_convert_sizes {c : Ctx} {v : Ver} {g : GTerm} {t : Term} {name desc : Str} {k : Nat} {ps : List Proto} {rs : List Rule}
    (h : Tf.convert c v g t name desc k ps = .ok rs) {r : Rule} (hr : r ∈ rs) : Sizes r := by
  obtain ⟨action, nm, s, d, pr, _, rfl, h1, h2, h0, h3, h4, h5, h6⟩ := Tf.convert_mem h hr
  unfold Tf.tooMany at h4
  simp only [Bool.or_eq_false_iff, decide_eq_false_iff_not, Nat.not_lt, Bool.and_eq_false_iff, Bool.not_eq_false',
    List.isEmpty_iff] at h4
  obtain ⟨⟨⟨⟨t1, t2⟩, t3⟩, t4⟩, t5⟩ := h4
  refine ⟨h3, h1, h2, ?_, ?_, t3, t4, ⟨?_, ?_⟩, h0, ?_⟩
  · simp only [Tf.protoDict, Tf.sourceTags]
    split
    · exact t1
    · simp
  · simp only [Tf.protoDict, Tf.targetTags]
    split
    · omega
    · split
      · exact t2
      · simp
  · simpa [Tf.protoDict, Gce.protoDict] using h6
  · intro e he
    obtain ⟨q, _, rfl⟩ := List.mem_map.1 he
    exact h5
  · simp only [Tf.protoDict]
    rcases t5 with t5 | t5
    · exact .inr t5
    · exact .inl t5

/-- C138, without the description and without tags that are empty: the rules of every policy that is translated are within the
limits of the firewall. Not proved, and refuted below: the description is within its limit, and no tag is empty. -/
theorem C138_sizes_partial {fs : List Filter} {rs : List Rule} (h : Tf.translate fs = .ok rs) {r : Rule} (hr : r ∈ rs) : Sizes r := by
  obtain ⟨c, v, g, t, name, desc, k, ps, rs', h1, h2⟩ := tf_filters_pass h r hr
  exact tf_convert_sizes h1 h2

theorem tf_adds {limit n m : Nat} {rs : List Rule} (h : Tf.addCounts limit n rs = .ok m) : Counted limit n m rs := by
  unfold Tf.addCounts at h
  dsimp only at h
  split at h
  · cases h
  next hn =>
    cases h
    refine ⟨rfl, fun h1 h2 => ?_⟩
    by_cases h3 : rs = []
    · subst h3
      simpa using h1
    · simp only [not_and] at hn
      have := hn h3 h2
      omega

theorem tf_counted_fam {c : Ctx} {limit : Nat} {g : GTerm} {name : Str} : ∀ {vs : List Ver} {t : Term} {ps : List Proto}
    {comment : List Str} {n k : Nat} {o : Tf.Out}, Tf.famLoop c limit g name vs t ps comment n k = .ok o → Counted limit n o.count o.rules
  | [], _, _, _, _, _, _, h => by cases h; exact counted_nil
  | v :: vs, t, ps, comment, n, k, o, h => by
    obtain ⟨q, _, rs, m, o', _, _, h1, h2, h3, _, h4⟩ := Tf.famLoop_cons h
    rw [h3, h4]
    exact counted_append (tf_adds h1) (tf_counted_fam h2)

theorem tf_counted_one {c : Ctx} {limit : Nat} {vs : List Ver} {header : List Str} {n k : Nat} {g : GTerm} {name : Str} {o : Tf.Out}
    (h : Tf.oneTerm c limit vs header n k g name = .ok o) : Counted limit n o.count o.rules := by
  unfold Tf.oneTerm at h
  split at h
  · cases h; exact counted_nil
  · split at h
    · cases h
    · split at h
      · cases h; exact counted_nil
      · obtain ⟨o', h1, h⟩ := bind_ok h
        cases h
        have := tf_counted_fam h1
        exact this

theorem tf_counted {c : Ctx} {limit : Nat} {vs : List Ver} : ∀ {gs : List GTerm} {names header : List Str} {n k : Nat} {o : Tf.Out},
    Tf.termsLoop c limit vs names header n k gs = .ok o → Counted limit n o.count o.rules
  | [], _, _, _, _, _, h => by cases h; exact counted_nil
  | g :: gs, names, header, n, k, o, h => by
    rw [Tf.termsLoop] at h
    split at h
    · exact tf_counted h
    · obtain ⟨name, _, h⟩ := bind_ok h
      split at h
      · cases h
      · obtain ⟨o1, h1, h⟩ := bind_ok h
        obtain ⟨q, h2, h⟩ := bind_ok h
        cases h
        exact counted_append (tf_counted_one h1) (tf_counted h2)

theorem tf_count {limit : Nat} (h0 : limit ≠ 0) : ∀ {fs : List Filter} {n k : Nat} {rs : List Rule},
    (∀ f ∈ fs, ∀ s ∈ f.options, ¬ Number s) → n ≤ limit → Tf.filtersLoop limit n k fs = .ok rs →
    n + (rs.map Gce.attributeCount).sum ≤ limit
  | [], n, k, rs, _, hn, h => by cases h; simpa using hn
  | f :: fs, n, k, rs, hf, hn, h => by
    rw [Tf.filtersLoop] at h
    split at h
    · cases h
    · split at h
      · cases h
      · rw [head_limit_keep (hf f (by simp))] at h
        obtain ⟨o, h1, h⟩ := bind_ok h
        obtain ⟨rs', h2, h⟩ := bind_ok h
        cases h
        obtain ⟨c1, c2⟩ := tf_counted h1
        have := tf_count h0 (fun g hg => hf g (List.mem_cons_of_mem _ hg)) (c2 hn h0) h2
        rw [List.map_append, List.sum_append]
        omega

/-- C138: if the first header states a quota and no other does, the whole output keeps it. -/
theorem C138_quota {f : Filter} {fs : List Filter} {rs : List Rule} {N : Nat} (h : Tf.translate (f :: fs) = .ok rs)
    (ho : f.order.Perm ["inet", "inet6", "mixed"]) (h0 : N ≠ 0) (hN : toString N ∈ f.options)
    (hu : ∀ s ∈ f.options, Number s → s = toString N) (hrest : ∀ f' ∈ fs, ∀ s ∈ f'.options, ¬ Number s) :
    (rs.map Attributes).sum ≤ N := by
  have e : rs.map Attributes = rs.map Gce.attributeCount :=
    List.map_congr_left fun r hr => (attributes_count (C138_sizes_partial h hr).ranges).symm
  rw [e]
  unfold Tf.translate at h
  rw [Tf.filtersLoop] at h
  split at h
  · cases h
  · split at h
    · cases h
    · rw [head_limit_set ho hN hu] at h
      obtain ⟨o, h1, h⟩ := bind_ok h
      obtain ⟨rs', h2, h⟩ := bind_ok h
      cases h
      obtain ⟨c1, c2⟩ := tf_counted h1
      have := tf_count h0 hrest (c2 (Nat.zero_le _) h0) h2
      rw [List.map_append, List.sum_append]
      omega

/-! ### priorities -/

theorem head_direction (limit : Nat) (f : Filter) : (Gce.head limit f).direction = "INGRESS" ∨ (Gce.head limit f).direction = "EGRESS" := by
  unfold Gce.head
  dsimp only
  simp only [List.foldl_cons, List.foldl_nil, Gce.pick]
  split <;> split <;> simp

theorem tf_numbered : ∀ {fs : List Filter} {limit n k : Nat} {rs : List Rule}, Tf.filtersLoop limit n k fs = .ok rs →
    (∀ f ∈ fs, ∀ g ∈ f.terms, Live g → g.priority = none ∨ g.term.sourceAddress ≠ [] ∨ g.term.destinationAddress ≠ []) →
    Tf.Seq k rs
  | [], _, _, _, _, h, _ => by cases h; rfl
  | f :: fs, limit, n, k, rs, h, hp => by
    rw [Tf.filtersLoop] at h
    split at h
    · cases h
    · split at h
      · cases h
      · obtain ⟨o, h1, h⟩ := bind_ok h
        obtain ⟨rs', h2, h⟩ := bind_ok h
        cases h
        obtain ⟨s1, s2⟩ := Tf.termsLoop_seq h1 (by
          intro g hg header n k name o hr ho
          refine tf_term_seq ho hr (head_direction limit f) fun hl => ?_
          rcases mem_prepare hg with hg | ⟨g0, hg0, hd, rfl⟩
          · exact hp f (by simp) g hg hl
          · left
            unfold Gce.isDefaultDeny at hd
            simp only [Bool.and_eq_true, Option.isNone_iff_eq_none] at hd
            exact hd.1.1.1.1.2)
        rw [s2] at h2
        exact Tf.seq_append s1 (tf_numbered h2 fun f' hf' => hp f' (List.mem_cons_of_mem _ hf'))

/-- C140, for policies in which no term without addresses states a priority: the priorities of the rules are one, two, three and
so on. Not proved, and refuted below: the same for other policies, and that the rules of a term have the priority it states. -/
theorem C140_numbered_partial {fs : List Filter} {rs : List Rule} (h : Tf.translate fs = .ok rs)
    (hp : ∀ f ∈ fs, ∀ g ∈ f.terms, Live g → g.priority = none ∨ g.term.sourceAddress ≠ [] ∨ g.term.destinationAddress ≠ [])
    (i : Nat) (hi : i < rs.length) : rs[i].priority = some (i + 1) := by
  have hs : rs.map Rule.priority = (List.range' 1 rs.length).map some := tf_numbered h hp
  have : (rs.map Rule.priority)[i]? = ((List.range' 1 rs.length).map some)[i]? := by rw [hs]
  simp only [List.getElem?_map, List.getElem?_eq_getElem hi, Option.map_some, List.getElem?_range' hi] at this
  simpa [Nat.add_comm] using this

/-! ### names -/

theorem tf_split_names {sa da : List Net} {k : Nat} {r : Rule} :
    (Tf.split sa da k r).map Rule.name = (Gce.split sa da r).map Rule.name := by
  have : ∀ l : List Rule, l.map Rule.name = (l.map Tf.strip).map Rule.name := by
    intro l
    rw [List.map_map]
    rfl
  rw [this, this (Gce.split sa da r), Tf.split_strip rfl]

/-- The rules of a pass over a term are named after it, each differently. -/
theorem tf_convert_names {c : Ctx} {v : Ver} {g : GTerm} {t : Term} {name desc : Str} {k : Nat} {ps : List Proto} {rs : List Rule}
    (h : Tf.convert c v g t name desc k ps = .ok rs) :
    (rs.map Rule.name).Nodup ∧ ∀ r ∈ rs, PartOf (Gce.ruleName c v name) r.name ∧ r.description = desc := by
  have hdesc : ∀ r ∈ rs, r.description = desc := by
    intro r hr
    obtain ⟨_, _, _, _, _, _, rfl, _⟩ := Tf.convert_mem h hr
    rfl
  have : (rs.map Rule.name).Nodup ∧ ∀ x ∈ rs.map Rule.name, PartOf (Gce.ruleName c v name) x := by
    unfold Tf.convert at h
    split at h
    · cases h
    · split at h
      · cases h; simp
      · split at h
        · cases h; simp
        · split at h
          · cases h; simp
          · obtain ⟨_, action, _, rfl, _⟩ := Tf.convertRest_ok h
            rw [tf_split_names, List.forall_mem_map]
            unfold Gce.split
            split
            · exact numbered_parts (put := Gce.putSource) (fun _ _ => rfl)
            · split
              · exact numbered_parts (put := Gce.putDestination) (fun _ _ => rfl)
              · exact ⟨by simp, fun r hr => by rw [List.mem_singleton.1 hr]; exact .inl rfl⟩
  exact ⟨this.1, fun r hr => ⟨this.2 _ (List.mem_map.2 ⟨r, hr, rfl⟩), hdesc r hr⟩⟩

theorem tf_describe {g : GTerm} {comment : List Str} : joinBlank (Gce.withOwner g comment) = Text comment g.owner := by
  unfold Gce.withOwner Text
  rw [joinBlank_text]
  cases g.owner <;> simp

theorem tf_live_of {g : GTerm} (h0 : g.expired = false) (hr : g.reply = false) (he : ¬ Tf.elsewhere g.term = true) : Live g := by
  refine ⟨h0, hr, ?_⟩
  unfold Tf.elsewhere at he
  simp only [Bool.or_eq_true, Bool.and_eq_true, Bool.not_eq_true', List.isEmpty_eq_false_iff, not_or, not_and,
    List.contains_iff_mem] at he
  refine ⟨?_, fun h2 => ?_⟩
  · by_cases h2 : g.term.platform = []
    · exact .inl h2
    · have := he.1 h2
      simp only [← Bool.not_eq_true, List.contains_iff_mem] at this
      exact .inr (Classical.not_not.1 this)
  · exact he.2 (by rintro e; rw [e] at h2; cases h2) h2

theorem tf_one_names {c : Ctx} {limit : Nat} {v : Ver} {header : List Str} {n k : Nat} {g : GTerm} {name : Str} {o : Tf.Out}
    (h : Tf.oneTerm c limit [v] header n k g name = .ok o) : (o.rules.map Rule.name).Nodup ∧ ∀ r ∈ o.rules,
    (g.reply = false → Live g) ∧ PartOf (Gce.ruleName c v name) r.name ∧
      r.description = Text (if g.comment.isEmpty then header else g.comment) g.owner := by
  unfold Tf.oneTerm at h
  split at h
  · cases h; simp
  next h0 =>
    split at h
    · cases h
    · split at h
      · cases h; simp
      next he =>
        obtain ⟨o', h1, h⟩ := bind_ok h
        cases h
        rw [Tf.famLoop] at h1
        obtain ⟨q, g1, h1⟩ := bind_ok h1
        obtain ⟨rs, g2, h1⟩ := bind_ok h1
        obtain ⟨m, g3, h1⟩ := bind_ok h1
        cases h1
        obtain ⟨k1, k2⟩ := tf_convert_names g2
        dsimp only
        rw [List.append_nil]
        exact ⟨k1, fun r hr => ⟨fun hr => tf_live_of (by simpa using h0) hr he, (k2 r hr).1, (k2 r hr).2.trans tf_describe⟩⟩

theorem tf_terms_names {c : Ctx} {limit : Nat} {v : Ver} (hm : c.mixed = false) :
    ∀ {gs : List GTerm} {names header : List Str} {n k : Nat} {o : Tf.Out},
    Tf.termsLoop c limit [v] names header n k gs = .ok o →
    ((∀ g ∈ gs, ∀ g' ∈ gs, ∀ (nm nm' : Str) (k : Nat), Gce.fixName c.direction g.term.name = .ok nm →
      Gce.fixName c.direction g'.term.name = .ok nm' → nm ≠ nm' ++ '-' :: (toString k).toList) → (o.rules.map Rule.name).Nodup) ∧
    ∀ r ∈ o.rules, ∃ g ∈ gs, ∃ name hdr, Gce.fixName c.direction g.term.name = .ok name ∧
      name ∉ names ∧ PartOf (Gce.ruleName c v name) r.name ∧ Live g ∧
      r.description = Text (if g.comment.isEmpty then hdr else g.comment) g.owner
  | [], _, _, _, _, _, h => by cases h; simp
  | g :: gs, names, header, n, k, o, h => by
    rw [Tf.termsLoop] at h
    split at h
    · obtain ⟨h1, h2⟩ := tf_terms_names hm h
      exact ⟨fun hs => h1 fun x hx y hy => hs x (List.mem_cons_of_mem _ hx) y (List.mem_cons_of_mem _ hy),
        fun r hr => (h2 r hr).elim fun g hg => ⟨g, List.mem_cons_of_mem _ hg.1, hg.2⟩⟩
    next hrep =>
      obtain ⟨name, h1, h⟩ := bind_ok h
      split at h
      · cases h
      next hnin =>
        obtain ⟨o1, h2, h⟩ := bind_ok h
        obtain ⟨q, h3, h⟩ := bind_ok h
        cases h
        obtain ⟨k1, k2⟩ := tf_terms_names hm h3
        obtain ⟨e1, e2⟩ := tf_one_names h2
        dsimp only
        refine ⟨fun hs => ?_, ?_⟩
        · rw [List.map_append, List.nodup_append]
          refine ⟨e1, k1 fun x hx y hy => hs x (List.mem_cons_of_mem _ hx) y (List.mem_cons_of_mem _ hy), ?_⟩
          intro x hx y hy e
          obtain ⟨r, hr, rfl⟩ := List.mem_map.1 hx
          obtain ⟨r', hr', rfl⟩ := List.mem_map.1 hy
          obtain ⟨g', hg', nm, hdr, x1, x2, x3, _⟩ := k2 r' hr'
          have hr := (e2 r hr).2.1
          rw [e] at hr
          exact part_ne hm (fun e => x2 (by rw [e]; simp))
            (fun k => hs g (by simp) g' (List.mem_cons_of_mem _ hg') _ _ k h1 x1)
            (fun k => hs g' (List.mem_cons_of_mem _ hg') g (by simp) _ _ k x1 h1) hr x3
        · intro r hr
          rcases List.mem_append.1 hr with hr | hr
          · obtain ⟨y1, y2, y3⟩ := e2 r hr
            exact ⟨g, by simp, name, header, h1, by simpa using hnin, y2, y1 (by simpa using hrep), y3⟩
          · obtain ⟨g', hg', nm, hdr, x1, x2, x3⟩ := k2 r hr
            exact ⟨g', List.mem_cons_of_mem _ hg', nm, hdr, x1, fun h => x2 (List.mem_cons_of_mem _ h), x3⟩

theorem tf_live_default {dir af : String} {g : GTerm} : Live (Tf.asDefault dir af g) ↔ Live g := by
  unfold Live Tf.asDefault
  split <;> exact Iff.rfl

/-- The rules of a filter of one family. -/
theorem tf_filter_names {f : Filter} {rs : List Rule} {d a n : String} (h : Tf.translate [f] = .ok rs)
    (ho : f.order.Perm ["inet", "inet6", "mixed"]) (hh : Header f.options d a n) (ha : a ≠ "mixed") :
    ((d = "INGRESS" → ∀ g ∈ f.terms, ∀ g' ∈ f.terms, ∀ k : Nat, g.term.name ≠ g'.term.name ++ '-' :: (toString k).toList) →
      (rs.map Rule.name).Nodup) ∧ ∀ r ∈ rs, ∃ g ∈ f.terms, Live g ∧
      (∃ base, NameOf n d g.term.name base ∧ PartOf base r.name) ∧
      ∃ hdr, r.description = Text (if g.comment.isEmpty then hdr else g.comment) g.owner := by
  unfold Tf.translate at h
  rw [Tf.filtersLoop] at h
  split at h
  · cases h
  split at h
  · cases h
  · try dsimp only at h
    obtain ⟨e1, e2, e3⟩ := head_header (limit := 0) hh ho
    obtain ⟨o, h1, h⟩ := bind_ok h
    obtain ⟨rs', h2, h⟩ := bind_ok h
    cases h2
    cases h
    rw [List.append_nil]
    have hv : ∃ v, families a = [v] := by
      unfold families
      rw [if_neg ha]
      split <;> exact ⟨_, rfl⟩
    obtain ⟨v, hv⟩ := hv
    have hmx : (a == "mixed") = false := by simpa using ha
    rw [e1, e2, e3, hv, hmx] at h1
    have same : ∀ g' ∈ Tf.prepare d a f.terms, ∃ g ∈ f.terms, g'.term.name = g.term.name ∧ (Live g' ↔ Live g) ∧
        g'.comment = g.comment ∧ g'.owner = g.owner := by
      intro g' hg'
      rcases mem_prepare hg' with hg | ⟨g, hg, _, rfl⟩
      · exact ⟨g', hg, rfl, Iff.rfl, rfl, rfl⟩
      · refine ⟨g, hg, ?_, tf_live_default, rfl, rfl⟩
        unfold Tf.asDefault
        split <;> rfl
    obtain ⟨k1, k2⟩ := tf_terms_names rfl h1
    refine ⟨fun hs => k1 ?_, fun r hr => ?_⟩
    · intro x hx y hy nm nm' k hnm hnm' e
      obtain ⟨g, hg, eg, _⟩ := same x hx
      obtain ⟨g', hg', eg', _⟩ := same y hy
      rw [fixName_ok hnm, fixName_ok hnm', eg, eg'] at e
      dsimp only at e
      by_cases hE : d = "EGRESS"
      · rw [if_pos hE] at e
        have hd : (toString k).toList = Nat.toDigits 10 k := Nat.toList_repr
        rw [hd] at e
        have e : (g.term.name ++ ['-']) ++ ['e'] = (g'.term.name ++ "-e".toList ++ ['-']) ++ Nat.toDigits 10 k := by
          simpa using e
        have hl := congrArg List.getLast? e
        rw [List.getLast?_append (l := g.term.name ++ ['-']),
          List.getLast?_append (l := g'.term.name ++ "-e".toList ++ ['-'])] at hl
        cases hc : (Nat.toDigits 10 k).getLast? with
        | none =>
          rw [List.getLast?_eq_none_iff] at hc
          exact absurd hc (Nat.toDigits_ne_nil)
        | some x =>
          rw [hc] at hl
          have : 'e' = x := by simpa using hl
          subst this
          exact absurd (Nat.isDigit_of_mem_toDigits (by decide) (by decide) (List.mem_of_getLast? hc)) (by decide)
      · rw [if_neg hE, List.append_nil, List.append_nil] at e
        have hI : d = "INGRESS" := by
          have := hh.direction
          split at this
          · exact absurd this hE
          · exact this
        exact hs hI g hg g' hg' k e
    · obtain ⟨g', hg', name, hdr, x1, _, x3, x4, x5⟩ := k2 r hr
      obtain ⟨g, hg, s1, s2, s3, s4⟩ := same g' hg'
      rw [s1] at x1
      rw [s3, s4] at x5
      exact ⟨g, hg, s2.1 x4, ⟨_, ruleName_spec (c := ⟨d, n, false⟩) rfl x1, x3⟩, hdr, x5⟩

/-- C139, for one filter of one family, in which no ingress term is named like a numbered part of another: every rule has the
name of a live term, or that name with a number, and no two rules have the same name. Not proved, and refuted below: the same
for other names, for mixed filters and for several filters. -/
theorem C139_names_partial {f : Filter} {rs : List Rule} {d a n : String} (h : Tf.translate [f] = .ok rs)
    (ho : f.order.Perm ["inet", "inet6", "mixed"]) (hh : Header f.options d a n) (ha : a ≠ "mixed")
    (hs : d = "INGRESS" → ∀ g ∈ f.terms, ∀ g' ∈ f.terms, ∀ k : Nat, g.term.name ≠ g'.term.name ++ '-' :: (toString k).toList) :
    (rs.map Rule.name).Nodup ∧ ∀ r ∈ rs, ∃ g ∈ f.terms, Live g ∧ ∃ base, NameOf n d g.term.name base ∧
      (r.name = base ∨ ∃ k : Nat, r.name = base ++ '-' :: (toString k).toList) :=
  ⟨(tf_filter_names h ho hh ha).1 hs, fun r hr => by
    obtain ⟨g, h1, h2, h3, _⟩ := (tf_filter_names h ho hh ha).2 r hr
    exact ⟨g, h1, h2, h3⟩⟩

/-- C141, for one filter of one family whose terms have comments: the rule with the name of a term, or with that name and a
number, has the text of its comment. Not proved, and refuted below: the same for terms without comments, and for mixed
filters. -/
theorem C141_descriptions_partial {f : Filter} {rs : List Rule} {d a n : String} (h : Tf.translate [f] = .ok rs)
    (ho : f.order.Perm ["inet", "inet6", "mixed"]) (hh : Header f.options d a n) (ha : a ≠ "mixed")
    (hs : ∀ g ∈ f.terms, g.comment ≠ []) : ∀ r ∈ rs, ∃ g ∈ f.terms, Live g ∧
      (∃ base, NameOf n d g.term.name base ∧ (r.name = base ∨ ∃ k : Nat, r.name = base ++ '-' :: (toString k).toList)) ∧
      r.description = Text g.comment g.owner := by
  intro r hr
  obtain ⟨g, h1, h2, h3, hdr, h4⟩ := (tf_filter_names h ho hh ha).2 r hr
  refine ⟨g, h1, h2, h3, ?_⟩
  rw [if_neg (by simpa using hs g h1)] at h4
  exact h4

end Verif.Props
