import Verif.Props.GcpHf

/-!
Properties of the model of capirca/lib/gcp_hf.py: C112, C113, C114.
-/

namespace Verif.Props
open Verif Verif.Spec Verif.Spec.GcpHf Verif.GcpHf Policy Aclgenerator Nacaddr

/-! ### names -/

theorem lowerLetter_iff {c : Char} : lowerLetter c = true ↔ 'a' ≤ c ∧ c ≤ 'z' := by
  unfold lowerLetter
  simp

theorem letterOrDigit_plain {c : Char} (h : letterOrDigit c = true) : Plain c := by
  unfold letterOrDigit at h
  rcases Bool.or_eq_true _ _ ▸ h with h | h
  · exact .inl (lowerLetter_iff.1 h)
  · refine .inr ?_
    unfold Char.isDigit at h
    simp only [Bool.and_eq_true, decide_eq_true_eq] at h
    exact h

theorem letterOrDigit_hyphen : letterOrDigit '-' = false := by decide

theorem tailOk_spec : ∀ {s : Str}, tailOk s = true → (∀ c ∈ s, Plain c ∨ c = '-') ∧ s ≠ [] ∧ s.getLast? ≠ some '-'
  | [], h => by cases h
  | [c], h => by
    have hc : letterOrDigit c = true := h
    refine ⟨fun d hd => ?_, by simp, ?_⟩
    · rw [List.mem_singleton.1 hd]
      exact .inl (letterOrDigit_plain hc)
    · rintro h
      simp only [List.getLast?_singleton, Option.some.injEq] at h
      rw [h, letterOrDigit_hyphen] at hc
      cases hc
  | c :: d :: cs, h => by
    rw [tailOk] at h
    · simp only [Bool.and_eq_true, Bool.or_eq_true, beq_iff_eq] at h
      obtain ⟨h1, h2, h3⟩ := tailOk_spec h.2
      refine ⟨fun e he => ?_, by simp, ?_⟩
      · rcases List.mem_cons.1 he with rfl | he
        · exact h.1.imp letterOrDigit_plain id
        · exact h1 e he
      · rw [List.getLast?_cons_cons]
        exact h3
    · simp

theorem labelValid_label {s : Str} (h : labelValid s = true) : Label s := by
  cases s with
  | nil => cases h
  | cons c cs =>
    unfold labelValid at h
    simp only [Bool.and_eq_true, Bool.or_eq_true, List.isEmpty_iff] at h
    obtain ⟨h1, h2⟩ := h
    have hc := lowerLetter_iff.1 h1
    rcases h2 with rfl | h2
    · refine ⟨fun d hd => .inl (.inl (by rw [List.mem_singleton.1 hd]; exact hc)), ⟨c, [], rfl, hc⟩, ?_⟩
      rintro h
      simp only [List.getLast?_singleton, Option.some.injEq] at h
      rw [h] at h1
      exact absurd h1 (by decide)
    · obtain ⟨k1, k2, k3⟩ := tailOk_spec h2
      refine ⟨fun d hd => ?_, ⟨c, cs, rfl, hc⟩, ?_⟩
      · rcases List.mem_cons.1 hd with rfl | hd
        · exact .inl (.inl hc)
        · exact k1 d hd
      · cases cs with
        | nil => exact absurd rfl k2
        | cons d cs =>
          rw [List.getLast?_cons_cons]
          exact k3

theorem projectValid_spec {s : Str} (h : projectValid s = true) : 6 ≤ s.length ∧ s.length ≤ 30 ∧ Label s := by
  cases s with
  | nil => cases h
  | cons c cs =>
    unfold projectValid at h
    simp only [Bool.and_eq_true, decide_eq_true_eq] at h
    obtain ⟨⟨⟨h1, h2⟩, h3⟩, h4⟩ := h
    refine ⟨h1, h2, labelValid_label ?_⟩
    unfold labelValid
    simp [h3, h4]

theorem vpcValid_spec {s : Str} (h : vpcValid s = true) : s.length ≤ 63 ∧ Label s := by
  unfold vpcValid at h
  simp only [Bool.and_eq_true, decide_eq_true_eq] at h
  exact ⟨h.1.2, labelValid_label h.2⟩

/-! ### limits -/

theorem hf_entries_limits {t : Term} {v : Ver} {ps : List Proto} {es : List Gce.Entry} (h : entriesOf t v ps = .ok es)
    (hp : ps = [] ∨ (ps.filter fun p => !GcpHf.dropped v p) ≠ []) :
    es ≠ [] ∧ ∀ e ∈ es, e.ports.length ≤ t.destinationPort.length := by
  unfold entriesOf at h
  split at h
  · cases h
    simp
  next h0 =>
    refine ⟨fun he => ?_, fun e he => ?_⟩
    · have hp := hp.resolve_left (by simpa using h0)
      obtain ⟨q, hq⟩ := List.exists_mem_of_ne_nil _ hp
      obtain ⟨e, k⟩ := Cisco.listM_each h q hq
      have := (listM_mem h e).2 ⟨q, hq, k⟩
      rw [he] at this
      cases this
    · obtain ⟨q, _, k⟩ := (listM_mem h e).1 he
      rw [(entryOf_ok k).1]
      exact Nat.le_refl _

theorem hf_limits {c : GcpHf.Ctx} {g : HTerm} {rs : List Rule} (hb : Block c g rs)
    (hdir : c.direction = "INGRESS" ∨ c.direction = "EGRESS") : ∀ r ∈ rs, GcpHf.WithinLimits r := by
  rcases hb with ⟨_, rfl⟩ | ⟨_, hr, name, parts, _, h2, rfl⟩
  · intro r hr; cases hr
  intro y hy
  obtain ⟨b, hb, hy⟩ := List.mem_flatMap.1 hy
  obtain ⟨action, es, _, k1, k2, k3⟩ := hf_convert_mem (h2 b hb) hy
  obtain ⟨e1, e2⟩ := hf_entries_limits k1 k2
  obtain ⟨_, ⟨r1, r2⟩, r3, r4⟩ := hf_refused hr
  have hdesc : (describe (c.family == "mixed" && b.1 == .v6) name g.comment).length ≤ 64 := by
    unfold describe
    rw [List.length_take]
    exact Nat.min_le_left _ _
  have htg : g.targets.length ≤ 256 ∧
      ∀ x ∈ g.targets, (6 ≤ x.1.length ∧ x.1.length ≤ 30 ∧ Label x.1) ∧ (x.2.length ≤ 63 ∧ Label x.2) :=
    ⟨r1, fun x hx => ⟨projectValid_spec (r2 x hx).1, vpcValid_spec (r2 x hx).2⟩⟩
  have hent : es ≠ [] ∧ ∀ e ∈ es, e.ports.length ≤ 256 := ⟨e1, fun e he => Nat.le_trans (e2 e he) r3⟩
  have hl : ∀ n ∈ g.term.sourcePrefix ++ g.term.destinationPrefix, n ∈ threatLists := r4
  obtain ⟨j, ⟨_, d, rfl, hd⟩ | ⟨_, d, rfl, hd⟩⟩ := hf_both_mem k3
  · refine ⟨hdesc, Nat.zero_le _, ?_, .inl ⟨rfl, rfl⟩, ?_, hdir, hent, htg, fun n hn => hl n ?_, ?_⟩
    · rcases hd with ⟨_, rfl⟩ | ⟨_, h, _⟩
      · exact Nat.zero_le _
      · exact h
    · rcases hd with ⟨h, _⟩ | ⟨h, _⟩
      · exact .inr (.inr (.inr h))
      · exact .inr (.inr (.inl h))
    · exact List.mem_append_right _ hn
    · show ∀ a ∈ [] ++ d, ∀ b ∈ [] ++ d, a.ver = b.ver
      rcases hd with ⟨_, rfl⟩ | ⟨_, _, h⟩
      · intro a ha; cases ha
      · intro a ha b hb
        rw [h a ha, h b hb]
  · refine ⟨hdesc, ?_, Nat.zero_le _, .inr ⟨rfl, rfl⟩, ?_, hdir, hent, htg, fun n hn => hl n ?_, ?_⟩
    · rcases hd with ⟨_, rfl⟩ | ⟨_, h, _⟩
      · exact Nat.zero_le _
      · exact h
    · rcases hd with ⟨h, _⟩ | ⟨h, _⟩
      · exact .inr (.inl h)
      · exact .inl h
    · rcases List.mem_append.1 hn with hn | hn
      · exact List.mem_append_left _ hn
      · cases hn
    · show ∀ a ∈ d ++ [], ∀ b ∈ d ++ [], a.ver = b.ver
      rw [List.append_nil]
      rcases hd with ⟨_, rfl⟩ | ⟨_, _, h⟩
      · intro a ha; cases ha
      · intro a ha b hb
        rw [h a ha, h b hb]

/-- C113: the rules keep within the limits of the firewall and are numbered from 1. -/
theorem C113_limits {fs : List GcpHf.Filter} {out : GcpHf.Out} (h : GcpHf.translate fs = .ok out) :
    (∀ r ∈ out.rules, GcpHf.WithinLimits r) ∧ out.rules.map Rule.priority = List.range' 1 out.rules.length := by
  obtain ⟨bs, _, h2, h3, h4⟩ := hf_translate h
  refine ⟨fun r hr => ?_, h4⟩
  rw [h3] at hr
  obtain ⟨b, hb, hr⟩ := List.mem_flatMap.1 hr
  obtain ⟨f, _, hd, k1, _, _, k4⟩ := h2 b hb
  exact hf_limits k4 ((head_ok k1).1 ▸ directionOf_cases _) r hr

/-! ### headers -/

/-- What is left of the options at the steps of reading a header. -/
theorem head_parts {f : GcpHf.Filter} {h : GcpHf.Head} (hh : GcpHf.head f = .ok h) : ∃ o : List String,
    (∀ s ∈ o, s ∈ f.options) ∧
    (∀ s ∈ f.options, s ∉ ["INGRESS", "EGRESS"] → s ∉ f.families → s ∈ o) ∧
    h.api = (pickApi f.versions o).1 ∧ h.cost = (pickCost (pickApi f.versions o).2).1 ∧
    (pickCost (pickApi f.versions o).2).2 = [h.name] ∧ h.cost ≤ 65536 ∧ h.name.toList.length ≤ 63 ∧
    labelValid h.name.toList = true := by
  unfold GcpHf.head at hh
  dsimp only at hh
  have d1 := fun s => foldl_pick_sub (l := ["INGRESS", "EGRESS"]) (q := ("INGRESS", f.options)) (s := s)
  have d2 := fun s => foldl_pick_keep (l := ["INGRESS", "EGRESS"]) (q := ("INGRESS", f.options)) (s := s)
  generalize ["INGRESS", "EGRESS"].foldl Gce.pick ("INGRESS", f.options) = d at hh d1 d2
  have a1 := fun s => foldl_pick_sub (l := f.families) (q := ("inet", d.2)) (s := s)
  have a2 := fun s => foldl_pick_keep (l := f.families) (q := ("inet", d.2)) (s := s)
  generalize f.families.foldl Gce.pick ("inet", d.2) = q at hh a1 a2
  obtain ⟨name, h1, h2, h3, h4, rfl⟩ := checkHead_ok hh
  exact ⟨q.2, fun s hs => d1 s (a1 s hs), fun s hs k1 k2 => a2 s (d2 s hs k1) k2, rfl, rfl, h1, h2, h3, h4⟩

theorem pickApi_spec {vs o : List String} : ((pickApi vs o).1 = "ga" ∨ ((pickApi vs o).1 ∈ vs ∧ (pickApi vs o).1 ∈ o)) ∧
    (∀ s ∈ (pickApi vs o).2, s ∈ o) ∧ (∀ s ∈ o, s ∉ vs → s ∈ (pickApi vs o).2) := by
  unfold pickApi
  split
  · exact ⟨.inl rfl, fun s hs => hs, fun s hs _ => hs⟩
  next x hx =>
    have h1 := List.mem_of_find?_eq_some hx
    have h2 : x ∈ o := by simpa using List.find?_some hx
    refine ⟨.inr ⟨h1, h2⟩, fun s hs => List.mem_of_mem_erase hs, fun s hs hn => ?_⟩
    exact (List.mem_erase_of_ne (fun e => hn (by rw [e]; exact h1))).2 hs

theorem pickApi_beta {vs o : List String} (hv : vs.Perm ["ga", "beta"]) (h1 : "beta" ∈ o) (h2 : "ga" ∉ o) :
    (pickApi vs o).1 = "beta" := by
  unfold pickApi
  split
  next hx =>
    have := List.find?_eq_none.1 hx "beta" (hv.mem_iff.2 (by simp))
    exact absurd h1 (by simpa using this)
  next x hx =>
    have h3 : x ∈ o := by simpa using List.find?_some hx
    have h4 := hv.mem_iff.1 (List.mem_of_find?_eq_some hx)
    simp only [List.mem_cons, List.not_mem_nil, or_false] at h4
    rcases h4 with rfl | rfl
    · exact absurd h3 h2
    · rfl

theorem word_number : ∀ s ∈ GcpHf.headerWords, ¬ Gce.Number s := by
  intro s hs hn
  have key : ∀ s ∈ GcpHf.headerWords, ¬ (Gce.natOf s).isSome = true := by decide
  exact key s hs (natOf_iff.2 hn)

/-- The orders of the sets. -/
structure Orders (f : GcpHf.Filter) : Prop where
  families : f.families.Perm ["inet", "inet6", "mixed"]
  versions : f.versions.Perm ["ga", "beta"]

theorem orders_words {f : GcpHf.Filter} (ho : Orders f) : ∀ s, s ∉ GcpHf.headerWords → s ∉ ["INGRESS", "EGRESS"] ∧
    s ∉ f.families ∧ s ∉ f.versions := by
  intro s hs
  refine ⟨fun h => hs ?_, fun h => hs ?_, fun h => hs ?_⟩
  · simp only [List.mem_cons, List.not_mem_nil, or_false] at h
    rcases h with rfl | rfl <;> decide
  · have h := ho.families.mem_iff.1 h
    simp only [List.mem_cons, List.not_mem_nil, or_false] at h
    rcases h with rfl | rfl | rfl <;> decide
  · have h := ho.versions.mem_iff.1 h
    simp only [List.mem_cons, List.not_mem_nil, or_false] at h
    rcases h with rfl | rfl <;> decide

theorem head_cost {f : GcpHf.Filter} {h : GcpHf.Head} {n : Nat} (hh : GcpHf.head f = .ok h) (ho : Orders f)
    (hm : Maximum f.options n) : h.cost = n ∧ n ≤ 65536 := by
  obtain ⟨o, k1, k2, _, k4, _, k6, _⟩ := head_parts hh
  obtain ⟨_, a2, a3⟩ := pickApi_spec (vs := f.versions) (o := o)
  suffices h.cost = n from ⟨this, this ▸ k6⟩
  rw [k4]
  unfold pickCost
  split
  next hx =>
    rcases hm with ⟨_, rfl⟩ | ⟨h1, _⟩
    · rfl
    · have hnum : Gce.Number (toString n) := natOf_iff.1 (by rw [natOf_repr]; rfl)
      obtain ⟨w1, w2, w3⟩ := orders_words ho (toString n) (fun h => word_number _ h hnum)
      have := List.find?_eq_none.1 hx _ (a3 _ (k2 _ h1 w1 w2) w3)
      rw [natOf_repr] at this
      exact absurd rfl this
  next s hx =>
    have h1 : (Gce.natOf s).isSome = true := List.find?_some (p := fun s => (Gce.natOf s).isSome) hx
    have h2 := k1 _ (a2 _ (List.mem_of_find?_eq_some hx))
    rcases hm with ⟨h3, _⟩ | ⟨_, h3⟩
    · exact absurd (natOf_iff.1 h1) (h3 s h2)
    · rw [h3 s h2 (natOf_iff.1 h1), natOf_repr]
      rfl

theorem head_api {f : GcpHf.Filter} {h : GcpHf.Head} (hh : GcpHf.head f = .ok h) (ho : Orders f) :
    ("beta" ∉ f.options → h.api = "ga") ∧ ("beta" ∈ f.options → "ga" ∉ f.options → h.api = "beta") ∧
    (h.api = "ga" ∨ h.api = "beta") := by
  obtain ⟨o, k1, k2, k3, _⟩ := head_parts hh
  obtain ⟨a1, _⟩ := pickApi_spec (vs := f.versions) (o := o)
  rw [← k3] at a1
  have hmem : h.api ∈ f.versions → h.api = "ga" ∨ h.api = "beta" := fun h => by
    have := ho.versions.mem_iff.1 h
    simpa using this
  refine ⟨fun hb => ?_, fun hb hg => ?_, ?_⟩
  · rcases a1 with h | ⟨h1, h2⟩
    · exact h
    · rcases hmem h1 with h | h
      · exact h
      · exact absurd (k1 _ (h ▸ h2)) hb
  · rw [k3]
    refine pickApi_beta ho.versions (k2 _ hb (by decide) ?_) (fun h => hg (k1 _ h))
    intro h
    have := ho.families.mem_iff.1 h
    exact absurd this (by decide)
  · rcases a1 with h | ⟨h, _⟩
    · exact .inl h
    · exact hmem h

theorem head_name {f : GcpHf.Filter} {h : GcpHf.Head} (hh : GcpHf.head f = .ok h) (ho : Orders f) :
    Label h.name.toList ∧ h.name.toList.length ≤ 63 ∧ h.name ∈ f.options ∧
    ∀ o ∈ f.options, o = h.name ∨ o ∈ GcpHf.headerWords ∨ Gce.Number o := by
  obtain ⟨o, k1, k2, _, _, k5, _, k7, k8⟩ := head_parts hh
  obtain ⟨_, a2, a3⟩ := pickApi_spec (vs := f.versions) (o := o)
  refine ⟨labelValid_label k8, k7, ?_, fun s hs => ?_⟩
  · have : h.name ∈ (pickCost (pickApi f.versions o).2).2 := by rw [k5]; simp
    refine k1 _ (a2 _ ?_)
    unfold pickCost at this
    split at this
    · exact this
    · exact List.mem_of_mem_erase this
  · by_cases hw : s ∈ GcpHf.headerWords
    · exact .inr (.inl hw)
    · obtain ⟨w1, w2, w3⟩ := orders_words ho s hw
      have hin := a3 _ (k2 _ hs w1 w2) w3
      by_cases hn : Gce.Number s
      · exact .inr (.inr hn)
      · refine .inl ?_
        have : s ∈ (pickCost (pickApi f.versions o).2).2 := by
          unfold pickCost
          split
          · exact hin
          next x hx =>
            refine (List.mem_erase_of_ne ?_).2 hin
            rintro rfl
            exact hn (natOf_iff.1 (List.find?_some (p := fun s => (Gce.natOf s).isSome) hx))
        rw [k5] at this
        exact List.mem_singleton.1 this

/-! ### cost -/

theorem hf_intel {c : GcpHf.Ctx} {g : HTerm} {rs : List Rule} (hb : Block c g rs)
    (hg : GcpHf.Live g → g.term.sourcePrefix ++ g.term.destinationPrefix = []) :
    ∀ r ∈ rs, r.sourceIntel = [] ∧ r.destinationIntel = [] := by
  rcases hb with ⟨_, rfl⟩ | ⟨hl, _, name, parts, _, h2, rfl⟩
  · intro r hr; cases hr
  obtain ⟨e1, e2⟩ := List.append_eq_nil_iff.1 (hg hl)
  intro y hy
  obtain ⟨b, hb, hy⟩ := List.mem_flatMap.1 hy
  obtain ⟨action, es, _, _, _, k3⟩ := hf_convert_mem (h2 b hb) hy
  obtain ⟨j, ⟨_, d, rfl, hd⟩ | ⟨_, d, rfl, hd⟩⟩ := hf_both_mem k3
  · exact ⟨rfl, e2⟩
  · exact ⟨e1, rfl⟩

theorem tupleCount_cost {api : String} {r : Rule} (h : api = "ga" ∨ (r.sourceIntel = [] ∧ r.destinationIntel = [])) :
    tupleCount api r = Cost r := by
  have e : (r.entries.map fun e => e.ports.length + 1) = r.entries.map fun e => 1 + e.ports.length :=
    List.map_congr_left fun e _ => Nat.add_comm _ _
  unfold tupleCount Cost
  rw [e]
  rcases h with rfl | ⟨h1, h2⟩
  · rw [if_pos rfl]
    omega
  · rw [h1, h2]
    simp only [List.length_nil, Nat.add_zero, ite_self]
    omega

theorem hf_cost : ∀ {fs : List GcpHf.Filter} {m : Option Nat} {p : GcpHf.Out} {s : GcpHf.State}
    {x : Option Nat × GcpHf.Out × GcpHf.State} {n : Nat}, GcpHf.filtersLoop m p s fs = .ok x → (∀ f ∈ fs, Orders f) →
    (∀ f ∈ fs, "beta" ∈ f.options → ∀ g ∈ f.terms, GcpHf.Live g → g.term.sourcePrefix ++ g.term.destinationPrefix = []) →
    (∀ f ∈ fs, Maximum f.options n) → s.cost = (s.rules.map Cost).sum →
    x.2.2.cost = (x.2.2.rules.map Cost).sum ∧ x.1 = (if fs = [] then m else some n) ∧ (fs ≠ [] → n ≤ 65536)
  | [], m, p, s, x, n, h, _, _, _, hs => by
    rw [GcpHf.filtersLoop] at h
    cases h
    exact ⟨hs, rfl, fun h => absurd rfl h⟩
  | f :: fs, m, p, s, x, n, h, ho, hb, hm, hs => by
    rw [GcpHf.filtersLoop] at h
    obtain ⟨hd, h1, h⟩ := bind_ok h
    obtain ⟨c1, c2⟩ := head_cost h1 (ho f (by simp)) (hm f (by simp))
    split at h
    · cases h
    · obtain ⟨p', h2, h⟩ := bind_ok h
      obtain ⟨s1, h3, h⟩ := bind_ok h
      obtain ⟨bs, k1, k2, k3, k4⟩ := hf_termsLoop h3
      have hs1 : s1.cost = (s1.rules.map Cost).sum := by
        rw [k3]
        unfold addRules
        dsimp only
        rw [hs, List.map_append, List.sum_append]
        congr 2
        refine List.map_congr_left fun r hr => tupleCount_cost ?_
        obtain ⟨b, hb', hr⟩ := List.mem_flatMap.1 hr
        by_cases hx : "beta" ∈ f.options
        · exact .inr (hf_intel (k2 b hb') (hb f (by simp) hx b.1 (k1 ▸ List.mem_map.2 ⟨b, hb', rfl⟩)) r hr)
        · exact .inl ((head_api h1 (ho f (by simp))).1 hx)
      obtain ⟨l1, l2, _⟩ := hf_cost h (fun f' hf' => ho f' (List.mem_cons_of_mem _ hf'))
        (fun f' hf' => hb f' (List.mem_cons_of_mem _ hf')) (fun f' hf' => hm f' (List.mem_cons_of_mem _ hf')) hs1
      refine ⟨l1, ?_, fun _ => c2⟩
      rw [l2, c1]
      simp

/-- The headers of a policy that is accepted agree on the maximum. -/
theorem hf_agree : ∀ {fs : List GcpHf.Filter} {m : Option Nat} {p : GcpHf.Out} {s : GcpHf.State}
    {x : Option Nat × GcpHf.Out × GcpHf.State}, GcpHf.filtersLoop m p s fs = .ok x → (∀ f ∈ fs, Orders f) →
    (m.isSome = true → x.1 = m) ∧ ∀ f ∈ fs, ∀ n, Maximum f.options n → x.1 = some n
  | [], m, p, s, x, h, _ => by
    rw [GcpHf.filtersLoop] at h
    cases h
    exact ⟨fun _ => rfl, fun f hf => by cases hf⟩
  | f :: fs, m, p, s, x, h, ho => by
    rw [GcpHf.filtersLoop] at h
    obtain ⟨hd, h1, h⟩ := bind_ok h
    split at h
    · cases h
    next hc =>
      obtain ⟨p', h2, h⟩ := bind_ok h
      obtain ⟨s1, h3, h⟩ := bind_ok h
      obtain ⟨k1, k2⟩ := hf_agree h (fun f' hf' => ho f' (List.mem_cons_of_mem _ hf'))
      have k1 := k1 rfl
      refine ⟨fun hm => ?_, fun g hg n hn => ?_⟩
      · rw [k1]
        simp only [hm, Bool.true_and, bne_iff_ne, ne_eq, Decidable.not_not] at hc
        exact hc.symm
      · rcases List.mem_cons.1 hg with rfl | hg
        · rw [k1, (head_cost h1 (ho _ (by simp)) hn).1]
        · exact k2 g hg n hn

/-- C112, unless a filter for the beta version has terms with lists of threat intelligence, for headers that each say one
maximum at most: the policy does not cost more than any of its headers says, 100 by default, the headers say the same, and
they do not say more than 65536. Not proved, and refuted below: the same with such terms. -/
theorem C112_partial {fs : List GcpHf.Filter} {out : GcpHf.Out} (h : GcpHf.translate fs = .ok out)
    (hne : fs ≠ []) (ho : ∀ f ∈ fs, Orders f) (hm : ∀ f ∈ fs, ∃ n, Maximum f.options n)
    (hb : ∀ f ∈ fs, "beta" ∈ f.options → ∀ g ∈ f.terms, GcpHf.Live g →
      g.term.sourcePrefix ++ g.term.destinationPrefix = []) :
    ∃ n, (∀ f ∈ fs, ∀ m, Maximum f.options m → m = n) ∧ (out.rules.map Cost).sum ≤ n ∧ n ≤ 65536 := by
  unfold GcpHf.translate at h
  obtain ⟨x, h1, h⟩ := bind_ok h
  obtain ⟨f0, hf0⟩ := List.exists_mem_of_ne_nil fs hne
  obtain ⟨n, hn⟩ := hm f0 hf0
  have ha := (hf_agree h1 ho).2
  have e0 := ha f0 hf0 n hn
  have hsame : ∀ f ∈ fs, ∀ m, Maximum f.options m → m = n := fun f hf m hm => by
    have := ha f hf m hm
    rw [e0] at this
    exact (Option.some.inj this).symm
  obtain ⟨k1, k2, k3⟩ := hf_cost (n := n) h1 ho hb (fun f hf => by
    obtain ⟨m, hm'⟩ := hm f hf
    exact hsame f hf m hm' ▸ hm') rfl
  unfold GcpHf.finish at h
  split at h
  · cases h
  next hx =>
    cases h
    refine ⟨n, hsame, ?_, k3 hne⟩
    rw [k2, if_neg hne] at hx
    show (x.2.2.rules.map Cost).sum ≤ n
    rw [← k1]
    exact Nat.not_lt.1 hx

/-! ### the name -/

theorem putName_ga {h : GcpHf.Head} {p p' : GcpHf.Out} (ha : h.api = "ga") (hp : putName h p = .ok p') :
    p'.shortName = some h.name ∧ p'.displayName = p.displayName ∧ p'.firewall = p.firewall ∧
    (p.shortName = none ∨ p.shortName = some h.name) := by
  unfold putName at hp
  rw [if_neg (by rw [ha]; decide)] at hp
  split at hp
  · cases hp
  next hn =>
    cases hp
    refine ⟨rfl, rfl, rfl, ?_⟩
    cases hs : p.shortName with
    | none => exact .inl rfl
    | some x =>
      rw [hs] at hn
      simp only [Option.isSome_some, Bool.true_and, bne_iff_ne, ne_eq, Classical.not_not] at hn
      exact .inr hn

theorem putName_beta {h : GcpHf.Head} {p p' : GcpHf.Out} (ha : h.api = "beta") (hp : putName h p = .ok p') :
    p'.displayName = some h.name ∧ p'.shortName = p.shortName ∧ p'.firewall = true ∧
    (p.displayName = none ∨ p.displayName = some h.name) := by
  unfold putName at hp
  rw [if_pos ha] at hp
  split at hp
  · cases hp
  next hn =>
    cases hp
    refine ⟨rfl, rfl, rfl, ?_⟩
    cases hs : p.displayName with
    | none => exact .inl rfl
    | some x =>
      rw [hs] at hn
      simp only [Option.isSome_some, Bool.true_and, bne_iff_ne, ne_eq, Classical.not_not] at hn
      exact .inr hn

/-- The header names the policy, and says nothing that is not understood. -/
def Names (f : GcpHf.Filter) (n : String) : Prop :=
  n ∈ f.options ∧ ∀ o ∈ f.options, o = n ∨ o ∈ GcpHf.headerWords ∨ Gce.Number o

theorem hf_names_ga : ∀ {fs : List GcpHf.Filter} {m : Option Nat} {p : GcpHf.Out} {s : GcpHf.State}
    {x : Option Nat × GcpHf.Out × GcpHf.State}, GcpHf.filtersLoop m p s fs = .ok x → (∀ f ∈ fs, Orders f) →
    (∀ f ∈ fs, "beta" ∉ f.options) → x.2.1.displayName = p.displayName ∧ x.2.1.firewall = p.firewall ∧
    (fs = [] → x.2.1.shortName = p.shortName) ∧
    ∀ n, x.2.1.shortName = some n → (p.shortName = none ∨ p.shortName = some n) ∧
      (fs ≠ [] → Label n.toList ∧ n.toList.length ≤ 63) ∧ ∀ f ∈ fs, Names f n
  | [], m, p, s, x, h, _, _ => by
    rw [GcpHf.filtersLoop] at h
    cases h
    exact ⟨rfl, rfl, fun _ => rfl, fun n hn => ⟨.inr hn, fun h => absurd rfl h, by simp⟩⟩
  | f :: fs, m, p, s, x, h, ho, hb => by
    rw [GcpHf.filtersLoop] at h
    obtain ⟨hd, h1, h⟩ := bind_ok h
    have ha := (head_api h1 (ho f (by simp))).1 (hb f (by simp))
    obtain ⟨n1, n2, n3⟩ := head_name h1 (ho f (by simp))
    split at h
    · cases h
    · obtain ⟨p', h2, h⟩ := bind_ok h
      obtain ⟨s1, h3, h⟩ := bind_ok h
      obtain ⟨q1, q2, q3, q4⟩ := putName_ga ha h2
      obtain ⟨l1, l2, l3, l4⟩ := hf_names_ga h (fun f' hf' => ho f' (List.mem_cons_of_mem _ hf'))
        (fun f' hf' => hb f' (List.mem_cons_of_mem _ hf'))
      refine ⟨l1.trans q2, l2.trans q3, fun h => (by cases h), fun n hn => ?_⟩
      obtain ⟨y1, _, y3⟩ := l4 n hn
      rw [q1] at y1
      have : n = hd.name := by
        rcases y1 with y1 | y1
        · cases y1
        · exact (Option.some.inj y1).symm
      subst this
      refine ⟨q4, fun _ => ⟨n1, n2⟩, fun f' hf' => ?_⟩
      rcases List.mem_cons.1 hf' with rfl | hf'
      · exact n3
      · exact y3 f' hf'

theorem hf_named_ga : ∀ {fs : List GcpHf.Filter} {m : Option Nat} {p : GcpHf.Out} {s : GcpHf.State}
    {x : Option Nat × GcpHf.Out × GcpHf.State}, GcpHf.filtersLoop m p s fs = .ok x → (∀ f ∈ fs, Orders f) →
    (∀ f ∈ fs, "beta" ∉ f.options) → p.shortName.isSome = true ∨ fs ≠ [] → x.2.1.shortName.isSome = true
  | [], m, p, s, x, h, _, _, hs => by
    rw [GcpHf.filtersLoop] at h
    cases h
    exact hs.resolve_right (fun h => h rfl)
  | f :: fs, m, p, s, x, h, ho, hb, _ => by
    rw [GcpHf.filtersLoop] at h
    obtain ⟨hd, h1, h⟩ := bind_ok h
    have ha := (head_api h1 (ho f (by simp))).1 (hb f (by simp))
    split at h
    · cases h
    · obtain ⟨p', h2, h⟩ := bind_ok h
      obtain ⟨s1, h3, h⟩ := bind_ok h
      exact hf_named_ga h (fun f' hf' => ho f' (List.mem_cons_of_mem _ hf')) (fun f' hf' => hb f' (List.mem_cons_of_mem _ hf'))
        (.inl (by rw [(putName_ga ha h2).1]; rfl))

/-- C114, for policies that are not for the beta version: the policy has one name, the one in all of its headers, which keeps
to the rules for names; options that are not understood are refused. Not proved, and refuted below: the same if the headers
are for different versions. -/
theorem C114_ga_partial {fs : List GcpHf.Filter} {out : GcpHf.Out} (h : GcpHf.translate fs = .ok out) (hne : fs ≠ [])
    (ho : ∀ f ∈ fs, Orders f) (hb : ∀ f ∈ fs, "beta" ∉ f.options) :
    ∃ n, out.shortName = some n ∧ out.displayName = none ∧ out.firewall = false ∧ Label n.toList ∧ n.toList.length ≤ 63 ∧
      ∀ f ∈ fs, n ∈ f.options ∧ ∀ o ∈ f.options, o = n ∨ o ∈ GcpHf.headerWords ∨ Gce.Number o := by
  unfold GcpHf.translate at h
  obtain ⟨x, h1, h⟩ := bind_ok h
  obtain ⟨k1, k2, _, k4⟩ := hf_names_ga h1 ho hb
  have k5 := hf_named_ga h1 ho hb (.inr hne)
  obtain ⟨n, hn⟩ := Option.isSome_iff_exists.1 k5
  obtain ⟨_, y2, y3⟩ := k4 n hn
  unfold GcpHf.finish at h
  split at h
  · cases h
  · cases h
    exact ⟨n, hn, k1, k2, (y2 hne).1, (y2 hne).2, y3⟩

theorem hf_names_beta : ∀ {fs : List GcpHf.Filter} {m : Option Nat} {p : GcpHf.Out} {s : GcpHf.State}
    {x : Option Nat × GcpHf.Out × GcpHf.State}, GcpHf.filtersLoop m p s fs = .ok x → (∀ f ∈ fs, Orders f) →
    (∀ f ∈ fs, "beta" ∈ f.options ∧ "ga" ∉ f.options) → x.2.1.shortName = p.shortName ∧
    (p.displayName.isSome = true ∧ p.firewall = true ∨ fs ≠ [] → x.2.1.displayName.isSome = true ∧ x.2.1.firewall = true) ∧
    ∀ n, x.2.1.displayName = some n → (p.displayName = none ∨ p.displayName = some n) ∧
      (fs ≠ [] → Label n.toList ∧ n.toList.length ≤ 63) ∧ ∀ f ∈ fs, Names f n
  | [], m, p, s, x, h, _, _ => by
    rw [GcpHf.filtersLoop] at h
    cases h
    exact ⟨rfl, fun h => h.resolve_right (fun h => h rfl), fun n hn => ⟨.inr hn, fun h => absurd rfl h, by simp⟩⟩
  | f :: fs, m, p, s, x, h, ho, hb => by
    rw [GcpHf.filtersLoop] at h
    obtain ⟨hd, h1, h⟩ := bind_ok h
    have ha := (head_api h1 (ho f (by simp))).2.1 (hb f (by simp)).1 (hb f (by simp)).2
    obtain ⟨n1, n2, n3⟩ := head_name h1 (ho f (by simp))
    split at h
    · cases h
    · obtain ⟨p', h2, h⟩ := bind_ok h
      obtain ⟨s1, h3, h⟩ := bind_ok h
      obtain ⟨q1, q2, q3, q4⟩ := putName_beta ha h2
      obtain ⟨l1, l2, l4⟩ := hf_names_beta h (fun f' hf' => ho f' (List.mem_cons_of_mem _ hf'))
        (fun f' hf' => hb f' (List.mem_cons_of_mem _ hf'))
      refine ⟨l1.trans q2, fun _ => l2 (.inl ⟨by rw [q1]; rfl, q3⟩), fun n hn => ?_⟩
      obtain ⟨y1, _, y3⟩ := l4 n hn
      rw [q1] at y1
      have : n = hd.name := by
        rcases y1 with y1 | y1
        · cases y1
        · exact (Option.some.inj y1).symm
      subst this
      refine ⟨q4, fun _ => ⟨n1, n2⟩, fun f' hf' => ?_⟩
      rcases List.mem_cons.1 hf' with rfl | hf'
      · exact n3
      · exact y3 f' hf'

/-- C114, for policies all of whose headers are for the beta version. -/
theorem C114_beta_partial {fs : List GcpHf.Filter} {out : GcpHf.Out} (h : GcpHf.translate fs = .ok out) (hne : fs ≠ [])
    (ho : ∀ f ∈ fs, Orders f) (hb : ∀ f ∈ fs, "beta" ∈ f.options ∧ "ga" ∉ f.options) :
    ∃ n, out.displayName = some n ∧ out.shortName = none ∧ out.firewall = true ∧ Label n.toList ∧ n.toList.length ≤ 63 ∧
      ∀ f ∈ fs, n ∈ f.options ∧ ∀ o ∈ f.options, o = n ∨ o ∈ GcpHf.headerWords ∨ Gce.Number o := by
  unfold GcpHf.translate at h
  obtain ⟨x, h1, h⟩ := bind_ok h
  obtain ⟨k1, k2, k4⟩ := hf_names_beta h1 ho hb
  have k5 := k2 (.inr hne)
  obtain ⟨n, hn⟩ := Option.isSome_iff_exists.1 k5.1
  obtain ⟨_, y2, y3⟩ := k4 n hn
  unfold GcpHf.finish at h
  split at h
  · cases h
  · cases h
    exact ⟨n, hn, k1, k5.2, (y2 hne).1, (y2 hne).2, y3⟩

end Verif.Props
