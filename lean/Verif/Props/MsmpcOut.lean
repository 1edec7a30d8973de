import Verif.Props.Msmpc

/-!
C158 to C161: what the terms of capirca/lib/junipermsmpc.py refer to, carry and are called, and which policies are accepted.
-/

namespace Verif.Props
open Verif Verif.Spec Policy Aclgenerator Nacaddr
open Verif.Lemmas.MsmpcL
open Verif.Srx (STerm)
open Verif.Msmpc (Rule Out App AppDef Done translateFilter appsFor printed render piece suffixes otherIcmp gone side has
  actionsOf elsewhere pieceName change entry busy bodies number)
open Verif.Spec.Msmpc (FamilyIs DirectionIs Split Carries SameNet Void Spared Rendered Defined Fine TypesOk Seen nets ruleNames)

/-- How what is printed for a term comes about. -/
theorem render_is {rest : List String} {type : String} (hf : Fine rest) (hkind : type = (rest.find? fun s => s ∈ fams).getD "mixed")
    {g : STerm} (hk : Spec.Msmpc.Kept g) {set : Str} {os : List Out}
    (h : render type (g.term.option.contains "inactive", ⟨{ g with term := change g.term }, set⟩) = .ok os) :
    (g.term.verbatim ≠ [] ∧ os = [.verbatim ((g.term.verbatim.filter fun e => e.1 = "msmpc").map Prod.snd)]) ∨
    (g.term.verbatim = [] ∧ Split rest g.term ∧ ∃ y z,
      piece type (g.term.option.contains "inactive") true ⟨{ g with term := change g.term }, set⟩ .v4 = .ok y ∧
      piece type (g.term.option.contains "inactive") true ⟨{ g with term := change g.term }, set⟩ .v6 = .ok z ∧ os = y ++ z) ∨
    (g.term.verbatim = [] ∧ ¬ Split rest g.term ∧ ∃ v, FamilyIs rest v ∧
      ((∀ w, FamilyIs rest w → w = v) ∨ (∀ n ∈ nets g.term, n.ver = v)) ∧
      piece type (g.term.option.contains "inactive") false ⟨{ g with term := change g.term }, set⟩ v = .ok os) := by
  unfold render at h
  dsimp only at h
  have hel : ¬ elsewhere (change g.term) = true := by
    have : elsewhere g.term = false := elsewhere_iff.2 ⟨hk.2.2.1, hk.2.2.2.1⟩
    have e : elsewhere (change g.term) = elsewhere g.term := rfl
    rw [e, this]
    simp
  have e : (change g.term).verbatim = g.term.verbatim := rfl
  rw [if_neg hel, e] at h
  by_cases hv : g.term.verbatim = []
  · rw [hv] at h
    simp only [List.isEmpty_nil, Bool.not_true, Bool.false_eq_true, if_false] at h
    have es : suffixes type (change g.term) = suffixes type g.term := rfl
    rw [es] at h
    rcases suffixes_is hf hkind g.term with ⟨hs, e⟩ | ⟨hs, v, e, hfam, hone⟩
    · rw [e] at h
      exact .inr (.inl ⟨hv, hs, collect_two h⟩)
    · rw [e] at h
      exact .inr (.inr ⟨hv, hs, v, hfam, hone, collect_one h⟩)
  · rw [if_pos (by simpa using hv)] at h
    refine .inl ⟨hv, ?_⟩
    rw [← Except.ok.inj h]
    congr 3

theorem msmpc_carries {rest : List String} {g : STerm} {set : Str} {dup : Bool} {v : Ver} {as : List String}
    (hd : dup = true ↔ Split rest g.term) (ha : actionsOf g.term.action = .ok as) : Carries rest g v (msmpcRule g set dup v as) := by
  constructor
  · intro n hn
    simp only [List.mem_append] at hn
    rcases hn with ((hn | hn) | hn) | hn
    · exact side_family (.inl hn)
    · exact side_family (.inr hn)
    · exact side_family (.inl hn)
    · exact side_family (.inr hn)
  · show pieceName dup g.term.name v = _
    unfold pieceName
    by_cases h : Split rest g.term
    · rw [if_pos (hd.2 h), if_pos h]
      cases v <;> rfl
    · rw [if_neg (fun e => h (hd.1 e)), if_neg h, List.append_nil]
  · exact List.contains_iff_mem
  · exact ⟨rfl, rfl⟩
  · exact ⟨rfl, rfl⟩
  · show (if g.term.sourcePort.isEmpty && g.term.destinationPort.isEmpty && g.term.icmpType.isEmpty && g.term.protocol.isEmpty then none
      else some (set ++ "-app".toList)) = none ↔ _
    split
    next h => simpa [and_assoc] using h
    next h => simpa [and_assoc] using h
  · exact actions_of ha
  · show (!g.term.logging.isEmpty && !g.term.logging.contains "disable") = true ↔ _
    rw [Bool.and_eq_true, Bool.not_eq_true', Bool.not_eq_true', List.isEmpty_eq_false_iff, ← Bool.not_eq_true, List.contains_iff_mem]

/-- The addresses of a term are well-formed. -/
def NetsOk (t : Term) : Prop := ∀ n ∈ nets t, WF n

theorem msmpc_spared {type : String} {t : Term} {v : Ver} (hw : NetsOk t)
    (h : otherIcmp type (change t) v = true ∨ gone v t.sourceAddress t.sourceAddressExclude = true ∨
      gone v t.destinationAddress t.destinationAddressExclude = true) : Spared t v := by
  unfold NetsOk nets at hw
  rcases h with h | h | h
  · rw [msmpc_other_icmp] at h
    split at h
    · obtain ⟨a, _, _, ⟨b, c⟩ | ⟨b, c⟩⟩ := h
      · exact .inl ⟨c, b, fun x => a ⟨b, x⟩⟩
      · exact .inr (.inl ⟨c, b, fun x => a ⟨x, b⟩⟩)
    · rcases h with ⟨a, b, c⟩ | ⟨a, b, c⟩
      · exact .inr (.inl ⟨c, a, b⟩)
      · exact .inl ⟨c, a, b⟩
  · exact .inr (.inr (.inl (gone_void (fun n hn => hw n (by simp [hn])) (fun n hn => hw n (by simp [hn])) h)))
  · exact .inr (.inr (.inr (gone_void (fun n hn => hw n (by simp [hn])) (fun n hn => hw n (by simp [hn])) h)))

/-- A term with addresses of one family only needs no rule for the other. -/
theorem other_void {t : Term} {v w : Ver} (hall : ∀ n ∈ nets t, n.ver = v) (hne : w ≠ v) :
    (t.sourceAddress = [] ∧ t.destinationAddress = []) ∨ Spared t w := by
  have key : ∀ {inc exc : List Net}, (∀ n ∈ inc, n.ver = v) → inc ≠ [] → Void w inc exc := by
    intro inc exc h h0
    exact ⟨h0, fun n hn e => absurd (e.symm.trans (h n hn)) hne⟩
  unfold nets at hall
  by_cases h1 : t.sourceAddress = []
  · by_cases h2 : t.destinationAddress = []
    · exact .inl ⟨h1, h2⟩
    · exact .inr (.inr (.inr (.inr (key (fun n hn => hall n (by simp [hn])) h2))))
  · exact .inr (.inr (.inr (.inl (key (fun n hn => hall n (by simp [hn])) h1))))

/-- C159: a group is rendered term by term, in the order of the filter. What is printed carries what the term says, and a term of the
platform that is not printed needs no rule for any family of the filter. -/
theorem C159_rules {fs : List Msmpc.Filter} {gs : List Msmpc.Group} (h : Msmpc.output fs = .ok gs) :
    gs.length = (fs.filter Msmpc.Filter.here).length ∧
    ∀ (i : Nat) (f : Msmpc.Filter) (o : Msmpc.Group), (fs.filter Msmpc.Filter.here)[i]? = some f → gs[i]? = some o →
      (∀ g ∈ f.terms, Spec.Msmpc.Kept g → NetsOk g.term) → ∃ rest bs, Rendered f o rest bs := by
  constructor
  · unfold Msmpc.output at h
    obtain ⟨ds, h1, h⟩ := bind_ok h
    rw [(PolicyText.listM_get h).1, (PolicyText.listM_get h1).1]
  intro i f o hf ho hw
  obtain ⟨rest, type, x, bs, m, _⟩ := msmpc_made h hf ho
  obtain ⟨cs, c1, c2, c3⟩ := msmpc_kept m
  refine ⟨rest, cs, m.head, m.direction, c1, c2, fun c hc => ?_⟩
  have hct : c.1 ∈ f.terms := by rw [← c1]; exact List.mem_map.2 ⟨c, hc, rfl⟩
  rcases c3 c hc with ⟨h1, h2⟩ | ⟨hk, set, types, k1, k2, k3⟩
  · rw [h2]
    exact ⟨fun _ => rfl, fun h => absurd h h1, fun _ o ho => (by cases ho), .inl (by simp), fun h => absurd h h1⟩
  · have wf := hw c.1 hct hk
    rcases render_is m.fine m.kind hk k3 with ⟨v1, v2⟩ | ⟨v1, hs, y, z, p1, p2, e⟩ | ⟨v1, hs, v, hfam, hone, p1⟩
    · rw [v2]
      exact ⟨fun h => absurd hk h, fun _ _ => rfl, fun h => absurd h v1, .inl (by simp), fun _ h => absurd h v1⟩
    · rw [e]
      have q1 := piece_is p1
      have q2 := piece_is p2
      have dup : true = true ↔ Split rest c.1.term := ⟨fun _ => hs, fun _ => rfl⟩
      refine ⟨fun h => absurd hk h, fun _ h => absurd v1 h, ?_, ?_, ?_⟩
      · intro _ o ho
        rcases List.mem_append.1 ho with ho | ho
        · rcases q1 with ⟨_, rfl⟩ | ⟨_, _, _, as, ha, rfl⟩
          · cases ho
          · exact ⟨.v4, _, hs.1 _, List.mem_singleton.1 ho, msmpc_carries dup ha⟩
        · rcases q2 with ⟨_, rfl⟩ | ⟨_, _, _, as, ha, rfl⟩
          · cases ho
          · exact ⟨.v6, _, hs.1 _, List.mem_singleton.1 ho, msmpc_carries dup ha⟩
      · rcases q1 with ⟨_, rfl⟩ | ⟨_, _, _, as, ha, rfl⟩ <;> rcases q2 with ⟨_, rfl⟩ | ⟨_, _, _, as', ha', rfl⟩
        · exact .inl (by simp)
        · exact .inl (by simp)
        · exact .inl (by simp)
        · exact .inr ⟨hs, _, _, rfl, msmpc_carries dup ha, msmpc_carries dup ha'⟩
      · intro _ _ h0 v _
        obtain ⟨rfl, rfl⟩ := List.append_eq_nil_iff.1 h0
        cases v with
        | v4 =>
          rcases q1 with ⟨h, _⟩ | ⟨_, _, _, _, _, h⟩
          · exact msmpc_spared wf h
          · cases h
        | v6 =>
          rcases q2 with ⟨h, _⟩ | ⟨_, _, _, _, _, h⟩
          · exact msmpc_spared wf h
          · cases h
    · have q1 := piece_is p1
      have dup : false = true ↔ Split rest c.1.term := ⟨fun h => (by cases h), fun h => absurd h hs⟩
      refine ⟨fun h => absurd hk h, fun _ h => absurd v1 h, ?_, ?_, ?_⟩
      · intro _ o ho
        rcases q1 with ⟨_, e⟩ | ⟨_, _, _, as, ha, e⟩
        · rw [e] at ho; cases ho
        · rw [e] at ho
          exact ⟨v, _, hfam, List.mem_singleton.1 ho, msmpc_carries dup ha⟩
      · rcases q1 with ⟨_, e⟩ | ⟨_, _, _, as, ha, e⟩ <;> rw [e] <;> exact .inl (by simp)
      · intro _ _ h0 w hw
        rcases q1 with ⟨hh, _⟩ | ⟨_, _, _, _, _, e⟩
        · by_cases e : w = v
          · subst e; exact msmpc_spared wf hh
          · rcases hone with hone | hone
            · exact absurd (hone w hw) e
            · rcases other_void hone e with ⟨e1, e2⟩ | h
              · exfalso
                have gn : ∀ exc, gone v [] exc = false := by
                  intro exc
                  unfold gone
                  simp
                rw [e1, e2, gn, gn, msmpc_other_icmp] at hh
                rcases hh with hh | hh | hh
                · split at hh
                  · have a := has_iff.1 hh.2.1
                    have b := has_iff.1 hh.2.2.1
                    obtain ⟨n, hn, hn'⟩ := a
                    obtain ⟨n', hm, hm'⟩ := b
                    have := (hone n hn).symm.trans hn'
                    have := (hone n' hm).symm.trans hm'
                    simp_all
                  next ht =>
                    have a := ((Lemmas.MsmpcL.header_says m.fine).1 w).1 hw
                    have b := ((Lemmas.MsmpcL.header_says m.fine).1 v).1 hfam
                    rw [← m.kind] at a b
                    have a := a.resolve_left ht
                    have b := b.resolve_left ht
                    rw [a] at b
                    cases hww : w <;> cases hvv : v <;> rw [hww, hvv] at b <;> simp at b
                    · exact absurd (hww.trans hvv.symm) e
                    · exact absurd (hww.trans hvv.symm) e
                · cases hh
                · cases hh
              · exact h
        · rw [h0] at e; cases e

/-! ### references -/

/-- C158: for filters of different names, the sets of applications to which the terms of a group refer are defined once in it, are not
empty, and each of their members is defined once. -/
theorem C158_partial {fs : List Msmpc.Filter} {gs : List Msmpc.Group} (h : Msmpc.output fs = .ok gs)
    (names : ((fs.filter Msmpc.Filter.here).map fun f => f.options.head?).Nodup) {i : Nat} {f : Msmpc.Filter} {o : Msmpc.Group}
    (hf : (fs.filter Msmpc.Filter.here)[i]? = some f) (ho : gs[i]? = some o)
    (sane : ∀ g ∈ f.terms, Spec.Msmpc.Kept g → g.term.sourcePort ≠ [] ∨ g.term.destinationPort ≠ [] → g.term.protocol ≠ []) {r : Rule}
    (hr : .term r ∈ o.terms) {s : Str} (hs : r.appSet = some s) : Defined o s := by
  obtain ⟨rest, type, x, bs, m, own⟩ := msmpc_made h hf ho
  have own := own names
  obtain ⟨cs, c1, c2, c3⟩ := msmpc_kept m
  rw [c2] at hr
  obtain ⟨c, hc, hr⟩ := List.mem_flatMap.1 hr
  have hct : c.1 ∈ f.terms := by rw [← c1]; exact List.mem_map.2 ⟨c, hc, rfl⟩
  rcases c3 c hc with ⟨h1, h2⟩ | ⟨hk, set, types, k1, k2, k3⟩
  · rw [h2] at hr; cases hr
  · have hrule : ∃ dup v as, r = msmpcRule c.1 set dup v as := by
      rcases render_is m.fine m.kind hk k3 with ⟨v1, v2⟩ | ⟨v1, hs, y, z, p1, p2, e⟩ | ⟨v1, hs, v, hfam, hone, p1⟩
      · rw [v2] at hr
        cases List.mem_singleton.1 hr
      · rw [e] at hr
        rcases List.mem_append.1 hr with hr | hr
        · rcases piece_is p1 with ⟨_, rfl⟩ | ⟨_, _, _, as, ha, rfl⟩
          · cases hr
          · cases List.mem_singleton.1 hr
            exact ⟨_, _, _, rfl⟩
        · rcases piece_is p2 with ⟨_, rfl⟩ | ⟨_, _, _, as, ha, rfl⟩
          · cases hr
          · cases List.mem_singleton.1 hr
            exact ⟨_, _, _, rfl⟩
      · rcases piece_is p1 with ⟨_, e⟩ | ⟨_, _, _, as, ha, e⟩
        · rw [e] at hr; cases hr
        · rw [e] at hr
          cases List.mem_singleton.1 hr
          exact ⟨_, _, _, rfl⟩
    obtain ⟨dup, v, as, rfl⟩ := hrule
    have hs : (if c.1.term.sourcePort.isEmpty && c.1.term.destinationPort.isEmpty && c.1.term.icmpType.isEmpty && c.1.term.protocol.isEmpty
      then none else some (set ++ "-app".toList)) = some s := hs
    split at hs
    · cases hs
    next hc' =>
      cases hs
      have hp : c.1.term.protocol ≠ [] := by
        intro hp
        have e3 : c.1.term.icmpType = [] := by
          rcases types_spec k1 with h | ⟨_, _, _, h, _⟩
          · exact h.1
          · rw [hp] at h; cases h
        have e1 : c.1.term.sourcePort = [] := Classical.byContradiction fun h => sane _ hct hk (.inl h) hp
        have e2 : c.1.term.destinationPort = [] := Classical.byContradiction fun h => sane _ hct hk (.inr h) hp
        rw [e1, e2, e3, hp] at hc'
        exact hc' rfl
      have hpr : (entry o.name.toList (change c.1.term) c.1.timeout types).protos ≠ [] := by
        show Msmpc.renameIcmp (c.1.term.protocol.map number) ≠ []
        rw [Ne, rename_nil]
        simpa using hp
      exact set_defined m.looped.unique own.defs own.sets k2 (by unfold busy; simp [hpr]) hpr

/-! ### names -/

/-- C161: the names of the terms of a group are distinct, if no name of a term is that of another with the suffix of a family. -/
theorem C161_partial {fs : List Msmpc.Filter} {gs : List Msmpc.Group} (h : Msmpc.output fs = .ok gs) {i : Nat} {f : Msmpc.Filter}
    {o : Msmpc.Group} (hf : (fs.filter Msmpc.Filter.here)[i]? = some f) (ho : gs[i]? = some o)
    (hw : ∀ g ∈ f.terms, Spec.Msmpc.Kept g → NetsOk g.term)
    (apart : ∀ g ∈ f.terms, ∀ g' ∈ f.terms, Spec.Msmpc.Kept g → Spec.Msmpc.Kept g' →
      g'.term.name ≠ g.term.name ++ "-inet".toList ∧ g'.term.name ≠ g.term.name ++ "-inet6".toList) : (ruleNames o).Nodup := by
  obtain ⟨rest, bs, r⟩ := (C159_rules h).2 i f o hf ho hw
  have distinct : ((f.terms.filter fun g => decide (Seen g)).map fun g => g.term.name).Nodup := by
    obtain ⟨_, _, x, _, m, _⟩ := msmpc_made h hf ho
    exact m.looped.names
  have hsub : ∀ b ∈ bs, b.1 ∈ f.terms := fun b hb => by rw [← r.terms]; exact List.mem_map.2 ⟨b, hb, rfl⟩
  have distinct' : bs.Pairwise fun b b' => Spec.Msmpc.Kept b.1 → Spec.Msmpc.Kept b'.1 → b.1.term.name ≠ b'.1.term.name := by
    unfold List.Nodup at distinct
    rw [List.pairwise_map, List.pairwise_filter, ← r.terms, List.pairwise_map] at distinct
    refine distinct.imp fun h k k' => h ?_ ?_
    · exact decide_eq_true (show Seen _ from ⟨k.2.1, k.2.2.2.2.1, k.2.2.2.2.2⟩)
    · exact decide_eq_true (show Seen _ from ⟨k'.2.1, k'.2.2.2.2.1, k'.2.2.2.2.2⟩)
  let nm : Out → Option Str := fun x => match x with | .term r => some r.name | .verbatim _ => none
  have hnm : ruleNames o = bs.flatMap fun b => b.2.filterMap nm := by
    show o.terms.filterMap nm = _
    rw [r.outs, List.filterMap_flatMap]
  -- the name of a rule is that of its term, with or without a suffix
  have shape : ∀ b ∈ bs, ∀ n ∈ b.2.filterMap nm, Spec.Msmpc.Kept b.1 ∧
      (n = b.1.term.name ∨ n = b.1.term.name ++ "-inet".toList ∨ n = b.1.term.name ++ "-inet6".toList) := by
    intro b hb n hn
    obtain ⟨x, hx, hxn⟩ := List.mem_filterMap.1 hn
    have pr := r.printed b hb
    have hk : Spec.Msmpc.Kept b.1 := Classical.byContradiction fun hk => by rw [pr.dead hk] at hx; cases hx
    refine ⟨hk, ?_⟩
    by_cases hv : b.1.term.verbatim = []
    · obtain ⟨v, q, _, rfl, hq⟩ := pr.rules hv x hx
      cases hxn
      rw [hq.name]
      split
      · cases v
        · exact .inr (.inl rfl)
        · exact .inr (.inr rfl)
      · exact .inl (List.append_nil _)
    · rw [pr.verbatim hk hv] at hx
      rw [List.mem_singleton.1 hx] at hxn
      cases hxn
  have suffix : ∀ a b : Str, a ++ "-inet".toList ≠ b ++ "-inet6".toList := by
    intro a b e
    have := congrArg List.getLast? e
    rw [List.getLast?_append, List.getLast?_append] at this
    simp at this
  rw [hnm]
  unfold List.Nodup
  rw [List.flatMap_def, List.pairwise_flatten, List.pairwise_map]
  constructor
  · intro l hl
    obtain ⟨b, hb, rfl⟩ := List.mem_map.1 hl
    rcases (r.printed b hb).few with hlen | ⟨hs, q, q', e, hq, hq'⟩
    · have : (b.2.filterMap nm).length ≤ 1 := Nat.le_trans (List.length_filterMap_le _ _) hlen
      match hl : b.2.filterMap nm, this with
      | [], _ => exact .nil
      | [x], _ => exact List.pairwise_singleton _ _
    · rw [e]
      show List.Pairwise (· ≠ ·) [q.name, q'.name]
      rw [List.pairwise_pair, hq.name, hq'.name, if_pos hs, if_pos hs]
      intro e
      exact suffix _ _ e
  · refine List.Pairwise.imp_of_mem ?_ distinct'
    intro b b' hb hb' hne n hn n' hn' e
    subst e
    obtain ⟨k1, s1⟩ := shape b hb n hn
    obtain ⟨k2, s2⟩ := shape b' hb' n hn'
    have hne := hne k1 k2
    have a1 := apart b.1 (hsub b hb) b'.1 (hsub b' hb') k1 k2
    have a2 := apart b'.1 (hsub b' hb') b.1 (hsub b hb) k2 k1
    rcases s1 with e1 | e1 | e1 <;> rcases s2 with e2 | e2 | e2 <;> rw [e1] at e2
    · exact hne e2
    · exact a2.1 e2
    · exact a2.2 e2
    · exact a1.1 e2.symm
    · exact hne (List.append_cancel_right e2)
    · exact suffix _ _ e2
    · exact a1.2 e2.symm
    · exact suffix _ _ e2.symm
    · exact hne (List.append_cancel_right e2)

/-! ### acceptance -/

theorem types_ok_iff {t : Term} : (∃ types, normalizeIcmpTypes t.icmpType (change t).protocol (Msmpc.icmpAf (change t).protocol) = .ok types) ↔
    TypesOk t := by
  constructor
  · rintro ⟨types, h⟩
    by_cases h0 : t.icmpType = []
    · exact .inl h0
    · right
      rcases types_spec h with ⟨e, _⟩ | ⟨_, _, v, hv, hp⟩
      · exact absurd e h0
      · have key : ∀ s ∈ t.icmpType, s ∈ (Spec.icmpNumbers v).map Prod.fst := by
          intro s hs
          obtain ⟨k, _, hk⟩ := (hp { icmpType := s }).2 hs
          exact List.mem_map.2 ⟨_, hk, rfl⟩
        cases v with
        | v4 => exact .inl ⟨hv, key⟩
        | v6 => exact .inr ⟨hv, key⟩
  · have le : TotalPre (fun a b : Nat => decide (a ≤ b)) :=
      ⟨fun a b => by simp only [decide_eq_true_eq]; omega, fun a b c => by simp only [decide_eq_true_eq]; omega⟩
    have ex : ∀ {tbl : List (String × Nat)}, ∃ nums : List Nat, nums.Pairwise (· ≤ ·) ∧ nums.Perm (t.icmpType.filterMap fun x => tbl.lookup x) := by
      intro tbl
      refine ⟨isort (fun a b => decide (a ≤ b)) (t.icmpType.filterMap fun x => tbl.lookup x), ?_, isort_perm _ _⟩
      exact (isort_sorted le _).imp fun h => by simpa using h
    have tot4 : ∀ s ∈ icmpV4.map Prod.fst, (icmp4.lookup s).isSome = true := by decide
    have tot6 : ∀ s ∈ icmpV6.map Prod.fst, (icmp6.lookup s).isSome = true := by decide
    intro h
    by_cases h0 : t.icmpType = []
    · rw [h0]; exact ⟨_, rfl⟩
    rcases h with h | ⟨h1, h2⟩ | ⟨h1, h2⟩
    · exact absurd h h0
    · have hp : (change t).protocol = ["icmp"] := by
        show t.protocol.map number = _
        rw [h1]; decide +kernel
      rw [hp]
      obtain ⟨nums, n1, n2⟩ := ex (tbl := icmp4)
      exact ⟨_, (C34_types h0 _).2 ⟨icmp4, .inl ⟨by decide, rfl, rfl⟩, fun x hx => Option.isSome_iff_exists.1 (tot4 x (h2 x hx)), nums, rfl, n1, n2⟩⟩
    · have hp : (change t).protocol = ["icmpv6"] := by
        show t.protocol.map number = _
        rw [h1]; decide +kernel
      rw [hp]
      obtain ⟨nums, n1, n2⟩ := ex (tbl := icmp6)
      exact ⟨_, (C34_types h0 _).2 ⟨icmp6, .inr ⟨by decide, rfl, rfl⟩, fun x hx => Option.isSome_iff_exists.1 (tot6 x (h2 x hx)), nums, rfl, n1, n2⟩⟩

theorem same_total {a : App} : ∀ {l : List App}, (∀ s ∈ l, s.name ≠ a.name) → ∃ o, Msmpc.same a l = .ok o
  | [], _ => ⟨_, rfl⟩
  | s :: l, h => by
    unfold Msmpc.same
    split
    · exact ⟨_, rfl⟩
    · rw [if_neg fun e => h s (by simp) e.symm]
      exact same_total fun x hx => h x (List.mem_cons_of_mem _ hx)

theorem set_inj {f a b : Str} (ha : a.length ≤ 27) (hb : b.length ≤ 27) (h : Msmpc.setName f a = Msmpc.setName f b) : a = b := by
  unfold Msmpc.setName at h
  have h := List.append_cancel_left h
  rw [show a.length - 27 = 0 by omega, show b.length - 27 = 0 by omega] at h
  simpa using h

theorem loop_total {filter : Str} : ∀ {ts : List STerm} {used : List Str} {apps : List App},
    ((ts.filter fun g => decide (Seen g)).map fun g => g.term.name).Nodup → (∀ g ∈ ts, Seen g → g.term.name ∉ used) →
    (∀ g ∈ ts, Seen g → g.expired = false → TypesOk g.term ∧ g.term.name.length ≤ 27) →
    (∀ a ∈ apps, ∃ n ∈ used, n.length ≤ 27 ∧ a.name = Msmpc.setName filter n) → ∃ x, Msmpc.termsLoop filter used apps ts = .ok x
  | [], used, apps, _, _, _, _ => ⟨_, rfl⟩
  | g :: gs, used, apps, h1, h2, h3, h4 => by
    have t2 : ∀ {q : STerm → Prop}, (∀ u ∈ g :: gs, q u) → ∀ u ∈ gs, q u := fun h u hu => h u (List.mem_cons_of_mem _ hu)
    unfold Msmpc.termsLoop
    split
    next hr =>
      have hs : ¬ Seen g := fun s => by rw [s.1] at hr; cases hr
      rw [List.filter_cons_of_neg (by simpa using hs)] at h1
      exact loop_total h1 (t2 h2) (t2 h3) h4
    next hr =>
    have hr : g.reply = false := by simpa using hr
    split
    next he =>
      rw [Bool.or_eq_true, List.contains_iff_mem, List.contains_iff_mem] at he
      have hs : ¬ Seen g := fun s => he.elim s.2.1 s.2.2
      rw [List.filter_cons_of_neg (by simpa using hs)] at h1
      exact loop_total h1 (t2 h2) (t2 h3) h4
    next he =>
    rw [Bool.or_eq_true, List.contains_iff_mem, List.contains_iff_mem, not_or] at he
    have hs : Seen g := ⟨hr, he⟩
    rw [List.filter_cons_of_pos (by simpa using hs), List.map_cons, List.nodup_cons] at h1
    have fresh : ∀ u ∈ gs, Seen u → u.term.name ∉ g.term.name :: used := by
      intro u hu su hm
      rcases List.mem_cons.1 hm with e | hm
      · exact h1.1 (List.mem_map.2 ⟨u, List.mem_filter.2 ⟨hu, by simpa using su⟩, e⟩)
      · exact h2 u (List.mem_cons_of_mem _ hu) su hm
    have keep : ∀ a ∈ apps, ∃ n ∈ g.term.name :: used, n.length ≤ 27 ∧ a.name = Msmpc.setName filter n := by
      intro a ha
      obtain ⟨n, hn, h⟩ := h4 a ha
      exact ⟨n, List.mem_cons_of_mem _ hn, h⟩
    rw [if_neg (by rw [List.contains_iff_mem]; exact h2 g (by simp) hs)]
    split
    · exact loop_total h1.2 fresh (t2 h3) keep
    next hx =>
      obtain ⟨hty, hlen⟩ := h3 g (by simp) hs (by simpa using hx)
      obtain ⟨types, hty⟩ := types_ok_iff.2 hty
      have hname : (entry filter (change g.term) g.timeout types).name = Msmpc.setName filter g.term.name := rfl
      obtain ⟨o, hsame⟩ := same_total (a := entry filter (change g.term) g.timeout types) (l := apps) (by
        intro s hs' e
        obtain ⟨n, hn, hl, hname'⟩ := h4 s hs'
        rw [hname', hname] at e
        exact h2 g (by simp) hs (set_inj hl hlen e ▸ hn))
      have keep' : ∀ a ∈ (if o.isNone then apps ++ [entry filter (change g.term) g.timeout types] else apps),
          ∃ n ∈ g.term.name :: used, n.length ≤ 27 ∧ a.name = Msmpc.setName filter n := by
        intro a ha
        split at ha
        · rcases List.mem_append.1 ha with ha | ha
          · exact keep a ha
          · rw [List.mem_singleton.1 ha]
            exact ⟨_, List.mem_cons_self, hlen, rfl⟩
        · exact keep a ha
      obtain ⟨x, hx⟩ := loop_total (apps := if o.isNone then apps ++ [entry filter (change g.term) g.timeout types] else apps)
        h1.2 fresh (t2 h3) keep'
      have e1 : (change g.term).icmpType = g.term.icmpType := rfl
      dsimp only
      rw [e1, hty]
      refine ⟨((g.term.option.contains "inactive", ⟨{ g with term := change g.term }, o.getD (entry filter (change g.term) g.timeout types).name⟩) :: x.1, x.2), ?_⟩
      show (do
        let s ← Msmpc.same (entry filter (change g.term) g.timeout types) apps
        let x ← Msmpc.termsLoop filter (g.term.name :: used) (if s.isNone then apps ++ [entry filter (change g.term) g.timeout types] else apps) gs
        Except.ok ((g.term.option.contains "inactive", (⟨{ g with term := change g.term }, s.getD (entry filter (change g.term) g.timeout types).name⟩ : Msmpc.Kept)) :: x.1, x.2)) = _
      rw [hsame]
      show (do
        let x ← Msmpc.termsLoop filter (g.term.name :: used) (if o.isNone then apps ++ [entry filter (change g.term) g.timeout types] else apps) gs
        Except.ok ((g.term.option.contains "inactive", (⟨{ g with term := change g.term }, o.getD (entry filter (change g.term) g.timeout types).name⟩ : Msmpc.Kept)) :: x.1, x.2)) = _
      rw [hx]
      rfl

theorem actions_total : ∀ {as : List String}, (∀ a ∈ as, a ∈ ["accept", "deny", "reject"]) → ∃ bs, actionsOf as = .ok bs
  | [], _ => ⟨_, rfl⟩
  | a :: as, h => by
    obtain ⟨bs, hb⟩ := actions_total fun x hx => h x (List.mem_cons_of_mem _ hx)
    unfold actionsOf
    rw [hb]
    have := h a (by simp)
    simp only [List.mem_cons, List.not_mem_nil, or_false] at this
    rcases this with rfl | rfl | rfl <;> exact ⟨_, rfl⟩

theorem collect_total {α β : Type} {f : α → Except Err (List β)} : ∀ {l : List α}, (∀ a ∈ l, ∃ r, f a = .ok r) → ∃ r, Msmpc.collect f l = .ok r
  | [], _ => ⟨_, rfl⟩
  | a :: l, h => by
    obtain ⟨r, hr⟩ := h a (by simp)
    obtain ⟨s, hs⟩ := collect_total fun x hx => h x (List.mem_cons_of_mem _ hx)
    unfold Msmpc.collect
    rw [hr, hs]
    exact ⟨_, rfl⟩

/-- What is needed of a filter of the platform. -/
structure MsmpcNeeds (f : Msmpc.Filter) : Prop where
  head : ∃ name rest, f.options = name :: rest ∧ Fine rest
  names : ((f.terms.filter fun g => decide (Seen g)).map fun g => g.term.name).Nodup
  types : ∀ g ∈ f.terms, Seen g → g.expired = false → TypesOk g.term

/-- C160: a policy that is accepted has headers with a name and known options that do not conflict, distinct names of terms, ICMP types of
the one protocol of their term, and known actions in terms that need a rule. -/
theorem C160_needed {fs : List Msmpc.Filter} {gs : List Msmpc.Group} (h : Msmpc.output fs = .ok gs) {f : Msmpc.Filter} (hf : f ∈ fs)
    (hh : f.here = true) : MsmpcNeeds f ∧ ∀ rest, f.options.tail = rest → ∀ g ∈ f.terms, Spec.Msmpc.Kept g → g.term.verbatim = [] →
      (∀ g ∈ f.terms, Spec.Msmpc.Kept g → NetsOk g.term) → (∃ v, FamilyIs rest v ∧ ¬ Spared g.term v) →
      ∀ a ∈ g.term.action, a ∈ ["accept", "deny", "reject"] := by
  have hf : f ∈ fs.filter Msmpc.Filter.here := List.mem_filter.2 ⟨hf, hh⟩
  obtain ⟨i, hi, rfl⟩ := List.getElem_of_mem hf
  have hl := (C159_rules h).1
  have h1 := List.getElem?_eq_getElem hi
  have h2 := List.getElem?_eq_getElem (l := gs) (i := i) (by omega)
  obtain ⟨rest, type, x, bs, m, _⟩ := msmpc_made h h1 h2
  refine ⟨⟨⟨_, rest, m.head, m.fine⟩, m.looped.names, ?_⟩, ?_⟩
  · intro g hg hs hx
    rw [← m.looped.terms] at hg
    obtain ⟨b, hb, rfl⟩ := List.mem_map.1 hg
    cases hb' : b.2 with
    | none =>
      have := m.looped.each b hb
      rw [hb'] at this
      cases this with
      | skipped h =>
        rcases h with h | h | h | h
        · rw [hs.1] at h; cases h
        · exact absurd h hs.2.1
        · exact absurd h hs.2.2
        · rw [hx] at h; cases h
    | some k =>
      have := m.looped.each b hb
      rw [hb'] at this
      cases this with
      | kept _ _ _ _ b5 _ => exact types_ok_iff.1 ⟨_, b5⟩
  · rintro _ rfl g hg hk hv hw ⟨v, hfam, hsp⟩ a ha
    obtain ⟨rest', cs, r⟩ := (C159_rules h).2 i _ _ h1 h2 hw
    have er : rest' = (fs.filter Msmpc.Filter.here)[i].options.tail := by rw [r.head]; rfl
    rw [← er] at hfam
    rw [← r.terms] at hg
    obtain ⟨c, hc, rfl⟩ := List.mem_map.1 hg
    have pr := r.printed c hc
    cases hos : c.2 with
    | nil => exact absurd (pr.spared hk hv hos v hfam) hsp
    | cons x xs =>
      obtain ⟨_, q, _, _, hq⟩ := pr.rules hv x (by rw [hos]; exact List.mem_cons_self)
      obtain ⟨j, hj, rfl⟩ := List.getElem_of_mem ha
      have key : ∀ e ∈ Spec.Msmpc.actionWords, e.1 ∈ ["accept", "deny", "reject"] := by decide
      exact key _ (hq.actions.2 j _ _ (List.getElem?_eq_getElem hj) (List.getElem?_eq_getElem (by rw [hq.actions.1]; exact hj)))

/-- C160: if moreover the names of terms have at most 27 characters and all actions are known, the policy is accepted. -/
theorem C160_enough {fs : List Msmpc.Filter} (h : ∀ f ∈ fs, f.here = true → MsmpcNeeds f ∧
    (∀ g ∈ f.terms, Seen g → g.expired = false → g.term.name.length ≤ 27) ∧
    ∀ g ∈ f.terms, Spec.Msmpc.Kept g → g.term.verbatim = [] → ∀ a ∈ g.term.action, a ∈ ["accept", "deny", "reject"]) :
    ∃ gs, Msmpc.output fs = .ok gs := by
  unfold Msmpc.output
  have step : ∀ f ∈ fs.filter Msmpc.Filter.here, ∃ d, translateFilter f = .ok d := by
    intro f hf
    obtain ⟨hf, hh⟩ := List.mem_filter.1 hf
    obtain ⟨⟨⟨name, rest, e, hfine⟩, h2, h3⟩, h4, _⟩ := h f hf hh
    unfold translateFilter
    obtain ⟨x, hx⟩ := loop_total (filter := name.toList) (used := []) (apps := []) h2 (by simp) (fun g hg s hx => ⟨h3 g hg s hx, h4 g hg s hx⟩) (by simp)
    obtain ⟨y, hy, ey⟩ : ∃ y, Msmpc.header f.options = .ok y ∧ y.1 = name :=
      ⟨(name, (rest.find? fun o => o ∈ fams).getD "mixed",
        ((rest.find? fun o => o ∈ dirs).bind fun o => Msmpc.directions.lookup o).getD "input-output"),
        header_iff.2 ⟨rest, e, hfine, rfl, rfl⟩, rfl⟩
    rw [hy]
    refine ⟨⟨y.1, y.2.1, y.2.2, x.1, x.2⟩, ?_⟩
    show (do
      let x ← Msmpc.termsLoop y.1.toList [] [] f.terms
      Except.ok (⟨y.1, y.2.1, y.2.2, x.1, x.2⟩ : Done)) = _
    rw [ey]
    rw [hx]
    rfl
  obtain ⟨ds, hds⟩ := listM_total step
  rw [hds]
  show ∃ gs, listM (Msmpc.group ds) ds = .ok gs
  refine listM_total fun d hd => ?_
  obtain ⟨f, hf, hfd⟩ := (listM_mem hds d).1 hd
  obtain ⟨hf, hh⟩ := List.mem_filter.1 hf
  obtain ⟨_, _, hact⟩ := h f hf hh
  unfold translateFilter at hfd
  obtain ⟨hd', h1, hfd⟩ := bind_ok hfd
  obtain ⟨x, h2, hfd⟩ := bind_ok hfd
  cases hfd
  obtain ⟨bs, l⟩ := loop_ok h2 List.nodup_nil
  have : ∃ ts, Msmpc.collect (render hd'.2.1) x.1 = .ok ts := by
    refine collect_total fun k hk => ?_
    rw [l.kept] at hk
    obtain ⟨b, hb, e⟩ := List.mem_filterMap.1 hk
    have hg : b.1 ∈ f.terms := by rw [← l.terms]; exact List.mem_map.2 ⟨b, hb, rfl⟩
    have hbec := l.each b hb
    rw [e] at hbec
    cases hbec with
    | @kept set types b1 b2 b3 b4 b5 b6 =>
      unfold render
      dsimp only
      split
      · exact ⟨_, rfl⟩
      next hel =>
        split
        · exact ⟨_, rfl⟩
        next hv =>
          refine collect_total fun v _ => ?_
          unfold piece
          dsimp only
          split
          · exact ⟨_, rfl⟩
          · split
            · exact ⟨_, rfl⟩
            · have hel' : elsewhere b.1.term = false := by
                have e : elsewhere (change b.1.term) = elsewhere b.1.term := rfl
                rw [e] at hel
                simpa using hel
              have hv' : b.1.term.verbatim = [] := by
                have e : (change b.1.term).verbatim = b.1.term.verbatim := rfl
                rw [e] at hv
                simpa using hv
              obtain ⟨k1, k2⟩ := elsewhere_iff.1 hel'
              obtain ⟨as, has⟩ := actions_total (hact b.1 hg ⟨b4, b1, k1, k2, b2, b3⟩ hv')
              have e : (change b.1.term).action = b.1.term.action := rfl
              rw [e, has]
              exact ⟨_, rfl⟩
  obtain ⟨ts, hts⟩ := this
  unfold Msmpc.group
  dsimp only
  rw [hts]
  exact ⟨_, rfl⟩

end Verif.Props
