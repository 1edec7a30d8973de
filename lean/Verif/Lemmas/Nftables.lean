import Verif.Spec.Nftables
import Verif.Lemmas.FirstMatch
import Verif.Lemmas.Translate

/-!
Lemmas about the model of capirca/lib/nftables.py and about runs through chains.
-/

namespace Verif.Nftables
open Verif Verif.Spec Verif.Spec.Nftables Policy Aclgenerator Lemmas

/-- The rule gives the verdict. -/
def Gives (f : Flow) (r : Rule) (v : String) : Prop := RuleHits r f ∧ r.verdict = v

/-- The rules give the verdict. -/
def ChainGives (f : Flow) (c : Str × List Rule) (v : String) : Prop := First (Gives f) c.2 v

theorem run_rules {t : Table} {f : Flow} : ∀ {rs : List Rule} {o : Option String}, Run t f (rs.map .rule) o ↔
    (∃ v, o = some v ∧ First (Gives f) rs v) ∨ (o = none ∧ ∀ r ∈ rs, ¬ RuleHits r f)
  | [], o => by
    constructor
    · intro h
      cases h
      exact .inr ⟨rfl, by simp⟩
    · rintro (⟨v, _, h⟩ | ⟨rfl, _⟩)
      · exact absurd h first_nil
      · exact .done
  | r :: rs, o => by
    rw [List.map_cons]
    constructor
    · intro h
      cases h with
      | hit h => exact .inl ⟨_, rfl, first_cons.2 (.inl ⟨h, rfl⟩)⟩
      | miss hn h =>
        rcases run_rules.1 h with ⟨v, rfl, h'⟩ | ⟨rfl, h'⟩
        · exact .inl ⟨v, rfl, first_cons.2 (.inr ⟨fun w hw => hn hw.1, h'⟩)⟩
        · refine .inr ⟨rfl, fun q hq => ?_⟩
          rcases List.mem_cons.1 hq with rfl | hq
          · exact hn
          · exact h' q hq
    · rintro (⟨v, rfl, h⟩ | ⟨rfl, h⟩)
      · rcases first_cons.1 h with ⟨h', rfl⟩ | ⟨hn, h'⟩
        · exact .hit h'
        · exact .miss (fun hh => hn _ ⟨hh, rfl⟩) (run_rules.2 (.inl ⟨v, rfl, h'⟩))
      · exact .miss (h r (by simp)) (run_rules.2 (.inr ⟨rfl, fun q hq => h q (List.mem_cons_of_mem _ hq)⟩))

theorem not_gives {f : Flow} : ∀ {rs : List Rule}, (∀ v, ¬ First (Gives f) rs v) ↔ ∀ r ∈ rs, ¬ RuleHits r f
  | [] => by simp [first_nil]
  | r :: rs => by
    have ih := not_gives (f := f) (rs := rs)
    constructor
    · intro h q hq hh
      have hr : ¬ RuleHits r f := fun hr => h _ (first_cons.2 (.inl ⟨hr, rfl⟩))
      rcases List.mem_cons.1 hq with rfl | hq
      · exact hr hh
      · exact ih.1 (fun v hv => h v (first_cons.2 (.inr ⟨fun w hw => hr hw.1, hv⟩))) q hq hh
    · intro h v hv
      obtain ⟨q, hq, hh, _⟩ := first_hits hv
      exact h q hq hh

theorem run_jumps {t : Table} {f : Flow} : ∀ {cs : List (Str × List Rule)} {o : Option String},
    (∀ c ∈ cs, Body t c.1 = c.2.map .rule) → (Run t f (cs.map fun c => .jump c.1) o ↔
      (∃ v, o = some v ∧ First (ChainGives f) cs v) ∨ (o = none ∧ ∀ c ∈ cs, ∀ v, ¬ ChainGives f c v))
  | [], o, _ => by
    constructor
    · intro h
      cases h
      exact .inr ⟨rfl, by simp⟩
    · rintro (⟨v, _, h⟩ | ⟨rfl, _⟩)
      · exact absurd h first_nil
      · exact .done
  | c :: cs, o, hb => by
    have ih := fun o => run_jumps (t := t) (f := f) (cs := cs) (o := o) fun d hd => hb d (List.mem_cons_of_mem _ hd)
    have hc := hb c (by simp)
    rw [List.map_cons]
    constructor
    · intro h
      cases h with
      | jump h =>
        rw [hc] at h
        rcases run_rules.1 h with ⟨v, e, h⟩ | ⟨e, _⟩
        · cases e
          exact .inl ⟨_, rfl, first_cons.2 (.inl h)⟩
        · cases e
      | back h1 h2 =>
        rw [hc] at h1
        have hn : ∀ v, ¬ ChainGives f c v := by
          rcases run_rules.1 h1 with ⟨v, e, _⟩ | ⟨_, h⟩
          · cases e
          · exact not_gives.2 h
        rcases (ih _).1 h2 with ⟨v, rfl, h⟩ | ⟨rfl, h⟩
        · exact .inl ⟨v, rfl, first_cons.2 (.inr ⟨hn, h⟩)⟩
        · refine .inr ⟨rfl, fun q hq => ?_⟩
          rcases List.mem_cons.1 hq with rfl | hq
          · exact hn
          · exact h q hq
    · rintro (⟨v, rfl, h⟩ | ⟨rfl, h⟩)
      · rcases first_cons.1 h with h | ⟨hn, h⟩
        · refine .jump ?_
          rw [hc]
          exact run_rules.2 (.inl ⟨v, rfl, h⟩)
        · refine .back ?_ ((ih _).2 (.inl ⟨v, rfl, h⟩))
          rw [hc]
          exact run_rules.2 (.inr ⟨rfl, not_gives.1 hn⟩)
      · refine .back ?_ ((ih _).2 (.inr ⟨rfl, fun q hq => h q (List.mem_cons_of_mem _ hq)⟩))
        rw [hc]
        exact run_rules.2 (.inr ⟨rfl, not_gives.1 (h c (by simp))⟩)

theorem run_base {t : Table} {f : Flow} {x : Chains} {o : Option String} : Run t f (baseChain x).items o ↔
    (Known f ∧ o = some "accept") ∨ (¬ Known f ∧ Run t f (x.children.map fun c => .jump c.1) o) := by
  have key : ∀ c l, Run t f (.known c :: l) o ↔ (Known f ∧ o = some "accept") ∨ (¬ Known f ∧ Run t f l o) := by
    intro c l
    constructor
    · intro h
      cases h with
      | known h => exact .inl ⟨h, rfl⟩
      | fresh h1 h2 => exact .inr ⟨h1, h2⟩
    · rintro (⟨h, rfl⟩ | ⟨h1, h2⟩)
      · exact .known h
      · exact .fresh h1 h2
  unfold baseChain
  dsimp only
  split
  · rw [List.nil_append]
    exact key _ _
  · rw [List.singleton_append, ← key]
    constructor
    · intro h
      cases h with
      | remark h => exact h
    · exact .remark

/-! ### the dictionary of tables -/

section
variable {κ β : Type} [DecidableEq κ]

theorem key_unique : ∀ {l : List (κ × β)} {a b : κ × β}, (l.map Prod.fst).Nodup → a ∈ l → b ∈ l → a.1 = b.1 → a = b
  | d :: l, a, b, h, ha, hb, e => by
    rw [List.map_cons, List.nodup_cons] at h
    rcases List.mem_cons.1 ha with h1 | h1 <;> rcases List.mem_cons.1 hb with h2 | h2
    · rw [h1, h2]
    · exact absurd (List.mem_map.2 ⟨b, h2, by rw [← e, h1]⟩) h.1
    · exact absurd (List.mem_map.2 ⟨a, h1, by rw [e, h2]⟩) h.1
    · exact key_unique h.2 h1 h2 e

theorem change_mem {new : β} {f : β → β} {k : κ} : ∀ {l : List (κ × β)}, (l.map Prod.fst).Nodup → ∀ e, e ∈ change new f k l ↔
    (e.1 ≠ k ∧ e ∈ l) ∨ (e.1 = k ∧ ((∃ e0 ∈ l, e0.1 = k ∧ e.2 = f e0.2) ∨ (k ∉ l.map Prod.fst ∧ e.2 = f new)))
  | [], _, e => by
    unfold change
    rw [List.mem_singleton, Prod.ext_iff]
    simp
  | d :: l, h, e => by
    rw [List.map_cons, List.nodup_cons] at h
    have ih := change_mem (new := new) (f := f) (k := k) h.2 e
    unfold change
    split
    next hk =>
      subst hk
      have hne : ∀ e0 ∈ l, e0.1 ≠ d.1 := fun e0 h0 h1 => h.1 (by rw [← h1]; exact List.mem_map.2 ⟨e0, h0, rfl⟩)
      constructor
      · intro hm
        rcases List.mem_cons.1 hm with rfl | hm
        · exact .inr ⟨rfl, .inl ⟨d, by simp, rfl, rfl⟩⟩
        · exact .inl ⟨hne e hm, List.mem_cons_of_mem _ hm⟩
      · rintro (⟨h1, h2⟩ | ⟨h1, ⟨e0, h2, h3, h4⟩ | ⟨h2, _⟩⟩)
        · rcases List.mem_cons.1 h2 with rfl | h2
          · exact absurd rfl h1
          · exact List.mem_cons_of_mem _ h2
        · rcases List.mem_cons.1 h2 with rfl | h2
          · exact List.mem_cons.2 (.inl (Prod.ext h1 h4))
          · exact absurd h3 (hne e0 h2)
        · exact absurd (by simp) h2
    next hk =>
      rw [List.mem_cons, ih]
      constructor
      · rintro (rfl | ⟨h1, h2⟩ | ⟨h1, ⟨e0, h2, h3, h4⟩ | ⟨h2, h3⟩⟩)
        · exact .inl ⟨hk, by simp⟩
        · exact .inl ⟨h1, List.mem_cons_of_mem _ h2⟩
        · exact .inr ⟨h1, .inl ⟨e0, List.mem_cons_of_mem _ h2, h3, h4⟩⟩
        · exact .inr ⟨h1, .inr ⟨by simp only [List.map_cons, List.mem_cons, not_or]; exact ⟨fun h => hk h.symm, h2⟩, h3⟩⟩
      · rintro (⟨h1, h2⟩ | ⟨h1, ⟨e0, h2, h3, h4⟩ | ⟨h2, h3⟩⟩)
        · rcases List.mem_cons.1 h2 with rfl | h2
          · exact .inl rfl
          · exact .inr (.inl ⟨h1, h2⟩)
        · rcases List.mem_cons.1 h2 with rfl | h2
          · exact absurd h3 hk
          · exact .inr (.inr ⟨h1, .inl ⟨e0, h2, h3, h4⟩⟩)
        · exact .inr (.inr ⟨h1, .inr ⟨fun h => h2 (by rw [List.map_cons]; exact List.mem_cons_of_mem _ h), h3⟩⟩)

theorem change_keys {new : β} {f : β → β} {k : κ} : ∀ {l : List (κ × β)}, (l.map Prod.fst).Nodup →
    ((change new f k l).map Prod.fst).Nodup ∧ ∀ j, j ∈ (change new f k l).map Prod.fst ↔ j = k ∨ j ∈ l.map Prod.fst
  | [], _ => by
    unfold change
    simp
  | d :: l, h => by
    rw [List.map_cons, List.nodup_cons] at h
    obtain ⟨i1, i2⟩ := change_keys (new := new) (f := f) (k := k) h.2
    unfold change
    split
    next hk =>
      subst hk
      refine ⟨by rw [List.map_cons, List.nodup_cons]; exact h, fun j => ?_⟩
      simp
    next hk =>
      constructor
      · rw [List.map_cons, List.nodup_cons, i2]
        exact ⟨fun h1 => h1.elim hk h.1, i1⟩
      · intro j
        rw [List.map_cons, List.mem_cons, i2, List.map_cons, List.mem_cons]
        constructor
        · rintro (h | h | h)
          · exact .inr (.inl h)
          · exact .inl h
          · exact .inr (.inr h)
        · rintro (h | h | h)
          · exact .inr (.inl h)
          · exact .inl h
          · exact .inr (.inr h)

/-- A new key comes last. -/
theorem change_new {new : β} {f : β → β} {k : κ} : ∀ {l : List (κ × β)}, k ∉ l.map Prod.fst →
    change new f k l = l ++ [(k, f new)]
  | [], _ => rfl
  | d :: l, h => by
    rw [List.map_cons, List.mem_cons, not_or] at h
    unfold change
    rw [if_neg (fun e => h.1 e.symm), change_new h.2, List.cons_append]

end

/-- The family of the table for a filter. -/
def famOf (x : Chains) : String := x.header.override.getD x.header.family

/-- The base chains of a table. -/
def inTable (l : List Chains) (tb af : String) : List (Str × Chains) :=
  (l.filter fun x => x.header.table == tb && famOf x == af).map fun x => (x.base, x)

/-- The dictionary has the filters of the list, in their order. -/
structure Filled (c : Config) (l : List Chains) : Prop where
  tables : (c.map Prod.fst).Nodup
  families : ∀ t ∈ c, (t.2.map Prod.fst).Nodup
  bases : ∀ t ∈ c, ∀ a ∈ t.2, a.2 = inTable l t.1 a.1
  there : ∀ x ∈ l, ∃ t ∈ c, t.1 = x.header.table ∧ ∃ a ∈ t.2, a.1 = famOf x

theorem inTable_append (l : List Chains) (x : Chains) (tb af : String) : inTable (l ++ [x]) tb af =
    inTable l tb af ++ if x.header.table = tb ∧ famOf x = af then [(x.base, x)] else [] := by
  unfold inTable
  rw [List.filter_append, List.map_append, List.filter_cons, List.filter_nil]
  by_cases h : x.header.table = tb ∧ famOf x = af
  · rw [if_pos h, if_pos (by simp [h.1, h.2])]
    rfl
  · rw [if_neg h, if_neg (by simpa using h)]
    rfl

theorem inTable_new {l : List Chains} {x : Chains} (h : ∀ y ∈ l, y.base ≠ x.base) (tb af : String) :
    change x (fun _ => x) x.base (inTable l tb af) = inTable l tb af ++ [(x.base, x)] := by
  refine change_new ?_
  unfold inTable
  rw [List.map_map]
  intro hm
  obtain ⟨y, hy, e⟩ := List.mem_map.1 hm
  exact h y (List.mem_filter.1 hy).1 e

theorem filled_step {c : Config} {l : List Chains} {x : Chains} (h : Filled c l) (hx : ∀ y ∈ l, y.base ≠ x.base) :
    Filled (addChains c x) (l ++ [x]) := by
  have hd : addChains c x = change [] (change [] (change x (fun _ => x) x.base) (famOf x)) x.header.table c := rfl
  rw [hd]
  have cm := change_mem (new := []) (f := change [] (change x (fun _ => x) x.base) (famOf x)) (k := x.header.table) h.tables
  have empty : ∀ {tb af : String}, (∀ t ∈ c, t.1 = tb → ∀ a ∈ t.2, a.1 ≠ af) → inTable l tb af = [] := by
    intro tb af hn
    unfold inTable
    rw [List.map_eq_nil_iff, List.filter_eq_nil_iff]
    intro y hy
    obtain ⟨t, ht, e, a, ha, e2⟩ := h.there y hy
    simp only [Bool.and_eq_true, beq_iff_eq, not_and]
    intro e3 e4
    exact hn t ht (e.trans e3) a ha (e2.trans e4)
  have nil_nodup : (([] : List (String × List (Str × Chains))).map Prod.fst).Nodup := by simp
  constructor
  · exact (change_keys h.tables).1
  · intro t ht
    rcases (cm t).1 ht with ⟨_, h1⟩ | ⟨_, ⟨e0, h1, _, h2⟩ | ⟨_, h2⟩⟩
    · exact h.families t h1
    · rw [h2]
      exact (change_keys (h.families e0 h1)).1
    · rw [h2]
      exact (change_keys nil_nodup).1
  · intro t ht a ha
    rw [inTable_append]
    rcases (cm t).1 ht with ⟨h0, h1⟩ | ⟨h0, ⟨e0, h1, h3, h2⟩ | ⟨h3, h2⟩⟩
    · rw [if_neg (fun hh => h0 hh.1.symm), List.append_nil]
      exact h.bases t h1 a ha
    · rw [h2] at ha
      rcases (change_mem (h.families e0 h1) a).1 ha with ⟨h4, h5⟩ | ⟨h4, ⟨a0, h5, h6, h7⟩ | ⟨h5, h6⟩⟩
      · rw [if_neg (fun hh => h4 hh.2.symm), List.append_nil, h0, ← h3]
        exact h.bases e0 h1 a h5
      · rw [if_pos ⟨h0.symm, h4.symm⟩, h7, h.bases e0 h1 a0 h5, h3, h6, h0, h4]
        exact inTable_new hx _ _
      · rw [if_pos ⟨h0.symm, h4.symm⟩, h6, empty]
        · rfl
        · intro t' ht' e a' ha'
          have : t' = e0 := by
            exact key_unique h.tables ht' h1 (e.trans (h0.trans h3.symm))
          subst this
          intro e2
          exact h5 (List.mem_map.2 ⟨a', ha', e2.trans h4⟩)
    · rw [h2] at ha
      have ha : a = (famOf x, [(x.base, x)]) := by simpa [change] using ha
      subst ha
      rw [if_pos ⟨h0.symm, rfl⟩, empty]
      · rfl
      · intro t' ht' e
        exact absurd (List.mem_map.2 ⟨t', ht', e.trans h0⟩) h3
  · intro y hy
    rcases List.mem_append.1 hy with hy | hy
    · obtain ⟨t, ht, e, a, ha, e2⟩ := h.there y hy
      by_cases hk : t.1 = x.header.table
      · refine ⟨(t.1, change [] (change x (fun _ => x) x.base) (famOf x) t.2),
          (cm _).2 (.inr ⟨hk, .inl ⟨t, ht, hk, rfl⟩⟩), e, ?_⟩
        have := ((change_keys (new := []) (f := change x (fun _ => x) x.base) (k := famOf x) (h.families t ht)).2 a.1).2
          (.inr (List.mem_map.2 ⟨a, ha, rfl⟩))
        obtain ⟨b, hb, e3⟩ := List.mem_map.1 this
        exact ⟨b, hb, e3.trans e2⟩
      · exact ⟨t, (cm _).2 (.inl ⟨hk, ht⟩), e, a, ha, e2⟩
    · obtain rfl := List.mem_singleton.1 hy
      have := ((change_keys (new := []) (f := change [] (change y (fun _ => y) y.base) (famOf y)) (k := y.header.table)
        h.tables).2 y.header.table).2 (.inl rfl)
      obtain ⟨t, ht, e⟩ := List.mem_map.1 this
      refine ⟨t, ht, e, ?_⟩
      have hk : famOf y ∈ t.2.map Prod.fst := by
        rcases (cm t).1 ht with ⟨h0, _⟩ | ⟨_, ⟨e0, h1, _, h2⟩ | ⟨_, h2⟩⟩
        · exact absurd e h0
        · rw [h2]
          exact ((change_keys (h.families e0 h1)).2 _).2 (.inl rfl)
        · rw [h2]
          exact ((change_keys nil_nodup).2 _).2 (.inl rfl)
      obtain ⟨a, ha, e2⟩ := List.mem_map.1 hk
      exact ⟨a, ha, e2⟩

theorem filled_foldl : ∀ {l m : List Chains} {c : Config}, Filled c m → (∀ x ∈ l, ∀ y ∈ m, y.base ≠ x.base) →
    l.Pairwise (fun x y => x.base ≠ y.base) → Filled (l.foldl addChains c) (m ++ l)
  | [], m, c, h, _, _ => by simpa using h
  | x :: l, m, c, h, h1, h2 => by
    rw [List.pairwise_cons] at h2
    have := filled_foldl (l := l) (filled_step h (h1 x (by simp))) (by
      intro z hz y hy
      rcases List.mem_append.1 hy with hy | hy
      · exact h1 z (List.mem_cons_of_mem _ hz) y hy
      · obtain rfl := List.mem_singleton.1 hy
        exact h2.1 z hz) h2.2
    simpa using this

theorem filled {l : List Chains} (h : l.Pairwise (fun x y => x.base ≠ y.base)) : Filled (configuration l) l := by
  have := filled_foldl (l := l) (m := []) (c := []) ⟨by simp, by simp, by simp, by simp⟩ (by simp) h
  rw [List.nil_append] at this
  exact this

end Verif.Nftables
