import Verif.Lemmas.AristaTp
import Verif.Lemmas.Translate

/-!
Names in the traffic policies of capirca/lib/arista_tp.py: field sets with equal contents, and what the renaming does to words.
-/

namespace Verif.AristaTp
open Verif Verif.Spec Verif.Spec.Eos
open Verif.Juniper (minimizePrefixes)

/-! ### renaming -/

/-- No key begins anywhere in the word: nothing changes. -/
theorem substitute_id {ren : List (Str × Str)} : ∀ (n : Nat) (s : Str), (∀ r ∈ ren, ∀ t, t ≠ [] → t <:+ s → ¬ r.1 <+: t) →
    substitute ren n s = s
  | 0, _, _ => by unfold substitute; rfl
  | n + 1, [], _ => by unfold substitute; rfl
  | n + 1, c :: cs, h => by
    unfold substitute
    have : (ren.find? fun r => r.1.isPrefixOf (c :: cs)) = none := by
      rw [List.find?_eq_none]
      intro r hr
      rw [List.isPrefixOf_iff_prefix]
      exact h r hr _ (by simp) (List.suffix_refl _)
    rw [this]
    dsimp only
    rw [substitute_id n cs fun r hr t ht hs => h r hr t ht (hs.trans (List.suffix_cons c cs))]

/-- The word contains no beginning of a name of a field set. -/
def Clean (s : Str) : Prop := ¬ "src-".toList <:+: s ∧ ¬ "dst-".toList <:+: s

/-- The keys begin like names of field sets. -/
def Keys (ren : List (Str × Str)) : Prop := ∀ r ∈ ren, "src-".toList <+: r.1 ∨ "dst-".toList <+: r.1

theorem clean_suffix {ren : List (Str × Str)} (hk : Keys ren) {s : Str} (hs : Clean s) :
    ∀ r ∈ ren, ∀ t, t <:+ s → ¬ r.1 <+: t := by
  intro r hr t ht hp
  rcases hk r hr with h | h
  · exact hs.1 ((h.trans hp).isInfix.trans ht.isInfix)
  · exact hs.2 ((h.trans hp).isInfix.trans ht.isInfix)

theorem rename_id {ren : List (Str × Str)} (hk : Keys ren) {s : Str} (hs : Clean s) : rename ren s = s :=
  substitute_id _ _ fun r hr t _ ht => clean_suffix hk hs r hr t ht

/-- A name of a field set gets the new name it has in the list. -/
theorem rename_key {ren : List (Str × Str)} (hk : Keys ren) {d : Dir} {n : Str} (hn : Clean n)
    (hp : ∀ r ∈ ren, r.1 <+: setName d n → r.1 = setName d n) :
    (rename ren (setName d n) = setName d n ∧ ∀ r ∈ ren, r.1 ≠ setName d n) ∨
      ∃ r ∈ ren, r.1 = setName d n ∧ rename ren (setName d n) = r.2 := by
  have hrest : ∃ c cs, setName d n = c :: cs ∧ ∀ r ∈ ren, ∀ t, t ≠ [] → t <:+ cs → ¬ r.1 <+: t := by
    have key : ∀ cs : Str, (¬ "src-".toList <+: cs ∧ ¬ "dst-".toList <+: cs) → ∀ r ∈ ren, ¬ r.1 <+: cs := by
      intro cs h r hr hp
      rcases hk r hr with h' | h'
      · exact h.1 (h'.trans hp)
      · exact h.2 (h'.trans hp)
    cases d with
    | source =>
      refine ⟨'s', 'r' :: 'c' :: '-' :: n, rfl, fun r hr t _ ht => ?_⟩
      rw [List.suffix_cons_iff, List.suffix_cons_iff, List.suffix_cons_iff] at ht
      rcases ht with rfl | rfl | rfl | ht
      · exact key _ (by simp) r hr
      · exact key _ (by simp) r hr
      · exact key _ (by simp) r hr
      · exact clean_suffix hk hn r hr t ht
    | destination =>
      refine ⟨'d', 's' :: 't' :: '-' :: n, rfl, fun r hr t _ ht => ?_⟩
      rw [List.suffix_cons_iff, List.suffix_cons_iff, List.suffix_cons_iff] at ht
      rcases ht with rfl | rfl | rfl | ht
      · exact key _ (by simp) r hr
      · exact key _ (by simp) r hr
      · exact key _ (by simp) r hr
      · exact clean_suffix hk hn r hr t ht
  obtain ⟨c, cs, e, hcs⟩ := hrest
  unfold rename
  rw [e] at hp ⊢
  rw [List.length_cons]
  unfold substitute
  cases hf : ren.find? fun r => r.1.isPrefixOf (c :: cs) with
  | none =>
    left
    dsimp only
    rw [substitute_id _ _ hcs]
    refine ⟨rfl, fun r hr e => ?_⟩
    have := (List.find?_eq_none.1 hf) r hr
    rw [List.isPrefixOf_iff_prefix, e] at this
    exact this (List.prefix_refl _)
  | some r =>
    right
    have hr := List.mem_of_find?_eq_some hf
    have := List.find?_some hf
    rw [List.isPrefixOf_iff_prefix] at this
    have e' := hp r hr this
    refine ⟨r, hr, e', ?_⟩
    dsimp only
    rw [e', List.drop_length, substitute_id _ _ (by rintro _ _ t h h'; exact absurd (List.suffix_nil.1 h') h), List.append_nil]

/-! ### field sets -/

/-- Which field sets stay, and what happens to the others. -/
theorem dedup_spec : ∀ (fs kept : List FieldSet),
    (∀ k ∈ kept, k ∈ (dedup kept fs).1) ∧ (∀ k ∈ (dedup kept fs).1, k ∈ kept ∨ k ∈ fs) ∧
    (∀ m ∈ (dedup kept fs).2, ∃ f ∈ fs, ∃ k ∈ (dedup kept fs).1, m = (f.name, k.name) ∧ k.pfxs = f.pfxs ∧ k.excepts = f.excepts) ∧
    ∀ f ∈ fs, f ∈ (dedup kept fs).1 ∨ ∃ m ∈ (dedup kept fs).2, m.1 = f.name
  | [], kept => by simp [dedup]
  | f :: fs, kept => by
    unfold dedup
    cases hk : kept.find? fun k => decide (k.pfxs = f.pfxs ∧ k.excepts = f.excepts) with
    | some k =>
      dsimp only
      obtain ⟨h1, h2, h3, h4⟩ := dedup_spec fs kept
      have hk' := List.mem_of_find?_eq_some hk
      have he := List.find?_some hk
      rw [decide_eq_true_eq] at he
      refine ⟨h1, fun k hk => (h2 k hk).imp_right (List.mem_cons_of_mem _), ?_, ?_⟩
      · intro m hm
        rcases List.mem_cons.1 hm with rfl | hm
        · exact ⟨f, by simp, k, h1 k hk', rfl, he⟩
        · obtain ⟨g, hg, h⟩ := h3 m hm
          exact ⟨g, List.mem_cons_of_mem _ hg, h⟩
      · intro g hg
        rcases List.mem_cons.1 hg with rfl | hg
        · exact .inr ⟨_, List.mem_cons_self, rfl⟩
        · exact (h4 g hg).imp_right fun ⟨m, hm, e⟩ => ⟨m, List.mem_cons_of_mem _ hm, e⟩
    | none =>
      dsimp only
      obtain ⟨h1, h2, h3, h4⟩ := dedup_spec fs (kept ++ [f])
      refine ⟨fun k hk => h1 k (by simp [hk]), fun k hk => ?_, ?_, ?_⟩
      · rcases h2 k hk with h | h
        · rcases List.mem_append.1 h with h | h
          · exact .inl h
          · exact .inr (by simp at h; simp [h])
        · exact .inr (List.mem_cons_of_mem _ h)
      · intro m hm
        obtain ⟨g, hg, h⟩ := h3 m hm
        exact ⟨g, List.mem_cons_of_mem _ hg, h⟩
      · intro g hg
        rcases List.mem_cons.1 hg with rfl | hg
        · exact .inl (h1 _ (by simp))
        · exact h4 g hg

theorem mem_fieldSetOf {us : Bool} {v : Ver} {name : Str} {d : Dir} {inc exc : List Net} {x : FieldSet}
    (h : x ∈ fieldSetOf us v name d inc exc) :
    x = ⟨setName d name, v, (minimizePrefixes (ofVersion v inc) (ofVersion v exc)).1.map pfx,
      (minimizePrefixes (ofVersion v inc) (ofVersion v exc)).2.map pfx⟩ ∧
    (x.pfxs ≠ [] ∨ x.excepts ≠ []) ∧ inc ++ exc ≠ [] ∧ (exc ≠ [] ∨ us = true) := by
  unfold fieldSetOf at h
  dsimp only at h
  split at h
  next hc =>
    rw [List.mem_singleton] at h
    subst h
    rw [Bool.and_eq_true, Bool.or_eq_true, Bool.or_eq_true] at hc
    simp only [Bool.not_eq_true', List.isEmpty_eq_false_iff] at hc
    have he : (minimizePrefixes (ofVersion v inc) (ofVersion v exc)).2 ≠ [] → exc ≠ [] := by
      rintro h rfl
      exact h rfl
    have hi : (minimizePrefixes (ofVersion v inc) (ofVersion v exc)).1 ≠ [] → inc ≠ [] := by
      rintro h rfl
      exact h rfl
    refine ⟨rfl, ?_, ?_, hc.2.imp_left he⟩
    · simpa using hc.1
    · rcases hc.1 with h | h
      · simp [hi h]
      · simp [he h]
  · cases h

/-- The prefixes and exceptions of a field set have its family. -/
theorem fieldSet_family {us : Bool} {v : Ver} {name : Str} {d : Dir} {inc exc : List Net} {x : FieldSet}
    (h : x ∈ fieldSetOf us v name d inc exc) : ∀ q ∈ x.pfxs ++ x.excepts, q.1 = v := by
  obtain ⟨rfl, _⟩ := mem_fieldSetOf h
  intro q hq
  dsimp only at hq
  rw [← List.map_append, List.mem_map] at hq
  obtain ⟨n, hn, rfl⟩ := hq
  show n.ver = v
  have : n ∈ ofVersion v inc ∨ n ∈ ofVersion v exc := by
    unfold minimizePrefixes at hn
    dsimp only at hn
    rcases List.mem_append.1 hn with h | h
    · exact .inl (List.mem_filter.1 h).1
    · exact .inr (List.mem_filter.1 h).1
  rcases this with h | h <;> exact (mem_ofVersion.1 h).2

theorem setName_inj {d e : Dir} {m n : Str} (h : setName d m = setName e n) : d = e ∧ m = n := by
  cases d <;> cases e <;> simp_all [setName]

theorem setName_keys (d : Dir) (n : Str) : "src-".toList <+: setName d n ∨ "dst-".toList <+: setName d n := by
  cases d
  · exact .inl ⟨n, rfl⟩
  · exact .inr ⟨n, rfl⟩

end Verif.AristaTp
