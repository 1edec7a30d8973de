import Verif.Lemmas.Naming

/-! Lemmas about service resolution. -/

namespace Verif
namespace Naming
open Spec PyStr Fix

/-- One unfolding of `GetService`. -/
def svcF (svcs : Defs) (rec : Str → Except Err (List Str)) (query : Str) : Except Err (List Str) :=
  match headTok query with
  | none => .error .indexError
  | some name =>
    match svcs.lookup name with
    | none => .error (.raised "UndefinedServiceError")
    | some items => do
      let l ← expandServices rec [name] items
      .ok (sortedSet l)

theorem getServiceF_iter (svcs : Defs) (n : Nat) : getServiceF svcs n = iter (svcF svcs) n := by
  induction n with
  | zero => rfl
  | succ n ih =>
    funext q
    show _ = svcF svcs (iter (svcF svcs) n) q
    rw [← ih]
    rfl

theorem expandServices_mono {rec rec' : Str → Except Err (List Str)}
    (hr : ∀ c, rec c ≠ .error .diverges → rec' c = rec c) :
    ∀ is done, expandServices rec done is ≠ .error .diverges →
      expandServices rec' done is = expandServices rec done is
  | [], _, _ => rfl
  | i :: is, done, h => by
    unfold expandServices at h ⊢
    dsimp only at h ⊢
    split
    next h1 =>
      rw [if_pos h1] at h
      split
      next h2 =>
        rw [if_pos h2] at h
        cases hi : rec (itemTok i) with
        | error e =>
          rw [hi] at h
          rw [hr _ (by rw [hi]; exact h), hi]; rfl
        | ok a =>
          rw [hi] at h
          rw [hr _ (by rw [hi]; simp), hi]
          cases hj : expandServices rec (itemTok i :: done) is with
          | error e =>
            simp only [hj] at h
            rw [expandServices_mono hr is _ (by rw [hj]; exact h), hj]
          | ok b =>
            rw [expandServices_mono hr is _ (by rw [hj]; simp), hj]
      next h2 =>
        rw [if_neg h2] at h
        exact expandServices_mono hr is done h
    next h1 =>
      rw [if_neg h1] at h
      rw [expandServices_mono hr is done]
      intro e
      rw [e] at h
      exact h rfl

theorem svcF_mono (svcs : Defs) : Mono (fun _ => True) (svcF svcs) := by
  intro r r' k h hr
  unfold svcF at *
  cases hk : headTok k with
  | none => rfl
  | some tok =>
    simp only [hk] at h ⊢
    cases hl : svcs.lookup tok with
    | none => rfl
    | some items =>
      simp only [hl] at h ⊢
      rw [expandServices_mono (fun c hc => hr c trivial hc)]
      intro e
      rw [e] at h
      exact h rfl

theorem svcF_key {svcs : Defs} {r k} (h : svcF svcs r k = .error .diverges) :
    headTok k ∈ (svcs.map Prod.fst).map some := by
  unfold svcF at h
  split at h
  · cases h
  next tok hk =>
    split at h
    · cases h
    next items hl =>
      rw [hk]
      exact List.mem_map.2 ⟨tok, lookup_key hl, rfl⟩

theorem getService_fuel {svcs : Defs} {m q} (h : getServiceF svcs m q ≠ .error .diverges) :
    getService svcs q = getServiceF svcs m q := by
  unfold getService
  rw [getServiceF_iter] at h
  rw [getServiceF_iter, getServiceF_iter]
  have := iter_enough (svcF_mono svcs) headTok ((svcs.map Prod.fst).map some)
    (fun r k _ hh => svcF_key hh)
    (fun r k k' hk => by unfold svcF; rw [hk]) (m := m) (k := q) trivial h
  simpa using this

theorem getServiceF_mono {svcs : Defs} {n m q} (h : n ≤ m)
    (hd : getServiceF svcs n q ≠ .error .diverges) : getServiceF svcs m q = getServiceF svcs n q := by
  rw [getServiceF_iter] at *
  rw [getServiceF_iter]
  exact iter_le (svcF_mono svcs) h hd

theorem expandServices_error {rec : Str → Except Err (List Str)} {e} : ∀ {is done},
    expandServices rec done is = .error e →
    ∃ i ∈ is, '/' ∉ itemTok i ∧ itemTok i ∉ done ∧ rec (itemTok i) = .error e
  | [], _, h => by cases h
  | i :: is, done, h => by
    unfold expandServices at h
    dsimp only at h
    split at h
    next h1 =>
      have h1' : '/' ∉ itemTok i := by simpa using h1
      split at h
      next h2 =>
        have h2' : itemTok i ∉ done := by simpa using h2
        cases hi : rec (itemTok i) with
        | error e' => rw [hi] at h; cases h; exact ⟨i, List.mem_cons_self .., h1', h2', hi⟩
        | ok a =>
          rw [hi] at h
          cases hj : expandServices rec (itemTok i :: done) is with
          | error e' =>
            simp only [bind, Except.bind, hj] at h
            cases h
            obtain ⟨j, j1, j2, j3, j4⟩ := expandServices_error hj
            exact ⟨j, List.mem_cons_of_mem _ j1, j2, fun hh => j3 (List.mem_cons_of_mem _ hh), j4⟩
          | ok b => simp only [bind, Except.bind, hj] at h; cases h
      next h2 =>
        obtain ⟨j, j1, j2⟩ := expandServices_error h
        exact ⟨j, List.mem_cons_of_mem _ j1, j2⟩
    next h1 =>
      cases hj : expandServices rec done is with
      | error e' =>
        rw [hj] at h; cases h
        obtain ⟨j, j1, j2⟩ := expandServices_error hj
        exact ⟨j, List.mem_cons_of_mem _ j1, j2⟩
      | ok b => rw [hj] at h; cases h

theorem expandServices_ok {rec : Str → Except Err (List Str)} : ∀ {is done l},
    expandServices rec done is = .ok l →
    (∀ i ∈ is, '/' ∉ itemTok i → itemTok i ∉ done → ∃ a, rec (itemTok i) = .ok a) ∧
    (∀ v, v ∈ l ↔ (∃ i ∈ is, itemTok i = v ∧ '/' ∈ v) ∨
      (∃ i ∈ is, '/' ∉ itemTok i ∧ itemTok i ∉ done ∧ ∃ a, rec (itemTok i) = .ok a ∧ v ∈ a))
  | [], _, l, h => by cases h; simp
  | i :: is, done, l, h => by
    unfold expandServices at h
    dsimp only at h
    split at h
    next h1 =>
      have h1' : '/' ∉ itemTok i := by simpa using h1
      split at h
      next h2 =>
        have h2' : itemTok i ∉ done := by simpa using h2
        cases hi : rec (itemTok i) with
        | error e' => rw [hi] at h; cases h
        | ok a =>
          rw [hi] at h
          cases hj : expandServices rec (itemTok i :: done) is with
          | error e' => simp only [bind, Except.bind, hj] at h; cases h
          | ok b =>
            simp only [bind, Except.bind, hj] at h
            cases h
            obtain ⟨g1, g2⟩ := expandServices_ok hj
            constructor
            · intro j hj1 hj2 hj3
              rcases List.mem_cons.1 hj1 with rfl | hj1
              · exact ⟨a, hi⟩
              · rcases Classical.em (itemTok j = itemTok i) with he | he
                · rw [he]; exact ⟨a, hi⟩
                · exact g1 j hj1 hj2 (by simp [he, hj3])
            · intro v
              rw [List.mem_append, g2]
              constructor
              · rintro (hv | ⟨j, j1, j2⟩ | ⟨j, j1, j2, j3, j4⟩)
                · exact .inr ⟨i, List.mem_cons_self .., h1', h2', a, hi, hv⟩
                · exact .inl ⟨j, List.mem_cons_of_mem _ j1, j2⟩
                · exact .inr ⟨j, List.mem_cons_of_mem _ j1, j2, fun hh => j3 (List.mem_cons_of_mem _ hh), j4⟩
              · rintro (⟨j, j1, j2, j3⟩ | ⟨j, j1, j2, j3, a', j4, j5⟩)
                · rcases List.mem_cons.1 j1 with rfl | j1
                  · rw [j2] at h1'; exact absurd j3 h1'
                  · exact .inr (.inl ⟨j, j1, j2, j3⟩)
                · rcases Classical.em (itemTok j = itemTok i) with he | he
                  · rw [he, hi] at j4; cases j4; exact .inl j5
                  · rcases List.mem_cons.1 j1 with rfl | j1
                    · exact absurd rfl he
                    · exact .inr (.inr ⟨j, j1, j2, by simp [he, j3], a', j4, j5⟩)
      next h2 =>
        have h2' : itemTok i ∈ done := by simpa using h2
        obtain ⟨g1, g2⟩ := expandServices_ok h
        constructor
        · intro j hj1 hj2 hj3
          rcases List.mem_cons.1 hj1 with rfl | hj1
          · exact absurd h2' hj3
          · exact g1 j hj1 hj2 hj3
        · intro v
          rw [g2]
          constructor
          · rintro (⟨j, j1, j2⟩ | ⟨j, j1, j2⟩)
            · exact .inl ⟨j, List.mem_cons_of_mem _ j1, j2⟩
            · exact .inr ⟨j, List.mem_cons_of_mem _ j1, j2⟩
          · rintro (⟨j, j1, j2, j3⟩ | ⟨j, j1, j2, j3, j4⟩)
            · rcases List.mem_cons.1 j1 with rfl | j1
              · rw [j2] at h1'; exact absurd j3 h1'
              · exact .inl ⟨j, j1, j2, j3⟩
            · rcases List.mem_cons.1 j1 with rfl | j1
              · exact absurd h2' j3
              · exact .inr ⟨j, j1, j2, j3, j4⟩
    next h1 =>
      have h1' : '/' ∈ itemTok i := by simpa using h1
      cases hj : expandServices rec done is with
      | error e' => rw [hj] at h; cases h
      | ok b =>
        rw [hj] at h; cases h
        obtain ⟨g1, g2⟩ := expandServices_ok hj
        constructor
        · intro j hj1 hj2 hj3
          rcases List.mem_cons.1 hj1 with rfl | hj1
          · exact absurd h1' hj2
          · exact g1 j hj1 hj2 hj3
        · intro v
          rw [List.mem_cons, g2]
          constructor
          · rintro (rfl | ⟨j, j1, j2⟩ | ⟨j, j1, j2⟩)
            · exact .inl ⟨i, List.mem_cons_self .., rfl, h1'⟩
            · exact .inl ⟨j, List.mem_cons_of_mem _ j1, j2⟩
            · exact .inr ⟨j, List.mem_cons_of_mem _ j1, j2⟩
          · rintro (⟨j, j1, j2, j3⟩ | ⟨j, j1, j2, j3, j4⟩)
            · rcases List.mem_cons.1 j1 with rfl | j1
              · exact .inl j2.symm
              · exact .inr (.inl ⟨j, j1, j2, j3⟩)
            · rcases List.mem_cons.1 j1 with rfl | j1
              · exact absurd h1' j2
              · exact .inr (.inr ⟨j, j1, j2, j3, j4⟩)

theorem reach_cases' {d leaf t u} (h : Reach d leaf t u) :
    u = t ∨ ∃ v, HasValue d t v ∧ ¬ leaf v ∧ v ≠ t ∧ Reach d leaf v u := by
  induction h with
  | refl => exact .inl rfl
  | @step u v h1 h2 h3 ih =>
    rcases ih with rfl | ⟨w, a, b, c, e⟩
    · rcases Classical.em (v = u) with he | he
      · exact .inl he
      · exact .inr ⟨_, h2, h3, he, .refl⟩
    · exact .inr ⟨w, a, b, c, .step e h2 h3⟩

theorem getServiceF_correct {svcs : Defs} (hw : ItemsOk svcs) :
    ∀ n t, Word t →
      (∀ l, getServiceF svcs n t = .ok l → FullyDefined svcs SvcLeaf t ∧
        l.Pairwise (fun a b => strLt a b = true) ∧ ∀ v, v ∈ l ↔ SvcOf svcs t v) ∧
      (∀ e, getServiceF svcs n t = .error e → e = .diverges ∨
        (e = .raised "UndefinedServiceError" ∧ ¬ FullyDefined svcs SvcLeaf t)) := by
  intro n
  induction n with
  | zero =>
    intro t ht
    exact ⟨fun l h => (by cases h), fun e h => by cases h; exact .inl rfl⟩
  | succ n ih =>
    intro t ht
    have key : getServiceF svcs (n + 1) t = (match svcs.lookup t with
        | none => .error (.raised "UndefinedServiceError")
        | some items => do
          let l ← expandServices (getServiceF svcs n) [t] items
          .ok (sortedSet l)) := by
      rw [getServiceF]
      simp only [headTok_word ht]
      rfl
    rw [key]
    cases hl : svcs.lookup t with
    | none =>
      refine ⟨fun l h => (by cases h), fun e h => ?_⟩
      cases h
      refine .inr ⟨rfl, fun hf => ?_⟩
      have := hf t .refl
      rw [hl] at this; cases this
    | some items =>
      simp only
      constructor
      · intro l h
        cases hx : expandServices (getServiceF svcs n) [t] items with
        | error e => rw [hx] at h; cases h
        | ok l0 =>
          rw [hx] at h
          cases h
          obtain ⟨h1, h2⟩ := expandServices_ok hx
          have href : ∀ v, HasValue svcs t v → ¬ SvcLeaf v → v ≠ t → ∃ i ∈ items, ∃ l', IsItem i v ∧
              getServiceF svcs n v = .ok l' := by
            rintro v ⟨items', i, hl', hi, hv⟩ hnl hne
            rw [hl] at hl'; cases hl'
            have he := itemTok_item hv
            obtain ⟨l', hl'⟩ := h1 i hi (by rw [he]; exact hnl) (by rw [he]; simpa using hne)
            rw [he] at hl'
            exact ⟨i, hi, l', hv, hl'⟩
          refine ⟨?_, sortedSet_sorted _, ?_⟩
          · intro u hu
            rcases reach_cases' hu with rfl | ⟨v, hv, hnl, hne, hvu⟩
            · rw [hl]; rfl
            · obtain ⟨i, _, l', hiv, hok⟩ := href v hv hnl hne
              exact ((ih v hiv.1).1 l' hok).1 u hvu
          · intro v
            rw [mem_sortedSet, h2]
            constructor
            · rintro (⟨i, hi, hiv, hs⟩ | ⟨i, hi, hs, hd, a, ha, hva⟩)
              · obtain ⟨w, hw'⟩ := hw _ (lookup_mem hl) i hi
                have : w = v := by rw [← hiv, itemTok_item hw']
                subst this
                exact ⟨t, .refl, ⟨items, i, hl, hi, hw'⟩, hs⟩
              · obtain ⟨w, hw'⟩ := hw _ (lookup_mem hl) i hi
                have he := itemTok_item hw'
                rw [he] at hs ha
                obtain ⟨s, hr, hv, hsl⟩ := (((ih w hw'.1).1 a ha).2.2 v).1 hva
                exact ⟨s, reach_trans (.step .refl ⟨items, i, hl, hi, hw'⟩ hs) hr, hv, hsl⟩
            · rintro ⟨s, hr, hv, hsl⟩
              rcases reach_cases' hr with rfl | ⟨u, hu, hnl, hne, hus⟩
              · obtain ⟨items', i, hl', hi, hiv⟩ := hv
                rw [hl] at hl'; cases hl'
                exact .inl ⟨i, hi, itemTok_item hiv, hsl⟩
              · obtain ⟨i, hi, l', hiv, hok⟩ := href u hu hnl hne
                have he := itemTok_item hiv
                refine .inr ⟨i, hi, by rw [he]; exact hnl, by rw [he]; simpa using hne, l', by rw [he]; exact hok, ?_⟩
                exact (((ih u hiv.1).1 l' hok).2.2 v).2 ⟨s, hus, hv, hsl⟩
      · intro e h
        cases hx : expandServices (getServiceF svcs n) [t] items with
        | ok l0 => rw [hx] at h; cases h
        | error e' =>
          rw [hx] at h
          cases h
          obtain ⟨i, hi, hs, hd, he⟩ := expandServices_error hx
          obtain ⟨v, hv⟩ := hw _ (lookup_mem hl) i hi
          rw [itemTok_item hv] at hs he
          rcases (ih v hv.1).2 e he with h1 | ⟨h1, h2⟩
          · exact .inl h1
          · exact .inr ⟨h1, fun hf => h2 (fun u hu =>
              hf u (reach_trans (.step .refl ⟨items, i, hl, hi, hv⟩ hs) hu))⟩

theorem getService_terminates {svcs : Defs} (hw : ItemsOk svcs) {t : Str}
    (ht : Word t) (ha : NoCycle' svcs SvcLeaf t) : ∃ n, getServiceF svcs n t ≠ .error .diverges := by
  induction ha with
  | intro t _ ih =>
    cases hl : svcs.lookup t with
    | none =>
      refine ⟨1, ?_⟩
      rw [getServiceF]
      simp only [headTok_word ht, hl]
      simp
    | some items =>
      have hb : ∃ n, ∀ v ∈ (items.map itemTok).filter (fun v => !v.contains '/' && v != t),
          getServiceF svcs n v ≠ .error .diverges := by
        refine common_bound (f := getServiceF svcs) (fun _ _ _ h hd => getServiceF_mono h hd) _ ?_
        intro v hv
        rw [List.mem_filter] at hv
        obtain ⟨hv, hr⟩ := hv
        obtain ⟨i, hi, rfl⟩ := List.mem_map.1 hv
        obtain ⟨v, hv'⟩ := hw _ (lookup_mem hl) i hi
        rw [itemTok_item hv'] at hr ⊢
        simp at hr
        exact ih v ⟨⟨items, i, hl, hi, hv'⟩, hr⟩ hv'.1
      obtain ⟨n, hn⟩ := hb
      refine ⟨n + 1, ?_⟩
      rw [getServiceF]
      simp only [headTok_word ht, hl]
      cases hx : expandServices (getServiceF svcs n) [t] items with
      | ok l => exact fun h => by cases h
      | error e =>
        intro h
        cases h
        obtain ⟨i, hi, hs, hd, he⟩ := expandServices_error hx
        exact hn (itemTok i) (List.mem_filter.2 ⟨List.mem_map.2 ⟨i, hi, rfl⟩, by simpa [hs] using hd⟩) he

end Naming
end Verif
