import Verif.Spec.FirstMatch

/-!
First-match evaluation of lists of entries, for any kind of entry and verdict.
-/

namespace Verif.Lemmas
open Verif.Spec

variable {L V T : Type} {hit : L → V → Prop}

theorem first_nil {v : V} : ¬ First hit [] v := by
  rintro ⟨pre, l, post, e, _⟩
  cases pre <;> cases e

theorem first_append {xs ys : List L} {v : V} :
    First hit (xs ++ ys) v ↔ First hit xs v ∨ ((∀ l ∈ xs, ∀ w, ¬ hit l w) ∧ First hit ys v) := by
  constructor
  · rintro ⟨pre, l, post, e, hm, hn⟩
    rcases List.append_eq_append_iff.1 e with ⟨zs, rfl, e2⟩ | ⟨zs, rfl, e2⟩
    · exact .inr ⟨fun m hm' => hn m (List.mem_append_left _ hm'), zs, l, post, e2, hm,
        fun m hm' => hn m (List.mem_append_right _ hm')⟩
    · cases zs with
      | nil =>
        rw [List.nil_append] at e2
        exact .inr ⟨fun m hm' => hn m (by simpa using hm'), [], l, post, by simp [e2], hm, fun m hm' => by cases hm'⟩
      | cons z zs =>
        simp only [List.cons_append, List.cons.injEq] at e2
        obtain ⟨rfl, _⟩ := e2
        exact .inl ⟨pre, l, zs, rfl, hm, hn⟩
  · rintro (⟨pre, l, post, rfl, hm, hn⟩ | ⟨hx, pre, l, post, rfl, hm, hn⟩)
    · exact ⟨pre, l, post ++ ys, by simp, hm, hn⟩
    · refine ⟨xs ++ pre, l, post, by simp, hm, ?_⟩
      intro m hm'
      rcases List.mem_append.1 hm' with h | h
      · exact hx m h
      · exact hn m h

theorem first_cons {x : L} {ys : List L} {v : V} :
    First hit (x :: ys) v ↔ hit x v ∨ ((∀ w, ¬ hit x w) ∧ First hit ys v) := by
  constructor
  · rintro ⟨pre, l, post, e, hm, hn⟩
    cases pre with
    | nil => cases e; exact .inl hm
    | cons z zs =>
      simp only [List.cons_append, List.cons.injEq] at e
      obtain ⟨rfl, e⟩ := e
      exact .inr ⟨hn x (by simp), zs, l, post, e, hm, fun m hm' => hn m (List.mem_cons_of_mem _ hm')⟩
  · rintro (h | ⟨hx, pre, l, post, rfl, hm, hn⟩)
    · exact ⟨[], x, ys, rfl, h, fun _ h => by cases h⟩
    · refine ⟨x :: pre, l, post, rfl, hm, ?_⟩
      intro m hm'
      rcases List.mem_cons.1 hm' with rfl | h
      · exact hx
      · exact hn m h

theorem first_hits {xs : List L} {v : V} (h : First hit xs v) : ∃ l ∈ xs, hit l v := by
  obtain ⟨pre, l, post, rfl, hm, _⟩ := h
  exact ⟨l, by simp, hm⟩

/-- If the entries of a list do not disagree, any of them may decide. -/
theorem first_uniform {v : V} : ∀ {xs : List L}, (∀ l ∈ xs, ∀ w, hit l w → ∀ m ∈ xs, ∀ w', hit m w' → w = w') →
    (First hit xs v ↔ ∃ l ∈ xs, hit l v)
  | [], _ => iff_of_false first_nil (fun ⟨_, h, _⟩ => by cases h)
  | x :: xs, hu => by
    refine ⟨first_hits, ?_⟩
    rintro ⟨l, hl, hm⟩
    rw [first_cons]
    by_cases hx : ∃ w, hit x w
    · obtain ⟨w, hw⟩ := hx
      have := hu x (by simp) w hw l hl v hm
      exact .inl (this ▸ hw)
    · refine .inr ⟨fun w hw => hx ⟨w, hw⟩, ?_⟩
      rcases List.mem_cons.1 hl with rfl | hl
      · exact absurd ⟨v, hm⟩ hx
      · exact (first_uniform fun l hl w hw m hm' => hu l (List.mem_cons_of_mem _ hl) w hw m (List.mem_cons_of_mem _ hm')).2
          ⟨l, hl, hm⟩

/-- Blocks of entries, one block per term: if every block matches exactly what its term wants, the entries decide
like the terms. -/
theorem first_blocks {want : T → V → Prop} (huniq : ∀ t v w, want t v → want t w → v = w) {v : V} :
    ∀ {ts : List (T × List L)}, (∀ b ∈ ts, ∀ w, (∃ l ∈ b.2, hit l w) ↔ want b.1 w) →
    (First hit (ts.flatMap Prod.snd) v ↔ First want (ts.map Prod.fst) v)
  | [], _ => iff_of_false first_nil first_nil
  | b :: ts, h => by
    rw [List.flatMap_cons, List.map_cons, first_append, first_cons]
    have hb := h b (by simp)
    have ih := first_blocks huniq (v := v) fun c hc => h c (List.mem_cons_of_mem _ hc)
    have hu : ∀ l ∈ b.2, ∀ w, hit l w → ∀ m ∈ b.2, ∀ w', hit m w' → w = w' :=
      fun l hl w hw m hm w' hw' => huniq _ _ _ ((hb w).1 ⟨l, hl, hw⟩) ((hb w').1 ⟨m, hm, hw'⟩)
    rw [first_uniform hu, hb v, ih]
    have : (∀ l ∈ b.2, ∀ w, ¬ hit l w) ↔ ∀ w, ¬ want b.1 w := by
      constructor
      · intro hn w hw
        obtain ⟨l, hl, h⟩ := (hb w).2 hw
        exact hn l hl w h
      · intro hn l hl w hw
        exact hn w ((hb w).1 ⟨l, hl, hw⟩)
    rw [this]

/-- Terms that want nothing do not count. -/
theorem first_filter {want : T → V → Prop} {keep : T → Bool} {v : V} : ∀ {ts : List T},
    (∀ t ∈ ts, keep t = false → ∀ w, ¬ want t w) → (First want (ts.filter keep) v ↔ First want ts v)
  | [], _ => Iff.rfl
  | t :: ts, h => by
    have ih := first_filter (v := v) fun u hu => h u (List.mem_cons_of_mem _ hu)
    by_cases hk : keep t = true
    · rw [List.filter_cons_of_pos hk, first_cons, first_cons, ih]
    · rw [List.filter_cons_of_neg hk, first_cons, ih]
      have hn := h t (by simp) (by simpa using hk)
      exact ⟨fun h => .inr ⟨hn, h⟩, fun h => h.elim (fun h => absurd h (hn v)) (·.2)⟩

/-- Only what each term wants counts. -/
theorem first_map {U : Type} {want : T → V → Prop} {want' : U → V → Prop} {f : T → U} {v : V} : ∀ {ts : List T},
    (∀ t ∈ ts, ∀ w, want' (f t) w ↔ want t w) → (First want' (ts.map f) v ↔ First want ts v)
  | [], _ => iff_of_false first_nil first_nil
  | t :: ts, h => by
    have ih := first_map (v := v) fun u hu => h u (List.mem_cons_of_mem _ hu)
    have ht := h t (by simp)
    rw [List.map_cons, first_cons, first_cons, ih, ht v]
    simp only [ht]

/-- In a list in order, the best entry is the first. -/
theorem best_first {before : L → L → Prop} (hirr : ∀ a b, before a b → ¬ before b a) {v : V} {ls : List L}
    (h : ls.Pairwise before) : Best before hit ls v ↔ First hit ls v := by
  constructor
  · rintro ⟨pre, l, post, rfl, hm, hn⟩
    refine ⟨pre, l, post, rfl, hm, fun m hm' w hw => ?_⟩
    have h1 := hn m (List.mem_append_left _ hm') w hw
    have h2 := (List.pairwise_append.1 h).2.2 m hm' l (by simp)
    exact hirr _ _ h1 h2
  · rintro ⟨pre, l, post, rfl, hm, hn⟩
    refine ⟨pre, l, post, rfl, hm, fun m hm' w hw => ?_⟩
    rcases List.mem_append.1 hm' with h1 | h1
    · exact absurd hw (hn m h1 w)
    · exact (List.pairwise_cons.1 (List.pairwise_append.1 h).2.1).1 m h1

end Verif.Lemmas
