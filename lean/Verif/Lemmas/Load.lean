import Verif.Lemmas.Parse
import Verif.Lemmas.Services

/-! Invariants of loading arbitrary definition text. -/

namespace Verif
namespace PyStr

theorem wordsAux_mem : ∀ {s acc v : Str}, v ∈ wordsAux acc s → (∀ c ∈ acc, isSpace c = false) →
    v ≠ [] ∧ (∀ c ∈ v, isSpace c = false) ∧ ∀ c ∈ v, c ∈ acc ∨ c ∈ s
  | [], acc, v, h, ha => by
    rw [wordsAux] at h
    split at h
    next => cases h
    next hne =>
      rw [List.mem_singleton] at h
      subst h
      refine ⟨by simpa using hne, ?_, ?_⟩
      · intro c hc; exact ha c (List.mem_reverse.1 hc)
      · intro c hc; exact .inl (List.mem_reverse.1 hc)
  | c :: cs, acc, v, h, ha => by
    have nil : ∀ c ∈ ([] : Str), isSpace c = false := by intro c hc; cases hc
    rw [wordsAux] at h
    split at h
    next hsp =>
      split at h
      next =>
        obtain ⟨h1, h2, h3⟩ := wordsAux_mem h nil
        exact ⟨h1, h2, fun x hx => (h3 x hx).elim (fun h => by cases h) (fun h => .inr (List.mem_cons_of_mem _ h))⟩
      next hne =>
        rcases List.mem_cons.1 h with h | h
        · subst h
          refine ⟨by simpa using hne, ?_, ?_⟩
          · intro c hc; exact ha c (List.mem_reverse.1 hc)
          · intro c hc; exact .inl (List.mem_reverse.1 hc)
        · obtain ⟨h1, h2, h3⟩ := wordsAux_mem h nil
          exact ⟨h1, h2, fun x hx => (h3 x hx).elim (fun h => by cases h) (fun h => .inr (List.mem_cons_of_mem _ h))⟩
    next hsp =>
      obtain ⟨h1, h2, h3⟩ := wordsAux_mem h (by
        intro x hx
        rcases List.mem_cons.1 hx with rfl | hx
        · simpa using hsp
        · exact ha x hx)
      refine ⟨h1, h2, fun x hx => ?_⟩
      rcases h3 x hx with h | h
      · rcases List.mem_cons.1 h with rfl | h
        · exact .inr (List.mem_cons_self ..)
        · exact .inl h
      · exact .inr (List.mem_cons_of_mem _ h)

theorem words_mem {s v : Str} (h : v ∈ words s) :
    v ≠ [] ∧ (∀ c ∈ v, isSpace c = false) ∧ ∀ c ∈ v, c ∈ s := by
  obtain ⟨h1, h2, h3⟩ := wordsAux_mem h (by intro c hc; cases hc)
  exact ⟨h1, h2, fun c hc => (h3 c hc).elim (fun h => by cases h) id⟩

theorem splitOn_mem {c : Char} : ∀ {s w : Str}, w ∈ splitOn c s → ∀ x ∈ w, x ∈ s ∧ x ≠ c
  | [], w, h, x, hx => by
    rw [splitOn] at h
    simp at h; subst h; cases hx
  | d :: ds, w, h, x, hx => by
    rw [splitOn] at h
    split at h
    next =>
      rcases List.mem_cons.1 h with rfl | h
      · cases hx
      · exact ⟨List.mem_cons_of_mem _ (splitOn_mem h x hx).1, (splitOn_mem h x hx).2⟩
    next hdc =>
      split at h
      next he =>
        simp at h; subst h; simp at hx; subst hx
        exact ⟨List.mem_cons_self .., by simpa using hdc⟩
      next w' ws he =>
        rcases List.mem_cons.1 h with rfl | h
        · rcases List.mem_cons.1 hx with rfl | hx
          · exact ⟨List.mem_cons_self .., by simpa using hdc⟩
          · have := splitOn_mem (c := c) (s := ds) (w := w') (by rw [he]; exact List.mem_cons_self ..) x hx
            exact ⟨List.mem_cons_of_mem _ this.1, this.2⟩
        · have := splitOn_mem (c := c) (s := ds) (w := w) (by rw [he]; exact List.mem_cons_of_mem _ h) x hx
          exact ⟨List.mem_cons_of_mem _ this.1, this.2⟩

theorem before_noHash {c : Char} {s : Str} : c ∉ before c s := by
  intro h
  have := mem_takeWhile h
  simp at this

end PyStr

namespace Naming
open Spec PyStr

theorem lookup_appendItem (d : Defs) (k v t : Str) : (appendItem d k v).lookup t =
    (d.lookup t).map (fun items => if t = k then items ++ [v] else items) := by
  induction d with
  | nil => rfl
  | cons e es ih =>
    unfold appendItem at *
    rw [List.map_cons]
    rcases Classical.em (e.1 = k) with hk | hk
    · subst hk
      rw [if_pos (by simp), List.lookup_cons, List.lookup_cons]
      rcases Classical.em (t = e.1) with ht | ht
      · subst ht; simp
      · have : (t == e.1) = false := by simpa using ht
        rw [this]; exact ih
    · rw [if_neg (by simpa using hk), List.lookup_cons, List.lookup_cons]
      rcases Classical.em (t = e.1) with ht | ht
      · subst ht; simp [hk]
      · have : (t == e.1) = false := by simpa using ht
        rw [this]; exact ih

theorem mem_appendItem {d : Defs} {k v : Str} {e} (h : e ∈ appendItem d k v) :
    e ∈ d ∨ ∃ e' ∈ d, e = (e'.1, e'.2 ++ [v]) := by
  unfold appendItem at h
  obtain ⟨e', he', rfl⟩ := List.mem_map.1 h
  split
  · exact .inr ⟨e', he', rfl⟩
  · exact .inl he'

theorem append_defs (st : State) (v : Str) (ty : DefType) :
    (st.append v).defs ty = st.defs ty ∨ ∃ k, (st.append v).defs ty = appendItem (st.defs ty) k v := by
  unfold State.append
  split
  next => exact .inl rfl
  next ty' k _ =>
    cases ty <;> cases ty' <;> first | exact .inl rfl | exact .inr ⟨k, rfl⟩

theorem append_rest (st : State) (v : Str) (ty : DefType) :
    (st.append v).unseen ty = st.unseen ty ∧ (st.append v).current = st.current ∧ (st.append v).unit = st.unit := by
  unfold State.append
  split
  next => exact ⟨rfl, rfl, rfl⟩
  next => exact ⟨by simp, by simp, by simp⟩

/-- What one value does to the dictionaries. -/
theorem addValue_defs (ty : DefType) (c : Str) (st : State) (v : Str) (ty' : DefType) :
    (addValue ty c st v).defs ty' = st.defs ty' ∨
      ∃ k, (addValue ty c st v).defs ty' = appendItem (st.defs ty') k (itemText c v) := by
  unfold addValue itemText
  split
  next => exact .inl rfl
  next =>
    rcases Classical.em (c = []) with hc | hc
    · subst hc
      simp only [List.isEmpty_nil, Bool.not_true, Bool.false_eq_true, if_false, if_true]
      split
      · rw [setUnseen_defs]; exact append_defs ..
      · exact append_defs ..
    · rw [if_neg hc, if_pos (by simpa using hc)]
      exact append_defs ..

theorem startDef_ok {ty : DefType} {st st' : State} {n vals : Str} (h : startDef ty st n vals = .ok st') :
    n ∉ keys (st.defs ty) ∧ st'.defs ty = st.defs ty ++ [(n, [])] ∧ st'.defs (other ty) = st.defs (other ty) ∧
    st'.unseen ty = (st.unseen ty).filter (· != n) ∧ st'.unseen (other ty) = st.unseen (other ty) ∧
    st'.current = n ∧ st'.unit = some (ty, n) := by
  unfold startDef at h
  split at h
  next => cases h
  next =>
    split at h
    next => cases h
    next hk =>
      cases h
      rw [lookup_isSome] at hk
      cases ty <;> exact ⟨hk, rfl, rfl, rfl, rfl, rfl, rfl⟩

/-- Induction over one line: definitions start entries, words are added one by one. -/
theorem parseLine_induct {ty : DefType} {P : State → Prop}
    (hdef : ∀ st st' n vals, P st → startDef ty st n vals = .ok st' → P st')
    (hval : ∀ st c v, Word v → P st → P (addValue ty c st v)) {st st' : State} {l : Str}
    (h : parseLine ty st l = .ok st') (hp : P st) : P st' := by
  have hfold : ∀ (c : Str) (vs : List Str) (st : State), (∀ v ∈ vs, Word v) → P st →
      P (vs.foldl (addValue ty c) st) := by
    intro c vs
    induction vs with
    | nil => intro st _ h; exact h
    | cons v vs ih =>
      intro st hw h
      exact ih _ (fun v hv => hw v (List.mem_cons_of_mem _ hv)) (hval _ _ _ (hw v (List.mem_cons_self ..)) h)
  have hwords : ∀ s : Str, '#' ∉ s → ∀ v ∈ words s, Word v := by
    intro s hs v hv
    obtain ⟨h1, h2, h3⟩ := words_mem hv
    refine ⟨h1, fun c hc => ⟨h2 c hc, ?_⟩⟩
    rintro rfl
    exact hs (h3 _ hc)
  unfold parseLine at h
  dsimp only at h
  split at h
  next => cases h; exact hp
  next =>
    split at h
    next n vals rest hs =>
      cases hsd : startDef ty st (strip n) vals with
      | error e => rw [hsd] at h; cases h
      | ok st1 =>
        rw [hsd] at h
        cases h
        refine hfold _ _ _ (hwords _ ?_) (hdef _ _ _ _ hp hsd)
        intro hh
        have := splitOn_mem (s := before '#' (strip l)) (w := vals) (by rw [hs]; simp) _ hh
        exact before_noHash this.1
    next =>
      cases h
      exact hfold _ _ _ (hwords _ before_noHash) hp

theorem parseLines_induct {ty : DefType} {P : State → Prop}
    (hdef : ∀ st st' n vals, P st → startDef ty st n vals = .ok st' → P st')
    (hval : ∀ st c v, Word v → P st → P (addValue ty c st v)) : ∀ {ls : List Str} {st st' : State},
    parseLines ty st ls = .ok st' → P st → P st'
  | [], st, st', h, hp => by cases h; exact hp
  | l :: ls, st, st', h, hp => by
    rw [parseLines] at h
    cases hl : parseLine ty st l with
    | error e => rw [hl] at h; cases h
    | ok st1 =>
      rw [hl] at h
      exact parseLines_induct hdef hval h (parseLine_induct hdef hval hl hp)

/-- both kinds -/
theorem other_cases (ty ty' : DefType) : ty' = ty ∨ ty' = other ty := by
  cases ty <;> cases ty' <;> simp [other]

/-- Entries are only ever extended. -/
def Extends (st0 st : State) : Prop :=
  ∀ ty t items, (st0.defs ty).lookup t = some items → ∃ more, (st.defs ty).lookup t = some (items ++ more)

theorem lookup_snoc {d : Defs} {t : Str} {items} (h : d.lookup t = some items) (e) :
    (d ++ [e]).lookup t = some items := by
  rw [List.lookup_append, h]; rfl

theorem parseLines_extends {ty : DefType} {ls : List Str} {st0 st st' : State}
    (h : parseLines ty st ls = .ok st') (he : Extends st0 st) : Extends st0 st' := by
  refine parseLines_induct (P := Extends st0) ?_ ?_ h he
  · intro st st' n vals hp hs ty' t items hl
    obtain ⟨more, hm⟩ := hp ty' t items hl
    obtain ⟨_, h1, h2, _⟩ := startDef_ok hs
    rcases other_cases ty ty' with rfl | rfl
    · rw [h1]; exact ⟨more, lookup_snoc hm _⟩
    · rw [h2]; exact ⟨more, hm⟩
  · intro st c v _ hp ty' t items hl
    obtain ⟨more, hm⟩ := hp ty' t items hl
    rcases addValue_defs ty c st v ty' with h | ⟨k, h⟩
    · rw [h]; exact ⟨more, hm⟩
    · rw [h, lookup_appendItem, hm]
      rcases Classical.em (t = k) with hk | hk
      · exact ⟨more ++ [itemText c v], by simp [hk]⟩
      · exact ⟨more, by simp [hk]⟩

/-- Names stay distinct. -/
def KeysNodup (st : State) : Prop := ∀ ty, (keys (st.defs ty)).Nodup

theorem parseLines_nodup {ty : DefType} {ls : List Str} {st st' : State}
    (h : parseLines ty st ls = .ok st') (he : KeysNodup st) : KeysNodup st' := by
  refine parseLines_induct (P := KeysNodup) ?_ ?_ h he
  · intro st st' n vals hp hs ty'
    obtain ⟨h0, h1, h2, _⟩ := startDef_ok hs
    rcases other_cases ty ty' with rfl | rfl
    · rw [h1, keys, List.map_append, List.nodup_append]
      refine ⟨hp ty', by simp, ?_⟩
      intro a ha b hb hab
      simp at hb; subst hb hab
      exact h0 ha
    · rw [h2]; exact hp _
  · intro st c v _ hp ty'
    rcases addValue_defs ty c st v ty' with h | ⟨k, h⟩
    · rw [h]; exact hp ty'
    · rw [h, keys_appendItem]; exact hp ty'

/-- All items are values with optional comments. -/
def AllItemsOk (st : State) : Prop := ∀ ty, ItemsOk (st.defs ty)

theorem itemText_isItem {c v : Str} (h : Word v) : IsItem (itemText c v) v := by
  unfold itemText
  split
  · exact ⟨h, .inl rfl⟩
  · exact ⟨h, .inr ⟨c, rfl⟩⟩

theorem parseLines_items {ty : DefType} {ls : List Str} {st st' : State}
    (h : parseLines ty st ls = .ok st') (he : AllItemsOk st) : AllItemsOk st' := by
  refine parseLines_induct (P := AllItemsOk) ?_ ?_ h he
  · intro st st' n vals hp hs ty'
    obtain ⟨_, h1, h2, _⟩ := startDef_ok hs
    rcases other_cases ty ty' with rfl | rfl
    · rw [h1]
      intro e he i hi
      rcases List.mem_append.1 he with he | he
      · exact hp ty' e he i hi
      · simp at he; subst he; cases hi
    · rw [h2]; exact hp _
  · intro st c v hv hp ty'
    rcases addValue_defs ty c st v ty' with h | ⟨k, h⟩
    · rw [h]; exact hp ty'
    · rw [h]
      intro e he i hi
      rcases mem_appendItem he with he | ⟨e', he', rfl⟩
      · exact hp ty' e he i hi
      · rcases List.mem_append.1 hi with hi | hi
        · exact hp ty' e' he' i hi
        · simp at hi; subst hi
          exact ⟨v, itemText_isItem hv⟩

/-- Items without a comment that look like tokens are defined or recorded as unseen. -/
def Tracked (ty : DefType) (st : State) : Prop :=
  ∀ e ∈ st.defs ty, ∀ i ∈ e.2, '#' ∉ i → alphaHead i = true → ':' ∉ i →
    i ∈ keys (st.defs ty) ∨ i ∈ st.unseen ty

theorem hash_itemText {c v : Str} (hc : c ≠ []) : '#' ∈ itemText c v := by
  unfold itemText
  rw [if_neg hc]
  simp

theorem addValue_tracked {ty : DefType} {c v : Str} {st : State} (h : Tracked ty st) :
    Tracked ty (addValue ty c st v) := by
  have happ : ∀ x, Tracked ty st → ∀ e ∈ (st.append x).defs ty, ∀ i ∈ e.2, '#' ∉ i → alphaHead i = true → ':' ∉ i →
      i = x ∨ i ∈ keys ((st.append x).defs ty) ∨ i ∈ (st.append x).unseen ty := by
    intro x ht e he i hi h1 h2 h3
    rw [(append_rest st x ty).1]
    rcases append_defs st x ty with hd | ⟨k, hd⟩
    · rw [hd] at he ⊢; exact .inr (ht e he i hi h1 h2 h3)
    · rw [hd] at he ⊢
      rw [keys_appendItem]
      rcases mem_appendItem he with he | ⟨e', he', rfl⟩
      · exact .inr (ht e he i hi h1 h2 h3)
      · rcases List.mem_append.1 hi with hi | hi
        · exact .inr (ht e' he' i hi h1 h2 h3)
        · simp at hi; exact .inl hi
  unfold addValue
  split
  next => exact h
  next =>
    split
    next hc =>
      intro e he i hi h1 h2 h3
      rcases happ _ h e he i hi h1 h2 h3 with rfl | h'
      · exact absurd (by simp) h1
      · exact h'
    next hc =>
      dsimp only
      split
      next hcond =>
        intro e he i hi h1 h2 h3
        rw [setUnseen_defs] at he ⊢
        rw [setUnseen_unseen]
        rcases happ _ h e he i hi h1 h2 h3 with rfl | h' | h'
        · exact .inr (by simp)
        · exact .inl h'
        · exact .inr (by simp [h'])
      next hcond =>
        intro e he i hi h1 h2 h3
        rcases happ _ h e he i hi h1 h2 h3 with rfl | h'
        · simp only [h2, Bool.true_and, Bool.and_eq_true, Bool.not_eq_true', not_and, Bool.not_eq_false] at hcond
          have hcol : (i.contains ':') = false := by simpa using h3
          rcases Classical.em (i ∈ keys ((st.append i).defs ty)) with hk | hk
          · exact .inl hk
          · refine .inr ?_
            have hn : (((st.append i).defs ty).lookup i).isNone = true := by
              rw [← Option.not_isSome, Bool.not_eq_true', ← Bool.not_eq_true, lookup_isSome]
              exact hk
            simpa using hcond ⟨hcol, hn⟩
        · exact h'

theorem startDef_tracked {ty : DefType} {st st' : State} {n vals : Str} (h : Tracked ty st)
    (hs : startDef ty st n vals = .ok st') : Tracked ty st' := by
  obtain ⟨_, h1, _, h2, _⟩ := startDef_ok hs
  intro e he i hi a1 a2 a3
  rw [h1] at he ⊢
  rw [h2]
  rcases List.mem_append.1 he with he | he
  · rcases h e he i hi a1 a2 a3 with hk | hu
    · exact .inl (by simp only [keys, List.map_append]; exact List.mem_append_left _ hk)
    · rcases Classical.em (i = n) with rfl | hn
      · exact .inl (by simp [keys])
      · exact .inr (List.mem_filter.2 ⟨hu, by simpa using hn⟩)
  · simp at he; subst he; cases hi

theorem parseLines_tracked {ty : DefType} {ls : List Str} {st st' : State}
    (h : parseLines ty st ls = .ok st') (he : Tracked ty st) : Tracked ty st' :=
  parseLines_induct (P := Tracked ty) (fun _ _ _ _ hp hs => startDef_tracked hp hs)
    (fun _ _ _ _ hp => addValue_tracked hp) h he

/-- Loading services never touches the networks. -/
theorem services_networks {ls : List Str} {st : State} (h : parseLines .services {} ls = .ok st) :
    st.networks = [] ∧ st.unseenNetworks = [] := by
  have := parseLines_induct (ty := .services)
    (P := fun st => st.networks = [] ∧ st.unseenNetworks = [] ∧ ∀ k, st.unit ≠ some (.networks, k)) ?_ ?_ h
    ⟨rfl, rfl, by simp⟩
  · exact ⟨this.1, this.2.1⟩
  · rintro st st' n vals ⟨h1, h2, h3⟩ hs
    obtain ⟨_, _, a, _, b, _, d⟩ := startDef_ok hs
    exact ⟨a.trans h1, b.trans h2, by rw [d]; simp⟩
  · rintro st c v _ ⟨h1, h2, h3⟩
    have happ : ∀ x, (st.append x).networks = [] ∧ (st.append x).unseenNetworks = [] ∧
        ∀ k, (st.append x).unit ≠ some (.networks, k) := by
      intro x
      refine ⟨?_, ((append_rest st x .networks).1).trans h2, by rw [(append_rest st x .networks).2.2]; exact h3⟩
      unfold State.append
      split
      next => exact h1
      next ty' k hu =>
        cases ty' with
        | services => exact h1
        | networks => exact absurd hu (h3 k)
    unfold addValue
    split
    · exact ⟨h1, h2, h3⟩
    · split
      · exact happ _
      · dsimp only
        split
        · exact happ _
        · exact happ _

theorem load_ok {svcFiles netFiles : List (List Str)} {st : State} (h : load svcFiles netFiles = .ok st) :
    ∃ s1, parseLines .services {} svcFiles.flatten = .ok s1 ∧ s1.unseenServices = [] ∧
      parseLines .networks s1 netFiles.flatten = .ok st ∧ st.unseenNetworks = [] := by
  unfold load at h
  cases h1 : svcFiles.isEmpty with
  | true => rw [h1] at h; cases h
  | false =>
    cases h2 : parseLines .services {} svcFiles.flatten with
    | error e => rw [h1, h2] at h; cases h
    | ok s1 =>
      cases h3 : s1.unseenServices with
      | cons a b =>
        have : checkUnseen .services s1 = .error (.raised "UndefinedServiceError") := by
          unfold checkUnseen State.unseen; rw [h3]; rfl
        rw [h1, h2] at h
        simp only [bind, Except.bind, Bool.false_eq_true, if_false, this] at h
        cases h
      | nil =>
        have : checkUnseen .services s1 = .ok () := by
          unfold checkUnseen State.unseen; rw [h3]; rfl
        rw [h1, h2] at h
        simp only [bind, Except.bind, Bool.false_eq_true, if_false, this] at h
        cases h4 : netFiles.isEmpty with
        | true => rw [h4] at h; cases h
        | false =>
          rw [h4] at h
          simp only [Bool.false_eq_true, if_false] at h
          cases h5 : parseLines .networks s1 netFiles.flatten with
          | error e => rw [h5] at h; cases h
          | ok s2 =>
            rw [h5] at h
            simp only at h
            cases h6 : s2.unseenNetworks with
            | cons a b =>
              have : checkUnseen .networks s2 = .error (.raised "UndefinedAddressError") := by
                unfold checkUnseen State.unseen; rw [h6]; rfl
              rw [this] at h; cases h
            | nil =>
              have : checkUnseen .networks s2 = .ok () := by
                unfold checkUnseen State.unseen; rw [h6]; rfl
              rw [this] at h
              cases h
              exact ⟨s1, rfl, h3, h5, h6⟩

end Naming
end Verif
