import Verif.Model.Pan
import Verif.Props.Srx

/-!
Address books of the Palo Alto generator: what is entered decides what the groups and names stand for.
-/

namespace Verif.Pan
open Verif Verif.Spec Policy Aclgenerator Nacaddr
open Verif.Srx (Zones upsert look Tidy upsert_lookup upsert_keys upsert_mem lookup_nodup)

/-! ### entering networks -/

theorem enterNet_ne (l : List Net) (a : Net) : enterNet l a ≠ [] := by
  unfold enterNet
  split
  next h =>
    intro e
    rw [e] at h
    cases h
  · simp

theorem tidy_enter {b : Zones} (h : Tidy b) (zone : String) (a : Net) : Tidy (enter b zone a) := by
  unfold enter
  refine ⟨(upsert_keys h.zones).1, ?_, ?_⟩
  · intro z hz
    rcases upsert_mem hz with hz | ⟨_, e | ⟨z', hz', _, e⟩⟩
    · exact h.tokens z hz
    · rw [e]; exact (upsert_keys (by simp)).1
    · rw [e]; exact (upsert_keys (h.tokens z' hz')).1
  · intro z hz e he
    have one : ∀ l : List (String × List Net), (∀ e ∈ l, e.2 ≠ []) → e ∈ upsert a.parent [] (fun l => enterNet l a) l → e.2 ≠ [] := by
      intro l hl hm
      rcases upsert_mem hm with hm | ⟨_, e1 | ⟨_, _, _, e1⟩⟩
      · exact hl e hm
      · rw [e1]; exact enterNet_ne _ _
      · rw [e1]; exact enterNet_ne _ _
    rcases upsert_mem hz with hz | ⟨_, e1 | ⟨z', hz', _, e1⟩⟩
    · exact h.full z hz e he
    · rw [e1] at he; exact one _ (fun _ h => by cases h) he
    · rw [e1] at he; exact one _ (h.full z' hz') he

theorem look_enter (b : Zones) (zone : String) (a : Net) (z token : String) :
    look (enter b zone a) z token = if z = zone ∧ token = a.parent then enterNet (look b z token) a else look b z token := by
  unfold look enter
  rw [upsert_lookup]
  by_cases hz : z = zone
  · subst hz
    rw [if_pos rfl, Option.getD_some, upsert_lookup]
    by_cases ht : token = a.parent
    · subst ht
      rw [if_pos rfl, if_pos ⟨rfl, rfl⟩, Option.getD_some]
    · rw [if_neg ht, if_neg (fun h => ht h.2)]
  · rw [if_neg hz, if_neg (fun h => hz h.1)]

/-- The networks of a side are entered. -/
def enterSide (b : Zones) (e : String × List Net) : Zones := e.2.foldl (fun b a => enter b e.1 a) b

theorem tidy_side {e : String × List Net} : ∀ {b : Zones}, Tidy b → Tidy (enterSide b e) := by
  obtain ⟨z, l⟩ := e
  unfold enterSide
  dsimp only
  induction l with
  | nil => exact fun h => h
  | cons a l ih => exact fun h => ih (tidy_enter h _ a)

theorem tidy_sides : ∀ {es : List (String × List Net)} {b : Zones}, Tidy b → Tidy (es.foldl enterSide b)
  | [], _, h => h
  | _ :: es, _, h => tidy_sides (es := es) (tidy_side h)

theorem look_side (zone : String) (z token : String) : ∀ (l : List Net) (b : Zones),
    look (enterSide b (zone, l)) z token =
      if z = zone then (l.filter fun n => decide (n.parent = token)).foldl enterNet (look b z token) else look b z token
  | [], b => by simp [enterSide]
  | a :: l, b => by
    have ih := look_side zone z token l (enter b zone a)
    unfold enterSide at ih ⊢
    dsimp only at ih ⊢
    rw [List.foldl_cons, ih, look_enter]
    by_cases hz : z = zone
    · subst hz
      rw [if_pos rfl, if_pos rfl, List.filter_cons]
      by_cases ht : token = a.parent
      · subst ht
        simp
      · rw [if_neg (fun h => ht h.2), if_neg (by simpa using fun h => ht h.symm)]
    · rw [if_neg hz, if_neg hz, if_neg (fun h => hz h.1)]

/-- What is entered under a zone and token, side by side. -/
def entered (es : List (String × List Net)) (z token : String) : List (List Net) :=
  (es.filter fun e => decide (e.1 = z)).map fun e => e.2.filter fun n => decide (n.parent = token)

theorem look_sides (z token : String) : ∀ (es : List (String × List Net)) (b : Zones),
    look (es.foldl enterSide b) z token = (entered es z token).flatten.foldl enterNet (look b z token)
  | [], b => rfl
  | e :: es, b => by
    rw [List.foldl_cons, look_sides z token es, look_side e.1 z token e.2 b]
    unfold entered
    rw [List.filter_cons]
    by_cases h : z = e.1
    · subst h
      simp
    · rw [if_neg h, if_neg (by simpa using fun h' => h h'.symm)]

theorem enterNets_mem : ∀ {as l : List Net}, ∀ n ∈ as.foldl enterNet l, n ∈ l ∨ n ∈ as
  | [], l, n, h => .inl h
  | a :: as, l, n, h => by
    rcases enterNets_mem (as := as) (l := enterNet l a) n h with h | h
    · unfold enterNet at h
      split at h
      · exact .inl h
      · rcases List.mem_append.1 h with h | h
        · exact .inl h
        · rw [List.mem_singleton.1 h]
          exact .inr List.mem_cons_self
    · exact .inr (List.mem_cons_of_mem _ h)

theorem enterNets_keep : ∀ {as l : List Net}, ∀ n ∈ l, n ∈ as.foldl enterNet l
  | [], l, n, h => h
  | a :: as, l, n, h => by
    rw [List.foldl_cons]
    refine enterNets_keep (as := as) n ?_
    unfold enterNet
    split
    · exact h
    · exact List.mem_append_left _ h

theorem eqv_refl (a : Net) : a.eqv a = true := by simp [Net.eqv]

theorem enterNets_has : ∀ {as l : List Net}, ∀ a ∈ as, ∃ n ∈ as.foldl enterNet l, a.eqv n = true
  | a :: as, l, b, h => by
    rw [List.foldl_cons]
    rcases List.mem_cons.1 h with rfl | h
    · have : ∃ n ∈ enterNet l b, b.eqv n = true := by
        unfold enterNet
        split
        next h =>
          obtain ⟨n, hn, e⟩ := List.any_eq_true.1 h
          exact ⟨n, hn, e⟩
        · exact ⟨b, by simp, eqv_refl b⟩
      obtain ⟨n, hn, e⟩ := this
      exact ⟨n, enterNets_keep n hn, e⟩
    · exact enterNets_has b h

theorem enterNets_same : ∀ {as l : List Net}, (∀ a ∈ as, ∃ n ∈ l, a.eqv n = true) → as.foldl enterNet l = l
  | [], _, _ => rfl
  | a :: as, l, h => by
    obtain ⟨n, hn, e⟩ := h a List.mem_cons_self
    have : enterNet l a = l := by
      unfold enterNet
      rw [if_pos (List.any_eq_true.2 ⟨n, hn, e⟩)]
    rw [List.foldl_cons, this]
    exact enterNets_same fun a ha => h a (List.mem_cons_of_mem _ ha)

theorem enterNets_ne {l : List Net} : ∀ {as : List Net}, l ≠ [] ∨ as ≠ [] → as.foldl enterNet l ≠ []
  | [], h => by simpa using h
  | a :: as, _ => enterNets_ne (as := as) (.inl (enterNet_ne l a))

/-- Lists that are the same all over, or empty, are entered once. -/
theorem enterNets_blocks {L : List Net} : ∀ {bs : List (List Net)} {l : List Net}, (∀ b ∈ bs, b = [] ∨ b = L) →
    (l = [] ∨ l = L.foldl enterNet []) → (bs.flatten.foldl enterNet l = l ∨ bs.flatten.foldl enterNet l = L.foldl enterNet [])
  | [], _, _, _ => .inl rfl
  | b :: bs, l, h, hl => by
    rw [List.flatten_cons, List.foldl_append]
    have hb : b.foldl enterNet l = l ∨ b.foldl enterNet l = L.foldl enterNet [] := by
      rcases h b List.mem_cons_self with rfl | rfl
      · exact .inl rfl
      · rcases hl with rfl | rfl
        · exact .inr rfl
        · exact .inl (enterNets_same fun a ha => enterNets_has a ha)
    rcases hb with e | e
    · rw [e]
      exact enterNets_blocks (fun b hb => h b (List.mem_cons_of_mem _ hb)) hl
    · rw [e]
      rcases enterNets_blocks (bs := bs) (l := L.foldl enterNet []) (fun b hb => h b (List.mem_cons_of_mem _ hb)) (.inr rfl) with h | h
      · exact .inr h
      · exact .inr h

/-! ### dictionaries -/

theorem ite_iff {α : Type} {P Q : Prop} [Decidable P] [Decidable Q] {a b : α} (h : P ↔ Q) : (if P then a else b) = if Q then a else b := by
  by_cases hp : P
  · rw [if_pos hp, if_pos (h.1 hp)]
  · rw [if_neg hp, if_neg fun hq => hp (h.2 hq)]

open Classical in
/-- The entries of a dictionary that is filled from a list of keys and values. -/
theorem fold_lookup {α β : Type} {d : α → β} {f : α → β → β} {key : α → String} {k : String} {a : β} :
    ∀ {seq : List α} {dict : List (String × β)}, (∀ e ∈ seq, key e = k → d e = a ∨ f e a = a) →
      (∀ e ∈ seq, key e = k → f e (d e) = a) → (∀ e ∈ seq, key e = k → f e a = a) →
      (dict.lookup k = none ∨ dict.lookup k = some a) →
      ((seq.foldl (fun m e => upsert (key e) (d e) (f e) m) dict).lookup k =
        if dict.lookup k = some a ∨ ∃ e ∈ seq, key e = k then some a else none)
  | [], dict, _, _, _, h => by
    rcases h with h | h <;> simp [h]
  | e :: seq, dict, h0, h1, h2, h => by
    rw [List.foldl_cons]
    have step : (upsert (key e) (d e) (f e) dict).lookup k = if key e = k then some a else dict.lookup k := by
      rw [upsert_lookup]
      by_cases hk : key e = k
      · subst hk
        rw [if_pos rfl, if_pos rfl]
        rcases h with h | h
        · rw [h, Option.getD_none, h1 e List.mem_cons_self rfl]
        · rw [h, Option.getD_some, h2 e List.mem_cons_self rfl]
      · rw [if_neg (fun e => hk e.symm), if_neg hk]
    have hd : (upsert (key e) (d e) (f e) dict).lookup k = none ∨ (upsert (key e) (d e) (f e) dict).lookup k = some a := by
      rw [step]
      split
      · exact .inr rfl
      · exact h
    rw [fold_lookup (fun e he => h0 e (List.mem_cons_of_mem _ he)) (fun e he => h1 e (List.mem_cons_of_mem _ he))
      (fun e he => h2 e (List.mem_cons_of_mem _ he)) hd, step]
    by_cases hk : key e = k
    · rw [if_pos hk, if_pos (.inl rfl), if_pos (.inr ⟨e, List.mem_cons_self, hk⟩)]
    · rw [if_neg hk]
      refine ite_iff ?_
      constructor
      · rintro (h | ⟨e', he', h⟩)
        · exact .inl h
        · exact .inr ⟨e', List.mem_cons_of_mem _ he', h⟩
      · rintro (h | ⟨e', he', h⟩)
        · exact .inl h
        · rcases List.mem_cons.1 he' with rfl | he'
          · exact absurd h hk
          · exact .inr ⟨e', he', h⟩

theorem fold_keys {α β : Type} {d : α → β} {f : α → β → β} {key : α → String} : ∀ {seq : List α} {dict : List (String × β)},
    (dict.map Prod.fst).Nodup → ((seq.foldl (fun m e => upsert (key e) (d e) (f e) m) dict).map Prod.fst).Nodup ∧
    ∀ x, x ∈ (seq.foldl (fun m e => upsert (key e) (d e) (f e) m) dict).map Prod.fst ↔ x ∈ dict.map Prod.fst ∨ ∃ e ∈ seq, key e = x
  | [], _, h => ⟨h, by simp⟩
  | e :: seq, dict, h => by
    obtain ⟨h1, h2⟩ := upsert_keys (k := key e) (d := d e) (f := f e) h
    obtain ⟨h3, h4⟩ := fold_keys (d := d) (f := f) (key := key) (seq := seq) h1
    refine ⟨h3, fun x => ?_⟩
    rw [List.foldl_cons, h4, h2]
    constructor
    · rintro ((rfl | h) | ⟨e', he', h⟩)
      · exact .inr ⟨e, List.mem_cons_self, rfl⟩
      · exact .inl h
      · exact .inr ⟨e', List.mem_cons_of_mem _ he', h⟩
    · rintro (h | ⟨e', he', h⟩)
      · exact .inl (.inr h)
      · rcases List.mem_cons.1 he' with rfl | he'
        · exact .inl (.inl h.symm)
        · exact .inr ⟨e', he', h⟩

/-- The entries that fill `address_book_names_dict`. -/
theorem names_seq {b : Zones} (ht : Tidy b) {e : String × Net} :
    e ∈ (b.flatMap fun z => z.2.flatMap fun g => g.2.zipIdx.map fun n => (addressName g.1 n.2, n.1)) ↔
      ∃ z token i, (look b z token)[i]? = some e.2 ∧ e.1 = addressName token i := by
  simp only [List.mem_flatMap, List.mem_map]
  constructor
  · rintro ⟨z, hz, g, hg, n, hn, rfl⟩
    refine ⟨z.1, g.1, n.2, ?_, rfl⟩
    rw [Verif.Srx.look_mem ht hz hg]
    exact List.mem_zipIdx_iff_getElem?.1 hn
  · rintro ⟨z, token, i, hi, he⟩
    have hne : look b z token ≠ [] := by
      intro h
      rw [h] at hi
      cases hi
    obtain ⟨zz, hz, rfl, g, hg, rfl, e2⟩ := Verif.Srx.mem_look hne
    rw [← e2] at hi
    exact ⟨zz, hz, g, hg, (e.2, i), List.mem_zipIdx_iff_getElem?.2 hi, by rw [← he]⟩

/-- A group is the same in all zones it is in. -/
def Agree (b : Zones) (token : String) (L : List Net) : Prop := ∀ z, look b z token ≠ [] → look b z token = L

theorem address_inj {a b : String} {i j : Nat} (h : addressName a i = addressName b j) : a = b ∧ i = j := Props.address_inj h

theorem names_lookup {b : Zones} (ht : Tidy b) {token : String} {L : List Net} (hl : Agree b token L) {z : String}
    (hz : look b z token ≠ []) {i : Nat} {n : Net} (hi : L[i]? = some n) : (namesDict b).lookup (addressName token i) = some n := by
  unfold namesDict
  have key : ∀ e ∈ (b.flatMap fun z => z.2.flatMap fun g => g.2.zipIdx.map fun n => (addressName g.1 n.2, n.1)),
      e.1 = addressName token i → e.2 = n := by
    intro e he h
    obtain ⟨z', t', i', h1, h2⟩ := (names_seq ht).1 he
    rw [h2] at h
    obtain ⟨rfl, rfl⟩ := address_inj h
    have : look b z' t' ≠ [] := by
      intro h
      rw [h] at h1
      cases h1
    rw [hl z' this, hi] at h1
    exact (Option.some.inj h1).symm
  rw [fold_lookup (key := Prod.fst) (d := Prod.snd) (f := fun e old => if old.supernetOf e.2 then old else e.2) (a := n)
    (fun e he h => .inl (key e he h)) (fun e he h => by rw [key e he h]; exact ite_self _)
    (fun e he h => by rw [key e he h]; exact ite_self _) (.inl rfl)]
  rw [if_pos]
  refine .inr ⟨(addressName token i, n), (names_seq ht).2 ⟨z, token, i, ?_, rfl⟩, rfl⟩
  rw [hl z hz]
  exact hi

open Classical in
theorem groups_lookup {b : Zones} (ht : Tidy b) {token : String} {L : List Net} (hl : Agree b token L) :
    (groupsDict b).lookup token =
      if ∃ z, look b z token ≠ [] then some ((List.range L.length).map (addressName token)) else none := by
  unfold groupsDict
  have key : ∀ e ∈ (b.flatMap fun z => z.2), e.1 = token → (List.range e.2.length).map (addressName e.1) =
      (List.range L.length).map (addressName token) := by
    intro e he h
    obtain ⟨z, hz, he⟩ := List.mem_flatMap.1 he
    have h1 := Verif.Srx.look_mem ht hz he
    have h2 := ht.full z hz e he
    rw [← h1, h] at h2
    have h3 := hl z.1 h2
    rw [← h, h1] at h3
    rw [h3, h]
  rw [fold_lookup (key := Prod.fst) (d := fun _ => []) (f := fun e _ => (List.range e.2.length).map (addressName e.1))
    (a := (List.range L.length).map (addressName token)) (fun e he h => .inr (key e he h)) key key (.inl rfl)]
  refine ite_iff ?_
  constructor
  · rintro (h | ⟨e, he, h⟩)
    · cases h
    · obtain ⟨z, hz, he⟩ := List.mem_flatMap.1 he
      refine ⟨z.1, ?_⟩
      rw [← h, Verif.Srx.look_mem ht hz he]
      exact ht.full z hz e he
  · rintro ⟨z, hz⟩
    obtain ⟨zz, hz, _, g, hg, h, _⟩ := Verif.Srx.mem_look hz
    exact .inr ⟨g, List.mem_flatMap.2 ⟨zz, hz, hg⟩, h⟩

end Verif.Pan
