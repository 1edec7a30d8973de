import Verif.Spec.Srx
import Verif.Lemmas.Exclude
import Verif.Lemmas.Collapse
import Verif.Lemmas.Cisco
import Verif.Lemmas.Cleanup

/-!
Address books of the SRX generator as functions from zones and tokens to networks.
-/

namespace Verif.Srx
open Verif Verif.Spec Policy Aclgenerator Nacaddr

theorem mem_of_block {a b : Net} (h : block a = block b) {v : Ver} {x : Nat} : Mem a v x ↔ Mem b v x := by
  unfold block at h
  injection h with h1 h2
  injection h2 with h2 h3
  unfold Mem
  rw [h1, h2, h3]

/-! ### dictionaries -/

theorem upsert_lookup {β : Type} {k : String} {d : β} {f : β → β} (k' : String) : ∀ {l : List (String × β)},
    (upsert k d f l).lookup k' = if k' = k then some (f ((l.lookup k).getD d)) else l.lookup k'
  | [] => by
    by_cases h : k' = k
    · subst h; simp [upsert]
    · simp [upsert, h, List.lookup, beq_false_of_ne h]
  | e :: es => by
    rw [upsert]
    by_cases he : e.1 = k
    · rw [if_pos he, List.lookup_cons, List.lookup_cons]
      by_cases h : k' = k
      · subst h
        rw [he]
        simp [List.lookup_cons, he]
      · have : (k' == k) = false := beq_false_of_ne h
        rw [this, if_neg h, List.lookup_cons, he, this]
    · rw [if_neg he, List.lookup_cons, List.lookup_cons, upsert_lookup k', List.lookup_cons]
      by_cases h : k' = k
      · subst h
        have : (k' == e.1) = false := beq_false_of_ne (fun h => he h.symm)
        simp [this]
      · rw [if_neg h]
        by_cases h2 : k' = e.1
        · subst h2
          simp [h]
        · simp [beq_false_of_ne h2, h]

theorem upsert_keys {β : Type} {k : String} {d : β} {f : β → β} : ∀ {l : List (String × β)}, (l.map Prod.fst).Nodup →
    ((upsert k d f l).map Prod.fst).Nodup ∧ ∀ x, x ∈ (upsert k d f l).map Prod.fst ↔ x = k ∨ x ∈ l.map Prod.fst
  | [], _ => by simp [upsert]
  | e :: es, h => by
    rw [List.map_cons, List.nodup_cons] at h
    rw [upsert]
    by_cases he : e.1 = k
    · rw [if_pos he]
      refine ⟨?_, ?_⟩
      · rw [List.map_cons, List.nodup_cons, ← he]
        exact h
      · intro x; rw [List.map_cons, List.map_cons, List.mem_cons, List.mem_cons, he]; simp
    · obtain ⟨h1, h2⟩ := upsert_keys (k := k) (d := d) (f := f) h.2
      rw [if_neg he]
      refine ⟨?_, ?_⟩
      · rw [List.map_cons, List.nodup_cons]
        refine ⟨fun h3 => ?_, h1⟩
        rcases (h2 _).1 h3 with h3 | h3
        · exact he h3
        · exact h.1 h3
      · intro x
        rw [List.map_cons, List.map_cons, List.mem_cons, List.mem_cons, h2]
        constructor
        · rintro (h | h | h)
          · exact .inr (.inl h)
          · exact .inl h
          · exact .inr (.inr h)
        · rintro (h | h | h)
          · exact .inr (.inl h)
          · exact .inl h
          · exact .inr (.inr h)

theorem upsert_mem {β : Type} {k : String} {d : β} {f : β → β} {e : String × β} : ∀ {l : List (String × β)},
    e ∈ upsert k d f l → e ∈ l ∨ (e.1 = k ∧ (e.2 = f d ∨ ∃ e' ∈ l, e'.1 = k ∧ e.2 = f e'.2))
  | [], h => by
    rw [upsert, List.mem_singleton] at h
    subst h
    exact .inr ⟨rfl, .inl rfl⟩
  | a :: as, h => by
    rw [upsert] at h
    split at h
    next he =>
      rcases List.mem_cons.1 h with rfl | h
      · exact .inr ⟨rfl, .inr ⟨a, by simp, he, rfl⟩⟩
      · exact .inl (List.mem_cons_of_mem _ h)
    next he =>
      rcases List.mem_cons.1 h with rfl | h
      · exact .inl (by simp)
      · rcases upsert_mem h with h | ⟨h, h2 | ⟨e', h3, h4⟩⟩
        · exact .inl (List.mem_cons_of_mem _ h)
        · exact .inr ⟨h, .inl h2⟩
        · exact .inr ⟨h, .inr ⟨e', List.mem_cons_of_mem _ h3, h4⟩⟩

theorem lookup_nodup {β : Type} {e : String × β} : ∀ {l : List (String × β)}, (l.map Prod.fst).Nodup → e ∈ l →
    l.lookup e.1 = some e.2
  | [], _, h => by cases h
  | a :: as, hn, h => by
    rw [List.map_cons, List.nodup_cons] at hn
    rw [List.lookup_cons]
    rcases List.mem_cons.1 h with rfl | h
    · simp
    · have : (e.1 == a.1) = false := beq_false_of_ne fun e1 => hn.1 (e1 ▸ List.mem_map.2 ⟨e, h, rfl⟩)
      rw [this]
      exact lookup_nodup hn.2 h

/-! ### groups -/

/-- The group of a zone and token. -/
def look (b : Zones) (z token : String) : List Net := (((b.lookup z).getD []).lookup token).getD []

theorem look_enter (b : Zones) (zone : String) (a : Net) (z token : String) :
    look (enter b zone a) z token = if z = zone ∧ token = a.parent then enterNet (look b z token) a else look b z token := by
  unfold look enter
  rw [upsert_lookup]
  by_cases hz : z = zone
  · subst hz
    rw [if_pos rfl, Option.getD_some, upsert_lookup]
    by_cases ht : token = a.parent
    · subst ht
      rw [if_pos rfl, if_pos ⟨rfl, rfl⟩, Option.getD_some]
    · rw [if_neg ht, if_neg (fun h => ht h.2)]
  · rw [if_neg hz, if_neg (fun h => hz h.1)]

theorem look_enterAll (zone z token : String) : ∀ (l : List Net) (b : Zones),
    look (enterAll b zone l) z token =
      if z = zone then (l.filter fun n => decide (n.parent = token)).foldl enterNet (look b z token) else look b z token
  | [], b => by simp [enterAll]
  | a :: l, b => by
    have ih := look_enterAll zone z token l (enter b zone a)
    unfold enterAll at ih ⊢
    rw [List.foldl_cons, ih, look_enter]
    by_cases hz : z = zone
    · subst hz
      rw [if_pos rfl, if_pos rfl, List.filter_cons]
      by_cases ht : token = a.parent
      · subst ht
        simp
      · rw [if_neg (fun h => ht h.2), if_neg (by simpa using fun h => ht h.symm)]
    · rw [if_neg hz, if_neg hz, if_neg (fun h => hz h.1)]

theorem enterNet_ne (l : List Net) (a : Net) : enterNet l a ≠ [] := by
  unfold enterNet
  split
  · simp
  next ip h =>
    have : l ≠ [] := List.ne_nil_of_mem (List.mem_of_find?_eq_some h)
    split
    · exact this
    · simpa using this

theorem enterNet_spec {l : List Net} {a : Net} (hl : ∀ n ∈ l, WF n) (ha : WF a) :
    (∀ n ∈ enterNet l a, WF n ∧ (n = a ∨ n ∈ l)) ∧ ∀ v x, Den (enterNet l a) v x ↔ Den l v x ∨ Mem a v x := by
  unfold enterNet
  split
  next h =>
    constructor
    · intro n hn
      rcases List.mem_append.1 hn with h | h
      · exact ⟨hl n h, .inr h⟩
      · rw [List.mem_singleton.1 h]; exact ⟨ha, .inl rfl⟩
    · intro v x
      rw [den_append, den_cons]
      simp [den_nil]
  next ip h =>
    have hm := List.mem_of_find?_eq_some h
    have hp := List.find?_some h
    split
    next hs =>
      refine ⟨fun n hn => ⟨hl n hn, .inr hn⟩, fun v x => ⟨.inl, ?_⟩⟩
      rintro (h | h)
      · exact h
      · exact ⟨ip, hm, (subnetOf_iff ha (hl ip hm)).1 hs v x h⟩
    next hs =>
      have hs2 : a.supernetOf ip = true := by
        rcases Bool.or_eq_true_iff.1 hp with h | h
        · exact absurd h hs
        · exact h
      have sub : ∀ v x, Mem ip v x → Mem a v x := (subnetOf_iff (hl ip hm) ha).1 hs2
      constructor
      · intro n hn
        obtain ⟨m, hm', rfl⟩ := List.mem_map.1 hn
        split
        · exact ⟨ha, .inl rfl⟩
        · exact ⟨hl m hm', .inr hm'⟩
      · intro v x
        have eqm : ∀ m ∈ l, m.eqv ip = true → (Mem m v x ↔ Mem ip v x) := by
          intro m hm' he
          exact mem_of_block ((eqv_iff (hl m hm') (hl ip hm)).1 he)
        have self : ip.eqv ip = true := (eqv_iff (hl ip hm) (hl ip hm)).2 rfl
        constructor
        · rintro ⟨n, hn, hx⟩
          obtain ⟨m, hm', rfl⟩ := List.mem_map.1 hn
          split at hx
          · exact .inr hx
          · exact .inl ⟨m, hm', hx⟩
        · rintro (⟨m, hm', hx⟩ | hx)
          · by_cases he : m.eqv ip = true
            · exact ⟨a, List.mem_map.2 ⟨m, hm', by rw [if_pos he]⟩, sub v x ((eqm m hm' he).1 hx)⟩
            · exact ⟨m, List.mem_map.2 ⟨m, hm', by rw [if_neg he]⟩, hx⟩
          · exact ⟨a, List.mem_map.2 ⟨ip, hm, by rw [if_pos self]⟩, hx⟩

theorem enterNets_spec : ∀ (as : List Net) {l : List Net}, (∀ n ∈ l, WF n) → (∀ n ∈ as, WF n) →
    (∀ n ∈ as.foldl enterNet l, WF n ∧ (n ∈ as ∨ n ∈ l)) ∧ ∀ v x, Den (as.foldl enterNet l) v x ↔ Den l v x ∨ Den as v x
  | [], l, hl, _ => ⟨fun n hn => ⟨hl n hn, .inr hn⟩, fun v x => by simp [den_nil]⟩
  | a :: as, l, hl, ha => by
    obtain ⟨h1, h2⟩ := enterNet_spec hl (ha a (by simp))
    obtain ⟨h3, h4⟩ := enterNets_spec as (l := enterNet l a) (fun n hn => (h1 n hn).1) fun n hn => ha n (by simp [hn])
    rw [List.foldl_cons]
    constructor
    · intro n hn
      obtain ⟨w, h⟩ := h3 n hn
      refine ⟨w, ?_⟩
      rcases h with h | h
      · exact .inl (List.mem_cons_of_mem _ h)
      · rcases (h1 n h).2 with rfl | h
        · exact .inl (by simp)
        · exact .inr h
    · intro v x
      rw [h4, h2, den_cons, or_assoc]

theorem enterNets_ne {l : List Net} : ∀ {as : List Net}, l ≠ [] ∨ as ≠ [] → as.foldl enterNet l ≠ []
  | [], h => by simpa using h
  | a :: as, _ => enterNets_ne (as := as) (.inl (enterNet_ne l a))

/-- Zones and tokens are distinct and groups not empty. -/
structure Tidy (b : Zones) : Prop where
  zones : (b.map Prod.fst).Nodup
  tokens : ∀ z ∈ b, (z.2.map Prod.fst).Nodup
  full : ∀ z ∈ b, ∀ e ∈ z.2, e.2 ≠ []

theorem tidy_nil : Tidy [] := ⟨List.nodup_nil, (fun _ h => by cases h), (fun _ h => by cases h)⟩

theorem tidy_enter {b : Zones} (h : Tidy b) (zone : String) (a : Net) : Tidy (enter b zone a) := by
  unfold enter
  refine ⟨(upsert_keys h.zones).1, ?_, ?_⟩
  · intro z hz
    rcases upsert_mem hz with hz | ⟨_, e | ⟨z', hz', _, e⟩⟩
    · exact h.tokens z hz
    · rw [e]; exact (upsert_keys (by simp)).1
    · rw [e]; exact (upsert_keys (h.tokens z' hz')).1
  · intro z hz e he
    have one : ∀ l : List (String × List Net), (∀ e ∈ l, e.2 ≠ []) → e ∈ upsert a.parent [] (fun l => enterNet l a) l → e.2 ≠ [] := by
      intro l hl hm
      rcases upsert_mem hm with hm | ⟨_, e1 | ⟨_, _, _, e1⟩⟩
      · exact hl e hm
      · rw [e1]; exact enterNet_ne _ _
      · rw [e1]; exact enterNet_ne _ _
    rcases upsert_mem hz with hz | ⟨_, e1 | ⟨z', hz', _, e1⟩⟩
    · exact h.full z hz e he
    · rw [e1] at he; exact one _ (fun _ h => by cases h) he
    · rw [e1] at he; exact one _ (h.full z' hz') he

theorem tidy_enterAll (zone : String) : ∀ (l : List Net) {b : Zones}, Tidy b → Tidy (enterAll b zone l)
  | [], _, h => h
  | a :: l, _, h => tidy_enterAll zone l (tidy_enter h zone a)

theorem look_mem {b : Zones} (h : Tidy b) {z : String × List (String × List Net)} {e : String × List Net} (hz : z ∈ b)
    (he : e ∈ z.2) : look b z.1 e.1 = e.2 := by
  unfold look
  rw [lookup_nodup h.zones hz, Option.getD_some, lookup_nodup (h.tokens z hz) he]
  rfl

theorem mem_look {b : Zones} {z token : String} (h : look b z token ≠ []) :
    ∃ zz ∈ b, zz.1 = z ∧ ∃ e ∈ zz.2, e.1 = token ∧ e.2 = look b z token := by
  unfold look at h ⊢
  cases h1 : b.lookup z with
  | none => rw [h1] at h; exact absurd rfl h
  | some g =>
    rw [h1] at h
    rw [Option.getD_some] at h ⊢
    cases h2 : g.lookup token with
    | none => rw [h2] at h; exact absurd rfl h
    | some l =>
      exact ⟨(z, g), Cisco.mem_of_lookup' h1, rfl, (token, l), Cisco.mem_of_lookup' h2, rfl, rfl⟩

/-! ### the invariant -/

/-- Every group has exactly the addresses `U` of its token. -/
structure Sound (U : String → Ver → Nat → Prop) (b : Zones) : Prop where
  tidy : Tidy b
  wf : ∀ z token, ∀ n ∈ look b z token, WF n ∧ n.parent = token
  same : ∀ z token, look b z token ≠ [] → ∀ v x, Den (look b z token) v x ↔ U token v x

/-- The networks have all addresses `U` of their tokens. -/
def Full (U : String → Ver → Nat → Prop) (l : List Net) : Prop :=
  ∀ n ∈ l, ∀ v x, U n.parent v x ↔ ∃ m ∈ l, m.parent = n.parent ∧ Mem m v x

theorem sound_nil (U : String → Ver → Nat → Prop) : Sound U [] :=
  ⟨tidy_nil, (fun _ _ n hn => by cases hn), (fun _ _ h => absurd rfl h)⟩

theorem sound_enterAll {U : String → Ver → Nat → Prop} {b : Zones} (h : Sound U b) (zone : String) {l : List Net}
    (hl : ∀ n ∈ l, WF n) (hf : Full U l) :
    Sound U (enterAll b zone l) ∧ (∀ n ∈ l, look (enterAll b zone l) zone n.parent ≠ []) ∧
    ∀ z token, look b z token ≠ [] → look (enterAll b zone l) z token ≠ [] := by
  have hw : ∀ token, ∀ n ∈ l.filter fun n => decide (n.parent = token), WF n := fun token n hn => hl n (List.mem_filter.1 hn).1
  refine ⟨⟨tidy_enterAll zone l h.tidy, ?_, ?_⟩, ?_, ?_⟩
  · intro z token n hn
    rw [look_enterAll] at hn
    split at hn
    · obtain ⟨w, h1⟩ := (enterNets_spec _ (fun n hn => (h.wf z token n hn).1) (hw token)).1 n hn
      refine ⟨w, ?_⟩
      rcases h1 with h1 | h1
      · exact of_decide_eq_true (List.mem_filter.1 h1).2
      · exact (h.wf z token n h1).2
    · exact h.wf z token n hn
  · intro z token hne v x
    rw [look_enterAll] at hne ⊢
    split
    next hz =>
      rw [if_pos hz] at hne
      rw [(enterNets_spec _ (fun n hn => (h.wf z token n hn).1) (hw token)).2]
      have den : Den (l.filter fun n => decide (n.parent = token)) v x ↔ ∃ m ∈ l, m.parent = token ∧ Mem m v x := by
        constructor
        · rintro ⟨m, hm, hx⟩
          obtain ⟨h1, h2⟩ := List.mem_filter.1 hm
          exact ⟨m, h1, of_decide_eq_true h2, hx⟩
        · rintro ⟨m, hm, h2, hx⟩
          exact ⟨m, List.mem_filter.2 ⟨hm, decide_eq_true h2⟩, hx⟩
      by_cases hm : ∃ n ∈ l, n.parent = token
      · obtain ⟨n, hn, rfl⟩ := hm
        rw [den, ← hf n hn]
        constructor
        · rintro (h1 | h1)
          · exact (h.same z _ (fun e => by rw [e, den_nil] at h1; exact h1) v x).1 h1
          · exact h1
        · exact .inr
      · have e : (l.filter fun n => decide (n.parent = token)) = [] := by
          rw [List.filter_eq_nil_iff]
          intro n hn
          simpa using fun h => hm ⟨n, hn, h⟩
        rw [e] at hne ⊢
        rw [List.foldl_nil] at hne
        rw [den_nil, or_false]
        exact h.same z token hne v x
    next hz =>
      rw [if_neg hz] at hne
      exact h.same z token hne v x
  · intro n hn
    rw [look_enterAll, if_pos rfl]
    exact enterNets_ne (.inr (List.ne_nil_of_mem (List.mem_filter.2 ⟨hn, decide_eq_true rfl⟩)))
  · intro z token hne
    rw [look_enterAll]
    split
    · exact enterNets_ne (.inl hne)
    · exact hne

/-! ### aliases -/

theorem sameNets_spec : ∀ {l m : List Net}, (∀ n ∈ l, WF n) → (∀ n ∈ m, WF n) → sameNets l m = true →
    (l = [] ↔ m = []) ∧ ∀ v x, Den l v x ↔ Den m v x
  | [], [], _, _, _ => ⟨Iff.rfl, fun _ _ => Iff.rfl⟩
  | [], _ :: _, _, _, h => by cases h
  | _ :: _, [], _, _, h => by cases h
  | a :: as, b :: bs, h1, h2, h => by
    rw [sameNets, Bool.and_eq_true] at h
    obtain ⟨_, h4⟩ := sameNets_spec (fun n hn => h1 n (by simp [hn])) (fun n hn => h2 n (by simp [hn])) h.2
    refine ⟨by simp, fun v x => ?_⟩
    rw [den_cons, den_cons, h4, mem_of_block ((eqv_iff (h1 a (by simp)) (h2 b (by simp))).1 h.1)]

/-- What an alias is. -/
def AliasOf (b : Zones) (l r : List Net) : Prop :=
  (r = l ∨ ∃ z ∈ b, ∃ e ∈ z.2, r = e.2) ∧ (r = [] ↔ l = []) ∧ ∀ v x, Den r v x ↔ Den l v x

theorem alias_spec {U : String → Ver → Nat → Prop} {b : Zones} (h : Sound U b) {l : List Net} (hl : ∀ n ∈ l, WF n) :
    AliasOf b l (alias b l) ∧ ∀ n ∈ alias b l, WF n := by
  have wf : ∀ z ∈ b, ∀ e ∈ z.2, ∀ n ∈ e.2, WF n := fun z hz e he n hn => (h.wf z.1 e.1 n (by rw [look_mem h.tidy hz he]; exact hn)).1
  have inner : ∀ (z) (_ : z ∈ b) (es : List (String × List Net)), (∀ e ∈ es, e ∈ z.2) → ∀ r, AliasOf b l r → (∀ n ∈ r, WF n) →
      AliasOf b l (es.foldl (fun l e => if sameNets l e.2 then e.2 else l) r) ∧
      ∀ n ∈ es.foldl (fun l e => if sameNets l e.2 then e.2 else l) r, WF n := by
    intro z hz es
    induction es with
    | nil => exact fun _ r h1 h2 => ⟨h1, h2⟩
    | cons e es ih =>
      intro hes r h1 h2
      rw [List.foldl_cons]
      have he := hes e (by simp)
      refine ih (fun e he => hes e (by simp [he])) _ ?_ ?_
      · split
        next hs =>
          obtain ⟨h3, h4⟩ := sameNets_spec h2 (wf z hz e he) hs
          exact ⟨.inr ⟨z, hz, e, he, rfl⟩, h3.symm.trans h1.2.1, fun v x => (h4 v x).symm.trans (h1.2.2 v x)⟩
        · exact h1
      · split
        · exact wf z hz e he
        · exact h2
  have outer : ∀ (zs : Zones), (∀ z ∈ zs, z ∈ b) → ∀ r, AliasOf b l r → (∀ n ∈ r, WF n) →
      AliasOf b l (zs.foldl (fun l z => (isort (fun x y => !decide (y.1 < x.1)) z.2).foldl (fun l e => if sameNets l e.2 then e.2 else l) l) r) ∧
      ∀ n ∈ zs.foldl (fun l z => (isort (fun x y => !decide (y.1 < x.1)) z.2).foldl (fun l e => if sameNets l e.2 then e.2 else l) l) r, WF n := by
    intro zs
    induction zs with
    | nil => exact fun _ r h1 h2 => ⟨h1, h2⟩
    | cons z zs ih =>
      intro hzs r h1 h2
      rw [List.foldl_cons]
      obtain ⟨h3, h4⟩ := inner z (hzs z (by simp)) (isort (fun x y => !decide (y.1 < x.1)) z.2) (fun e he => mem_isort.1 he) r h1 h2
      exact ih (fun z hz => hzs z (by simp [hz])) _ h3 h4
  exact outer b (fun _ h => h) l ⟨.inl rfl, Iff.rfl, fun _ _ => Iff.rfl⟩ hl

/-! ### exclusion -/

theorem removeAll_spec : ∀ (es : List Net) {l r : List Net}, (∀ n ∈ l, WF n) → (∀ e ∈ es, WF e) → removeAll l es = .ok r →
    (∀ n ∈ r, WF n) ∧ ∀ v x, Den r v x ↔ Den l v x ∧ ¬ Den es v x
  | [], l, r, hl, _, h => by
    cases h
    exact ⟨hl, fun v x => by simp [den_nil]⟩
  | e :: es, l, r, hl, he, h => by
    rw [removeAll] at h
    obtain ⟨m, hm, h⟩ := bind_ok h
    obtain ⟨m', h1, h2, h3, _⟩ := removeAddressFromList_spec (he e (by simp)) l hl
    rw [h1] at hm
    cases hm
    obtain ⟨h4, h5⟩ := removeAll_spec es h2 (fun e h => he e (by simp [h])) h
    refine ⟨h4, fun v x => ?_⟩
    rw [h5, h3, den_cons, not_or, and_assoc]

end Verif.Srx
