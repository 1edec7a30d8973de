import Verif.Lemmas.PyStr
import Verif.Lemmas.Fix

/-! Lemmas about token resolution. -/

namespace Verif
namespace Naming
open Spec PyStr Fix

theorem lookup_mem {d : Defs} {t : Str} {items} (h : d.lookup t = some items) : (t, items) ∈ d := by
  induction d with
  | nil => cases h
  | cons e es ih =>
    rw [List.lookup_cons] at h
    split at h
    next he => rw [beq_iff_eq] at he; cases h; rw [he]; exact List.mem_cons_self ..
    next he => exact List.mem_cons_of_mem _ (ih h)

theorem lookup_key {d : Defs} {t : Str} {items} (h : d.lookup t = some items) : t ∈ d.map Prod.fst :=
  List.mem_map.2 ⟨_, lookup_mem h, rfl⟩

/-! ### GetNet -/

/-- One unfolding of `GetNet`. -/
def netF (nets : Defs) (ip : IpParser) (rec : Str → Except Err (List Net)) (query : Str) :
    Except Err (List Net) :=
  match headTok query with
  | none => .error .indexError
  | some tok =>
    match nets.lookup tok with
    | none => .error (.raised "UndefinedAddressError")
    | some items => do
      let l ← expandNets ip rec tok items
      .ok (l.map fun a => { a with parent := String.ofList tok })

theorem getNetF_iter (nets : Defs) (ip : IpParser) (n : Nat) : getNetF nets ip n = iter (netF nets ip) n := by
  induction n with
  | zero => rfl
  | succ n ih =>
    funext q
    show _ = netF nets ip (iter (netF nets ip) n) q
    rw [← ih]
    rfl

theorem expandNets_cons {ip rec tok i is} : expandNets ip rec tok (i :: is) =
    (netItem ip rec tok i >>= fun here => expandNets ip rec tok is >>= fun rest => .ok (here ++ rest)) := rfl

theorem netItem_mono {ip rec rec' tok i} (h : netItem ip rec tok i ≠ .error .diverges)
    (hr : ∀ c, rec c ≠ .error .diverges → rec' c = rec c) : netItem ip rec' tok i = netItem ip rec tok i := by
  unfold netItem at *
  split
  next ht => rw [if_pos ht] at h; exact hr _ h
  next ht =>
    rw [if_neg ht] at h
    split
    · rfl
    next hi => rw [hi] at h; exact hr _ h

theorem expandNets_mono {ip rec rec' tok} (hr : ∀ c, rec c ≠ .error .diverges → rec' c = rec c) :
    ∀ is, expandNets ip rec tok is ≠ .error .diverges → expandNets ip rec' tok is = expandNets ip rec tok is
  | [], _ => rfl
  | i :: is, h => by
    rw [expandNets_cons] at h ⊢
    rw [expandNets_cons]
    cases hi : netItem ip rec tok i with
    | error e =>
      rw [hi] at h
      rw [netItem_mono (by rw [hi]; exact h) hr, hi]; rfl
    | ok a =>
      rw [hi] at h
      rw [netItem_mono (by rw [hi]; simp) hr, hi]
      cases hj : expandNets ip rec tok is with
      | error e =>
        rw [hj] at h
        rw [expandNets_mono hr is (by rw [hj]; exact h), hj]
      | ok b =>
        rw [expandNets_mono hr is (by rw [hj]; simp), hj]

theorem netF_mono (nets : Defs) (ip : IpParser) : Mono (fun _ => True) (netF nets ip) := by
  intro r r' k h hr
  unfold netF at *
  cases hk : headTok k with
  | none => rfl
  | some tok =>
    simp only [hk] at h ⊢
    cases hl : nets.lookup tok with
    | none => rfl
    | some items =>
      simp only [hl] at h ⊢
      rw [expandNets_mono (fun c hc => hr c trivial hc)]
      intro e
      rw [e] at h
      exact h rfl

theorem netF_key {nets : Defs} {ip : IpParser} {r k} (h : netF nets ip r k = .error .diverges) :
    headTok k ∈ (nets.map Prod.fst).map some := by
  unfold netF at h
  split at h
  · cases h
  next tok hk =>
    split at h
    · cases h
    next items hl =>
      rw [hk]
      exact List.mem_map.2 ⟨tok, lookup_key hl, rfl⟩

/-- Depth `number of tokens + 1` is enough whenever any depth is. -/
theorem getNet_fuel {nets : Defs} {ip : IpParser} {m q} (h : getNetF nets ip m q ≠ .error .diverges) :
    getNet nets ip q = getNetF nets ip m q := by
  unfold getNet
  rw [getNetF_iter] at h
  rw [getNetF_iter, getNetF_iter]
  have := iter_enough (netF_mono nets ip) headTok ((nets.map Prod.fst).map some)
    (fun r k _ hh => netF_key hh)
    (fun r k k' hk => by unfold netF; rw [hk]) (m := m) (k := q) trivial h
  simpa using this

theorem expandNets_error {ip rec tok e} : ∀ {is}, expandNets ip rec tok is = .error e →
    ∃ i ∈ is, (tokenRe (itemTok i) = true ∨ ip (itemTok i) = none) ∧ rec (itemTok i) = .error e
  | [], h => by cases h
  | i :: is, h => by
    rw [expandNets_cons] at h
    cases hi : netItem ip rec tok i with
    | error e' =>
      rw [hi] at h
      cases h
      unfold netItem at hi
      split at hi
      next ht => exact ⟨i, List.mem_cons_self .., .inl ht, hi⟩
      next ht =>
        split at hi
        · cases hi
        next hn => exact ⟨i, List.mem_cons_self .., .inr hn, hi⟩
    | ok a =>
      rw [hi] at h
      cases hj : expandNets ip rec tok is with
      | error e' =>
        rw [hj] at h
        cases h
        obtain ⟨j, hj1, hj2⟩ := expandNets_error hj
        exact ⟨j, List.mem_cons_of_mem _ hj1, hj2⟩
      | ok b => rw [hj] at h; cases h

theorem expandNets_ok {ip rec tok} : ∀ {is l}, expandNets ip rec tok is = .ok l →
    (∀ i ∈ is, ∃ a, netItem ip rec tok i = .ok a) ∧
    (∀ n, n ∈ l ↔ ∃ i ∈ is, ∃ a, netItem ip rec tok i = .ok a ∧ n ∈ a)
  | [], l, h => by cases h; simp
  | i :: is, l, h => by
    rw [expandNets_cons] at h
    cases hi : netItem ip rec tok i with
    | error e' => rw [hi] at h; cases h
    | ok a =>
      rw [hi] at h
      cases hj : expandNets ip rec tok is with
      | error e' => rw [hj] at h; cases h
      | ok b =>
        rw [hj] at h
        cases h
        obtain ⟨h1, h2⟩ := expandNets_ok hj
        constructor
        · intro j hj
          rcases List.mem_cons.1 hj with rfl | hj
          · exact ⟨a, hi⟩
          · exact h1 j hj
        · intro n
          rw [List.mem_append, h2]
          constructor
          · rintro (hn | ⟨j, hj, hh⟩)
            · exact ⟨i, List.mem_cons_self .., a, hi, hn⟩
            · exact ⟨j, List.mem_cons_of_mem _ hj, hh⟩
          · rintro ⟨j, hj, a', ha', hn⟩
            rcases List.mem_cons.1 hj with rfl | hj
            · rw [hi] at ha'; cases ha'; exact .inl hn
            · exact .inr ⟨j, hj, a', ha', hn⟩

theorem reach_trans {d leaf t u v} (h : Reach d leaf t u) (h' : Reach d leaf u v) : Reach d leaf t v := by
  induction h' with
  | refl => exact h
  | step _ h1 h2 ih => exact .step ih h1 h2

/-- a path with at least one step starts with a value of the source -/
theorem reach_cases {d leaf t u} (h : Reach d leaf t u) :
    u = t ∨ ∃ v, HasValue d t v ∧ ¬ leaf v ∧ Reach d leaf v u := by
  induction h with
  | refl => exact .inl rfl
  | step h1 h2 h3 ih =>
    rcases ih with rfl | ⟨w, a, b, c⟩
    · exact .inr ⟨_, h2, h3, .refl⟩
    · exact .inr ⟨w, a, b, .step c h2 h3⟩

theorem ref_of_item {nets : Defs} {ip : IpParser} (hw : ItemsOk nets) (hip : DotOrColon ip) {tok items i}
    (hl : nets.lookup tok = some items) (hi : i ∈ items)
    (hr : tokenRe (itemTok i) = true ∨ ip (itemTok i) = none) :
    ∃ v, itemTok i = v ∧ Word v ∧ HasValue nets tok v ∧ ¬ NetLeaf ip v := by
  obtain ⟨v, hv⟩ := hw _ (lookup_mem hl) i hi
  have := itemTok_item hv
  refine ⟨v, this, hv.1, ⟨items, i, hl, hi, hv⟩, ?_⟩
  rw [this] at hr
  intro hs
  obtain ⟨a, ha⟩ := Option.isSome_iff_exists.1 hs
  rcases hr with hr | hr
  · rw [tokenRe_address hip ha] at hr; cases hr
  · rw [ha] at hr; cases hr

theorem netItem_leaf {ip : IpParser} (hip : DotOrColon ip) {rec tok i v a} (hv : IsItem i v) (ha : ip v = some a) :
    netItem ip rec tok i = .ok [{ a with text := lstrip (itemComment i), token := String.ofList tok }] := by
  unfold netItem
  rw [itemTok_item hv, tokenRe_address hip ha, ha]
  rfl

theorem netItem_ref {ip : IpParser} {rec tok i v} (hv : IsItem i v) (ha : ¬ NetLeaf ip v) :
    netItem ip rec tok i = rec v := by
  unfold netItem
  rw [itemTok_item hv]
  split
  · rfl
  · have : ip v = none := by simpa [NetLeaf] using ha
    rw [this]

theorem headTok_of_word {t : Str} (ht : Word t) : headTok t = some t := headTok_word ht


theorem getNetF_correct {nets : Defs} {ip : IpParser} (hw : ItemsOk nets) (hip : DotOrColon ip) :
    ∀ n t, Word t →
      (∀ l, getNetF nets ip n t = .ok l → FullyDefined nets (NetLeaf ip) t ∧ NetsExact nets ip t l) ∧
      (∀ e, getNetF nets ip n t = .error e → e = .diverges ∨
        (e = .raised "UndefinedAddressError" ∧ ¬ FullyDefined nets (NetLeaf ip) t)) := by
  intro n
  induction n with
  | zero =>
    intro t ht
    exact ⟨fun l h => (by cases h), fun e h => by cases h; exact .inl rfl⟩
  | succ n ih =>
    intro t ht
    have key : getNetF nets ip (n + 1) t = (match nets.lookup t with
        | none => .error (.raised "UndefinedAddressError")
        | some items => do
          let l ← expandNets ip (getNetF nets ip n) t items
          .ok (l.map fun a => { a with parent := String.ofList t })) := by
      rw [getNetF]
      simp only [headTok_word ht]
      rfl
    rw [key]
    cases hl : nets.lookup t with
    | none =>
      refine ⟨fun l h => (by cases h), fun e h => ?_⟩
      cases h
      refine .inr ⟨rfl, fun hf => ?_⟩
      have := hf t .refl
      rw [hl] at this; cases this
    | some items =>
      simp only
      constructor
      · intro l h
        cases hx : expandNets ip (getNetF nets ip n) t items with
        | error e => rw [hx] at h; cases h
        | ok l0 =>
          rw [hx] at h
          cases h
          obtain ⟨h1, h2⟩ := expandNets_ok hx
          -- every reference was resolved
          have href : ∀ v, HasValue nets t v → ¬ NetLeaf ip v → ∃ i ∈ items, ∃ l', IsItem i v ∧
              getNetF nets ip n v = .ok l' := by
            rintro v ⟨items', i, hl', hi, hv⟩ hnl
            rw [hl] at hl'; cases hl'
            obtain ⟨l', hl'⟩ := h1 i hi
            rw [netItem_ref hv hnl] at hl'
            exact ⟨i, hi, l', hv, hl'⟩
          refine ⟨?_, ?_, ?_⟩
          · intro u hu
            rcases reach_cases hu with rfl | ⟨v, hv, hnl, hvu⟩
            · rw [hl]; rfl
            · obtain ⟨i, _, l', hiv, hok⟩ := href v hv hnl
              exact ((ih v hiv.1).1 l' hok).1 u hvu
          · intro m hm
            obtain ⟨m0, hm0, rfl⟩ := List.mem_map.1 hm
            obtain ⟨i, hi, a, ha, hma⟩ := (h2 m0).1 hm0
            obtain ⟨v, hv⟩ := hw _ (lookup_mem hl) i hi
            rcases Classical.em (NetLeaf ip v) with hlf | hlf
            · obtain ⟨b, hb⟩ := Option.isSome_iff_exists.1 hlf
              rw [netItem_leaf hip hv hb] at ha
              cases ha
              rw [List.mem_singleton] at hma
              subst hma
              exact ⟨b, t, ⟨.refl, v, ⟨items, i, hl, hi, hv⟩, hb⟩, rfl, rfl, rfl⟩
            · rw [netItem_ref hv hlf] at ha
              obtain ⟨b, s, ⟨hr, hb⟩, e1, e2, _⟩ := ((ih v hv.1).1 a ha).2.1 m0 hma
              exact ⟨b, s, ⟨reach_trans (.step .refl ⟨items, i, hl, hi, hv⟩ hlf) hr, hb⟩, e1, e2, rfl⟩
          · rintro a s ⟨hr, v, hv, hva⟩
            rcases reach_cases hr with rfl | ⟨u, hu, hnl, hus⟩
            · obtain ⟨items', i, hl', hi, hiv⟩ := hv
              rw [hl] at hl'; cases hl'
              refine ⟨{ ({ a with text := lstrip (itemComment i), token := String.ofList s } : Net) with
                parent := String.ofList s }, ?_, rfl, rfl, rfl⟩
              refine List.mem_map.2 ⟨{ a with text := lstrip (itemComment i), token := String.ofList s }, ?_, rfl⟩
              exact (h2 _).2 ⟨i, hi, _, netItem_leaf hip hiv hva, by simp⟩
            · obtain ⟨i, hi, l', hiv, hok⟩ := href u hu hnl
              obtain ⟨m, hm, e1, e2, _⟩ := ((ih u hiv.1).1 l' hok).2.2 a s ⟨hus, v, hv, hva⟩
              refine ⟨{ m with parent := String.ofList t }, List.mem_map.2 ⟨m, ?_, rfl⟩, e1, e2, rfl⟩
              exact (h2 m).2 ⟨i, hi, l', by rw [netItem_ref hiv hnl, hok], hm⟩
      · intro e h
        cases hx : expandNets ip (getNetF nets ip n) t items with
        | ok l0 => rw [hx] at h; cases h
        | error e' =>
          rw [hx] at h
          cases h
          obtain ⟨i, hi, hr, he⟩ := expandNets_error hx
          obtain ⟨v, hv, hwv, hval, hnl⟩ := ref_of_item hw hip hl hi hr
          rw [hv] at he
          rcases (ih v hwv).2 e he with h1 | ⟨h1, h2⟩
          · exact .inl h1
          · refine .inr ⟨h1, fun hf => h2 (fun u hu => hf u (reach_trans (.step .refl hval hnl) hu))⟩

theorem getNetF_mono {nets : Defs} {ip : IpParser} {n m q} (h : n ≤ m)
    (hd : getNetF nets ip n q ≠ .error .diverges) : getNetF nets ip m q = getNetF nets ip n q := by
  rw [getNetF_iter] at *
  rw [getNetF_iter]
  exact iter_le (netF_mono nets ip) h hd

/-- a bound that serves every item of a list -/
theorem common_bound {α β : Type} {f : Nat → α → Except Err β}
    (hf : ∀ n m q, n ≤ m → f n q ≠ .error .diverges → f m q = f n q) :
    ∀ (l : List α), (∀ a ∈ l, ∃ n, f n a ≠ .error .diverges) →
      ∃ n, ∀ a ∈ l, f n a ≠ .error .diverges
  | [], _ => ⟨0, by simp⟩
  | x :: xs, h => by
    obtain ⟨n1, h1⟩ := h x (List.mem_cons_self ..)
    obtain ⟨n2, h2⟩ := common_bound hf xs (fun a ha => h a (List.mem_cons_of_mem _ ha))
    refine ⟨max n1 n2, ?_⟩
    intro a ha
    rcases List.mem_cons.1 ha with rfl | ha
    · rw [hf _ _ _ (Nat.le_max_left n1 n2) h1]; exact h1
    · rw [hf _ _ _ (Nat.le_max_right n1 n2) (h2 a ha)]; exact h2 a ha

theorem getNet_terminates {nets : Defs} {ip : IpParser} (hw : ItemsOk nets) (hip : DotOrColon ip) {t : Str}
    (ht : Word t) (ha : NoCycle nets (NetLeaf ip) t) : ∃ n, getNetF nets ip n t ≠ .error .diverges := by
  induction ha with
  | intro t _ ih =>
    cases hl : nets.lookup t with
    | none =>
      refine ⟨1, ?_⟩
      rw [getNetF]
      simp only [headTok_word ht, hl]
      simp
    | some items =>
      have hb : ∃ n, ∀ v ∈ (items.map itemTok).filter (fun v => tokenRe v || (ip v).isNone),
          getNetF nets ip n v ≠ .error .diverges := by
        refine common_bound (f := getNetF nets ip) (fun _ _ _ h hd => getNetF_mono h hd) _ ?_
        intro v hv
        rw [List.mem_filter] at hv
        obtain ⟨hv, hr⟩ := hv
        obtain ⟨i, hi, rfl⟩ := List.mem_map.1 hv
        obtain ⟨v, hv1, hv2, hv3, hv4⟩ := ref_of_item hw hip hl hi (by simpa using hr)
        rw [hv1]
        exact ih v ⟨hv3, hv4⟩ hv2
      obtain ⟨n, hn⟩ := hb
      refine ⟨n + 1, ?_⟩
      rw [getNetF]
      simp only [headTok_word ht, hl]
      cases hx : expandNets ip (getNetF nets ip n) t items with
      | ok l => exact fun h => by cases h
      | error e =>
        intro h
        cases h
        obtain ⟨i, hi, hr, he⟩ := expandNets_error hx
        exact hn (itemTok i) (List.mem_filter.2 ⟨List.mem_map.2 ⟨i, hi, rfl⟩, by simpa using hr⟩) he

end Naming
end Verif
