import Verif.Lemmas.Load
import Verif.Lemmas.PortParents

/-! Acyclic definitions, outcomes of the loader, checks used by the examples. -/

namespace Verif
namespace Naming
open Spec PyStr

/-! ### cycles -/

theorem noCycle_of_noLoop {d : Defs} {leaf : Str → Prop} (h : NoLoop d leaf) (t : Str) : NoCycle d leaf t := by
  have hc : ∀ y x, Decidable (Reach d leaf y x) := fun _ _ => Classical.propDecidable _
  let μ : Str → Nat := fun y => ((d.map Prod.fst).filter (fun x => decide (Reach d leaf y x))).length
  have hlt : ∀ v u, HasValue d u v ∧ ¬ leaf v → μ v < μ u := by
    rintro v u ⟨h1, h2⟩
    refine filter_length_lt ?_ ⟨u, above_key h1, ?_, ?_⟩
    · intro z hz
      rw [decide_eq_true_eq] at hz ⊢
      exact reach_trans (.step .refl h1 h2) hz
    · rw [decide_eq_true_eq]; exact .refl
    · rw [decide_eq_false_iff_not]; exact h u v h1 h2
  exact Subrelation.accessible (r := InvImage (· < ·) μ) (fun {a b} hab => hlt a b hab)
    (InvImage.accessible μ (Nat.lt_wfRel.wf.apply _))

theorem noCycle'_of_noCycle {d : Defs} {leaf : Str → Prop} {t : Str} (h : NoCycle d leaf t) : NoCycle' d leaf t :=
  Subrelation.accessible (fun {_ _} hab => ⟨hab.1, hab.2.1⟩) h

theorem getNetF_noCycle {nets : Defs} {ip : IpParser} (hw : ItemsOk nets) : ∀ n t, Word t →
    ∀ l, getNetF nets ip n t = .ok l → NoCycle nets (NetLeaf ip) t := by
  intro n
  induction n with
  | zero => intro t _ l h; cases h
  | succ n ih =>
    intro t ht l h
    rw [getNetF] at h
    simp only [headTok_word ht] at h
    cases hl : nets.lookup t with
    | none => rw [hl] at h; cases h
    | some items =>
      rw [hl] at h
      cases hx : expandNets ip (getNetF nets ip n) t items with
      | error e => simp only [hx] at h; cases h
      | ok l0 =>
        obtain ⟨h1, _⟩ := expandNets_ok hx
        refine .intro _ ?_
        rintro v ⟨⟨items', i, hl', hi, hv⟩, hnl⟩
        rw [hl] at hl'; cases hl'
        obtain ⟨l', hl'⟩ := h1 i hi
        rw [netItem_ref hv hnl] at hl'
        exact ih v hv.1 l' hl'

theorem getServiceF_noCycle {svcs : Defs} (hw : ItemsOk svcs) : ∀ n t, Word t →
    ∀ l, getServiceF svcs n t = .ok l → NoCycle' svcs SvcLeaf t := by
  intro n
  induction n with
  | zero => intro t _ l h; cases h
  | succ n ih =>
    intro t ht l h
    rw [getServiceF] at h
    simp only [headTok_word ht] at h
    cases hl : svcs.lookup t with
    | none => rw [hl] at h; cases h
    | some items =>
      rw [hl] at h
      cases hx : expandServices (getServiceF svcs n) [t] items with
      | error e => simp only [hx] at h; cases h
      | ok l0 =>
        obtain ⟨h1, _⟩ := expandServices_ok hx
        refine .intro _ ?_
        rintro v ⟨⟨items', i, hl', hi, hv⟩, hnl, hne⟩
        rw [hl] at hl'; cases hl'
        have := h1 i hi (by rw [itemTok_item hv]; exact hnl) (by rw [itemTok_item hv]; simpa using hne)
        obtain ⟨l', hl'⟩ := this
        rw [itemTok_item hv] at hl'
        exact ih v hv.1 l' hl'

/-! ### outcomes of the loader -/

theorem parseLine_lineOk {ty : DefType} {st st' : State} {l s : Str} {k : Line} (ha : Around l s)
    (hk : IsLine s k) (h : parseLine ty st l = .ok st') : LineOk ty k := by
  cases k with
  | blank => trivial
  | cont => trivial
  | define n vs c =>
    apply Classical.byContradiction
    intro hno
    obtain ⟨a, b, ha, hb, rfl, hlast⟩ := ha
    unfold parseLine at h
    cases hk with
    | @define _ sp body tail _ _ hn hsp hv ht =>
      obtain ⟨x, xs, hx, hx1, hx2⟩ := word_head hn.1
      rw [strip_around ha hb (by intro y hy; rw [hx] at hy; simp at hy; subst hy; exact hx1) hlast] at h
      have hne : ¬ (((n ++ (sp ++ '=' :: (body ++ tail))).isEmpty ||
          (n ++ (sp ++ '=' :: (body ++ tail))).head? == some '#') = true) := by
        rw [hx]; simp [hx2]
      rw [if_neg hne] at h
      have hpre : '#' ∉ n ++ (sp ++ '=' :: body) := by
        simp only [List.mem_append, List.mem_cons, not_or]
        exact ⟨fun hh => (hn.1.2 _ hh).2 rfl, blank_noHash hsp, by decide, vals_noHash hv⟩
      have hassoc : n ++ (sp ++ '=' :: (body ++ tail)) = (n ++ (sp ++ '=' :: body)) ++ tail := by simp
      obtain ⟨t1, t2⟩ := tail_noHash hpre ht
      rw [hassoc] at h
      dsimp only at h
      rw [t1, t2] at h
      have hsplit : splitOn '=' (n ++ (sp ++ '=' :: body)) = [n ++ sp, body] := by
        rw [← List.append_assoc, splitOn_app (by simp [hn.2, blank_noEq hsp]), splitOn_none (vals_noEq hv)]
      rw [hsplit] at h
      simp only at h
      have hbad : startDef ty st (strip (n ++ sp)) body = .error (.raised "NamingSyntaxError") := by
        unfold startDef
        rw [if_pos]
        unfold LineOk PortsOk at hno
        rw [Classical.not_imp] at hno
        refine ⟨hno.1, ?_⟩
        rw [words_strip, words_vals hv, List.all_eq_true]
        exact hno.2
      rw [hbad] at h
      cases h

theorem parseLines_lineOk {ty : DefType} : ∀ {ls : List Str} {ks : List Line} {st st' : State},
    IsFile ls ks → parseLines ty st ls = .ok st' → ∀ k ∈ ks, LineOk ty k
  | _, _, _, _, .nil, _ => by intro k hk; cases hk
  | l :: ls, k :: ks, st, st', .cons ha hk hf, h => by
    rw [parseLines] at h
    cases hl : parseLine ty st l with
    | error e => rw [hl] at h; cases h
    | ok st1 =>
      rw [hl] at h
      intro k' hk'
      rcases List.mem_cons.1 hk' with rfl | hk'
      · exact parseLine_lineOk ha hk hl
      · exact parseLines_lineOk hf h k' hk'

theorem parseLines_error {ty : DefType} {e : Err} : ∀ {ls : List Str} {st : State},
    parseLines ty st ls = .error e → e = .raised "NamespaceCollisionError" ∨
      (ty = .services ∧ e = .raised "NamingSyntaxError")
  | [], st, h => by cases h
  | l :: ls, st, h => by
    rw [parseLines] at h
    cases hl : parseLine ty st l with
    | ok st1 => rw [hl] at h; exact parseLines_error h
    | error e' =>
      rw [hl] at h; cases h
      unfold parseLine at hl
      dsimp only at hl
      split at hl
      next => cases hl
      next =>
        split at hl
        next n vals rest hs =>
          cases hsd : startDef ty st (strip n) vals with
          | ok st1 => rw [hsd] at hl; cases hl
          | error e' =>
            rw [hsd] at hl; cases hl
            unfold startDef at hsd
            split at hsd
            next hh => cases hsd; exact .inr ⟨hh.1, rfl⟩
            next =>
              split at hsd
              next => cases hsd; exact .inl rfl
              next => cases hsd
        next => cases hl

/-! ### checks for examples -/

instance (v : Str) : Decidable (Word v) := by unfold Word; infer_instance

instance (i v : Str) : Decidable (IsItem i v) := by
  unfold IsItem
  have : (∃ c, i = v ++ " # ".toList ++ c) ↔ ((v ++ " # ".toList).isPrefixOf i = true) := by
    rw [List.isPrefixOf_iff_prefix]
    constructor
    · rintro ⟨c, rfl⟩; exact List.prefix_append ..
    · rintro ⟨c, hc⟩; exact ⟨c, hc.symm⟩
  exact @instDecidableAnd _ _ _ (@instDecidableOr _ _ _ (decidable_of_iff _ this.symm))

theorem itemsOk_of {d : Defs} (h : ∀ e ∈ d, ∀ i ∈ e.2, IsItem i (itemTok i)) : ItemsOk d :=
  fun e he i hi => ⟨_, h e he i hi⟩

theorem hasValue_item {d : Defs} {t v : Str} (h : HasValue d t v) :
    ∃ e ∈ d, e.1 = t ∧ ∃ i ∈ e.2, itemTok i = v := by
  obtain ⟨items, i, hl, hi, hv⟩ := h
  exact ⟨_, lookup_mem hl, rfl, i, hi, itemTok_item hv⟩

/-- a rank that decreases along references excludes loops -/
theorem noLoop_of {d : Defs} {leaf : Str → Prop} (rank : Str → Nat)
    (h : ∀ e ∈ d, ∀ i ∈ e.2, leaf (itemTok i) ∨ rank (itemTok i) < rank e.1) : NoLoop d leaf := by
  have step : ∀ t v, HasValue d t v → ¬ leaf v → rank v < rank t := by
    intro t v hv hl
    obtain ⟨e, he, rfl, i, hi, rfl⟩ := hasValue_item hv
    exact (h e he i hi).resolve_left hl
  have reach : ∀ t u, Reach d leaf t u → rank u ≤ rank t := by
    intro t u hr
    induction hr with
    | refl => exact Nat.le_refl _
    | step _ h2 h3 ih => have := step _ _ h2 h3; omega
  intro t v h1 h2 h3
  have := step t v h1 h2
  have := reach v t h3
  omega

theorem fullyDefined_of {d : Defs} {leaf : Str → Prop}
    (h : ∀ e ∈ d, ∀ i ∈ e.2, leaf (itemTok i) ∨ itemTok i ∈ keys d) {t : Str} (ht : t ∈ keys d) :
    FullyDefined d leaf t := by
  intro u hu
  rw [lookup_isSome]
  induction hu with
  | refl => exact ht
  | step _ h2 h3 =>
    obtain ⟨e, he, rfl, i, hi, rfl⟩ := hasValue_item h2
    exact (h e he i hi).resolve_left h3

end Naming
end Verif
