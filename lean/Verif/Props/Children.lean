import Verif.Model.Children
import Verif.Lemmas.Naming
import Verif.Props.Naming

/-!
C175: the tokens directly within a token, capirca/lib/naming.py.
-/

namespace Verif.Props
open Verif Verif.Spec Verif.Naming

/-- C175: the children of a token are exactly its values that are not addresses. -/
theorem C175_children {nets : Defs} {ip : IpParser} (hi : ItemsOk nets) (t v : Str) :
    v ∈ getNetChildren nets ip t ↔ HasValue nets t v ∧ ip v = none := by
  unfold getNetChildren
  cases hl : nets.lookup t with
  | none =>
    constructor
    · intro h; cases h
    · rintro ⟨⟨items, i, h, _⟩, _⟩
      rw [hl] at h; cases h
  | some items =>
    simp only
    rw [List.mem_filter, List.mem_map, Option.isNone_iff_eq_none]
    refine and_congr_left fun _ => ⟨?_, ?_⟩
    · rintro ⟨i, him, e⟩
      obtain ⟨w, hw⟩ := hi _ (lookup_mem hl) i him
      rw [itemTok_item hw] at e
      subst e
      exact ⟨items, i, hl, him, hw⟩
    · rintro ⟨items', i, h, him, hv⟩
      rw [hl] at h
      injection h with h
      subst h
      exact ⟨i, him, itemTok_item hv⟩

theorem reach_front {d : Defs} {leaf : Str → Prop} {t u : Str} (h : Reach d leaf t u) :
    t = u ∨ ∃ c, HasValue d t c ∧ ¬ leaf c ∧ Reach d leaf c u := by
  induction h with
  | refl => exact .inl rfl
  | step _ h1 h2 ih =>
    rename_i u v _
    right
    rcases ih with rfl | ⟨c, h3, h4, h5⟩
    · exact ⟨v, h1, h2, .refl⟩
    · exact ⟨c, h3, h4, .step h5 h1 h2⟩

theorem reach_cons {d : Defs} {leaf : Str → Prop} {t c u : Str} (h1 : HasValue d t c) (h2 : ¬ leaf c) (h : Reach d leaf c u) :
    Reach d leaf t u := by
  induction h with
  | refl => exact .step .refl h1 h2
  | step _ h3 h4 ih => exact .step ih h3 h4

/-- C175, what children are good for: the networks of a token are those directly in it and those of its children. -/
theorem C175_unfold {nets : Defs} {ip : IpParser} (hi : ItemsOk nets) (t : Str) (a : Net) (s : Str) :
    NetOf nets ip t a s ↔ (s = t ∧ ∃ v, HasValue nets t v ∧ ip v = some a) ∨
      ∃ c ∈ getNetChildren nets ip t, NetOf nets ip c a s := by
  constructor
  · rintro ⟨hr, hv⟩
    rcases reach_front hr with rfl | ⟨c, h1, h2, h3⟩
    · exact .inl ⟨rfl, hv⟩
    · refine .inr ⟨c, (C175_children hi t c).2 ⟨h1, ?_⟩, h3, hv⟩
      simpa using h2
  · rintro (⟨rfl, hv⟩ | ⟨c, hc, hr, hv⟩)
    · exact ⟨.refl, hv⟩
    · obtain ⟨h1, h2⟩ := (C175_children hi t c).1 hc
      exact ⟨reach_cons h1 (by simp [h2]) hr, hv⟩

theorem child_word {nets : Defs} {ip : IpParser} (hi : ItemsOk nets) {t c : Str} (hc : c ∈ getNetChildren nets ip t) : Word c := by
  obtain ⟨⟨_, _, _, _, hv⟩, _⟩ := (C175_children hi t c).1 hc
  exact hv.1

/-- C175, by results: if a token resolves, so does each of its children, and the networks of the token are those of its children and those
directly in it. -/
theorem C175_resolves {nets : Defs} {ip : IpParser} (hi : ItemsOk nets) (hip : DotOrColon ip) {t : Str} (hw : Word t)
    {l : List Net} (ht : getNet nets ip t = .ok l) :
    ∃ f : Str → List Net, (∀ c ∈ getNetChildren nets ip t, getNet nets ip c = .ok (f c)) ∧
      ∀ b, (∃ n ∈ l, block n = b) ↔ (∃ v a, HasValue nets t v ∧ ip v = some a ∧ block a = b) ∨
        ∃ c ∈ getNetChildren nets ip t, ∃ n ∈ f c, block n = b := by
  obtain ⟨he, hd, hn⟩ := C22_result_exact hi hip hw ht
  have hres : ∀ c ∈ getNetChildren nets ip t, ∃ k, getNet nets ip c = .ok k ∧ NetsExact nets ip c k := by
    intro c hc
    obtain ⟨h1, h2⟩ := (C175_children hi t c).1 hc
    have hl : ¬ NetLeaf ip c := by simp [NetLeaf, h2]
    exact C22_resolves_partial hi hip (child_word hi hc) (hn.inv ⟨h1, hl⟩) (fun u hu => hd u (reach_cons h1 hl hu))
  refine ⟨fun c => match getNet nets ip c with | .ok k => k | .error _ => [], fun c hc => ?_, fun b => ⟨?_, ?_⟩⟩
  · obtain ⟨k, hk, _⟩ := hres c hc
    simp only [hk]
  · rintro ⟨n, hm, rfl⟩
    obtain ⟨a, s, hna, hb, _⟩ := he.1 n hm
    rcases (C175_unfold hi t a s).1 hna with ⟨rfl, v, h1, h2⟩ | ⟨c, hc, h1⟩
    · exact .inl ⟨v, a, h1, h2, hb.symm⟩
    · obtain ⟨k, hk, hx⟩ := hres c hc
      obtain ⟨m, hm2, hb2, _⟩ := hx.2 a s h1
      refine .inr ⟨c, hc, m, ?_, hb2.trans hb.symm⟩
      simp only; rw [hk]; exact hm2
  · rintro (⟨v, a, h1, h2, rfl⟩ | ⟨c, hc, n, hm, rfl⟩)
    · obtain ⟨m, hm, hb, _⟩ := he.2 a t ((C175_unfold hi t a t).2 (.inl ⟨rfl, v, h1, h2⟩))
      exact ⟨m, hm, hb⟩
    · obtain ⟨k, hk, hx⟩ := hres c hc
      simp only at hm
      rw [hk] at hm
      obtain ⟨a, s, hna, hb, _⟩ := hx.1 n hm
      obtain ⟨m, hm2, hb2, _⟩ := he.2 a s ((C175_unfold hi t a s).2 (.inr ⟨c, hc, hna⟩))
      exact ⟨m, hm2, hb2.trans hb.symm⟩

/-- C175 refuted in full: a value that is neither an address nor the name of a token is among the children, and asking for a token that is
not defined is no error. -/
theorem C175_refuted : ∃ nets : Defs, ItemsOk nets ∧
    getNetChildren nets exIp "A".toList = ["10.0.0.0/33".toList] ∧ '/' ∈ "10.0.0.0/33".toList ∧
    nets.lookup "B".toList = none ∧ getNetChildren nets exIp "B".toList = [] :=
  ⟨[("A".toList, ["10.0.0.0/33".toList])], itemsOk_of (by decide), by decide, by decide, by decide, by decide⟩

/-- Non-vacuity for `C175_children`, `C175_unfold` and `C175_resolves`. -/
example : ItemsOk exNets ∧ DotOrColon exIp ∧ getNetChildren exNets exIp "B".toList = ["C".toList] ∧
    ∃ l, getNet exNets exIp "B".toList = .ok l ∧ l.length = 2 :=
  ⟨exNets_items, exIp_dotOrColon, by decide, _, rfl, by decide⟩

end Verif.Props
