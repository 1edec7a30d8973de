import Verif.Lemmas.Cisco

/-!
Consequences of the keyword check for the attributes of a term.
-/

namespace Verif
namespace Aclgenerator
open Policy

/-- An attribute that the generator does not know is not set. -/
theorem unknown_unset {g : Tables} {t : Term} (hg : ∀ e ∈ g.subTokens, e.1 ∈ g.tokens)
    (hw : g.warnOnly = warnIfUnsupported) (ha : Spec.Active g.platform (kterm t))
    (h : initCheck g [([g.platform], [kterm t])] = .ok ()) {a : String × Val} (hm : a ∈ attrsOf t)
    (ht : a.1 ∉ g.tokens) (hn : a.1 ∉ warnIfUnsupported) (hf : startsWith "flatten" a.1 = false) :
    a.2.truthy = false := by
  cases hv : a.2.truthy with
  | false => rfl
  | true =>
    have := (Props.C35_refused_partial hg [([g.platform], [kterm t])]).2
      ⟨_, List.mem_singleton.2 rfl, List.mem_singleton.2 rfl, _, List.mem_singleton.2 rfl, ha, a, hm,
        .inl ⟨hv, ht, by
          rw [← Props.startsWith_iff, hf]; simp⟩, fun h => absurd (hw ▸ h) hn⟩
    rw [h] at this
    cases this

/-- A word of an attribute with a table of words is in the table. -/
theorem word_known {g : Tables} {t : Term} (hg : ∀ e ∈ g.subTokens, e.1 ∈ g.tokens)
    (ha : Spec.Active g.platform (kterm t))
    (h : initCheck g [([g.platform], [kterm t])] = .ok ()) {el : String} {l ok : List String}
    (hm : (el, wordsVal l) ∈ attrsOf t) (hl : g.subTokens.lookup el = some ok) (hs : ".*" ∉ ok) {w : String}
    (hw : w ∈ l) : w ∈ ok := by
  refine Classical.byContradiction fun hn => ?_
  have hr : ∃ l' ok, wordsVal l = .words l' ∧ g.subTokens.lookup el = some ok ∧ ".*" ∉ ok ∧ ∃ w ∈ l', w ∉ ok :=
    ⟨l, ok, Cisco.mem_wordsVal hw, hl, hs, w, hw, hn⟩
  have := (Props.C35_refused_partial hg [([g.platform], [kterm t])]).2
    ⟨_, List.mem_singleton.2 rfl, List.mem_singleton.2 rfl, _, List.mem_singleton.2 rfl, ha,
      (el, wordsVal l), hm, .inr hr, fun _ => .inr hr⟩
  rw [h] at this
  cases this

end Aclgenerator
end Verif
