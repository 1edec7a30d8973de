/-!
First-match evaluation of lists of entries.
-/

namespace Verif.Spec

/-- The first entry that gives a verdict gives this one. -/
def First {L V : Type} (hit : L → V → Prop) (ls : List L) (v : V) : Prop :=
  ∃ pre l post, ls = pre ++ l :: post ∧ hit l v ∧ ∀ m ∈ pre, ∀ w, ¬ hit m w

/-- An entry that comes before all others with a verdict gives this one, whatever the order of the list. -/
def Best {L V : Type} (before : L → L → Prop) (hit : L → V → Prop) (ls : List L) (v : V) : Prop :=
  ∃ pre l post, ls = pre ++ l :: post ∧ hit l v ∧ ∀ m ∈ pre ++ post, ∀ w, hit m w → before l m

end Verif.Spec
