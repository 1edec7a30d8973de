import Verif.Model.PyStr

/-!
Words of a text, for what is said about comments that are broken into lines.
-/

namespace Verif.Spec.Wrapped
open Verif

/-- The characters of a text that can be seen. -/
def visible (s : Str) : Str := s.filter fun c => !PyStr.isSpace c

/-- No white space in the text. -/
def Solid (s : Str) : Prop := ∀ c ∈ s, PyStr.isSpace c = false

/-- Every word has at least two characters: beside each character that can be seen there is another one. -/
def NoSingles (s : Str) : Prop :=
  ∀ a c b, s = a ++ c :: b → PyStr.isSpace c = false →
    (∃ d, a.getLast? = some d ∧ PyStr.isSpace d = false) ∨ (∃ d, b.head? = some d ∧ PyStr.isSpace d = false)

/-- No word is longer than that. -/
def ShortWords (n : Nat) (s : Str) : Prop := ∀ w, w <:+: s → Solid w → w.length ≤ n

end Verif.Spec.Wrapped
