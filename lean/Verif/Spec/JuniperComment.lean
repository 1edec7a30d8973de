import Verif.Spec.Juniper
import Verif.Spec.Naming

/-!
How a Junos device reads comments: a comment goes from `/*` to the next `*/`, over as many lines as it takes.
-/

namespace Verif.Spec.JunosComment
open Verif

/-- What the device reads of a line outside comments, and whether it is inside a comment at the end of the line; the first argument tells
whether it is inside one at the begin. -/
def scan : Bool → Str → Str × Bool
  | false, '/' :: '*' :: s => scan true s
  | true, '*' :: '/' :: s => scan false s
  | false, c :: s => (c :: (scan false s).1, (scan false s).2)
  | true, _ :: s => scan true s
  | b, [] => ([], b)

/-- The same for several lines. -/
def scanLines : Bool → List Str → Str × Bool
  | b, [] => ([], b)
  | b, l :: ls => ((scan b l).1 ++ (scanLines (scan b l).2 ls).1, (scanLines (scan b l).2 ls).2)

/-- Nothing of the lines counts for the device, nor do they affect how it reads what follows. -/
def Hidden (ls : List Str) : Prop := Blank (scanLines false ls).1 ∧ (scanLines false ls).2 = false

/-- The characters of a comment that a person reads: all but white space, asterisks and slashes. -/
def letters (s : Str) : Str := s.filter fun c => !PyStr.isSpace c && c != '*' && c != '/'

/-- No mark of a comment in the text. -/
def Unmarked (s : Str) : Prop := ¬ ['/', '*'] <:+: s ∧ ¬ ['*', '/'] <:+: s

/-- The text does not look like the begin or the end of a block: it does not end with a brace. -/
def Braceless (s : Str) : Prop := s.getLast? ≠ some '{' ∧ s.getLast? ≠ some '}'

/-- The text has no mark of a comment, and none of its lines ends with a brace. -/
def Harmless (s : Str) : Prop :=
  Unmarked s ∧ ∀ a b, s = a ++ b → (b = [] ∨ b.head? = some '\n') → Braceless a

end Verif.Spec.JunosComment
