import Verif.Model.Net

/-!
How the texts about matches are read.
-/

namespace Verif.Spec.AclReport

/-- The parts of a text between the separators. -/
def cut (c : Char) : Str → List Str
  | [] => [[]]
  | x :: s => if x = c then [] :: cut c s else match cut c s with
    | [] => [[x]]
    | w :: ws => (x :: w) :: ws

/-- A match that a text tells of: where it is, what it does, and under which conditions. -/
structure Told where
  filter : Str
  term : Str
  action : Str
  conditions : List Str
deriving DecidableEq

/-- The number of leading blanks, and the words that follow. -/
def indent : List Str → Nat × List Str
  | [] :: ws => ((indent ws).1 + 1, (indent ws).2)
  | ws => (0, ws)

/-- The word without brackets, quotes and commas. -/
def bare (s : Str) : Str := s.filter fun c => !['[', ']', '\'', ','].contains c

/-- The two lines of a match: `term: NAME` and the action; or `term: NAME (possible match)` and `ACTION if [...]`. -/
def readMatch (f : Str) (l a : List Str) : Option Told :=
  match l, a with
  | [_, t], [act] => some ⟨f, t, act, []⟩
  | [_, t, p, q], act :: i :: cs =>
    if p = "(possible".toList ∧ q = "match)".toList ∧ i = "if".toList then some ⟨f, t, act, cs.map bare⟩ else none
  | _, _ => none

/-- The lines of a report; a line `filter: NAME` is about all matches up to the next one. -/
def readLines (f : Str) : List Str → Option (List Told)
  | [] => some []
  | l :: ls =>
    let i := indent (cut ' ' l)
    if i.1 = 2 ∧ i.2.head? = some "filter:".toList then match i.2 with
      | [_, n] => readLines n ls
      | _ => none
    else if i.1 = 10 ∧ i.2.head? = some "term:".toList then match ls with
      | [] => none
      | a :: ls =>
        let j := indent (cut ' ' a)
        if j.1 = 16 then match readMatch f i.2 j.2, readLines f ls with
          | some m, some ms => some (m :: ms)
          | _, _ => none
        else none
    else none

/-- A report; without matches it is empty. -/
def readReport (s : Str) : Option (List Told) := if s = [] then some [] else readLines [] (cut '\n' s)

/-- A sentence. -/
def readSentence (s : Str) : Option Told :=
  match cut ' ' s with
  | [a, i, e, t, o, l, f] =>
    if [i, e, o, l] = ["in".toList, "term".toList, "of".toList, "filter".toList] then some ⟨f, t, a, []⟩ else none
  | p :: a :: i :: e :: t :: o :: l :: f :: w :: r :: cs =>
    if [p, i, e, o, l, w, r] = ["possible".toList, "in".toList, "term".toList, "of".toList, "filter".toList, "with".toList, "factors:".toList] then
      some ⟨f, t, a, cs.map bare⟩
    else none
  | _ => none

/-- All of them. -/
def eachOne {α β : Type} (f : α → Option β) : List α → Option (List β)
  | [] => some []
  | a :: l => match f a, eachOne f l with
    | some b, some bs => some (b :: bs)
    | _, _ => none

/-- Sentences, one on each line. -/
def readSentences (s : Str) : Option (List Told) := if s = [] then some [] else eachOne readSentence (cut '\n' s)

/-- One word, as every name of a policy is. -/
def Word (s : Str) : Prop := s ≠ [] ∧ ' ' ∉ s ∧ '\n' ∉ s

end Verif.Spec.AclReport
