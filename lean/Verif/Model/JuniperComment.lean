import Verif.Model.Juniper

/-!
Model of the comments that capirca/lib/juniper.py writes: those behind addresses, those before terms and those before
filters.
-/

namespace Verif
namespace Juniper

/-- `s.rfind(' ')`, with `none` for `-1`; capirca/lib/juniper.py:827. -/
def rfindSpace : Str → Option Nat
  | [] => none
  | c :: cs =>
    match rfindSpace cs with
    | some n => some (n + 1)
    | none => if c = ' ' then some 0 else none

/-- Where the text is cut, `new_length_eol`; capirca/lib/juniper.py:826-831. -/
def cutAt (eol : Nat) (text : Str) : Nat :=
  if text.length > eol then
    match rfindSpace (text.take eol) with
    | some (n + 1) => n + 1
    | _ => eol
  else eol

/-- The pieces `text[:new_length_eol]` of the loop, before `strip`; capirca/lib/juniper.py:824-838. The number of rounds is bounded by the first
argument, which the caller makes large enough. -/
def pieces (eol : Nat) : Nat → Str → List Str
  | 0, _ => []
  | _ + 1, [] => []
  | f + 1, c :: cs => (c :: cs).take (cutAt eol (c :: cs)) :: pieces eol f ((c :: cs).drop (cutAt eol (c :: cs)))

/-- The lines of the loop: the first one has the mark `pre`, the others are indented and marked `**`; capirca/lib/juniper.py:823, 833-840. -/
def marked (ind : Nat) (pre : Str) : List Str → List Str
  | [] => []
  | t :: ts => (pre ++ ' ' :: PyStr.strip t) :: marked ind (List.replicate ind ' ' ++ ['*', '*']) ts

/-- `rval[-1] += ' */'`; capirca/lib/juniper.py:842. The list is never empty there. -/
def closeLast : List Str → List Str
  | [] => []
  | [l] => [l ++ [' ', '*', '/']]
  | l :: m :: ls => l :: closeLast (m :: ls)

/-- `_Comment` for an address with the text; capirca/lib/juniper.py:760-847. `base` is `_DEFAULT_INDENT` (12 in juniper.py, 20 in
junipermsmpc.py). The parameter `line_length` always has its default. -/
def addressComment (noverbose : Bool) (base : Nat) (exclude : Bool) (text : Str) : List Str :=
  if noverbose then []
  else if text = [] then []
  else if has ['/', '*'] text || has ['*', '/'] text then []
  else
    let ind := (if exclude then 21 else 14) + base
    closeLast (marked ind [' ', '/', '*'] (pieces (77 - ind) 132 (text.take 132)))

/-- The lines of one comment, `comment.split('\n')`, each with the mark; capirca/lib/juniper.py:241-243, 1086-1088. -/
def starred (comments : List Str) : List Str :=
  comments.flatMap fun c => (PyStr.splitOn '\n' c).map fun l => ['*', '*', ' '] ++ l

/-- The lines before a term; capirca/lib/juniper.py:236-245. The owner is added to the comments of the term. -/
def termComment (noverbose : Bool) (owner : Option Str) (comments : List Str) : List Str :=
  if noverbose then []
  else
    let cs := comments ++ (match owner with
      | some (c :: o) => ["Owner: ".toList ++ c :: o]
      | _ => [])
    if cs = [] then []
    else [['/', '*']] ++ starred cs ++ [['*', '/']]

/-- `AddRepositoryTags('** ')`; capirca/lib/aclgenerator.py:543-570. -/
def starTags : List Str := ["** $Id:$".toList, "** $Date:$".toList, "** $Revision:$".toList]

/-- The comment before a filter; capirca/lib/juniper.py:1076-1090. -/
def headerComment (comments : List Str) : List Str :=
  [['/', '*']] ++ starTags ++ [['*', '*']] ++ starred comments ++ [['*', '/']]

/-- `config.Append(line)` for each line; capirca/lib/juniper.py:238-245, 352, 378, 385, 412, 420, 1076-1090. -/
def appendLines (c : Config) (ls : List Str) : Except Err Config := appendAll c (ls.map fun l => (false, l))

end Juniper
end Verif
