import Verif.Model.PyStr

/-!
Model of `WrapWords`, which breaks the comments of a policy into lines of a given width, and of the remarks that
capirca/lib/cisco.py makes of them.
-/

namespace Verif
namespace Wrap

/-- `\S`; capirca/lib/aclgenerator.py:591-593. -/
def ink (c : Char) : Bool := !PyStr.isSpace c

/-- The first alternative, `\S{n}(?!\s|\Z)`: the number of characters that it matches; capirca/lib/aclgenerator.py:592. -/
def chunk (n : Nat) (s : Str) : Option Nat :=
  if n + 1 ≤ (s.takeWhile ink).length then some n else none

/-- The second alternative, `(?<=\S{n})\S+`; capirca/lib/aclgenerator.py:592. `run` is the number of characters other than white space
directly before the position. -/
def leftover (n run : Nat) (s : Str) : Option Nat :=
  if n ≤ run ∧ (s.takeWhile ink) ≠ [] then some (s.takeWhile ink).length else none

/-- `(?=\s|\Z)`; capirca/lib/aclgenerator.py:592. -/
def atBreak : Str → Bool
  | [] => true
  | c :: _ => PyStr.isSpace c

/-- `.{1,m}(?=\s|\Z)`, greedy: the number of characters that it matches, where `.` is anything but a line break;
capirca/lib/aclgenerator.py:592. -/
def upTo : Nat → Str → Option Nat
  | 0, _ => none
  | _ + 1, [] => none
  | m + 1, c :: cs =>
    if c = '\n' then none
    else match upTo m cs with
      | some k => some (k + 1)
      | none => if atBreak cs then some 1 else none

/-- The third alternative, `\S.{1,n-1}(?=\s|\Z)`; capirca/lib/aclgenerator.py:592. -/
def phrase (n : Nat) : Str → Option Nat
  | [] => none
  | c :: cs => if ink c then (upTo (n - 1) cs).map (· + 1) else none

/-- The expression at a position; capirca/lib/aclgenerator.py:591-593. -/
def matchAt (n run : Nat) (s : Str) : Option Nat :=
  match chunk n s with
  | some k => some k
  | none => match leftover n run s with
    | some k => some k
    | none => phrase n s

/-- How many characters other than white space are directly before the position after some more text; helper for the lookbehind of
capirca/lib/aclgenerator.py:592. -/
def runAfter (run : Nat) (s : Str) : Nat := s.foldl (fun r c => if ink c then r + 1 else 0) run

/-- `linelength_re.findall(text)`; capirca/lib/aclgenerator.py:597. The first argument bounds the number of steps, the caller makes it large
enough. -/
def findAll (n : Nat) : Nat → Nat → Str → List Str
  | 0, _, _ => []
  | f + 1, run, s =>
    if s = [] then []
    else match matchAt n run s with
      | some k => s.take k :: findAll n f (runAfter run (s.take k)) (s.drop k)
      | none => findAll n f (runAfter run (s.take 1)) (s.drop 1)

/-- `'\n'.join(l)`; capirca/lib/aclgenerator.py:597. -/
def joinNl : List Str → Str
  | [] => []
  | [a] => a
  | a :: b :: l => a ++ '\n' :: joinNl (b :: l)

/-- What a text of the list is replaced with; capirca/lib/aclgenerator.py:595-597. -/
def wrapText (size : Nat) (text : Str) : Str :=
  if text.length > size then joinNl (findAll size text.length 0 text) else text

/-- The lines of a text; capirca/lib/aclgenerator.py:599. -/
def textLines (text : Str) : List Str :=
  ((PyStr.splitOn '\n' (PyStr.strip text)).filter (· ≠ [])).map PyStr.strip

/-- `WrapWords(textlist, size)`: the list, whose texts it replaces, and the lines; capirca/lib/aclgenerator.py:574-600. Simplified: `joiner`
has its default, as in all calls, and `size` is not 0. -/
def wrapWords (size : Nat) (texts : List Str) : List Str × List Str :=
  (texts.map (wrapText size), texts.flatMap fun t => textLines (wrapText size t))

/-- The remarks before a term with object groups, and the comments that the term has afterwards; capirca/lib/cisco.py:36, 829-836. -/
def groupRemarks (name : Str) (comments : List Str) : List Str × List Str :=
  let (kept, ls) := wrapWords 70 comments
  ((" remark ".toList ++ name) :: (match ls with
    | [] => []
    | l :: ls => if l = [] then [] else (l :: ls).map fun c => " remark ".toList ++ c), kept)

/-- The remarks before an extended term and the comments that the term has afterwards; capirca/lib/cisco.py:493-500. `named` is
`term_remark`. -/
def extendedRemarks (named : Bool) (name : Str) (owner : Option Str) (comments : List Str) : List Str × List Str :=
  let kept := comments ++ (match owner with
    | some (c :: o) => ["Owner: ".toList ++ c :: o]
    | _ => [])
  ((if named then [" remark ".toList ++ name] else []) ++
    kept.flatMap (fun c => (PyStr.splitOn '\n' c).map fun l => " remark ".toList ++ PyStr.rstrip (l.take 100)), kept)

end Wrap
end Verif
