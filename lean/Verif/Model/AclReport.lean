import Verif.Model.Aclcheck
import Verif.Model.Wrap

/-!
Model of the texts that capirca/lib/aclcheck.py prints about the matches.
-/

namespace Verif
namespace Aclcheck

/-- `', '.join(l)`; capirca/lib/aclcheck.py:300. -/
def joinComma : List Str → Str
  | [] => []
  | [a] => a
  | a :: l => a ++ (", ".toList ++ joinComma l)

/-- `str(l)` for a list of words without quotes and backslashes; capirca/lib/aclcheck.py:207. -/
def listText (l : List String) : Str := '[' :: (joinComma (l.map fun w => '\'' :: (w.toList ++ ['\''])) ++ [']'])

/-- The lines for one match without the line for the filter; capirca/lib/aclcheck.py:202-209. -/
def matchLines (m : Match) : List Str :=
  if m.possibles.isEmpty then ["          term: ".toList ++ m.term, "                ".toList ++ m.action.toList]
  else ["          term: ".toList ++ (m.term ++ " (possible match)".toList),
    "                ".toList ++ (m.action.toList ++ (" if ".toList ++ listText m.possibles))]

/-- The lines, for a given `last_filter`; capirca/lib/aclcheck.py:198-209. -/
def reportLines : String → List Match → List Str
  | _, [] => []
  | last, m :: ms =>
    (if m.filter ≠ last then ["  filter: ".toList ++ m.filter.toList] else []) ++ (matchLines m ++ reportLines m.filter ms)

/-- `AclCheck.__str__`; capirca/lib/aclcheck.py:195-210, which aclcheck_cmdline.py:50 prints. -/
def report (ms : List Match) : Str := Wrap.joinNl (reportLines "" ms)

/-- `Match.__str__`; capirca/lib/aclcheck.py:292-301. -/
def sentence (m : Match) : Str :=
  (if m.possibles.isEmpty then m.action.toList else "possible ".toList ++ m.action.toList) ++
  (" in term ".toList ++ (m.term ++ (" of filter ".toList ++ m.filter.toList))) ++
  (if m.possibles.isEmpty then [] else " with factors: ".toList ++ joinComma (m.possibles.map String.toList))

/-- `DescribeMatches`; capirca/lib/aclcheck.py:183-193. -/
def describeMatches (ms : List Match) : Str := Wrap.joinNl (ms.map sentence)

end Aclcheck
end Verif
