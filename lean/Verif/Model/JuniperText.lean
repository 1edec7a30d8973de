import Verif.Model.JuniperComment
import Verif.Model.Wrap
import Verif.Model.Translate

/-!
Model of the text that capirca/lib/juniper.py prints for terms (`Term.__str__`, 199-700) and for a policy
(`Juniper.__str__`, 1068-1110), from the statements of Model/Juniper.lean. The text of a network is a parameter (it is
that of the standard library).
-/

namespace Verif
namespace Juniper
open Policy Aclgenerator Summarizer

/-- `str` of a number; capirca/lib/juniper.py:882-885. -/
def numText (n : Nat) : Str := (toString n).toList

/-- The texts of `ToDottedQuad`; capirca/lib/summarizer.py:107-180. -/
def maskStr : MaskText → Str
  | .quad a b c d => numText a ++ '.' :: (numText b ++ '.' :: (numText c ++ '.' :: numText d))
  | .plen n => numText n

/-- The text of a word; capirca/lib/juniper.py:353-356, 874-885. `text` gives the text of a network. -/
def tokText (text : Ver → Nat → Nat → Str) : Tok → Str
  | .w s => s.toList
  | .num n => numText n
  | .range a b => numText a ++ '-' :: numText b
  | .pfx v a p => text v a p
  | .masked a m => maskStr a ++ '/' :: maskStr m

/-- Words with spaces between them; capirca/lib/juniper.py:887-890. -/
def spaceJoin : List Str → Str
  | [] => []
  | [a] => a
  | a :: b :: l => a ++ ' ' :: spaceJoin (b :: l)

/-- The text of a statement; capirca/lib/juniper.py:353-356, 434-569, 887-891. -/
def stmtText (text : Ver → Nat → Nat → Str) (ws : List Tok) : Str := spaceJoin (ws.map (tokText text)) ++ [';']

/-- A term to print: its statements, the name in `filter_term`, `noverbose`, owner and comments, and the texts of its
addresses by condition, by exclusion and by address; capirca/lib/juniper.py:175-198. -/
structure TermText where
  out : Out
  filterName : Str := []
  noverbose : Bool := false
  owner : Option Str := none
  comments : List Str := []
  note : String → Bool → Tok → Str := fun _ _ _ => []

/-- A line for `Append` that is not verbatim. -/
def plainLine (l : Str) : Bool × Str := (false, l)

/-- Is the statement an excluded address; capirca/lib/juniper.py:380-387. -/
def excludes : List Tok → Bool
  | [_, .w s] => s == "except"
  | _ => false

/-- The lines of a block of conditions: each address after its comment; capirca/lib/juniper.py:348-357, 371-388,
446-463, 562-567. Lines of other blocks have no comments (`note` is empty there). -/
def blockLines (text : Ver → Nat → Nat → Str) (x : TermText) (hd : String) (ls : List (List Tok)) : List Str :=
  ls.flatMap fun ws =>
    addressComment x.noverbose 12 (excludes ws) (x.note hd (excludes ws) (ws.headD (.w ""))) ++ [stmtText text ws]

/-- The lines of a condition; capirca/lib/juniper.py:343-569. -/
def condLines (text : Ver → Nat → Nat → Str) (x : TermText) : Cond → List Str
  | .leaf ws => [stmtText text ws]
  | .block hd ls => (hd.toList ++ " {".toList) :: (blockLines text x hd ls ++ [['}']])

/-- The lines of the actions; capirca/lib/juniper.py:609-698. -/
def actLines (text : Ver → Nat → Nat → Str) : Option (Bool × List (List Tok)) → List Str
  | none => []
  | some (false, ls) => ls.map fun ws => "then ".toList ++ stmtText text ws
  | some (true, ls) => "then {".toList :: (ls.map (stmtText text) ++ [['}']])

/-- The lines between the name of the term and its end; capirca/lib/juniper.py:293-698. -/
def bodyLines (text : Ver → Nat → Nat → Str) (x : TermText) : Body → List Str
  | .filter => ["filter ".toList ++ x.filterName ++ [';']]
  | .normal none acts => actLines text acts
  | .normal (some cs) acts => "from {".toList :: (cs.flatMap (condLines text x) ++ ['}'] :: actLines text acts)

/-- The calls of `Append` in `Term.__str__`; capirca/lib/juniper.py:234-252, 283-700. -/
def termLines (text : Ver → Nat → Nat → Str) (x : TermText) : List (Bool × Str) :=
  (termComment x.noverbose x.owner x.comments).map plainLine ++
  match x.out with
  | .verbatim ls => ls.map fun l => (true, l.toList)
  | .term inactive name body =>
    ((((if inactive then "inactive:".toList else []) ++ " term ".toList ++ name ++ " {".toList) ::
      (bodyLines text x body ++ [['}']])).map plainLine)

/-- `str(term)`; capirca/lib/juniper.py:209, 252, 298, 700. -/
def termStr (text : Ver → Nat → Nat → Str) (x : TermText) : Except Err Str := do
  let ls ← build 12 (termLines text x)
  .ok (Wrap.joinNl ls)

/-- An entry of `juniper_policies`; capirca/lib/juniper.py:1062-1066. -/
structure FilterText where
  family : Str
  name : Str
  interfaceSpecific : Bool
  enhanced : Bool
  comments : List Str
  terms : List TermText

/-- The calls of `Append` for one filter; capirca/lib/juniper.py:1071-1106. Terms with an empty text are left out. -/
def filterLines (text : Ver → Nat → Nat → Str) (f : FilterText) : Except Err (List (Bool × Str)) := do
  let ts ← listM (termStr text) f.terms
  .ok ((("firewall {".toList :: ("family ".toList ++ f.family ++ " {".toList) :: (headerComment f.comments ++
      ["replace: filter ".toList ++ f.name ++ " {".toList] ++
      (if f.interfaceSpecific then ["interface-specific;".toList] else []) ++
      (if f.enhanced then ["enhanced-mode;".toList] else []))).map plainLine) ++
    ((ts.filter fun t => !t.isEmpty).map fun t => (true, t)) ++ [plainLine ['}'], plainLine ['}'], plainLine ['}']])

/-- `str(juniper)`; capirca/lib/juniper.py:1068-1110. -/
def fileText (text : Ver → Nat → Nat → Str) (fs : List FilterText) : Except Err Str := do
  let ls ← concatM (filterLines text) fs
  let out ← build 0 ls
  .ok (Wrap.joinNl out ++ ['\n'])

end Juniper
end Verif
