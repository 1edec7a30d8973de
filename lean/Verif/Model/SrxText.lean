import Verif.Model.Srx
import Verif.Model.Wrap
import Verif.Model.VersaTree

/-!
The text of an SRX configuration: lines with their indentation, and the comments between them; capirca/lib/junipersrx.py:74-81,
112-234, 743-963.
-/

namespace Verif.Srx
open Verif

/-- The text of a line without its indentation; capirca/lib/junipersrx.py:34-35, 112-234, 743-963. -/
def lineText : Line → Str
  | .opens ws => Versa.joined (ws.map String.toList) ++ [' ', '{']
  | .closes => ['}']
  | .stmt ws => Versa.joined (ws.map String.toList) ++ [';']

/-- `IndentAppend` for lines that begin at depth `k`; capirca/lib/junipersrx.py:74-81. Simplified: the depth follows the braces, while the
code writes it as a number in each call. The two differ only after braces that do not match: a policy with several actions, an
application with exactly eight ICMP terms. -/
def codeLines : Nat → List Line → List Str
  | _, [] => []
  | k, .opens ws :: l => (Versa.pad k ++ lineText (.opens ws)) :: codeLines (k + 1) l
  | k, .closes :: l => (Versa.pad (k - 1) ++ lineText .closes) :: codeLines (k - 1) l
  | k, .stmt ws :: l => (Versa.pad k ++ lineText (.stmt ws)) :: codeLines k l

/-- The lines of a comment; capirca/lib/junipersrx.py:122-126, 921-923, 930-934. -/
def noteLines (k : Nat) (ls : List Str) : List Str :=
  (Versa.pad k ++ ['/', '*']) :: (ls.map fun l => Versa.pad k ++ l) ++ [Versa.pad k ++ ['*', '/']]

/-- A policy with what is only in its comments; capirca/lib/junipersrx.py:102-126. -/
structure PolicyText where
  policy : SPolicy
  owner : Option Str := none
  comments : List Str := []
  verbose : Bool := true

/-- The comments with the owner; capirca/lib/junipersrx.py:118-119. -/
def ownedComments (x : PolicyText) : List Str :=
  x.comments ++ (match x.owner with
    | some (c :: o) => ["Owner: ".toList ++ c :: o]
    | _ => [])

/-- The comment and the lines of a policy; capirca/lib/junipersrx.py:112-234. -/
def policyText (x : PolicyText) : List Str :=
  (match (Wrap.wrapWords 68 (ownedComments x)).2 with
    | [] => []
    | l :: ls => if l = [] ∨ x.verbose = false then [] else noteLines 3 (l :: ls)) ++
  codeLines 3 (policyLines x.policy)

/-- A filter with its header; capirca/lib/junipersrx.py:927-957. -/
structure BlockText where
  fromZone : String
  toZone : String
  groups : List String := []
  groupsExcept : List String := []
  comments : List Str := []
  verbose : Bool := true
  policies : List PolicyText := []

/-- The lines of a filter; capirca/lib/junipersrx.py:927-957. -/
def blockText (b : BlockText) : List Str :=
  (if b.verbose then noteLines 2 (Wrap.wrapWords 71 b.comments).2 else []) ++
  (codeLines 2 [.opens (if b.fromZone = "all" ∧ b.toZone = "all" then ["global"] else ["from-zone", b.fromZone, "to-zone", b.toZone])] ++
  (codeLines 3 (listLine "apply-groups" b.groups) ++
  (codeLines 3 (listLine "apply-groups-except" b.groupsExcept) ++
  (b.policies.flatMap policyText ++ codeLines 3 [.closes]))))

/-- The addresses with their networks, and the sets; capirca/lib/junipersrx.py:757-774, 785-805. -/
def entryTextLines (text : Net → String) (b : Book) : List Line :=
  (b.addresses.map fun a => .stmt ["address", a.1, text a.2]) ++
  b.sets.flatMap fun s => .opens ["address-set", s.1] :: (s.2.map fun m => .stmt ["address", m]) ++ [.closes]

/-- The lines of an address book; capirca/lib/junipersrx.py:743-810. -/
def bookText (text : Net → String) (b : Book) : List Str :=
  match b.zone with
  | none => codeLines 1 [.opens ["replace:", "address-book"], .opens ["global"]] ++
      (codeLines 4 (entryTextLines text b) ++ codeLines 3 [.closes, .closes])
  | some z => codeLines 2 [.opens ["security-zone", z], .opens ["replace:", "address-book"]] ++
      (codeLines 4 (entryTextLines text b) ++ codeLines 4 [.closes, .closes])

/-- The lines of the address books; capirca/lib/junipersrx.py:743-810. -/
def booksText (text : Net → String) (l : List Book) : List Str :=
  if l.any fun b => b.zone.isNone then l.flatMap (bookText text)
  else codeLines 1 [.opens ["zones"]] ++ (l.flatMap (bookText text) ++ codeLines 2 [.closes])

/-- `AddRepositoryTags`; capirca/lib/aclgenerator.py:544-571. -/
def tags : List Str := ["$Id:$".toList, "$Date:$".toList, "$Revision:$".toList]

/-- The whole text: a new line is at its end if there are applications; capirca/lib/junipersrx.py:907-963. `text` is `str()` of a
network. -/
def configText (text : Net → String) (books : List Book) (blocks : List BlockText) (apps : List App) : Str :=
  Wrap.joinNl (codeLines 0 [.opens ["security"]] ++ (booksText text books ++ (noteLines 1 tags ++
    (codeLines 1 [.opens ["replace:", "policies"]] ++ (blocks.flatMap blockText ++
    (codeLines 2 [.closes, .closes] ++ codeLines 0 (appLines apps))))))) ++
  (if (sortedApps apps).isEmpty then [] else ['\n'])

end Verif.Srx
