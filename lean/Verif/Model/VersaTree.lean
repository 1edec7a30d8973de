import Verif.Model.Versa
import Verif.Model.Wrap

/-!
Model of the text that capirca/lib/versa.py writes: the tree of the configuration and how it is printed.
-/

namespace Verif
namespace Versa
open Policy

/-- `typ` of a tree: nothing, a line or a list of lines; capirca/lib/versa.py:83-87, 126-134. -/
inductive Typ where
  | none
  | line (s : Str)
  | lines (l : List Str)

/-- `Tree`; capirca/lib/versa.py:78-102. Nodes are added to their parents in order; the search for a node, `FindNode`, has no caller. -/
inductive Tree where
  | node (name : Str) (typ : Typ) (children : List Tree)

/-- `INDENT*num`; capirca/lib/versa.py:81. -/
def pad (num : Nat) : Str := List.replicate (4 * num) ' '

/-- The lines for `typ`: those of a list are indented also in a tree without name; capirca/lib/versa.py:126-134. -/
def typLines (num : Nat) (named : Bool) : Typ → List Str
  | .none => []
  | .line s => [pad (if named then num + 1 else num) ++ s]
  | .lines l => l.map fun s => pad (num + 1) ++ s

mutual

/-- `PrintTreeInt`; capirca/lib/versa.py:122-139. The list that the lines are put into is one for all trees, and is emptied by `PrintTree`
before; its only caller joins the lines at once. -/
def printTree (num : Nat) : Tree → List Str
  | .node name typ cs =>
    if name = [] then typLines num false typ ++ printTrees (num + 1) cs
    else [pad num ++ name ++ [' ', ' ', '{']] ++ typLines num true typ ++ printTrees (num + 1) cs ++ [pad num ++ ['}']]

/-- The children in order; capirca/lib/versa.py:135-137. -/
def printTrees (num : Nat) : List Tree → List Str
  | [] => []
  | t :: ts => printTree num t ++ printTrees num ts

end

/-- `' ' + x` for every word; capirca/lib/versa.py:203-204, 240-241, 249-250. -/
def spaced (l : List Str) : Str := l.flatMap fun w => ' ' :: w

/-- `x + ' '` for every word; capirca/lib/versa.py:798-799. -/
def trailed (l : List Str) : Str := l.flatMap fun w => w ++ [' ']

/-- `' '.join(l)`; capirca/lib/versa.py:266. -/
def joined : List Str → Str
  | [] => []
  | [w] => w
  | w :: v :: l => w ++ ' ' :: joined (v :: l)

/-- A tree with a name, no lines and some children. -/
def branch (name : String) (cs : List Tree) : Tree := .node name.toList .none cs

/-- `BuildTermZone`; capirca/lib/versa.py:202-229. -/
def sideTree (kind : String) (s : Side) : Tree :=
  branch kind [.node "zone".toList (.line ("zone-list [".toList ++ spaced (s.zones.map String.toList) ++ " ];".toList))
    (match s.group with
      | none => []
      | some g => [.node "address".toList
          (.lines (("address-group-list [ ".toList ++ g ++ " ];".toList) :: if s.negate then ["negate;".toList] else [])) []])]

/-- `BuildTermApp`; capirca/lib/versa.py:234-255, 318-319. -/
def appTrees (r : VRule) : List Tree :=
  let ls := (if r.services = [] then [] else ["services-list [".toList ++ spaced r.services ++ " ];".toList]) ++
    (if r.predefined = [] then [] else ["predefined-services-list [".toList ++ spaced (r.predefined.map String.toList) ++ " ];".toList])
  if ls = [] then [] else [.node "services".toList (.lines ls) []]

/-- `BuildTermDscp`; capirca/lib/versa.py:257-268, 321-322. -/
def dscpTrees (r : VRule) : List Tree :=
  if r.dscp = [] then []
  else [.node [] (.line ("dscp [ ".toList ++ joined (r.dscp.map String.toList) ++ " ];".toList)) []]

/-- `BuildTermLogging`; capirca/lib/versa.py:270-291, 324-325. -/
def setTrees (r : VRule) : List Tree :=
  match r.act with
  | none => []
  | some (a, e) => [branch "set" [.node [] (.line ("action ".toList ++ a.toList ++ [';'])) [],
      .node "lef".toList (.line ("event ".toList ++ e.toList ++ [';'])) []]]

/-- The comment of a term, which only the first line of a comment decides about; capirca/lib/versa.py:299-307. -/
def noteTrees (verbose : Bool) : List Str → List Tree
  | [] => []
  | c :: cs =>
    if verbose then
      if c.length < 60 then [.node [] (.line ("/* ".toList ++ c ++ " */".toList)) []]
      else [.node [] (.lines ("/*".toList :: (Wrap.wrapWords 60 (c :: cs)).2 ++ ["*/".toList])) []]
    else []

/-- `BuildTerm`; capirca/lib/versa.py:293-325. -/
def ruleTree (verbose : Bool) (notes : List Str) (r : VRule) : Tree :=
  .node ("access-policy ".toList ++ r.name) .none (noteTrees verbose notes ++
    [branch "match" ((r.src.toList.map (sideTree "source")) ++ (r.dst.toList.map (sideTree "destination")) ++ appTrees r ++ dscpTrees r)] ++
    setTrees r)

/-- An address, where the text of a network is a parameter; capirca/lib/versa.py:783-789. -/
def addressTree (text : Net → Str) (e : Str × Net) : Tree :=
  .node ("address ".toList ++ e.1) (.line ((if e.2.ver = .v6 then "ipv6-prefix ".toList else "ipv4-prefix ".toList) ++ ' ' :: text e.2 ++ [';'])) []

/-- A group; capirca/lib/versa.py:795-801. -/
def groupTree (g : Str × List Str) : Tree :=
  .node ("group ".toList ++ g.1) (.line ("address-list [ ".toList ++ trailed g.2 ++ "];".toList)) []

/-- A port or a range; capirca/lib/versa.py:753-758. -/
def portWord (r : PortRange) : Str :=
  if r.1 = r.2 then (toString r.1).toList else (toString r.1).toList ++ '-' :: (toString r.2).toList

/-- The ports with commas between them; capirca/lib/versa.py:827-833, 838-844. -/
def portWords : List PortRange → Str
  | [] => []
  | [r] => portWord r
  | r :: q :: l => portWord r ++ ',' :: ' ' :: portWords (q :: l)

/-- The line for ports, if there are any; capirca/lib/versa.py:824-846. -/
def portLines (key : String) (l : List PortRange) : List Str :=
  if l = [] then [] else [key.toList ++ ' ' :: '"' :: portWords l ++ ['"', ';']]

/-- A service; capirca/lib/versa.py:821-850. -/
def serviceTree (s : Service) : Tree :=
  .node ("service ".toList ++ s.name) (.lines (("protocol ".toList ++ s.proto ++ [';']) :: portLines "source-port" s.sport ++
    portLines "destination-port" s.dport)) []

/-- `objects`; capirca/lib/versa.py:771-773, 793-794, 814-817, 891-897. -/
def objectTrees (text : Net → Str) (o : Output) : List Tree :=
  if o.groups = [] then []
  else [branch "objects" ([branch "addresses" (o.addresses.map (addressTree text)), branch "address-groups" (o.groups.map groupTree)] ++
    if o.services = [] then [] else [branch "services" (o.services.map serviceTree)])]

/-- The tree of the configuration; capirca/lib/versa.py:855-897. The rules come with the comments of their terms; `comment` is that of a
header. -/
def rootTree (text : Net → Str) (comment : Str) (rules : List ((Bool × List Str) × VRule)) (o : Output) : Tree :=
  branch "devices" [.node ("template ".toList ++ o.names.template.toList) .none [branch "config"
    ((if comment = [] then [] else [.node [] (.line ("/* ".toList ++ comment ++ " */".toList)) []]) ++
    [branch "orgs" [.node ("org-services ".toList ++ o.names.tenant.toList) .none
      ([branch "security" [branch "access-policies" [.node ("access-policy-group ".toList ++ o.names.policy.toList) .none
        [branch "rules" (rules.map fun r => ruleTree r.1.1 r.1.2 r.2)]]]] ++ objectTrees text o)]])]]

/-- `'\n'.join(target)`; capirca/lib/versa.py:899-901. -/
def text (textOf : Net → Str) (comment : Str) (rules : List ((Bool × List Str) × VRule)) (o : Output) : Str :=
  Wrap.joinNl (printTree 0 (rootTree textOf comment rules o))

end Versa
end Verif
