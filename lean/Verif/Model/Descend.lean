import Verif.Model.PyStr

/-!
Model of the search for policy files in capirca/aclgen.py.
-/

namespace Verif
namespace Descend

/-- What a directory has: files and directories, in the order in which the system lists them. Symbolic links are not modelled
(capirca/aclgen.py:544-563 reads directories with `pathlib`). -/
inductive Dir where
  | nil
  | file (name : Str) (rest : Dir)
  | sub (name : Str) (content rest : Dir)
deriving Repr

/-- The directories below one, with their paths, as `**` of `pathlib.Path.glob` visits them; capirca/aclgen.py:548. -/
def allDirs (p : List Str) : Dir → List (List Str × Dir)
  | .nil => []
  | .file _ r => allDirs p r
  | .sub n c r => (p ++ [n], c) :: (allDirs (p ++ [n]) c ++ allDirs p r)

/-- The directories named `pol` in a directory; capirca/aclgen.py:547-548 (`is_dir` drops files of that name). -/
def polIn (p : List Str) : Dir → List (List Str × Dir)
  | .nil => []
  | .file _ r => polIn p r
  | .sub n c r => if n = "pol".toList then (p ++ [n], c) :: polIn p r else polIn p r

/-- `input_dir.glob('**/pol')`; capirca/aclgen.py:544-548. -/
def polDirs (base : List Str) (root : Dir) : List (List Str × Dir) :=
  ((base, root) :: allDirs base root).flatMap fun d => polIn d.1 d.2

/-- One part of a pattern with one part of a path, see `matchesEnd`; capirca/aclgen.py:552-553. -/
def partMatches : Option Str × Str → Bool
  | (none, _) => true
  | (some n, m) => n == m

/-- `PurePath.match` for a relative pattern: the pattern is compared with the last parts of the path, part by part. A part `none` is `*` or
`**`, which is the same for this method; names with `*`, `?` or `[` in the ignored directories are not modelled; capirca/aclgen.py:552-553. -/
def matchesEnd (pat : List (Option Str)) (path : List Str) : Bool :=
  pat.length ≤ path.length &&
    (pat.zip (path.drop (path.length - pat.length))).all partMatches

/-- `Filtering` for one ignored directory, given by its parts; capirca/aclgen.py:551-553. -/
def keeps (path : List Str) (ignored : List Str) : Bool :=
  !matchesEnd (ignored.map some ++ [none, some "pol".toList]) path && !matchesEnd (ignored.map some ++ [some "pol".toList]) path

/-- `name` matches `*.pol`; capirca/aclgen.py:558. -/
def isPol (name : Str) : Bool := ".pol".toList.isSuffixOf name

/-- The files `*.pol` of a directory; capirca/aclgen.py:558, 562. -/
def polFiles (p : List Str) : Dir → List (List Str)
  | .nil => []
  | .file n r => if isPol n then (p ++ [n]) :: polFiles p r else polFiles p r
  | .sub _ _ r => polFiles p r

/-- `DescendDirectory`; capirca/aclgen.py:533-564. `base` has the parts of `input_dirname`. -/
def descend (base : List Str) (ignored : List (List Str)) (root : Dir) : List (List Str) :=
  ((polDirs base root).filter fun d => ignored.all fun i => keeps d.1 i).flatMap fun d => polFiles d.1 d.2

end Descend
end Verif
