import Verif.Model.PyStr
import Verif.Model.Err

/-!
Model of the include preprocessor of capirca/lib/policy.py (`_SubDirectory`, `_Preprocess`) and of the
`os.path` functions it calls (CPython 3.11 posixpath.py, read as text). Paths contain no NUL.
-/

namespace Verif
namespace Include
open PyStr

/-! ### os.path -/

/-- `'/'.join(l)`; CPython posixpath.py `normpath`, `commonpath`, used by capirca/lib/policy.py:2921-2927. -/
def joinSlash : List Str → Str
  | [] => []
  | [a] => a
  | a :: b :: l => a ++ '/' :: joinSlash (b :: l)

/-- `os.path.join(a, b)`; called at capirca/lib/policy.py:2959. -/
def pathJoin (a b : Str) : Str :=
  if b.head? == some '/' then b
  else if a.isEmpty || a.getLast? == some '/' then a ++ b
  else a ++ '/' :: b

/-- One component of `os.path.normpath`; `abs` is `initial_slashes` being non-zero; called at
capirca/lib/policy.py:2921-2922. -/
def normStep (abs : Bool) (acc : List Str) (c : Str) : List Str :=
  if c.isEmpty || c == ['.'] then acc
  else if c != ['.', '.'] || (!abs && acc.isEmpty) || acc.getLast? == some ['.', '.'] then acc ++ [c]
  else acc.dropLast

/-- The leading slashes that `os.path.normpath` keeps: two if there are exactly two; called at
capirca/lib/policy.py:2921-2922. -/
def leadSlashes : Str → Str
  | '/' :: '/' :: '/' :: _ => ['/']
  | '/' :: '/' :: _ => ['/', '/']
  | '/' :: _ => ['/']
  | _ => []

/-- `os.path.normpath`; called at capirca/lib/policy.py:2921-2922. -/
def normPath (p : Str) : Str :=
  let lead := leadSlashes p
  let r := lead ++ joinSlash ((splitOn '/' p).foldl (normStep (!lead.isEmpty)) [])
  if r.isEmpty then ['.'] else r

/-- `os.path.abspath` with `os.getcwd()` being `cwd`; called at capirca/lib/policy.py:2921-2922. -/
def absPath (cwd p : Str) : Str :=
  normPath (if p.head? == some '/' then p else pathJoin cwd p)

/-- Lexicographic `<` of lists of strings; `min`/`max` in `os.path.commonpath`, called at
capirca/lib/policy.py:2923-2927. -/
def compsLt : List Str → List Str → Bool
  | [], [] => false
  | [], _ :: _ => true
  | _ :: _, [] => false
  | a :: as, b :: bs => if a == b then compsLt as bs else strLt a b

/-- The components that `os.path.commonpath` compares; called at capirca/lib/policy.py:2923-2927. -/
def comps (p : Str) : List Str := (splitOn '/' p).filter fun c => !c.isEmpty && c != ['.']

/-- The loop of `os.path.commonpath` over the smaller list; called at capirca/lib/policy.py:2923-2927. -/
def commonGo : List Str → List Str → List Str
  | a :: as, b :: bs => if a == b then a :: commonGo as bs else []
  | _, _ => []

/-- `os.path.commonpath([p, c])` for absolute paths; called at capirca/lib/policy.py:2923. -/
def commonPath (p c : Str) : Str :=
  let x := comps p
  let y := comps c
  '/' :: joinSlash (if compsLt y x then commonGo y x else commonGo x y)

/-- `_SubDirectory(child, parent)`; capirca/lib/policy.py:2911-2927. -/
def subDirectory (cwd child parent : Str) : Bool :=
  commonPath (absPath cwd parent) (absPath cwd child) == '/' :: joinSlash (comps (absPath cwd parent))

/-! ### preprocessing -/

/-- Line boundaries of `str.splitlines`; capirca/lib/policy.py:2953. -/
def isBreak (c : Char) : Bool :=
  [0x0a, 0x0b, 0x0c, 0x0d, 0x1c, 0x1d, 0x1e, 0x85, 0x2028, 0x2029].contains c.toNat

/-- `str.splitlines`, with the current line reversed; capirca/lib/policy.py:2953. -/
def splitLinesAux : Str → Str → List Str
  | acc, [] => if acc.isEmpty then [] else [acc.reverse]
  | acc, '\r' :: '\n' :: cs => acc.reverse :: splitLinesAux [] cs
  | acc, c :: cs => if isBreak c then acc.reverse :: splitLinesAux [] cs else splitLinesAux (c :: acc) cs

/-- `[x.rstrip() for x in data.splitlines()]`; capirca/lib/policy.py:2953. -/
def dataLines (data : Str) : List Str := (splitLinesAux [] data).map rstrip

/-- A quote; capirca/lib/policy.py:2958. -/
def isQuote (c : Char) : Bool := c == '\'' || c == '"'

/-- `w.strip('\'"')`; capirca/lib/policy.py:2958. -/
def stripQuotes (w : Str) : Str := ((w.dropWhile isQuote).reverse.dropWhile isQuote).reverse

/-- The file named by an include line; capirca/lib/policy.py:2954-2958. -/
def includeOf (line : Str) : Option Str :=
  match words line with
  | w :: f :: _ => if w == "#include".toList then some (stripQuotes f) else none
  | _ => none

/-- Where files are read: working directory, base directory and the outcome of `_ReadFile`
(capirca/lib/policy.py:2885-2908) for a path. -/
structure Files where
  cwd : Str
  base : Str
  read : Str → Except Err Str

/-- Loop of `_Preprocess` over the lines; capirca/lib/policy.py:2952-2970. The first component lists
the files read, in order. -/
def preLines (fs : Files) (rec : Str → List Str × Except Err (List Str)) :
    List Str → List Str × Except Err (List Str)
  | [] => ([], .ok [])
  | l :: ls =>
    match includeOf l with
    | none =>
      let r := preLines fs rec ls
      (r.1, match r.2 with
        | .ok out => .ok (l :: out)
        | .error e => .error e)
    | some f =>
      let p := pathJoin fs.base f
      if !subDirectory fs.cwd p fs.base then ([], .error (.raised "InvalidIncludeDirectoryError"))
      else
        match fs.read p with
        | .error e => ([p], .error e)
        | .ok data =>
          let r := rec data
          match r.2 with
          | .error e => (p :: r.1, .error e)
          | .ok inc =>
            let s := preLines fs rec ls
            (p :: (r.1 ++ s.1), match s.2 with
              | .ok out => .ok (inc ++ out)
              | .error e => .error e)

/-- `_Preprocess(data, max_depth, base_dir)`; capirca/lib/policy.py:2930-2971. -/
def preprocess (fs : Files) : Nat → Str → List Str × Except Err (List Str)
  | 0, _ => ([], .error (.raised "RecursionTooDeepError"))
  | d + 1, data => preLines fs (preprocess fs d) (dataLines data)

end Include
end Verif
