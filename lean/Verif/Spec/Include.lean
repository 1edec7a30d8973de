import Verif.Model.Include
import Verif.Spec.Naming

/-!
Specification of include expansion. Where a path leads is defined by walking it component by
component, as the operating system does (symbolic links aside).
-/

namespace Verif.Spec
open Verif

/-- One step of walking a path. -/
def walkStep (dir : List Str) (c : Str) : List Str :=
  if c = [] ∨ c = ['.'] then dir else if c = ['.', '.'] then dir.dropLast else dir ++ [c]

/-- Where a path leads from the directory `cwd` (a list of names below the root). -/
def locate (cwd : List Str) (path : Str) : List Str :=
  (PyStr.splitOn '/' path).foldl walkStep (if path.head? = some '/' then [] else cwd)

/-- `path` leads to a place in or below the place `dir` leads to. -/
def Below (cwd path dir : Str) : Prop := locate (locate [] cwd) dir <+: locate (locate [] cwd) path

/-- The line includes the file of that path: its first two words are `#include` and the name, which is
relative to the base directory. -/
def Includes (fs : Include.Files) (line path : Str) : Prop :=
  ∃ w rest, PyStr.words line = "#include".toList :: w :: rest ∧
    path = Include.pathJoin fs.base (Include.stripQuotes w)

/-- `out` is the result of replacing every include line by the expansion of the lines of its file, in
place; `h` bounds the length of include chains. -/
inductive Expands (fs : Include.Files) : Nat → List Str → List Str → Prop
  | nil {h} : Expands fs h [] []
  | plain {h l ls out} : (¬ ∃ p, Includes fs l p) → Expands fs h ls out → Expands fs h (l :: ls) (l :: out)
  | incl {h l ls p data inc out} : Includes fs l p → Below fs.cwd p fs.base → fs.read p = .ok data →
      Expands fs h (Include.dataLines data) inc → Expands fs (h + 1) ls out →
      Expands fs (h + 1) (l :: ls) (inc ++ out)

/-- Expanding the lines with chains of less than the given length fails with this error: it is the error
of the first line that cannot be expanded. -/
inductive Fails (fs : Include.Files) : Nat → List Str → Err → Prop
  | deep {ls} : Fails fs 0 ls (.raised "RecursionTooDeepError")
  | escape {n pre out l p post} : Expands fs n pre out → Includes fs l p → ¬ Below fs.cwd p fs.base →
      Fails fs (n + 1) (pre ++ l :: post) (.raised "InvalidIncludeDirectoryError")
  | unread {n pre out l p post e} : Expands fs n pre out → Includes fs l p → Below fs.cwd p fs.base →
      fs.read p = .error e → Fails fs (n + 1) (pre ++ l :: post) e
  | nested {n pre out l p post data e} : Expands fs n pre out → Includes fs l p → Below fs.cwd p fs.base →
      fs.read p = .ok data → Fails fs n (Include.dataLines data) e → Fails fs (n + 1) (pre ++ l :: post) e

/-- There is a chain of `n` nested includes starting in these lines. -/
inductive Chain (fs : Include.Files) : Nat → List Str → Prop
  | nil {ls} : Chain fs 0 ls
  | cons {n l ls p data} : l ∈ ls → Includes fs l p → fs.read p = .ok data →
      Chain fs n (Include.dataLines data) → Chain fs (n + 1) ls

/-- Lines reached from lines by following includes. -/
inductive Follows (fs : Include.Files) (ls : List Str) : List Str → Prop
  | refl : Follows fs ls ls
  | step {ms l p data} : Follows fs ls ms → l ∈ ms → Includes fs l p → fs.read p = .ok data →
      Follows fs ls (Include.dataLines data)

/-- A single or double quote. -/
def Quote (c : Char) : Prop := c = '\'' ∨ c = '"'

/-- The text of an include line: `#include`, white space, and a file name that may be quoted; anything
may follow after white space. -/
def IncludeText (line name : Str) : Prop :=
  ∃ sp1 sp2 q1 q2 tail, line = sp1 ++ ("#include".toList ++ (sp2 ++ ((q1 ++ name ++ q2) ++ tail))) ∧
    Blank sp1 ∧ Blank sp2 ∧ sp2 ≠ [] ∧ (∀ c ∈ q1, Quote c) ∧ (∀ c ∈ q2, Quote c) ∧
    q1 ++ name ++ q2 ≠ [] ∧ (∀ c ∈ name, PyStr.isSpace c = false) ∧
    (∀ c, name.head? = some c → ¬ Quote c) ∧ (∀ c, name.getLast? = some c → ¬ Quote c) ∧
    (tail = [] ∨ ∃ c r, tail = c :: r ∧ PyStr.isSpace c = true)

/-- A character that ends a line. -/
def Break (c : Char) : Prop :=
  c = '\n' ∨ c = '\r' ∨ c.toNat ∈ [0x0b, 0x0c, 0x1c, 0x1d, 0x1e, 0x85, 0x2028, 0x2029]

/-- The lines of a text: a carriage return and line feed end one line, as does any other single break;
the text after the last break is a line unless it is empty. -/
inductive LinesOf : Str → List Str → Prop
  | nil : LinesOf [] []
  | last {s} : s ≠ [] → (∀ c ∈ s, ¬ Break c) → LinesOf s [s]
  | crlf {s rest ls} : (∀ c ∈ s, ¬ Break c) → LinesOf rest ls → LinesOf (s ++ '\r' :: '\n' :: rest) (s :: ls)
  | brk {s c rest ls} : (∀ c ∈ s, ¬ Break c) → Break c → ¬ (c = '\r' ∧ rest.head? = some '\n') →
      LinesOf rest ls → LinesOf (s ++ c :: rest) (s :: ls)

/-- `t` is `s` without trailing white space. -/
def Trimmed (s t : Str) : Prop :=
  ∃ sp, s = t ++ sp ∧ Blank sp ∧ ∀ c, t.getLast? = some c → PyStr.isSpace c = false

end Verif.Spec
