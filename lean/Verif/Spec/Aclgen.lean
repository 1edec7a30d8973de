import Verif.Model.Aclgen

/-!
Specification for aclgen: lines, tags, crashes.
-/

namespace Verif.Spec
open Verif

/-- The lines of a text: one more than line ends. -/
inductive Lines : Str → List Str → Prop
  | last {l} : '\n' ∉ l → Lines l [l]
  | more {l rest ls} : '\n' ∉ l → Lines rest ls → Lines (l ++ '\n' :: rest) (l :: ls)

/-- The line has a revision tag. -/
def HasTag (l : Str) : Prop :=
  ∃ t, (t = "$Id:" ∨ t = "$Date:" ∨ t = "$Revision:") ∧ ∃ a b, l = a ++ (t.toList ++ b)

/-- The lines without those with a tag. -/
inductive DropTagged : List Str → List Str → Prop
  | nil : DropTagged [] []
  | drop {l ls ks} : HasTag l → DropTagged ls ks → DropTagged (l :: ls) ks
  | keep {l ls ks} : ¬ HasTag l → DropTagged ls ks → DropTagged (l :: ls) (l :: ks)

/-- Two texts differ only in lines with tags. -/
def SameButTags (a b : Str) : Prop :=
  ∃ la lb ks, Lines a la ∧ Lines b lb ∧ DropTagged la ks ∧ DropTagged lb ks

/-- `b` is `a` with every line end of the form CR LF or CR read as LF. -/
inductive Newlines : Str → Str → Prop
  | nil : Newlines [] []
  | crlf {s t} : Newlines s t → Newlines ('\r' :: '\n' :: s) ('\n' :: t)
  | cr {s t} : s.head? ≠ some '\n' → Newlines s t → Newlines ('\r' :: s) ('\n' :: t)
  | char {c s t} : c ≠ '\r' → Newlines s t → Newlines (c :: s) (c :: t)

/-- The file has the content, up to tags and line ends. -/
def UpToDate (d : Aclgen.Disk) (p : Aclgen.Path) (t : Str) : Prop :=
  d p = some t ∨ ∃ old new, d p = some old ∧ Newlines old new ∧ SameButTags new t

/-- The disk after writing some of the entries, the last one perhaps only in part. -/
inductive Crash : Aclgen.Disk → List Aclgen.Entry → Aclgen.Disk → Prop
  | stop {d es} : Crash d es d
  | part {d p t es pre} : pre <+: t → Crash d ((p, t) :: es) (Aclgen.put d p pre)
  | next {d p t es d'} : Crash (Aclgen.put d p t) es d' → Crash d ((p, t) :: es) d'

/-- The value a list of settings gives to an option, later ones overriding earlier ones. -/
def lastSetting (k : String) : List (String × Option String) → Option (Option String)
  | [] => none
  | (k', v) :: rest => match lastSetting k rest with
    | some r => some r
    | none => if k' = k then some v else none

end Verif.Spec
