import Verif.Model.Descend

/-!
What is in a directory.
-/

namespace Verif.Spec.Descend
open Verif Verif.Descend

/-- The directory has a file with the relative path. -/
inductive HasFile : Dir → List Str → Prop
  | here {n r} : HasFile (.file n r) [n]
  | afterFile {n r p} : HasFile r p → HasFile (.file n r) p
  | down {n c r p} : HasFile c p → HasFile (.sub n c r) (n :: p)
  | afterSub {n c r p} : HasFile r p → HasFile (.sub n c r) p

/-- The names in a directory. -/
def names : Dir → List Str
  | .nil => []
  | .file n r => n :: names r
  | .sub n _ r => n :: names r

/-- No directory has two entries of the same name. -/
def Proper : Dir → Prop
  | .nil => True
  | .file n r => n ∉ names r ∧ Proper r
  | .sub n c r => n ∉ names r ∧ Proper c ∧ Proper r

/-- The path leads through the directory with the given parts. -/
def Through (i path : List Str) : Prop := ∃ a b, path = a ++ i ++ b

/-- A name of a policy file. -/
def PolName (n : Str) : Prop := ∃ r, n = r ++ ".pol".toList

end Verif.Spec.Descend
