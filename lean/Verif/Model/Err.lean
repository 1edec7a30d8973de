/-!
Python exceptions as values.
-/

namespace Verif

/-- Exceptions the modelled code can raise. Built-in Python exceptions have their own
constructor; exception classes defined by capirca are `raised "ClassName"`. `diverges` is the
outcome of a recursion that Python cannot finish (it ends in `RecursionError`). -/
inductive Err where
  | typeError
  | valueError
  | keyError
  | indexError
  | attributeError
  | diverges
  | raised (cls : String)
deriving DecidableEq, Repr

deriving instance DecidableEq for Except

end Verif
