/-!
Stable sorting, the model of Python's built-in `sorted`.

Python's `sorted(xs, key=k)` is specified as *the* stable sort by `k`; insertion
from the right (`isort`) computes that same list.
-/

namespace Verif

/-- Insert `x` before the first element that is not smaller than `x`.
Helper of `isort` (Python built-in `sorted`, used e.g. at capirca/lib/nacaddr.py:388). -/
def insertBy (le : α → α → Bool) (x : α) : List α → List α
  | [] => [x]
  | y :: ys => if le x y then x :: y :: ys else y :: insertBy le x ys

/-- Stable sort: model of Python's built-in `sorted`
(used at capirca/lib/nacaddr.py:253,388,393,434,435,450; policy.py:1608; ...). -/
def isort (le : α → α → Bool) : List α → List α
  | [] => []
  | x :: xs => insertBy le x (isort le xs)

end Verif
