import Verif.Model.Net

/-!
Python `str` operations used by the modelled code, on lists of characters.
-/

namespace Verif
namespace PyStr

/-- `str.isspace` for one character (Unicode `White_Space` plus `\x1c`-`\x1f`, as in CPython), used
by `str.strip()` and `str.split()` (e.g. capirca/lib/naming.py:178, 584, 632). -/
def isSpace (c : Char) : Bool :=
  let n := c.toNat
  (9 ≤ n && n ≤ 13) || (28 ≤ n && n ≤ 32) || n == 0x85 || n == 0xa0 || n == 0x1680 ||
  (0x2000 ≤ n && n ≤ 0x200a) || n == 0x2028 || n == 0x2029 || n == 0x202f || n == 0x205f || n == 0x3000

/-- `s.lstrip()`; used at capirca/lib/naming.py:491. -/
def lstrip (s : Str) : Str := s.dropWhile isSpace

/-- `s.rstrip()`; half of `strip` (capirca/lib/naming.py:584). -/
def rstrip (s : Str) : Str := (s.reverse.dropWhile isSpace).reverse

/-- `s.strip()`; capirca/lib/naming.py:584 etc. -/
def strip (s : Str) : Str := rstrip (lstrip s)

/-- Worker of `s.split()` (capirca/lib/naming.py:632): `acc` is the current word, reversed. -/
def wordsAux : Str → Str → List Str
  | acc, [] => if acc.isEmpty then [] else [acc.reverse]
  | acc, c :: cs =>
    if isSpace c then (if acc.isEmpty then wordsAux [] cs else acc.reverse :: wordsAux [] cs)
    else wordsAux (c :: acc) cs

/-- `s.split()`: the maximal runs of non-whitespace; capirca/lib/naming.py:334, 599, 632. -/
def words (s : Str) : List Str := wordsAux [] s

/-- `s.split(c)[0]`: everything before the first `c`; capirca/lib/naming.py:178 etc. -/
def before (c : Char) (s : Str) : Str := s.takeWhile (· != c)

/-- `s.split(c, 1)[1]`: everything after the first `c`; capirca/lib/naming.py:480, 589. -/
def after (c : Char) (s : Str) : Str := (s.dropWhile (· != c)).drop 1

/-- `s.split(c)` for a one-character separator; capirca/lib/naming.py:590, 434. Never empty. -/
def splitOn (c : Char) : Str → List Str
  | [] => [[]]
  | d :: ds =>
    if d == c then [] :: splitOn c ds
    else match splitOn c ds with
      | [] => [[d]]
      | w :: ws => (d :: w) :: ws

/-- ASCII digit, as in `\d` (capirca/lib/naming.py:132) and `isdigit` (:172). -/
def isDigit (c : Char) : Bool := '0' ≤ c && c ≤ '9'

/-- ASCII letter, as in `isalpha` (capirca/lib/naming.py:193). -/
def isAlphaA (c : Char) : Bool := ('a' ≤ c && c ≤ 'z') || ('A' ≤ c && c ≤ 'Z')

/-- `str.upper()`, simplified to ASCII letters; capirca/lib/naming.py:424, 435. -/
def upper (s : Str) : Str := s.map Char.toUpper

/-- Value of a non-empty string of ASCII digits, for `int` (capirca/lib/port.py:168). -/
def digitsVal (s : Str) : Nat := s.foldl (fun n c => 10 * n + (c.toNat - 48)) 0

/-- Digits with single underscores between them, as `int()` (capirca/lib/port.py:168) accepts. -/
def digitsOk : Str → Bool
  | [] => false
  | [c] => isDigit c
  | c :: '_' :: cs => isDigit c && digitsOk cs
  | c :: cs => isDigit c && digitsOk cs

/-- `int(s)` for a string: surrounding whitespace, an optional sign, decimal digits with single
underscores between them; `none` is `ValueError`. Simplified: non-ASCII decimal digits are rejected
(Python accepts them). Used at capirca/lib/port.py:83, 92, 100, 168; capirca/lib/policy.py:146-182. -/
def pyInt (s : Str) : Option Int :=
  match strip s with
  | '-' :: ds => if digitsOk ds then some (-(digitsVal (ds.filter (· != '_')) : Int)) else none
  | '+' :: ds => if digitsOk ds then some (digitsVal (ds.filter (· != '_')) : Int) else none
  | ds => if digitsOk ds then some (digitsVal (ds.filter (· != '_')) : Int) else none

/-- `a < b` for Python strings: lexicographic by code point (`sorted`, capirca/lib/naming.py:355). -/
def strLt : Str → Str → Bool
  | [], [] => false
  | [], _ :: _ => true
  | _ :: _, [] => false
  | a :: as, b :: bs => decide (a.toNat < b.toNat) || (a == b && strLt as bs)

/-- `sorted(set(l))` for a list of strings: duplicates removed, ascending;
capirca/lib/naming.py:211, 355, 408, 437. -/
def sortedSet (l : List Str) : List Str := isort (fun a b => !strLt b a) l.eraseDups

end PyStr
end Verif
