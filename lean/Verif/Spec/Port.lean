import Verif.Spec.Naming

/-! Specification of integer texts and port/protocol values. -/

namespace Verif.Spec
open Verif

/-- `c` is one of the ten ASCII digits. -/
def Digit (c : Char) : Prop := 48 ≤ c.toNat ∧ c.toNat ≤ 57

/-- `s` is a decimal numeral, possibly with single underscores between digits, that continues the
number `acc` to `v`. -/
inductive NumFrom : Nat → Str → Nat → Prop
  | one {acc c} : Digit c → NumFrom acc [c] (10 * acc + (c.toNat - 48))
  | more {acc c s v} : Digit c → NumFrom (10 * acc + (c.toNat - 48)) s v → NumFrom acc (c :: s) v
  | under {acc c s v} : Digit c → NumFrom (10 * acc + (c.toNat - 48)) s v → NumFrom acc (c :: '_' :: s) v

/-- `s` is the Python integer literal text of `v`: white space, optional sign, numeral, white space. -/
def IntText (s : Str) (v : Int) : Prop :=
  ∃ a d b n, Blank a ∧ Blank b ∧ NumFrom 0 d n ∧
    ((s = a ++ (d ++ b) ∧ v = n) ∨ (s = a ++ ('+' :: d ++ b) ∧ v = n) ∨ (s = a ++ ('-' :: d ++ b) ∧ v = -(n : Int)))

/-- A plain decimal number. -/
def Dec (s : Str) (n : Nat) : Prop := NumFrom 0 s n ∧ '_' ∉ s

/-- The value `v` stands for the ports `lo` to `hi` of protocol `w`. -/
def PortValue (v : Str) (lo hi : Nat) (w : Str) : Prop :=
  '/' ∉ w ∧ ∃ p, v = p ++ '/' :: w ∧
    ((Dec p lo ∧ hi = lo) ∨ ∃ a b, p = a ++ '-' :: b ∧ Dec a lo ∧ Dec b hi)

/-- Values are references (no slash) or ports of a protocol. -/
def ServiceValues (d : List (Str × List Str)) : Prop :=
  ∀ t v, HasValue d t v → '/' ∈ v → ∃ lo hi w, PortValue v lo hi w

/-- The value covers port `n` of protocol `w`. -/
def Covers (v : Str) (n : Nat) (w : Str) : Prop := ∃ lo hi, PortValue v lo hi w ∧ lo ≤ n ∧ n ≤ hi

end Verif.Spec
