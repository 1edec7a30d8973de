import Verif.Model.Aclgenerator
import Verif.Spec.Policy

/-!
Specification for the generator base class.
-/

namespace Verif.Spec
open Verif

/-- `t` is `s` with the leftmost non-overlapping occurrences of `w` replaced by `a`. -/
inductive Replaced (w a : Str) : Str → Str → Prop
  | none {s} : ¬ w <:+: s → Replaced w a s s
  | some {s pre rest t} : s = pre ++ (w ++ rest) → (∀ p q, s = p ++ (w ++ q) → pre.length ≤ p.length) →
      Replaced w a rest t → Replaced w a s (pre ++ (a ++ t))

/-- `t` is `s` after the replacements of the table, in order. -/
inductive ReplacedAll : List (Str × Str) → Str → Str → Prop
  | nil {s} : ReplacedAll [] s s
  | cons {e tbl s m t} : Replaced e.1 e.2 s m → ReplacedAll tbl m t → ReplacedAll (e :: tbl) s t

/-- A keyword check must refuse the attribute: it has a value and is unknown to the generator, or one of
its words is. -/
def Refused (g : Aclgenerator.Tables) (el : String) (v : Aclgenerator.Val) : Prop :=
  (v.truthy = true ∧ el ∉ g.tokens ∧ ¬ (∃ r, el.toList = "flatten".toList ++ r)) ∨
  ∃ l ok, v = .words l ∧ g.subTokens.lookup el = some ok ∧ ".*" ∉ ok ∧ ∃ w ∈ l, w ∉ ok

/-- The term is rendered for the platform. -/
def Active (platform : String) (t : Aclgenerator.KTerm) : Prop :=
  (t.platform = [] ∨ platform ∈ t.platform) ∧ platform ∉ t.platformExclude

end Verif.Spec
