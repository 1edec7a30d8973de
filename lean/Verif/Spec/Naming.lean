import Verif.Spec.Net
import Verif.Model.PyStr

/-!
Specification of definition sets: what a token means, independently of how the code resolves it.
A definition set is a list of tokens with their items; an item is a value, optionally followed by a
comment.
-/

namespace Verif.Spec
open Verif

/-- A value: at least one character, no white space, no `#`. -/
def Word (v : Str) : Prop := v ≠ [] ∧ ∀ c ∈ v, PyStr.isSpace c = false ∧ c ≠ '#'

/-- The text `i` is the value `v`, alone or followed by ` # c`. -/
def IsItem (i v : Str) : Prop := Word v ∧ (i = v ∨ ∃ c, i = v ++ " # ".toList ++ c)

/-- All items of a definition set are values with optional comments. -/
def ItemsOk (d : List (Str × List Str)) : Prop := ∀ e ∈ d, ∀ i ∈ e.2, ∃ v, IsItem i v

/-- Token `t` is defined and has the value `v`. -/
def HasValue (d : List (Str × List Str)) (t v : Str) : Prop :=
  ∃ items i, d.lookup t = some items ∧ i ∈ items ∧ IsItem i v

/-- `u` is reached from `t` by zero or more nested references; `leaf v` tells which values are not
references. -/
inductive Reach (d : List (Str × List Str)) (leaf : Str → Prop) (t : Str) : Str → Prop
  | refl : Reach d leaf t t
  | step {u v : Str} : Reach d leaf t u → HasValue d u v → ¬ leaf v → Reach d leaf t v

/-- No infinite chain of references starts at `t`. -/
def NoCycle (d : List (Str × List Str)) (leaf : Str → Prop) (t : Str) : Prop :=
  Acc (fun v u => HasValue d u v ∧ ¬ leaf v) t

/-- Every token reached from `t` is defined. -/
def FullyDefined (d : List (Str × List Str)) (leaf : Str → Prop) (t : Str) : Prop :=
  ∀ u, Reach d leaf t u → (d.lookup u).isSome

/-- The address parser never accepts a text without a dot or colon. -/
def DotOrColon (ip : Str → Option Net) : Prop := ∀ v a, ip v = some a → '.' ∈ v ∨ ':' ∈ v

/-- `t` resolves to network `a`, which is an item of token `s`. -/
def NetOf (d : List (Str × List Str)) (ip : Str → Option Net) (t : Str) (a : Net) (s : Str) : Prop :=
  Reach d (fun v => (ip v).isSome) t s ∧ ∃ v, HasValue d s v ∧ ip v = some a

/-- `t` resolves to the port/protocol leaf `v` (a value with a slash). -/
def SvcOf (d : List (Str × List Str)) (t v : Str) : Prop :=
  ∃ s, Reach d (fun v => '/' ∈ v) t s ∧ HasValue d s v ∧ '/' ∈ v

end Verif.Spec

namespace Verif.Spec

/-- No infinite chain of references starts at `t`, apart from tokens that name themselves. -/
def NoCycle' (d : List (Str × List Str)) (leaf : Str → Prop) (t : Str) : Prop :=
  Acc (fun v u => HasValue d u v ∧ ¬ leaf v ∧ v ≠ u) t

end Verif.Spec

namespace Verif.Spec

/-- Only white space. -/
def Blank (s : Str) : Prop := ∀ c ∈ s, PyStr.isSpace c = true

/-- A text is a sequence of values separated by white space (each value is a `Word` without `=`). -/
inductive Vals : Str → List Str → Prop
  | nil {sp : Str} : Blank sp → Vals sp []
  | cons {sp v rest : Str} {vs : List Str} : Blank sp → Word v → '=' ∉ v →
      (rest = [] ∨ ∃ c r, rest = c :: r ∧ PyStr.isSpace c = true) → Vals rest vs →
      Vals (sp ++ (v ++ rest)) (v :: vs)

/-- A line of a definition file. -/
inductive Line where
  /-- blank line or comment line -/
  | blank
  /-- `name = values # comment` -/
  | define (name : Str) (vals : List Str) (comment : Str)
  /-- `values # comment`, at least one value -/
  | cont (vals : List Str) (comment : Str)

/-- A name: a `Word` without `=`. -/
def Name (n : Str) : Prop := Word n ∧ '=' ∉ n

/-- The optional comment of a line: nothing, or `#` followed by text that is not all white space
and does not end in white space. -/
def Tail (t c : Str) : Prop :=
  (t = [] ∧ c = []) ∨
    (t = '#' :: c ∧ c ≠ [] ∧ ∀ x, c.getLast? = some x → PyStr.isSpace x = false)

/-- The text `s` (without surrounding white space) reads as the line. -/
inductive IsLine : Str → Line → Prop
  | empty : IsLine [] .blank
  | comment {s : Str} : IsLine ('#' :: s) .blank
  | define {n sp body tail vs c} : Name n → Blank sp → Vals body vs → Tail tail c →
      IsLine (n ++ (sp ++ '=' :: (body ++ tail))) (.define n vs c)
  | cont {v rest tail vs c} : Word v → '=' ∉ v →
      (rest = [] ∨ ∃ c r, rest = c :: r ∧ PyStr.isSpace c = true) → Vals rest vs → Tail tail c →
      IsLine (v ++ (rest ++ tail)) (.cont (v :: vs) c)

/-- The item stored for a value. -/
def itemText (c v : Str) : Str := if c = [] then v else v ++ " # ".toList ++ c

/-- Add items to the last entry. -/
def extendLast (d : List (Str × List Str)) (new : List Str) : List (Str × List Str) :=
  match d.getLast? with
  | none => d
  | some e => d.dropLast ++ [(e.1, e.2 ++ new)]

/-- What a list of lines defines: each `define` starts an entry, each `cont` extends the last one. -/
def meaning : List (Str × List Str) → List Line → List (Str × List Str)
  | d, [] => d
  | d, .blank :: ls => meaning d ls
  | d, .define n vs c :: ls => meaning (d ++ [(n, vs.map (itemText c))]) ls
  | d, .cont vs c :: ls => meaning (extendLast d (vs.map (itemText c))) ls

/-- The names defined by a list of lines. -/
def lineNames : List Line → List Str
  | [] => []
  | .define n _ _ :: ls => n :: lineNames ls
  | _ :: ls => lineNames ls

end Verif.Spec

namespace Verif.Spec

/-- The line `l` is the text `s` with white space around it. -/
def Around (l s : Str) : Prop :=
  ∃ a b, Blank a ∧ Blank b ∧ l = a ++ (s ++ b) ∧ ∀ x, s.getLast? = some x → PyStr.isSpace x = false

/-- The lines of a file read as the given lines. -/
inductive IsFile : List Str → List Line → Prop
  | nil : IsFile [] []
  | cons {l s : Str} {k : Line} {ls : List Str} {ks : List Line} : Around l s → IsLine s k → IsFile ls ks →
      IsFile (l :: ls) (k :: ks)

end Verif.Spec

namespace Verif.Spec

/-- No token refers to itself through nested references. -/
def NoLoop (d : List (Str × List Str)) (leaf : Str → Prop) : Prop :=
  ∀ t v, HasValue d t v → ¬ leaf v → ¬ Reach d leaf v t

/-- `x` refers to `q`, directly or through nested references. -/
def Above (d : List (Str × List Str)) (leaf : Str → Prop) (q x : Str) : Prop :=
  ∃ s, HasValue d s q ∧ ¬ leaf q ∧ Reach d leaf x s

end Verif.Spec

namespace Verif.Spec

/-- The text starts with an ASCII letter. -/
def LetterFirst (v : Str) : Prop := ∃ c cs, v = c :: cs ∧ (('a' ≤ c ∧ c ≤ 'z') ∨ ('A' ≤ c ∧ c ≤ 'Z'))

/-- The text starts with an ASCII digit. -/
def DigitFirst (v : Str) : Prop := ∃ c cs, v = c :: cs ∧ '0' ≤ c ∧ c ≤ '9'

/-- The first line that is not blank starts a definition. -/
def StartsDef : List Line → Prop
  | [] => True
  | .blank :: ks => StartsDef ks
  | .define .. :: _ => True
  | .cont .. :: _ => False

end Verif.Spec

namespace Verif.Spec

/-- Leaves of network definitions: values that are addresses. -/
abbrev NetLeaf (ip : Str → Option Net) : Str → Prop := fun v => (ip v).isSome

/-- Leaves of service definitions: values with a slash. -/
abbrev SvcLeaf : Str → Prop := fun v => '/' ∈ v

/-- No leaves: every value counts as a reference. -/
abbrev AnyRef : Str → Prop := fun _ => False

/-- The list has exactly the networks that token `t` resolves to: same blocks, the defining token as
`token`, the query as `parent_token`. -/
def NetsExact (nets : List (Str × List Str)) (ip : Str → Option Net) (t : Str) (l : List Net) : Prop :=
  (∀ n ∈ l, ∃ a s, NetOf nets ip t a s ∧ block n = block a ∧ n.token = String.ofList s ∧
      n.parent = String.ofList t) ∧
  (∀ a s, NetOf nets ip t a s → ∃ n ∈ l, block n = block a ∧ n.token = String.ofList s ∧
      n.parent = String.ofList t)

/-- Token names start with a letter and are not addresses. -/
def TokenNames (nets : List (Str × List Str)) (ip : Str → Option Net) : Prop :=
  ∀ t ∈ nets.map Prod.fst, LetterFirst t ∧ ip t = none

/-- Addresses are written starting with a digit. -/
def DigitAddrs (nets : List (Str × List Str)) (ip : Str → Option Net) : Prop :=
  ∀ e ∈ nets, ∀ i ∈ e.2, ∀ v, IsItem i v → (ip v).isSome → DigitFirst v

/-- References to defined tokens carry no comment. -/
def BareRefs (g : List (Str × List Str)) : Prop :=
  ∀ e ∈ g, ∀ i ∈ e.2, ∀ v, IsItem i v → v ∈ g.map Prod.fst → i = v

/-- `v` reads `p/w`, possibly followed by more slashes. -/
def ProtoValue (v p w : Str) : Prop :=
  '/' ∉ p ∧ '/' ∉ w ∧ ∃ r, v = p ++ '/' :: (w ++ r) ∧ (r = [] ∨ ∃ r', r = '/' :: r')

end Verif.Spec
