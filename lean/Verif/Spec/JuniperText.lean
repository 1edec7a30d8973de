import Verif.Model.JuniperText
import Verif.Spec.VersaText

/-!
What the text of a Juniper filter should say: the statements and blocks that a device reads (`VersaText.reads`: words,
statements, blocks, comments and quotes).
-/

namespace Verif.Spec.JunosText
open Verif Verif.Juniper Verif.Summarizer
open Verif.Spec.VersaText (Item Plain Quiet)

/-- The words of a text with single spaces between them. -/
def wordsIn : Str → List Str
  | [] => [[]]
  | c :: s =>
    if c = ' ' then [] :: wordsIn s
    else match wordsIn s with
      | w :: ws => (c :: w) :: ws
      | [] => [[c]]

/-- A decimal number. -/
def dec (n : Nat) : Str := (toString n).toList

/-- A mask: dotted or as a length. -/
def maskWord : MaskText → Str
  | .quad a b c d => ['.'].intercalate [dec a, dec b, dec c, dec d]
  | .plen n => dec n

/-- The words of one piece of a statement: a text in double quotes is one word. -/
def tokWords (text : Ver → Nat → Nat → Str) : Juniper.Tok → List Str
  | .w s => if s.toList.head? = some '"' then [(s.toList.drop 1).dropLast] else wordsIn s.toList
  | .num n => [dec n]
  | .range a b => [dec a ++ ['-'] ++ dec b]
  | .pfx v a p => [text v a p]
  | .masked a m => [maskWord a ++ ['/'] ++ maskWord m]

/-- A statement. -/
def stmtItem (text : Ver → Nat → Nat → Str) (ws : List Juniper.Tok) : Item := .stmt (ws.flatMap (tokWords text))

/-- A condition. -/
def condItem (text : Ver → Nat → Nat → Str) : Cond → Item
  | .leaf ws => stmtItem text ws
  | .block hd ls => .block [hd.toList] (ls.map (stmtItem text))

/-- The actions. -/
def actItems (text : Ver → Nat → Nat → Str) : Option (Bool × List (List Juniper.Tok)) → List Item
  | none => []
  | some (false, ls) => ls.map fun ws => .stmt ("then".toList :: ws.flatMap (tokWords text))
  | some (true, ls) => [.block ["then".toList] (ls.map (stmtItem text))]

/-- What is in a term. -/
def bodyItems (text : Ver → Nat → Nat → Str) (filterName : Str) : Body → List Item
  | .filter => [.stmt ["filter".toList, filterName]]
  | .normal none acts => actItems text acts
  | .normal (some cs) acts => .block ["from".toList] (cs.map (condItem text)) :: actItems text acts

/-- A term; verbatim terms are not read. -/
def termItems (text : Ver → Nat → Nat → Str) (x : TermText) : List Item :=
  match x.out with
  | .verbatim _ => []
  | .term inactive name body =>
    [.block ((if inactive then ["inactive:".toList] else []) ++ ["term".toList, name]) (bodyItems text x.filterName body)]

/-- A filter. -/
def filterItem (text : Ver → Nat → Nat → Str) (f : FilterText) : Item :=
  .block ["firewall".toList] [.block ["family".toList, f.family] [.block ["replace:".toList, "filter".toList, f.name]
    ((if f.interfaceSpecific then [.stmt ["interface-specific".toList]] else []) ++
      ((if f.enhanced then [.stmt ["enhanced-mode".toList]] else []) ++ f.terms.flatMap (termItems text)))]]

/-! ### texts without surprises -/

/-- A word without white space, quotes, braces, semicolons and marks of comments. -/
def Tidy (w : Str) : Prop := Plain w ∧ ∀ c ∈ w, PyStr.isSpace c = false

/-- A text of words with single spaces between them, or one text in double quotes. -/
def Neat (s : Str) : Prop :=
  (∃ w, '"' ∉ w ∧ s = '"' :: (w ++ ['"'])) ∨ (s.head? ≠ some '"' ∧ ∀ w ∈ wordsIn s, Tidy w)

/-- A statement has words, and all are neat. -/
def NeatStmt (text : Ver → Nat → Nat → Str) (ws : List Juniper.Tok) : Prop :=
  ws ≠ [] ∧ ∀ t ∈ ws, match t with
    | .w s => Neat s.toList
    | .pfx v a p => Tidy (text v a p)
    | _ => True

/-- All statements of a condition are neat. -/
def NeatCond (text : Ver → Nat → Nat → Str) : Cond → Prop
  | .leaf ws => NeatStmt text ws
  | .block hd ls => Tidy hd.toList ∧ ∀ ws ∈ ls, NeatStmt text ws

/-- All statements of a term are neat. -/
def NeatBody (text : Ver → Nat → Nat → Str) (filterName : Str) : Body → Prop
  | .filter => Tidy filterName
  | .normal cs acts => (∀ l, cs = some l → ∀ c ∈ l, NeatCond text c) ∧
      ∀ b l, acts = some (b, l) → ∀ ws ∈ l, NeatStmt text ws

/-- A term that is not verbatim, with neat words and without the end of a comment in its comments. -/
def NeatTerm (text : Ver → Nat → Nat → Str) (x : TermText) : Prop :=
  (∀ c ∈ x.comments, Quiet c) ∧ (∀ o, x.owner = some o → Quiet o) ∧
  ∃ inactive name body, x.out = .term inactive name body ∧ Tidy name ∧ NeatBody text x.filterName body

/-- A filter with neat terms. -/
def NeatFilter (text : Ver → Nat → Nat → Str) (f : FilterText) : Prop :=
  Tidy f.family ∧ Tidy f.name ∧ (∀ c ∈ f.comments, Quiet c) ∧ ∀ x ∈ f.terms, NeatTerm text x

/-- A term of a policy whose words are without white space, quotes, braces, semicolons and marks of comments. The policy
parser knows no values of `action` and `logging` with the names `encapsulate` and `decapsulate`. -/
structure Calm (j : JTerm) : Prop where
  name : Tidy j.term.name
  words : ∀ l ∈ [j.term.forwardingClass, j.term.forwardingClassExcept, j.term.sourcePrefix, j.term.sourcePrefixExcept,
    j.term.destinationPrefix, j.term.destinationPrefixExcept, j.term.etherType, j.term.protocol, j.term.protocolExcept,
    j.term.trafficType, j.term.precedence, j.term.dscpMatch, j.term.dscpExcept, j.term.option], ∀ s ∈ l, Tidy s.toList
  flexible : ∀ s ∈ j.term.flexibleMatchRange, s.toList.head? ≠ some '"' ∧ ∀ w ∈ wordsIn s.toList, Tidy w
  args : ∀ s ∈ [j.routing, j.counter, j.policer, j.qos, j.lossPriority, j.dscpSet, j.trafficClassCount, j.encapsulate,
    j.decapsulate], s = "" ∨ Tidy s.toList
  actions : ∀ a ∈ j.term.action ++ j.term.logging, a ≠ "encapsulate" ∧ a ≠ "decapsulate"
  own : j.term.verbatim = []

end Verif.Spec.JunosText
