import Verif.Spec.Port
import Verif.Model.Simple

/-!
Specification of the line-oriented policy format: which texts are policies, and what is in them.
-/

namespace Verif.Spec
namespace Simple
open Verif
open Verif.Simple (Field Block Member Val)

/-- `l` is `raw` without the white space around it. -/
def Trim (raw l : Str) : Prop :=
  ∃ a b, raw = a ++ (l ++ b) ∧ Blank a ∧ Blank b ∧ (∀ c, l.head? = some c → PyStr.isSpace c = false) ∧
    ∀ c, l.getLast? = some c → PyStr.isSpace c = false

/-- The lines of a text, without the white space around them. -/
inductive LinesAre : Str → List Str → Prop
  | last {raw l : Str} : '\n' ∉ raw → Trim raw l → LinesAre raw [l]
  | more {raw l text : Str} {ls : List Str} : '\n' ∉ raw → Trim raw l → LinesAre text ls → LinesAre (raw ++ '\n' :: text) (l :: ls)

/-- The words of a text. -/
inductive WordsAre : Str → List Str → Prop
  | nil {sp : Str} : Blank sp → WordsAre sp []
  | cons {sp w rest : Str} {ws : List Str} : Blank sp → w ≠ [] → (∀ c ∈ w, PyStr.isSpace c = false) →
      (rest = [] ∨ ∃ c r, rest = c :: r ∧ PyStr.isSpace c = true) → WordsAre rest ws → WordsAre (sp ++ (w ++ rest)) (w :: ws)

/-- Fields that refer to names of definitions. -/
def namingFields : List String :=
  ["address", "destination-address", "destination-exclude", "destination-port", "port", "source-address", "source-exclude", "source-port"]

/-- The other fields with a text, which may be anything. -/
def textFields : List String :=
  ["action", "comment", "counter", "decapsulate", "destination-interface", "destination-prefix", "destination-prefix-except",
   "destination-tag", "destination-zone", "dscp-match", "dscp-set", "encapsulate", "ether-type", "expiration", "forwarding-class",
   "forwarding-class-except", "fragment-offset", "icmp-code", "icmp-type", "logging", "loss-priority", "next-hop-group",
   "next-interface", "next-ip", "option", "owner", "packet-length", "pan-application", "platform", "platform-exclude", "policer",
   "port-mirror", "precedence", "protocol", "protocol-except", "qos", "routing-instance", "source-interface", "source-prefix",
   "source-prefix-except", "source-tag", "source-zone", "target", "traffic-class-count", "traffic-type", "verbatim",
   "versa-application", "vpn"]

/-- A name of definitions: upper case letters, digits, and some signs. -/
def NameOk (w : Str) : Prop := ∀ c ∈ w, c ∈ "-_.0123456789ABCDEFGHIJKLMNOPQRSTUVWXYZ".toList

/-- The names are the words of the text, each once and in order. -/
def NamesAre (text : Str) (ns : List Str) : Prop :=
  ∃ ws, WordsAre text ws ∧ (∀ w ∈ ws, NameOk w) ∧ (∀ n, n ∈ ns ↔ n ∈ ws) ∧ ns.Pairwise fun a b => PyStr.strLt a b = true

/-- The value of a field that is written as the text. -/
inductive ValueIs (name text : Str) : Val → Prop
  | naming {ns : List Str} : String.ofList name ∈ namingFields → NamesAre text ns → ValueIs name text (.names ns)
  | integer {i : Int} : String.ofList name = "timeout" → IntText text i → ValueIs name text (.text text)
  | text : String.ofList name ∈ textFields → ValueIs name text (.text text)

/-- `::` is in the text. -/
def Colons (s : Str) : Prop := ∃ a b, s = a ++ ':' :: ':' :: b

/-- A line with a field: the name, in letters of any case, the first `::`, and the value. -/
def FieldIs (l : Str) (f : Field) : Prop :=
  ∃ raw n v, l = raw ++ ':' :: ':' :: v ∧ ¬ Colons (raw ++ [':']) ∧ Trim raw n ∧ n.map Char.toLower = f.name ∧ ValueIs f.name v f.val

/-- A line without meaning inside of blocks. -/
def Ignored (l : Str) : Prop := l = [] ∨ l.head? = some '#'

/-- The field that is continued by a line. -/
inductive Extends (l : Str) : Field → Field → Prop
  | text {name s : Str} : Extends l ⟨name, .text s⟩ ⟨name, .text (s ++ '\n' :: l)⟩
  | names {name : Str} {ns new all : List Str} : NamesAre l new → (∀ n, n ∈ all ↔ n ∈ ns ∨ n ∈ new) →
      all.Pairwise (fun a b => PyStr.strLt a b = true) → Extends l ⟨name, .names ns⟩ ⟨name, .names all⟩

/-- What a line does with the fields of a block. -/
inductive Step : List Field → Str → List Field → Prop
  | skip {fs : List Field} {l : Str} : Ignored l → Step fs l fs
  | field {fs : List Field} {l : Str} {f : Field} : ¬ Ignored l → FieldIs l f → Step fs l (fs ++ [f])
  | more {fs : List Field} {l : Str} {f f' : Field} : ¬ Ignored l → ¬ Colons l → l.head? ≠ some '}' → Extends l f f' →
      Step (fs ++ [f]) l (fs ++ [f'])

/-- The lines of a block, after its fields so far. -/
inductive Body : List Field → List Str → List Field → Prop
  | nil {fs : List Field} : Body fs [] fs
  | cons {fs fs' fs'' : List Field} {l : Str} {ls : List Str} : Step fs l fs' → Body fs' ls fs'' → Body fs (l :: ls) fs''

/-- The line begins a header (`none`) or a term of a name. -/
def Opens (l : Str) (term : Option Str) : Prop :=
  (term = none ∧ ∃ r, l = "header {".toList ++ r ∨ l = "header{".toList ++ r) ∨
  ∃ name w n rest r, term = some name ∧ l = "term ".toList ++ r ∧ WordsAre l (w :: n :: rest) ∧ '{' ∉ name ∧
    ((∃ x, n = name ++ '{' :: x) ∨ (n = name ∧ ∃ x ws, rest = ('{' :: x) :: ws))

/-- The line ends a block. -/
def Closes (l : Str) : Prop := l.head? = some '}' ∧ ¬ Colons l

/-- The line includes another policy. -/
def IncludeIs (l ref : Str) : Prop :=
  (∃ r, l = "#include ".toList ++ r) ∧ ∃ w n rest, WordsAre l (w :: n :: rest) ∧ '#' ∉ ref ∧ (n = ref ∨ ∃ x, n = ref ++ '#' :: x)

/-- The lines, and the policy they are. -/
inductive Reads : List Str → List Member → Prop
  | nil : Reads [] []
  | blank {ls : List Str} {ms : List Member} : Reads ls ms → Reads ([] :: ls) (.blank :: ms)
  | comment {l : Str} {ls : List Str} {ms : List Member} : l.head? = some '#' → (∀ r, l ≠ "#include ".toList ++ r) → Reads ls ms →
      Reads (l :: ls) (.comment l :: ms)
  | incl {l ref : Str} {ls : List Str} {ms : List Member} : IncludeIs l ref → Reads ls ms → Reads (l :: ls) (.incl ref :: ms)
  | block {l c : Str} {term : Option Str} {body ls : List Str} {fs : List Field} {ms : List Member} : Opens l term → Body [] body fs →
      Closes c → Reads ls ms → Reads (l :: (body ++ c :: ls)) (.block ⟨term, fs⟩ :: ms)

/-- The length of names with blanks between them. -/
def width : List Str → Nat
  | [] => 0
  | [a] => a.length
  | a :: b :: l => a.length + 1 + width (b :: l)

/-- Names that are printed on one line, so that none is lost. -/
def Fits (l : List Str) : Prop := width l ≤ if l.length ≤ 1 then 60 else 61

/-- Lists that are related entry by entry. -/
inductive Each {α β : Type} (r : α → β → Prop) : List α → List β → Prop
  | nil : Each r [] []
  | cons {a : α} {b : β} {l : List α} {m : List β} : r a b → Each r l m → Each r (a :: l) (b :: m)

/-- The same field, or a field with some of the names. -/
inductive LessField : Field → Field → Prop
  | same {f : Field} : LessField f f
  | names {name : Str} {l m : List Str} : l.Sublist m → LessField ⟨name, .names l⟩ ⟨name, .names m⟩

/-- The same member, or a block with some of the names in its fields. -/
inductive LessMember : Member → Member → Prop
  | same {m : Member} : LessMember m m
  | block {term : Option Str} {fs gs : List Field} : Each LessField fs gs → LessMember (.block ⟨term, fs⟩) (.block ⟨term, gs⟩)

end Simple
end Verif.Spec
