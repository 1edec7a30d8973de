import Verif.Model.Versa

/-!
How a device reads the text of a configuration: words, statements that end with a semicolon, and blocks in braces. Comments go from `/*` to
the next `*/`; what is between double quotes is one word.
-/

namespace Verif.Spec.VersaText
open Verif Verif.Versa

/-! ### words -/

/-- What the text is made of. -/
inductive Tok where
  | word (s : Str)
  | opn
  | cls
  | semi

/-- Where the reader is: outside with the begin of a word, in quotes with the begin of a word, in a comment. -/
inductive Mode where
  | out (w : Str)
  | quote (w : Str)
  | comment

/-- The end of a word. -/
def flush (w : Str) : List Tok := if w = [] then [] else [.word w]

/-- White space. -/
def Gap (c : Char) : Prop := c = ' ' ∨ c = '\n' ∨ c = '\t' ∨ c = '\r'

instance (c : Char) : Decidable (Gap c) := inferInstanceAs (Decidable (_ ∨ _))

/-- The reader. -/
def lex : Mode → Str → List Tok
  | .comment, '*' :: '/' :: s => lex (.out []) s
  | .comment, _ :: s => lex .comment s
  | .comment, [] => []
  | .quote w, c :: s => if c = '"' then .word w :: lex (.out []) s else lex (.quote (w ++ [c])) s
  | .quote _, [] => []
  | .out w, '/' :: '*' :: s => flush w ++ lex .comment s
  | .out w, c :: s =>
    if c = '"' then flush w ++ lex (.quote []) s
    else if c = '{' then flush w ++ .opn :: lex (.out []) s
    else if c = '}' then flush w ++ .cls :: lex (.out []) s
    else if c = ';' then flush w ++ .semi :: lex (.out []) s
    else if Gap c then flush w ++ lex (.out []) s
    else lex (.out (w ++ [c])) s
  | .out w, [] => flush w

/-! ### statements and blocks -/

/-- A statement, or a block with its head. -/
inductive Item where
  | stmt (words : List Str)
  | block (head : List Str) (inner : List Item)

/-- Reads the words; the open blocks with what came before them, what the innermost has so far, and the words since. -/
def parse : List (List Str × List Item) → List Item → List Str → List Tok → Option (List Item)
  | [], cur, [], [] => some cur
  | _, _, _, [] => none
  | st, cur, ws, .word w :: ts => parse st cur (ws ++ [w]) ts
  | st, cur, ws, .semi :: ts => parse st (cur ++ [.stmt ws]) [] ts
  | st, cur, ws, .opn :: ts => parse ((ws, cur) :: st) [] [] ts
  | (h, before) :: st, cur, [], .cls :: ts => parse st (before ++ [.block h cur]) [] ts
  | _, _, _, .cls :: _ => none

/-- What the device reads. -/
def reads (s : Str) : Option (List Item) := parse [] [] [] (lex (.out []) s)

/-! ### the configuration -/

/-- A list in brackets. -/
def bracket (key : String) (l : List Str) : Item := .stmt (key.toList :: ['['] :: l ++ [[']']])

/-- A block with one word. -/
def section_ (name : String) (inner : List Item) : Item := .block [name.toList] inner

/-- A side of a rule. -/
def sideItem (kind : String) (s : Side) : Item :=
  section_ kind [section_ "zone" (bracket "zone-list" (s.zones.map String.toList) ::
    match s.group with
    | none => []
    | some g => [section_ "address" (bracket "address-group-list" [g] :: if s.negate then [.stmt ["negate".toList]] else [])])]

/-- The services of a rule. -/
def appItems (r : VRule) : List Item :=
  if r.services = [] ∧ r.predefined = [] then []
  else [section_ "services" ((if r.services = [] then [] else [bracket "services-list" r.services]) ++
    if r.predefined = [] then [] else [bracket "predefined-services-list" (r.predefined.map String.toList)])]

/-- What a rule does. -/
def setItems (r : VRule) : List Item :=
  match r.act with
  | none => []
  | some (a, e) => [section_ "set" [.stmt ["action".toList, a.toList], section_ "lef" [.stmt ["event".toList, e.toList]]]]

/-- A rule. -/
def ruleItem (r : VRule) : Item :=
  .block ["access-policy".toList, r.name] (section_ "match"
    (r.src.toList.map (sideItem "source") ++ r.dst.toList.map (sideItem "destination") ++ appItems r ++
      if r.dscp = [] then [] else [bracket "dscp" (r.dscp.map String.toList)]) :: setItems r)

/-- Ports in the text of a service. -/
def portList (l : List Policy.PortRange) : Str :=
  [',', ' '].intercalate (l.map fun r =>
    if r.1 = r.2 then (toString r.1).toList else (toString r.1).toList ++ ['-'] ++ (toString r.2).toList)

/-- A service. -/
def serviceItem (s : Service) : Item :=
  .block ["service".toList, s.name] (.stmt ("protocol".toList :: if s.proto = [] then [] else [s.proto]) ::
    ((if s.sport = [] then [] else [.stmt ["source-port".toList, portList s.sport]]) ++
      if s.dport = [] then [] else [.stmt ["destination-port".toList, portList s.dport]]))

/-- Addresses, groups and services. -/
def objectItems (text : Net → Str) (o : Output) : List Item :=
  if o.groups = [] then []
  else [section_ "objects" ([
    section_ "addresses" (o.addresses.map fun e => .block ["address".toList, e.1]
      [.stmt [if e.2.ver = .v6 then "ipv6-prefix".toList else "ipv4-prefix".toList, text e.2]]),
    section_ "address-groups" (o.groups.map fun g => .block ["group".toList, g.1] [bracket "address-list" g.2])] ++
    if o.services = [] then [] else [section_ "services" (o.services.map serviceItem)])]

/-- The configuration that says what the output says. -/
def config (text : Net → Str) (o : Output) : List Item :=
  [section_ "devices" [.block ["template".toList, o.names.template.toList] [section_ "config" [section_ "orgs"
    [.block ["org-services".toList, o.names.tenant.toList] (section_ "security" [section_ "access-policies"
      [.block ["access-policy-group".toList, o.names.policy.toList] [section_ "rules" (o.rules.map ruleItem)]]] :: objectItems text o)]]]]]

/-! ### texts without surprises -/

/-- A word that is read as it is. -/
def Plain (w : Str) : Prop :=
  w ≠ [] ∧ (∀ c ∈ w, c ≠ '"' ∧ c ≠ '{' ∧ c ≠ '}' ∧ c ≠ ';' ∧ ¬ Gap c) ∧ ¬ ['/', '*'] <:+: w

/-- A text that does not end the comment that it is in. -/
def Quiet (s : Str) : Prop := ¬ ['*', '/'] <:+: s

/-- All words of a side are plain. -/
def PlainSide (s : Side) : Prop := (∀ z ∈ s.zones, Plain z.toList) ∧ ∀ g, s.group = some g → Plain g

/-- All words of a rule are plain. -/
structure PlainRule (r : VRule) : Prop where
  name : Plain r.name
  src : ∀ s, r.src = some s → PlainSide s
  dst : ∀ s, r.dst = some s → PlainSide s
  services : ∀ s ∈ r.services, Plain s
  predefined : ∀ s ∈ r.predefined, Plain s.toList
  dscp : ∀ s ∈ r.dscp, Plain s.toList
  act : ∀ a, r.act = some a → Plain a.1.toList ∧ Plain a.2.toList

/-- All words of the output are plain. -/
structure PlainOutput (text : Net → Str) (o : Output) : Prop where
  names : Plain o.names.template.toList ∧ Plain o.names.tenant.toList ∧ Plain o.names.policy.toList
  rules : ∀ r ∈ o.rules, PlainRule r
  addresses : ∀ e ∈ o.addresses, Plain e.1 ∧ Plain (text e.2)
  groups : ∀ g ∈ o.groups, Plain g.1 ∧ ∀ m ∈ g.2, Plain m
  services : ∀ s ∈ o.services, Plain s.name ∧ (s.proto ≠ [] → Plain s.proto)

end Verif.Spec.VersaText
