import Verif.Model.PyStr
import Verif.Model.Err
import Verif.Model.Aclgenerator

/-!
Model of capirca/lib/policy_simple.py: the line-oriented parser of policies, printing, and what is asked of a policy.

The class of a field is represented by its key in `field_map`, which is one to one. A set of names is represented by the list of its
members in ascending order. `str.lower`, `str.isdigit` and `str.isupper` are the ASCII ones. Log messages are left out.
-/

namespace Verif
namespace Simple
open PyStr
open Aclgenerator (joinBlank)

/-! ### fields -/

/-- What a class of fields inherits from: `Field`, `Comment`, `IntegerField` or `NamingField`; capirca/lib/policy_simple.py:28-334. -/
inductive Kind where
  | plain
  | comment
  | integer
  | naming
deriving DecidableEq, Repr

/-- `field_map`; capirca/lib/policy_simple.py:346-404. -/
def fieldMap : List (Str × Kind) :=
  [("action".toList, .plain), ("address".toList, .naming), ("comment".toList, .comment), ("counter".toList, .plain),
   ("destination-address".toList, .naming), ("destination-exclude".toList, .naming), ("destination-interface".toList, .plain),
   ("destination-port".toList, .naming), ("destination-prefix".toList, .plain), ("destination-prefix-except".toList, .plain),
   ("destination-tag".toList, .plain), ("destination-zone".toList, .plain), ("dscp-match".toList, .plain), ("dscp-set".toList, .plain),
   ("ether-type".toList, .plain), ("expiration".toList, .plain), ("fragment-offset".toList, .plain), ("forwarding-class".toList, .plain),
   ("forwarding-class-except".toList, .plain), ("icmp-code".toList, .plain), ("icmp-type".toList, .plain), ("logging".toList, .plain),
   ("loss-priority".toList, .plain), ("option".toList, .plain), ("owner".toList, .plain), ("next-ip".toList, .plain),
   ("next-hop-group".toList, .plain), ("next-interface".toList, .plain), ("packet-length".toList, .plain), ("platform".toList, .plain),
   ("platform-exclude".toList, .plain), ("policer".toList, .plain), ("port".toList, .naming), ("port-mirror".toList, .plain),
   ("precedence".toList, .plain), ("protocol".toList, .plain), ("protocol-except".toList, .plain), ("qos".toList, .plain),
   ("pan-application".toList, .plain), ("routing-instance".toList, .plain), ("source-address".toList, .naming),
   ("source-exclude".toList, .naming), ("source-interface".toList, .plain), ("source-port".toList, .naming),
   ("source-prefix".toList, .plain), ("source-prefix-except".toList, .plain), ("source-tag".toList, .plain), ("source-zone".toList, .plain),
   ("target".toList, .plain), ("timeout".toList, .integer), ("traffic-class-count".toList, .plain), ("traffic-type".toList, .plain),
   ("verbatim".toList, .plain), ("versa-application".toList, .plain), ("vpn".toList, .plain), ("encapsulate".toList, .plain),
   ("decapsulate".toList, .plain)]

/-- The value of a field: a text or a set of names; capirca/lib/policy_simple.py:31-32, 72-74. -/
inductive Val where
  | text (s : Str)
  | names (l : List Str)
deriving DecidableEq, Repr

/-- A field; capirca/lib/policy_simple.py:28-32. -/
structure Field where
  name : Str
  val : Val
deriving DecidableEq, Repr

/-- `c in '-_.' or c.isdigit() or c.isupper()`; capirca/lib/policy_simple.py:83-87. -/
def nameChar (c : Char) : Bool := c == '-' || c == '_' || c == '.' || isDigit c || ('A' ≤ c && c ≤ 'Z')

/-- `ParseString`; capirca/lib/policy_simple.py:76-87. -/
def parseNames (value : Str) : Except Err (List Str) :=
  if (words value).all fun w => w.all nameChar then .ok (sortedSet (words value)) else .error .valueError

/-- A field of a class; capirca/lib/policy_simple.py:31-32, 61-66, 72-74. -/
def newField (name : Str) (kind : Kind) (value : Str) : Except Err Field :=
  match kind with
  | .naming => do
    let l ← parseNames value
    .ok ⟨name, .names l⟩
  | .integer => if (pyInt value).isSome then .ok ⟨name, .text value⟩ else .error .valueError
  | _ => .ok ⟨name, .text value⟩

/-- `Append('\n' + line)`; capirca/lib/policy_simple.py:52-53, 89-92, 770. -/
def append (f : Field) (line : Str) : Except Err Field :=
  match f.val with
  | .text s => .ok { f with val := .text (s ++ '\n' :: line) }
  | .names l => do
    let m ← parseNames ('\n' :: line)
    .ok { f with val := .names (sortedSet (l ++ m)) }

/-! ### printing -/

/-- The loop of `NamingField.ValueStr`, for what is left, `length`, `line_buf` and `value_buf`: a name that does not fit ends the line,
and is dropped; capirca/lib/policy_simple.py:96-111. -/
def wrap : List Str → Nat → List Str → List Str → List Str
  | [], _, line, buf => if line.isEmpty then buf else buf ++ [joinBlank line]
  | v :: vs, n, line, buf =>
    if n + v.length > 60 then wrap vs 0 [] (buf ++ [joinBlank line])
    else wrap vs ((if line.isEmpty then n else n + 1) + v.length) (line ++ [v]) buf

/-- `'\n'.join(l)`; capirca/lib/policy_simple.py:112. -/
def joinLines : List Str → Str
  | [] => []
  | [a] => a
  | a :: b :: l => a ++ '\n' :: joinLines (b :: l)

/-- `s.replace('\n', '\n' + ' ' * n)`; capirca/lib/policy_simple.py:42, 134. -/
def indent (n : Nat) (s : Str) : Str := s.flatMap fun c => if c = '\n' then '\n' :: List.replicate n ' ' else [c]

/-- `ValueStr`; capirca/lib/policy_simple.py:55-56, 94-112, 131-134. -/
def valueStr (f : Field) : Str :=
  match f.val with
  | .names l => ' ' :: joinLines (wrap (isort (fun a b => !strLt b a) l) 0 [] [])
  | .text s => if f.name == "comment".toList then indent 1 s else s

/-- `Field.__str__`; capirca/lib/policy_simple.py:34-42. -/
def fieldStr (f : Field) : Str := f.name ++ "::".toList ++ indent (f.name.length + 5) (valueStr f)

/-- A block: a header, or a term with its name; capirca/lib/policy_simple.py:407-411, 470-482. -/
structure Block where
  term : Option Str
  fields : List Field := []
deriving DecidableEq, Repr

/-- A member of a policy; capirca/lib/policy_simple.py:589-643. -/
inductive Member where
  | blank
  | comment (line : Str)
  | incl (ref : Str)
  | block (b : Block)
deriving DecidableEq, Repr

/-- `Block.__str__`; capirca/lib/policy_simple.py:419-434. -/
def blockStr (b : Block) : Str :=
  (match b.term with
    | none => "header ".toList
    | some n => "term ".toList ++ (if n.isEmpty then [] else n ++ [' '])) ++ "{\n".toList ++
  (b.fields.flatMap fun f => "  ".toList ++ fieldStr f ++ ['\n']) ++ "}\n".toList

/-- `__str__` of members; capirca/lib/policy_simple.py:592-593, 608-609, 626-627. -/
def memberStr : Member → Str
  | .blank => ['\n']
  | .comment l => l ++ ['\n']
  | .incl r => "#include ".toList ++ r
  | .block b => blockStr b

/-- `Policy.__str__`; capirca/lib/policy_simple.py:653-654. -/
def policyStr (ms : List Member) : Str := ms.flatMap memberStr

/-! ### parsing -/

/-- `line.split('::', 1)`; `none` if there is no `::`; capirca/lib/policy_simple.py:762, 774. -/
def cut : Str → Option (Str × Str)
  | [] => none
  | c :: cs =>
    if c = ':' ∧ cs.head? = some ':' then some ([], cs.tail)
    else (cut cs).map fun x => (c :: x.1, x.2)

/-- `ParseIncludeLine`; capirca/lib/policy_simple.py:724-734. -/
def parseInclude (line : Str) : Except Err Member :=
  match words line with
  | _ :: r :: _ => .ok (.incl (before '#' r))
  | _ => .error .valueError

/-- `ParseTermLine`; capirca/lib/policy_simple.py:742-756. -/
def parseTerm (line : Str) : Except Err Block :=
  match words line with
  | _ :: n :: rest =>
    if n.contains '{' then .ok { term := some (before '{' n) }
    else
      match rest with
      | [] => .error .indexError
      | r :: _ => if r.head? = some '{' then .ok { term := some n } else .error .valueError
  | _ => .error .indexError

/-- `ParseTopLevel`: a member, or a block that is begun; capirca/lib/policy_simple.py:699-722, 736-740. -/
def topLevel (line : Str) : Except Err (Member ⊕ Block) :=
  if line.isEmpty then .ok (.inl .blank)
  else if "#".toList.isPrefixOf line then
    if "#include ".toList.isPrefixOf line then do
      let m ← parseInclude line
      .ok (.inl m)
    else .ok (.inl (.comment line))
  else if "header {".toList.isPrefixOf line || "header{".toList.isPrefixOf line then .ok (.inr { term := none })
  else if "term ".toList.isPrefixOf line then do
    let b ← parseTerm line
    .ok (.inr b)
  else .error .valueError

/-- `ParseField`; capirca/lib/policy_simple.py:772-779. -/
def parseField (name value : Str) : Except Err Field :=
  let n := (strip name).map Char.toLower
  match fieldMap.lookup n with
  | none => .error .valueError
  | some k => newField n k value

/-- `ParseInBlock`: the block with more, or `none` if it is closed; capirca/lib/policy_simple.py:757-770. -/
def inBlock (b : Block) (line : Str) : Except Err (Option Block) :=
  if line.isEmpty || "#".toList.isPrefixOf line then .ok (some b)
  else
    match cut line with
    | some (name, value) => do
      let f ← parseField name value
      .ok (some { b with fields := b.fields ++ [f] })
    | none =>
      if "}".toList.isPrefixOf line then .ok none
      else
        match b.fields.getLast? with
        | none => .error .indexError
        | some f => do
          let f' ← append f line
          .ok (some { b with fields := b.fields.dropLast ++ [f'] })

/-- The loop of `Parse` over the lines, with the block in progress; capirca/lib/policy_simple.py:685-697. -/
def parseLines : Option Block → List Str → Except Err (List Member)
  | none, [] => .ok []
  | some _, [] => .error .valueError
  | none, l :: ls => do
    let x ← topLevel l
    match x with
    | .inl m => do
      let ms ← parseLines none ls
      .ok (m :: ms)
    | .inr b => parseLines (some b) ls
  | some b, l :: ls => do
    let x ← inBlock b l
    match x with
    | some b' => parseLines (some b') ls
    | none => do
      let ms ← parseLines none ls
      .ok (.block b :: ms)

/-- `PolicyParser.Parse`; capirca/lib/policy_simple.py:685-697. -/
def parse (data : Str) : Except Err (List Member) := parseLines none ((splitOn '\n' data).map strip)

/-! ### questions -/

/-- `Block.Match`; capirca/lib/policy_simple.py:446-450. -/
def matchFields (b : Block) (fn : Field → Bool) : List (Nat × Field) := (b.fields.zipIdx.filter fun e => fn e.1).map fun e => (e.2, e.1)

/-- `Policy.Match`; capirca/lib/policy_simple.py:662-666. -/
def matchMembers (ms : List Member) (fn : Member → Bool) : List (Nat × Member) := (ms.zipIdx.filter fun e => fn e.1).map fun e => (e.2, e.1)

/-- `Policy.MatchFields`; capirca/lib/policy_simple.py:668-673. -/
def matchBoth (ms : List Member) (bfn : Member → Bool) (ffn : Field → Bool) : List (Nat × Nat × Field) :=
  (matchMembers ms bfn).flatMap fun e =>
    match e.2 with
    | .block b => (matchFields b ffn).map fun x => (e.1, x.1, x.2)
    | _ => []

/-- `FieldsWithType` for a class without subclasses; capirca/lib/policy_simple.py:441-444. -/
def withType (b : Block) (name : String) : List Field := b.fields.filter fun f => f.name == name.toList

/-- `handled.update(fields)`: fields have `__eq__` but no `__hash__`, so that they are not hashable;
capirca/lib/policy_simple.py:28-50, 496, 502. -/
def update (l : List Field) : Except Err Unit := if l.isEmpty then .ok () else .error .typeError

/-- `Term.Describe`: the verbatim fields, which are shown as objects without their texts. What comes after the actions are put into a set is never reached, since
there is one action and it is not hashable; capirca/lib/policy_simple.py:489-581. -/
def describe (b : Block) : Except Err (List Field) :=
  let v := withType b "verbatim"
  if !v.isEmpty then .ok v
  else do
    update (withType b "comment")
    let a := withType b "action"
    if a.length ≠ 1 then .error .valueError
    else do
      update a
      .ok []

end Simple
end Verif
