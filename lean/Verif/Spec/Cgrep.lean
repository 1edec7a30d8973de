import Verif.Spec.Naming
import Verif.Model.Cgrep

/-!
Specification for the search tools: when definitions are fit for searching, what it means that a token
contains an address, and what a policy file says to the policy reader.
-/

namespace Verif.Spec.Cgrep
open Verif Verif.Spec

/-- Every address of `q` is an address of `n`. -/
def Within (q n : Net) : Prop := ∀ v x, Mem q v x → Mem n v x

/-- Network definitions that can be searched: items are values with comments, tokens are defined once,
start with a letter and are words, addresses start with a digit, references are defined, carry no comment
and do not loop; the address parser returns networks and wants a dot or a colon. -/
structure NetsOk (nets : List (Str × List Str)) (ip : Str → Option Net) : Prop where
  items : ItemsOk nets
  nodup : (nets.map Prod.fst).Nodup
  dots : DotOrColon ip
  wf : ∀ v a, ip v = some a → WF a
  names : TokenNames nets ip
  words : ∀ t ∈ nets.map Prod.fst, Word t
  digits : DigitAddrs nets ip
  noloop : NoLoop nets AnyRef
  defined : ∀ t ∈ nets.map Prod.fst, FullyDefined nets (NetLeaf ip) t
  bare : BareRefs nets

/-- Service definitions that can be searched by token. -/
structure SvcsOk (svcs : List (Str × List Str)) : Prop where
  items : ItemsOk svcs
  nodup : (svcs.map Prod.fst).Nodup
  noloop : NoLoop svcs AnyRef
  bare : BareRefs svcs

/-- The text is an address, written with a digit first, and reads as `a`. -/
def Address (strict : Str → Option Net) (q : Str) (a : Net) : Prop :=
  DigitFirst q ∧ strict q = some a ∧ WF a

/-- Token `t` is defined and one of its networks contains all of `a`. -/
def Contains (nets : List (Str × List Str)) (ip : Str → Option Net) (t : Str) (a : Net) : Prop :=
  ∃ b s, NetOf nets ip t b s ∧ Within a b

/-- The point `x` is an address of token `t`. -/
def Holds (nets : List (Str × List Str)) (ip : Str → Option Net) (t : Str) (v : Ver) (x : Nat) : Prop :=
  ∃ b s, NetOf nets ip t b s ∧ Mem b v x

/-- The way a token `t` that contains `a` is shown: alone if no token mentions it, otherwise once under
each token that mentions it. -/
def Shown (nets : List (Str × List Str)) (ip : Str → Option Net) (a : Net) (name t : Str) : Prop :=
  Contains nets ip t a ∧
    ((name = t ∧ ∀ n, ¬ Above nets AnyRef t n) ∨ ∃ n, Above nets AnyRef t n ∧ name = n ++ " -> ".toList ++ t)

/-- The networks of the list that contain all of `a`, in their order. -/
inductive Keeps (a : Net) : List Net → List Net → Prop
  | nil : Keeps a [] []
  | keep {n : Net} {l m : List Net} : Within a n → Keeps a l m → Keeps a (n :: l) (n :: m)
  | skip {n : Net} {l m : List Net} : ¬ Within a n → Keeps a l m → Keeps a (n :: l) m

end Verif.Spec.Cgrep

namespace Verif.Spec.Reader
open Verif

/-- The words of a line; a file is a list of them. -/
abbrev Words := List Str

/-- The number of double quotes of a line is even. -/
def EvenQuotes (ws : Words) : Prop := ws.flatten.count '"' % 2 = 0

/-- The attributes the reader knows. -/
def attrNames : List Str :=
  ["source-address".toList, "destination-address".toList, "source-port".toList, "destination-port".toList,
   "action".toList, "protocol".toList, "option".toList]

/-- A line's words that say nothing to the reader: they start with no keyword and close nothing. -/
def Neutral (ws : Words) : Prop :=
  ['}'] ∉ ws ∧ ∀ w rest, ws = w :: rest →
    w ≠ "header".toList ∧ w ≠ "term".toList ∧ w ≠ "target::".toList ∧
      ∀ k ∈ attrNames, w ≠ k ++ "::".toList

/-- Lines that say nothing: neutral lines and texts in double quotes over several lines. -/
inductive Skip : List Words → Prop
  | nil : Skip []
  | line {ws : Words} {ls : List Words} : Neutral ws → EvenQuotes ws → Skip ls → Skip (ws :: ls)
  | block {o : Words} {mid : List Words} {c : Words} {ls : List Words} : ¬ EvenQuotes o →
      (∀ m ∈ mid, EvenQuotes m) → ¬ EvenQuotes c → Neutral c → Skip ls → Skip (o :: (mid ++ c :: ls))

/-- The lines of a header, all of whose targets have the filter name; at least one if `true`. -/
inductive HeaderBody (name : Str) : List Words → Bool → Prop
  | nil : HeaderBody name [] false
  | skip {s ls : List Words} {b : Bool} : Skip s → HeaderBody name ls b → HeaderBody name (s ++ ls) b
  | target {platform : Str} {opts : Words} {ls : List Words} {b : Bool} :
      EvenQuotes ("target::".toList :: platform :: name :: opts) →
      ['}'] ∉ ("target::".toList :: platform :: name :: opts) → HeaderBody name ls b →
      HeaderBody name (("target::".toList :: platform :: name :: opts) :: ls) true

/-- The lines of a term and the attributes they give. -/
inductive TermBody : List Words → List (Str × List Str) → Prop
  | nil : TermBody [] []
  | skip {s ls : List Words} {as : List (Str × List Str)} : Skip s → TermBody ls as → TermBody (s ++ ls) as
  | attr {k : Str} {vs : List Str} {ls : List Words} {as : List (Str × List Str)} : k ∈ attrNames →
      EvenQuotes vs → ['}'] ∉ vs → TermBody ls as →
      TermBody (((k ++ "::".toList) :: vs) :: ls) ((k, vs) :: as)

/-- All values given for an attribute. -/
def said (as : List (Str × List Str)) (k : String) : List Str :=
  as.flatMap fun a => if a.1 = k.toList then a.2 else []

/-- The term with a name and attributes. -/
def termOf (name : Str) (as : List (Str × List Str)) : Reader.Term :=
  { name := name, source := said as "source-address", destination := said as "destination-address",
    sport := said as "source-port", dport := said as "destination-port", action := said as "action",
    option := said as "option", protocol := said as "protocol" }

/-- The terms of a filter. -/
inductive TermsText : List Words → List Reader.Term → Prop
  | nil : TermsText [] []
  | skip {s ls : List Words} {ts : List Reader.Term} : Skip s → TermsText ls ts → TermsText (s ++ ls) ts
  | term {name : Str} {body ls : List Words} {as : List (Str × List Str)} {ts : List Reader.Term} :
      '"' ∉ name → name ≠ ['}'] → TermBody body as → TermsText ls ts →
      TermsText (["term".toList, name, ['{']] :: (body ++ [['}']] :: ls)) (termOf name as :: ts)

/-- A policy file: filters, each a header and terms. -/
inductive FileText : List Words → List Reader.Filter → Prop
  | nil : FileText [] []
  | skip {s ls : List Words} {fs : List Reader.Filter} : Skip s → FileText ls fs → FileText (s ++ ls) fs
  | filter {name : Str} {hb tl ls : List Words} {ts : List Reader.Term} {fs : List Reader.Filter} :
      HeaderBody name hb true → TermsText tl ts → FileText ls fs →
      FileText (["header".toList, ['{']] :: (hb ++ [['}']] :: (tl ++ ls))) ({ name := name, term := ts } :: fs)

/-- No filter has the name of the one before it. -/
def NextDiffers : Str → List Reader.Filter → Prop
  | _, [] => True
  | prev, f :: fs => f.name ≠ prev ∧ NextDiffers f.name fs

end Verif.Spec.Reader
