import Verif.Model.PolicyText

/-!
What a policy text says: how words, numbers and signs are written, which tokens a header or term is made of, and
what the items of a term say about the term. Stated on characters and tokens, without the functions of the lexer
and parser.
-/

namespace Verif
namespace Spec
open PolicyText

/-! ### characters -/

/-- A letter, digit or underscore. -/
def WordChar (c : Char) : Prop := c.isAlphanum = true ∨ c = '_'

/-- What a name goes on with. -/
def NameChar (c : Char) : Prop := WordChar c ∨ c ∈ ['-', '+', '.', '@', '/']

/-- A hexadecimal digit. -/
def HexChar (c : Char) : Prop := c ∈ "0123456789abcdefABCDEF".toList

/-- The text does not go on with such a character. -/
def Ends (p : Char → Prop) (s : Str) : Prop := ∀ c r, s = c :: r → ¬ p c

/-- The name of a DSCP class. -/
def ClassName (d : Str) : Prop :=
  (∃ b, d = 'b' :: b ∧ b.length = 6 ∧ ∀ c ∈ b, c = '0' ∨ c = '1') ∨
  (∃ x y, d = ['a', 'f', x, y] ∧ x ∈ ['1', '2', '3', '4'] ∧ y ∈ ['1', '2', '3']) ∨
  d = ['b', 'e'] ∨ d = ['e', 'f'] ∨
  (∃ x, d = ['c', 's', x] ∧ x ∈ ['0', '1', '2', '3', '4', '5', '6', '7'])

/-- The text starts with the name of a class, alone or before one of `+.@/`, or with two of them joined by `-`,
alone or before one of `-+.@/`. -/
def LooksDscp (w : Str) : Prop :=
  (∃ d x, ClassName d ∧ w = d ++ x ∧ ∀ c r, x = c :: r → c ∈ ['+', '.', '@', '/']) ∨
  (∃ d d' x, ClassName d ∧ ClassName d' ∧ w = d ++ '-' :: (d' ++ x) ∧
    ∀ c r, x = c :: r → c ∈ ['-', '+', '.', '@', '/'])

/-- A name: a letter or underscore, then letters, digits and `_-+.@/`. -/
def WrittenName (w : Str) : Prop := ∃ c cs, w = c :: cs ∧ (c.isAlpha = true ∨ c = '_') ∧ ∀ d ∈ cs, NameChar d

/-- A number. -/
def WrittenNumber (w : Str) : Prop := w ≠ [] ∧ ∀ c ∈ w, c.isDigit = true

/-- The inside of a text with escaped quotes. -/
inductive EscBody : Str → Prop where
  | nil : EscBody []
  | char {c s} (h : c ≠ '"') (h' : c ≠ '\\') (r : EscBody s) : EscBody (c :: s)
  | quote {s} (r : EscBody s) : EscBody ('\\' :: '"' :: s)

/-! ### reserved words -/

/-- The keywords that take each kind of value, in a term. -/
def termKeys : Kind → List String
  | .strs => ["source-address", "destination-address", "address", "source-exclude", "destination-exclude",
      "address-exclude", "source-port", "destination-port", "port", "protocol-except", "source-prefix",
      "destination-prefix", "source-prefix-except", "destination-prefix-except", "source-tag", "destination-tag",
      "source-zone", "destination-zone", "ether-type", "traffic-type", "option", "icmp-type", "platform",
      "platform-exclude", "forwarding-class", "forwarding-class-except", "pan-application", "versa-application",
      "source-service-accounts", "target-service-accounts"]
  | .strsInts => ["protocol"]
  | .ints => ["icmp-code"]
  | .intsOpt => ["precedence"]
  | .str => ["action", "logging", "counter", "policer", "owner", "qos", "routing-instance", "loss-priority",
      "next-ip", "next-interface", "next-hop-group", "encapsulate", "decapsulate", "port-mirror",
      "source-interface", "destination-interface", "traffic-class-count", "filter-term", "restrict-address-family"]
  | .int => ["priority", "timeout", "ttl", "traffic-class"]
  | .span => ["packet-length", "fragment-offset", "hop-limit"]
  | .dscp => ["dscp-set"]
  | .dscps => ["dscp-match", "dscp-except"]
  | .quoted => ["comment", "log_name"]
  | .limit => ["log-limit"]
  | .date => ["expiration"]
  | .verbatim => ["verbatim"]
  | .vpn => ["vpn"]
  | .flex => ["flexible-match-range"]
  | .tuples => ["target-resources"]

/-- The keywords that take each kind of value, in a header. -/
def headerKeys : Kind → List String
  | .strsInts => ["target"]
  | .quoted => ["comment"]
  | .strs => ["apply-groups", "apply-groups-except"]
  | _ => []

/-- The kinds of values. -/
def kinds : List Kind :=
  [.strs, .strsInts, .ints, .intsOpt, .str, .int, .span, .dscp, .dscps, .quoted, .limit, .date, .verbatim, .vpn,
   .flex, .tuples]

/-- A reserved word. -/
def IsKeyword (w : Str) : Prop :=
  w = "header".toList ∨ w = "term".toList ∨ ∃ k ∈ kinds, ∃ s, (s ∈ termKeys k ∨ s ∈ headerKeys k) ∧ w = s.toList

/-! ### texts -/

/-- The text spells these tokens: words, numbers, quoted texts and signs with any blanks, line breaks and `#`
comments between them; blanks are needed only where two words or numbers would run together. -/
inductive Spells : Str → List Tok → Prop where
  | nil : Spells [] []
  | blank {c s ts} (h : c = ' ' ∨ c = '\t' ∨ c = '\n') (r : Spells s ts) : Spells (c :: s) ts
  | note {body s ts} (h : '\n' ∉ body) (e : s = [] ∨ ∃ s', s = '\n' :: s') (r : Spells s ts) :
      Spells ('#' :: (body ++ s)) ts
  | word {w s ts} (h : WrittenName w) (p : ¬ LooksDscp w) (k : ¬ IsKeyword w) (x : w ≠ "hex".toList) (e : Ends NameChar s)
      (r : Spells s ts) : Spells (w ++ s) (.word w :: ts)
  | key {w s ts} (k : IsKeyword w) (e : Ends NameChar s) (r : Spells s ts) : Spells (w ++ s) (.key w :: ts)
  | int {w s ts} (h : WrittenNumber w) (e : Ends WordChar s) (r : Spells s ts) : Spells (w ++ s) (.int w :: ts)
  | hex {w s ts} (h : w ≠ []) (h' : ∀ c ∈ w, HexChar c) (e : Ends WordChar s) (r : Spells s ts) :
      Spells ('0' :: 'x' :: (w ++ s)) (.hex ('0' :: 'x' :: w) :: ts)
  | dscp {d s ts} (h : ClassName d) (e : Ends (fun c => WordChar c ∨ c = '-') s) (r : Spells s ts) :
      Spells (d ++ s) (.dscp d :: ts)
  | range {d d' s ts} (h : ClassName d) (h' : ClassName d') (e : Ends WordChar s) (r : Spells s ts) :
      Spells (d ++ '-' :: (d' ++ s)) (.range (d ++ '-' :: d') :: ts)
  | quoted {body s ts} (h : '"' ∉ body) (h' : ∀ b, body ≠ b ++ ['\\']) (r : Spells s ts) :
      Spells ('"' :: (body ++ '"' :: s)) (.quoted ('"' :: (body ++ ['"'])) :: ts)
  | escaped {body s ts} (h : EscBody body) (h' : '"' ∈ body) (r : Spells s ts) :
      Spells ('"' :: (body ++ '"' :: s)) (.escaped ('"' :: (body ++ ['"'])) :: ts)
  | sign {c s ts} (h : c ∈ ['[', ']', '(', ')', ':', '{', '}', ',', '-', '/']) (r : Spells s ts) :
      Spells (c :: s) (.sign c :: ts)

/-- The text of a token. -/
def spelled : Tok → Str
  | .word s | .key s | .quoted s | .escaped s | .int s | .hex s | .dscp s | .range s => s
  | .sign c => [c]

/-- The text of a token has the form of its kind. -/
def Formed : Tok → Prop
  | .word s => WrittenName s ∧ ¬ IsKeyword s
  | .key s => IsKeyword s
  | .quoted s => ∃ body, s = '"' :: (body ++ ['"']) ∧ '"' ∉ body
  | .escaped s => ∃ body, s = '"' :: (body ++ ['"']) ∧ EscBody body ∧ '"' ∈ body
  | .int s => WrittenNumber s
  | .hex s => s = "hex".toList ∨ ∃ w, s = '0' :: 'x' :: w ∧ w ≠ [] ∧ ∀ c ∈ w, HexChar c
  | .dscp s => ClassName s
  | .range s => ∃ d d', s = d ++ '-' :: d' ∧ ClassName d ∧ ClassName d'
  | .sign c => c ∈ ['[', ']', '(', ')', ':', '{', '}', ',', '-', '/']

/-- The text is made of these tokens and illegal characters, in this order, blanks, line breaks and comments. -/
inductive Reads : Str → List Ev → Prop where
  | nil : Reads [] []
  | blank {c s es} (h : c = ' ' ∨ c = '\t' ∨ c = '\n') (r : Reads s es) : Reads (c :: s) es
  | note {body s es} (h : '\n' ∉ body) (e : s = [] ∨ ∃ s', s = '\n' :: s') (r : Reads s es) :
      Reads ('#' :: (body ++ s)) es
  | tok {t s es} (h : Formed t) (r : Reads s es) : Reads (spelled t ++ s) (.tok t :: es)
  | illegal {c s es} (h : ¬ WordChar c) (h' : c ∉ [' ', '\t', '\n', '#', '[', ']', '(', ')', ':', '{', '}', ',', '-', '/'])
      (q : c = '"' → '"' ∉ s) (r : Reads s es) : Reads (c :: s) (.illegal c :: es)

/-! ### grammar -/

/-- The number a text of digits stands for. -/
def decimal (s : Str) : Nat := s.foldl (fun n c => 10 * n + (c.toNat - '0'.toNat)) 0

/-- A day of the calendar, years 1 to 9999. -/
def CalendarDay (y m d : Nat) : Prop :=
  1 ≤ y ∧ y ≤ 9999 ∧ 1 ≤ d ∧
  ((m ∈ [1, 3, 5, 7, 8, 10, 12] ∧ d ≤ 31) ∨ (m ∈ [4, 6, 9, 11] ∧ d ≤ 30) ∨
   (m = 2 ∧ (d ≤ 28 ∨ (d = 29 ∧ (400 ∣ y ∨ (4 ∣ y ∧ ¬ 100 ∣ y))))))

/-- A setting of `flexible-match-range` that is accepted. -/
def FlexSetting (k : Str) (v : Tok) : Prop :=
  (∃ s, v = .hex s ∨ v = .int s ∨ v = .word s) ∧
  ((k = "match-start".toList ∧ spelled v ∈ ["layer-3".toList, "layer-4".toList, "payload".toList]) ∨
   (k = "bit-length".toList ∧ ∃ s, v = .int s ∧ decimal s ≤ 32) ∨
   (k = "bit-offset".toList ∧ ∃ s, v = .int s ∧ decimal s ≤ 7) ∨
   (k = "byte-offset".toList ∧ ∃ s, v = .int s ∧ decimal s ≤ 255) ∨
   k ∈ ["range".toList, "range-except".toList, "flexible-range-name".toList])

/-- `( a , b )`. -/
def tupleToks (a b : Str) : List Tok := [.sign '(', .word a, .sign ',', .word b, .sign ')']

/-- Tuples, separated by commas or not, with square brackets around any initial part. -/
inductive TupleList : List (Str × Str) → List Tok → Prop where
  | one (a b : Str) : TupleList [(a, b)] (tupleToks a b)
  | bracket {l ts} (h : TupleList l ts) : TupleList l (.sign '[' :: (ts ++ [.sign ']']))
  | more {l ts} (h : TupleList l ts) (a b : Str) : TupleList (l ++ [(a, b)]) (ts ++ tupleToks a b)
  | comma {l ts} (h : TupleList l ts) (a b : Str) : TupleList (l ++ [(a, b)]) (ts ++ .sign ',' :: tupleToks a b)

/-- The tokens of a value of a kind. -/
inductive ValueIs : Kind → Val → List Tok → Prop where
  | strs {l} (h : l ≠ []) : ValueIs .strs (.words l) (l.map .word)
  | strsInts {ts} (h : ts ≠ []) (h' : ∀ t ∈ ts, ∃ s, t = .word s ∨ t = .int s) :
      ValueIs .strsInts (.words (ts.map spelled)) ts
  | ints {l : List Str} (h : l ≠ []) : ValueIs .ints (.nums (l.map decimal)) (l.map .int)
  | intsOpt {l : List Str} : ValueIs .intsOpt (.nums (l.map decimal)) (l.map .int)
  | str {s} : ValueIs .str (.text s) [.word s]
  | int {s} : ValueIs .int (.text s) [.int s]
  | single {a} : ValueIs .span (.span a none) [.int a]
  | span {a b} : ValueIs .span (.span a (some b)) [.int a, .sign '-', .int b]
  | dscp {s} : ValueIs .dscp (.text s) [.dscp s]
  | dscpInt {s} : ValueIs .dscp (.text s) [.int s]
  | dscps {ts} (h : ts ≠ []) (h' : ∀ t ∈ ts, ∃ s, t = .dscp s ∨ t = .range s ∨ t = .int s) :
      ValueIs .dscps (.words (ts.map spelled)) ts
  | quoted {s} : ValueIs .quoted (.text s) [.quoted s]
  | limit {a b} : ValueIs .limit (.pair a b) [.int a, .sign '/', .word b]
  | date {y m d} (h : CalendarDay (decimal y) (decimal m) (decimal d)) :
      ValueIs .date (.date (decimal y) (decimal m) (decimal d))
        [.int y, .sign '-', .int m, .sign '-', .int d]
  | verbatim {p s} : ValueIs .verbatim (.pair p s) [.word p, .quoted s]
  | verbatimEscaped {p s} : ValueIs .verbatim (.pair p s) [.word p, .escaped s]
  | vpn {a} : ValueIs .vpn (.pair a []) [.word a]
  | vpnPair {a b} : ValueIs .vpn (.pair a b) [.word a, .word b]
  | flex {k v} (h : FlexSetting k v) : ValueIs .flex (.pair k (spelled v)) [.word k, v]
  | tuples {l ts} (h : TupleList l ts) : ValueIs .tuples (.pairs l) ts

/-- The tokens of `keyword :: value` items, with the keywords of a table. -/
inductive ItemsAre (words : Kind → List String) : List Item → List Tok → Prop where
  | nil : ItemsAre words [] []
  | cons {s kind v vt is ts} (h : s ∈ words kind) (hv : ValueIs kind v vt) (r : ItemsAre words is ts) :
      ItemsAre words (⟨s.toList, v⟩ :: is) (.key s.toList :: .sign ':' :: .sign ':' :: (vt ++ ts))

/-- The tokens of terms: `term name { items }`, each with an item. -/
inductive TermsAre : List RawItems → List Tok → Prop where
  | nil : TermsAre [] []
  | cons {name is its l ts} (h : is ≠ []) (hi : ItemsAre termKeys is its) (r : TermsAre l ts) :
      TermsAre (⟨name, is⟩ :: l)
        (.key "term".toList :: .word name :: .sign '{' :: (its ++ .sign '}' :: ts))

/-- The tokens of a policy: headers, each followed by its terms. -/
inductive PolicyIs : List RawFilter → List Tok → Prop where
  | nil : PolicyIs [] []
  | cons {h hts terms tts fs ts} (hh : ItemsAre headerKeys h hts) (ht : TermsAre terms tts) (r : PolicyIs fs ts) :
      PolicyIs (⟨h, terms⟩ :: fs) (.key "header".toList :: .sign '{' :: (hts ++ .sign '}' :: (tts ++ ts)))

/-! ### terms -/

/-- The values given for a keyword, in the order they are written. -/
def given (k : String) (is : List Item) : List Val := (is.filter fun i => i.key = k.toList).map Item.val

/-- The words given for a keyword by all its items. -/
def wordsGiven (k : String) (is : List Item) : List Str :=
  (given k is).flatMap fun | .words l => l | .text s => [s] | _ => []

/-- The numbers given for a keyword by all its items. -/
def numsGiven (k : String) (is : List Item) : List Nat :=
  (given k is).flatMap fun | .nums l => l | _ => []

/-- The pairs given for a keyword by all its items. -/
def pairsGiven (k : String) (is : List Item) : List (Str × Str) :=
  (given k is).flatMap fun | .pair a b => [(a, b)] | .pairs l => l | _ => []

/-- The word given by the last item of a keyword (the first of its words, if it has several). -/
def lastWord (k : String) (is : List Item) : Option Str :=
  match (given k is).getLast? with
  | some (.text s) => some s
  | some (.words l) => l.head?
  | _ => none

/-- The one or two numbers given by the last item of a keyword. -/
def lastSpan (k : String) (is : List Item) : List Nat :=
  match (given k is).getLast? with
  | some (.span a none) => [decimal a]
  | some (.span a (some b)) => [decimal a, decimal b]
  | _ => []

/-- The numbers given by the last item of a keyword. -/
def lastNums (k : String) (is : List Item) : List Nat :=
  match (given k is).getLast? with
  | some (.nums l) => l
  | _ => []

/-- The values `action` and `logging` may have. -/
def Valued (i : Item) : Prop :=
  (i.key = "action".toList → ∀ s, i.val = .text s →
    s ∈ ["accept", "count", "deny", "reject", "next", "reject-with-tcp-rst"].map String.toList) ∧
  (i.key = "logging".toList → ∀ s, i.val = .text s →
    s ∈ ["true", "True", "syslog", "local", "disable", "log-both"].map String.toList)

/-- The term says what its items say: lists have what all the items of their keyword give, other attributes what
the last one gives. -/
structure SaysTerm (name : Str) (is : List Item) (r : Policy.RawTerm) : Prop where
  name : r.rest.name = name
  address : r.address = wordsGiven "address" is
  addressExclude : r.addressExclude = wordsGiven "address-exclude" is
  sourceAddress : r.sourceAddress = wordsGiven "source-address" is
  sourceAddressExclude : r.sourceAddressExclude = wordsGiven "source-exclude" is
  destinationAddress : r.destinationAddress = wordsGiven "destination-address" is
  destinationAddressExclude : r.destinationAddressExclude = wordsGiven "destination-exclude" is
  port : r.port = wordsGiven "port" is
  sourcePort : r.sourcePort = wordsGiven "source-port" is
  destinationPort : r.destinationPort = wordsGiven "destination-port" is
  action : r.rest.action = (wordsGiven "action" is).map String.ofList
  protocol : r.rest.protocol = (wordsGiven "protocol" is).map String.ofList
  protocolExcept : r.rest.protocolExcept = (wordsGiven "protocol-except" is).map String.ofList
  sourcePrefix : r.rest.sourcePrefix = (wordsGiven "source-prefix" is).map String.ofList
  sourcePrefixExcept : r.rest.sourcePrefixExcept = (wordsGiven "source-prefix-except" is).map String.ofList
  destinationPrefix : r.rest.destinationPrefix = (wordsGiven "destination-prefix" is).map String.ofList
  destinationPrefixExcept :
    r.rest.destinationPrefixExcept = (wordsGiven "destination-prefix-except" is).map String.ofList
  sourceTag : r.rest.sourceTag = (wordsGiven "source-tag" is).map String.ofList
  destinationTag : r.rest.destinationTag = (wordsGiven "destination-tag" is).map String.ofList
  option : r.rest.option = (wordsGiven "option" is).map String.ofList
  forwardingClass : r.rest.forwardingClass = (wordsGiven "forwarding-class" is).map String.ofList
  forwardingClassExcept :
    r.rest.forwardingClassExcept = (wordsGiven "forwarding-class-except" is).map String.ofList
  icmpType : r.rest.icmpType = (wordsGiven "icmp-type" is).map String.ofList
  icmpCode : r.rest.icmpCode = numsGiven "icmp-code" is
  etherType : r.rest.etherType = (wordsGiven "ether-type" is).map String.ofList
  trafficType : r.rest.trafficType = (wordsGiven "traffic-type" is).map String.ofList
  dscpMatch : r.rest.dscpMatch = (wordsGiven "dscp-match" is).map String.ofList
  dscpExcept : r.rest.dscpExcept = (wordsGiven "dscp-except" is).map String.ofList
  flexibleMatchRange : r.rest.flexibleMatchRange =
    (pairsGiven "flexible-match-range" is).map fun p => String.ofList (p.1 ++ " ".toList ++ p.2)
  platform : r.rest.platform = (wordsGiven "platform" is).map String.ofList
  platformExclude : r.rest.platformExclude = (wordsGiven "platform-exclude" is).map String.ofList
  sourceZone : r.rest.sourceZone = (wordsGiven "source-zone" is).map String.ofList
  destinationZone : r.rest.destinationZone = (wordsGiven "destination-zone" is).map String.ofList
  verbatim : r.rest.verbatim.map Prod.fst = (pairsGiven "verbatim" is).map fun p => String.ofList p.1
  logging : r.rest.logging = (wordsGiven "logging" is).map String.ofList
  precedence : r.rest.precedence = (lastNums "precedence" is).map toString
  restrictAddressFamily :
    r.rest.restrictAddressFamily = (lastWord "restrict-address-family" is).map String.ofList
  fragmentOffset : r.rest.fragmentOffset = lastSpan "fragment-offset" is
  hopLimit : r.rest.hopLimit = lastSpan "hop-limit" is
  packetLength : r.rest.packetLength = lastSpan "packet-length" is
  ttl : r.rest.ttl = (lastWord "ttl" is).map decimal
  trafficClass : r.rest.trafficClass = (lastWord "traffic-class" is).map decimal
  sourceInterface : r.rest.sourceInterface = (lastWord "source-interface" is).map String.ofList
  destinationInterface : r.rest.destinationInterface = (lastWord "destination-interface" is).map String.ofList
  routingInstance : r.rest.routingInstance = (lastWord "routing-instance" is).isSome
  nextIp : r.rest.nextIp = (lastWord "next-ip" is).isSome
  nextInterface : r.rest.nextInterface = (lastWord "next-interface" is).isSome
  nextHopGroup : r.rest.nextHopGroup = (lastWord "next-hop-group" is).isSome
  encapsulate : r.rest.encapsulate = (lastWord "encapsulate" is).isSome
  decapsulate : r.rest.decapsulate = (lastWord "decapsulate" is).isSome
  filterTerm : r.rest.filterTerm = (lastWord "filter-term" is).isSome
  portMirror : r.rest.portMirror = (lastWord "port-mirror" is).isSome

/-- The targets a header gives: platform and options. -/
def targetsGiven (is : List Item) : List (String × List String) :=
  (given "target" is).flatMap fun | .words (p :: o) => [(String.ofList p, o.map String.ofList)] | _ => []

/-- The filter says what is written: its targets and one term for each term. -/
structure SaysFilter (f : RawFilter) (r : Policy.Header × List Policy.RawTerm) : Prop where
  targets : r.1.target = targetsGiven f.header
  length : r.2.length = f.terms.length
  terms : ∀ i (a : i < f.terms.length) (b : i < r.2.length), SaysTerm f.terms[i].name f.terms[i].items r.2[i]

/-- The same items, possibly in another order, but those of each keyword in the same order. -/
def SameItems (is is' : List Item) : Prop := ∀ k : String, given k is = given k is'

/-- The same filters, up to the order of different keywords in the terms. -/
inductive SameFilters : List RawFilter → List RawFilter → Prop where
  | nil : SameFilters [] []
  | cons {h ts ts' fs fs'} (len : ts.length = ts'.length)
      (h' : ∀ i (a : i < ts.length) (b : i < ts'.length), ts[i].name = ts'[i].name ∧ SameItems ts[i].items ts'[i].items)
      (r : SameFilters fs fs') : SameFilters (⟨h, ts⟩ :: fs) (⟨h, ts'⟩ :: fs')

/-- A text with its quotes escaped. -/
def escapeQuotes (s : Str) : Str := s.flatMap fun c => if c = '"' then ['\\', '"'] else [c]

end Spec
end Verif
