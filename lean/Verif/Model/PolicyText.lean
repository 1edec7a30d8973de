import Verif.Model.Include
import Verif.Model.Translate

/-!
Model of the text of policies: the ply lexer, the ply grammar and the construction of terms in
capirca/lib/policy.py:1203-1410, 1699-1847, 1908-2880, 3002-3043. The regular expressions are written out as
functions; the LALR parser is written as the recursive descent that accepts the same token lists (ply prefers to
shift, so the lists of words take every word that follows). Simplified: `\w` and `\d` are ASCII here, they match
other letters and digits in Python.
-/

namespace Verif
namespace PolicyText
open PyStr Policy

/-! ### lexer -/

/-- The tokens of a policy: STRING, a reserved word (value; its token type is determined by the value),
DQUOTEDSTRING and ESCAPEDSTRING with their quotes, INTEGER, HEX, DSCP, DSCP_RANGE and the one-character tokens;
capirca/lib/policy.py:1929-2023. -/
inductive Tok where
  | word (s : Str)
  | key (s : Str)
  | quoted (s : Str)
  | escaped (s : Str)
  | int (s : Str)
  | hex (s : Str)
  | dscp (s : Str)
  | range (s : Str)
  | sign (c : Char)
deriving DecidableEq, Repr

/-- What the lexer does besides skipping: it returns a token or prints that a character is illegal;
capirca/lib/policy.py:2134-2136. -/
inductive Ev where
  | tok (t : Tok)
  | illegal (c : Char)
deriving DecidableEq, Repr

/-- Keys of `reserved` except `hex`; capirca/lib/policy.py:2025-2102. -/
def reserved : List String :=
  ["action", "address", "address-exclude", "restrict-address-family", "comment", "counter", "decapsulate",
   "destination-address", "destination-exclude", "destination-interface", "destination-prefix",
   "destination-prefix-except", "destination-port", "destination-tag", "destination-zone", "dscp-except",
   "dscp-match", "dscp-set", "encapsulate", "ether-type", "expiration", "filter-term", "flexible-match-range",
   "forwarding-class", "forwarding-class-except", "fragment-offset", "hop-limit", "apply-groups",
   "apply-groups-except", "header", "icmp-type", "icmp-code", "logging", "log-limit", "log_name",
   "loss-priority", "next-ip", "next-interface", "next-hop-group", "option", "owner", "packet-length",
   "platform", "platform-exclude", "policer", "port", "port-mirror", "precedence", "priority", "protocol",
   "protocol-except", "qos", "pan-application", "routing-instance", "source-address", "source-exclude",
   "source-interface", "source-service-accounts", "source-prefix", "source-prefix-except", "source-port",
   "source-tag", "source-zone", "target", "target-resources", "target-service-accounts", "term", "timeout",
   "traffic-class", "traffic-class-count", "traffic-type", "ttl", "verbatim", "versa-application", "vpn"]

/-- `\w`, for ASCII; capirca/lib/policy.py:2164. -/
def isWord (c : Char) : Bool := isAlphaA c || isDigit c || c == '_'

/-- `[-_+.@/]` or `\w`: what a STRING goes on with; capirca/lib/policy.py:2164. -/
def isName (c : Char) : Bool := isWord c || ['-', '+', '.', '@', '/'].contains c

/-- `[a-fA-F0-9]`; capirca/lib/policy.py:2154. -/
def isHex (c : Char) : Bool := isDigit c || ('a' ≤ c && c ≤ 'f') || ('A' ≤ c && c ≤ 'F')

/-- Length of the longest prefix of such characters; repetition in the expressions of
capirca/lib/policy.py:2112-2164. -/
def run (p : Char → Bool) (s : Str) : Nat := (s.takeWhile p).length

/-- The text starts with a `\w`; `\b` after a word, capirca/lib/policy.py:2141, 2148. -/
def startsWord : Str → Bool
  | c :: _ => isWord c
  | [] => false

/-- `(b[0-1]{6})|(af[1-4]{1}[1-3]{1})|(be)|(ef)|(cs[0-7]{1})` at the start of a text: the length of the match;
capirca/lib/policy.py:2141, 2148. -/
def classLen : Str → Option Nat
  | 'b' :: r =>
    if (r.take 6).length == 6 && (r.take 6).all (fun c => c == '0' || c == '1') then some 7
    else if r.head? == some 'e' then some 2
    else none
  | 'a' :: 'f' :: d :: e :: _ => if '1' ≤ d && d ≤ '4' && '1' ≤ e && e ≤ '3' then some 4 else none
  | 'e' :: 'f' :: _ => some 2
  | 'c' :: 's' :: d :: _ => if '0' ≤ d && d ≤ '7' then some 3 else none
  | _ => none

/-- DSCP_RANGE at the start of a text, apart from the first `\b`; capirca/lib/policy.py:2139-2143. -/
def rangeLen (s : Str) : Option Nat :=
  match classLen s with
  | none => none
  | some n =>
    match s.drop n with
    | '-' :: r =>
      match classLen r with
      | none => none
      | some m => if startsWord (r.drop m) then none else some (n + 1 + m)
    | _ => none

/-- DSCP at the start of a text, apart from the first `\b`; capirca/lib/policy.py:2146-2150. -/
def dscpLen (s : Str) : Option Nat :=
  match classLen s with
  | none => none
  | some n => if startsWord (s.drop n) || (s.drop n).head? == some '-' then none else some n

/-- `[^"\\]*(?:\\"[^"\\]*)+"`: the length of the rest of an ESCAPEDSTRING after its first quote; `seen`: an escaped
quote was seen; capirca/lib/policy.py:2117-2120. -/
def escLen : Bool → Str → Option Nat
  | _, [] => none
  | seen, '"' :: _ => if seen then some 1 else none
  | _, '\\' :: '"' :: r => (escLen true r).map (· + 2)
  | _, '\\' :: _ => none
  | seen, _ :: r => (escLen seen r).map (· + 1)

/-- `t.type = reserved.get(t.value, 'STRING')`; capirca/lib/policy.py:2163-2167. -/
def wordTok (s : Str) : Tok :=
  if s == "hex".toList then .hex s else if (reserved.map String.toList).contains s then .key s else .word s

/-- The one-character tokens: the four brackets and `literals`; capirca/lib/policy.py:2018-2023. -/
def isSign (c : Char) : Bool := ['[', ']', '(', ')', ':', '{', '}', ',', '-', '/'].contains c

/-- One match of the lexer at `c :: cs`, where `prev` says that the character before is a `\w`: what it yields and
the number of characters it takes besides `c`. The rules are tried in the order of their definition, then the
one-character tokens; capirca/lib/policy.py:2018-2023, 2112-2167. -/
def step (prev : Bool) (c : Char) (cs : Str) : Option Ev × Nat :=
  if c == ' ' || c == '\t' then (none, 0)
  else if c == '#' then (none, run (· != '\n') cs)
  else if c == '"' then
    match escLen false cs with
    | some n => (some (.tok (.escaped (c :: cs.take n))), n)
    | none =>
      if cs.contains '"' then
        (some (.tok (.quoted (c :: cs.take (run (· != '"') cs + 1)))), run (· != '"') cs + 1)
      else (some (.illegal c), 0)
  else if c == '\n' then (none, run (· == '\n') cs)
  else
    match (if prev then none else rangeLen (c :: cs)) with
    | some n => (some (.tok (.range ((c :: cs).take n))), n - 1)
    | none =>
      match (if prev then none else dscpLen (c :: cs)) with
      | some n => (some (.tok (.dscp ((c :: cs).take n))), n - 1)
      | none =>
        if c == '0' && cs.head? == some 'x' && run isHex (cs.drop 1) != 0 then
          (some (.tok (.hex (c :: cs.take (1 + run isHex (cs.drop 1))))), 1 + run isHex (cs.drop 1))
        else if isDigit c then (some (.tok (.int (c :: cs.take (run isDigit cs)))), run isDigit cs)
        else if isWord c then (some (.tok (wordTok (c :: cs.take (run isName cs)))), run isName cs)
        else if isSign c then (some (.tok (.sign c)), 0)
        else (some (.illegal c), 0)

/-- The lexer from a position on, to the end of the text; capirca/lib/policy.py:3034-3038 (ply: the loop of
`Lexer.token`). -/
def lexFrom (prev : Bool) : Str → List Ev
  | [] => []
  | c :: cs =>
    (step prev c cs).1.toList ++
      lexFrom (isWord ((c :: cs).getD (step prev c cs).2 ' ')) (cs.drop (step prev c cs).2)
termination_by s => s.length
decreasing_by simp only [List.length_drop, List.length_cons]; omega

/-- Tokens and complaints for a text; capirca/lib/policy.py:3034-3038. -/
def lex (s : Str) : List Ev := lexFrom false s

/-- The tokens of a text; capirca/lib/policy.py:3034-3038. -/
def tokens (s : Str) : List Tok := (lex s).filterMap fun | .tok t => some t | .illegal _ => none

/-! ### grammar -/

/-- The kinds of right-hand sides after `keyword ::`; capirca/lib/policy.py:2210-2857. -/
inductive Kind where
  | strs      -- one_or_more_strings
  | strsInts  -- strings_or_ints
  | ints      -- one_or_more_ints, not empty
  | intsOpt   -- one_or_more_ints, possibly empty
  | str       -- STRING
  | int       -- INTEGER
  | span      -- INTEGER or INTEGER '-' INTEGER
  | dscp      -- DSCP or INTEGER
  | dscps     -- one_or_more_dscps
  | quoted    -- DQUOTEDSTRING
  | limit     -- INTEGER '/' STRING
  | date      -- INTEGER '-' INTEGER '-' INTEGER
  | verbatim  -- STRING DQUOTEDSTRING or STRING ESCAPEDSTRING
  | vpn       -- STRING or STRING STRING
  | flex      -- flex_match_key_values
  | tuples    -- one_or_more_tuples
deriving DecidableEq, Repr

/-- The productions of `term_spec`; capirca/lib/policy.py:2229-2857. -/
def termTable : List (String × Kind) :=
  [("action", .str), ("address", .strs), ("address-exclude", .strs), ("restrict-address-family", .str),
   ("comment", .quoted), ("counter", .str), ("decapsulate", .str), ("destination-address", .strs),
   ("destination-exclude", .strs), ("destination-interface", .str), ("destination-prefix", .strs),
   ("destination-prefix-except", .strs), ("destination-port", .strs), ("destination-tag", .strs),
   ("destination-zone", .strs), ("dscp-except", .dscps), ("dscp-match", .dscps), ("dscp-set", .dscp),
   ("encapsulate", .str), ("ether-type", .strs), ("expiration", .date), ("filter-term", .str),
   ("flexible-match-range", .flex), ("forwarding-class", .strs), ("forwarding-class-except", .strs),
   ("fragment-offset", .span), ("hop-limit", .span), ("icmp-type", .strs), ("icmp-code", .ints),
   ("logging", .str), ("log-limit", .limit), ("log_name", .quoted), ("loss-priority", .str), ("next-ip", .str),
   ("next-interface", .str), ("next-hop-group", .str), ("option", .strs), ("owner", .str),
   ("packet-length", .span), ("platform", .strs), ("platform-exclude", .strs), ("policer", .str),
   ("port", .strs), ("port-mirror", .str), ("precedence", .intsOpt), ("priority", .int),
   ("protocol", .strsInts), ("protocol-except", .strs), ("qos", .str), ("pan-application", .strs),
   ("routing-instance", .str), ("source-address", .strs), ("source-exclude", .strs), ("source-interface", .str),
   ("source-service-accounts", .strs), ("source-prefix", .strs), ("source-prefix-except", .strs),
   ("source-port", .strs), ("source-tag", .strs), ("source-zone", .strs), ("target-resources", .tuples),
   ("target-service-accounts", .strs), ("timeout", .int), ("traffic-class", .int), ("traffic-class-count", .str),
   ("traffic-type", .strs), ("ttl", .int), ("verbatim", .verbatim), ("versa-application", .strs), ("vpn", .vpn)]

/-- The productions of `header_spec`; capirca/lib/policy.py:2191-2212, 2757-2768. -/
def headerTable : List (String × Kind) :=
  [("target", .strsInts), ("comment", .quoted), ("apply-groups", .strs), ("apply-groups-except", .strs)]

/-- The values the productions build; capirca/lib/policy.py:2210-2857. Texts in quotes are kept with their
quotes until the term is built. -/
inductive Val where
  | words (l : List Str)
  | nums (l : List Nat)
  | text (s : Str)
  | span (a : Str) (b : Option Str)
  | pair (a b : Str)
  | pairs (l : List (Str × Str))
  | date (y m d : Nat)
deriving DecidableEq, Repr

/-- One `keyword :: value` of a header or term; capirca/lib/policy.py:2191-2857. -/
structure Item where
  key : Str
  val : Val
deriving DecidableEq, Repr

/-- `raise ParseError`, in `p_error`; capirca/lib/policy.py:2860-2876. -/
def parseError : Err := .raised "ParseError"

/-- The words a list takes; capirca/lib/policy.py:2786-2797. -/
def takeWords : List Tok → List Str × List Tok
  | .word s :: r => let x := takeWords r; (s :: x.1, x.2)
  | ts => ([], ts)

/-- The words and integers a list takes; capirca/lib/policy.py:2844-2857. -/
def takeWordsInts : List Tok → List Str × List Tok
  | .word s :: r => let x := takeWordsInts r; (s :: x.1, x.2)
  | .int s :: r => let x := takeWordsInts r; (s :: x.1, x.2)
  | ts => ([], ts)

/-- The integers a list takes; capirca/lib/policy.py:2830-2841. -/
def takeInts : List Tok → List Nat × List Tok
  | .int s :: r => let x := takeInts r; (digitsVal s :: x.1, x.2)
  | ts => ([], ts)

/-- The DSCP values a list takes; capirca/lib/policy.py:2453-2467. -/
def takeDscps : List Tok → List Str × List Tok
  | .range s :: r => let x := takeDscps r; (s :: x.1, x.2)
  | .dscp s :: r => let x := takeDscps r; (s :: x.1, x.2)
  | .int s :: r => let x := takeDscps r; (s :: x.1, x.2)
  | ts => ([], ts)

/-- What can follow a value: the end of the block or another keyword; lookahead of the reductions of
capirca/lib/policy.py:2191-2294. -/
def follows : List Tok → Bool
  | .sign '}' :: _ => true
  | .key k :: _ => k != "term".toList && k != "header".toList
  | _ => false

/-- The error for an empty list: the error of the production that iterates over `None` (or of `p[2]` of an empty
production) if the empty list is reduced at all; capirca/lib/policy.py:2335-2338, 2822-2827 and the loops `for x in p[4]`. -/
def emptyErr (e : Err) (rest : List Tok) : Err := if follows rest then e else parseError

/-- A list that must not be empty: iterating over `None` is a `TypeError`; capirca/lib/policy.py:2361-2372 and the
like. -/
def nonEmpty (x : List Str × List Tok) : Except Err (Val × List Tok) :=
  if x.1.isEmpty then .error (emptyErr .typeError x.2) else .ok (.words x.1, x.2)

/-- Days of a month; `datetime.date`, capirca/lib/policy.py:2660-2664. -/
def daysIn (y m : Nat) : Nat :=
  if m == 2 then (if y % 4 == 0 && (y % 100 != 0 || y % 400 == 0) then 29 else 28)
  else if m == 4 || m == 6 || m == 9 || m == 11 then 30
  else 31

/-- `datetime.date(y, m, d)`; capirca/lib/policy.py:2660-2664. Simplified: a number too large for C is an
`OverflowError` in Python. -/
def mkDate (y m d : Nat) : Except Err Val :=
  if 1 ≤ y && y ≤ 9999 && 1 ≤ m && m ≤ 12 && 1 ≤ d && d ≤ daysIn y m then .ok (.date y m d) else .error .valueError

/-- `int(p[2])` of a token of `flex_match_key_values`: only INTEGER tokens have the form of a number;
capirca/lib/policy.py:2344-2353. -/
def flexInt (limit : Nat) : Tok → Except Err Unit
  | .int s => if digitsVal s < limit then .ok () else .error (.raised "FlexibleMatchError")
  | _ => .error .valueError

/-- The tests of `p_flex_match_key_values`; capirca/lib/policy.py:2338-2353. -/
def flexCheck (k : Str) (v : Tok) (s : Str) : Except Err Unit :=
  if !(["byte-offset", "bit-offset", "bit-length", "match-start", "range", "range-except",
        "flexible-range-name"].map String.toList).contains k then .error (.raised "FlexibleMatchError")
  else if k == "match-start".toList then
    (if (["layer-3", "layer-4", "payload"].map String.toList).contains s then .ok ()
     else .error (.raised "FlexibleMatchError"))
  else if k == "bit-length".toList then flexInt 33 v
  else if k == "bit-offset".toList then flexInt 8 v
  else if k == "byte-offset".toList then flexInt 256 v
  else .ok ()

/-- Values of `flex_match_key_values`; capirca/lib/policy.py:2325-2333. -/
def flexVal : Tok → Option Str
  | .hex s => some s
  | .int s => some s
  | .word s => some s
  | _ => none

/-- `flex_match_key_values`; capirca/lib/policy.py:2324-2358. For a second pair `p[1]` is the list made for the
first, which is no attribute, so it raises `FlexibleMatchError`; without a pair `p[1]` is an `IndexError`. -/
def parseFlex : List Tok → Except Err (Val × List Tok)
  | .word k :: v :: r =>
    match flexVal v with
    | none => .error parseError
    | some s =>
      match flexCheck k v s with
      | .error e => .error e
      | .ok () =>
        match r with
        | .word _ :: v' :: _ => if (flexVal v').isSome then .error (.raised "FlexibleMatchError") else .error parseError
        | _ => .ok (.pair k s, r)
  | .word _ :: [] => .error parseError
  | ts => .error (emptyErr .indexError ts)

/-- The tuples that follow a first one, with or without commas; capirca/lib/policy.py:2800-2827. A comma that no
tuple follows reduces an empty `one_tuple`, an `IndexError`. -/
def moreTuples : List (Str × Str) → List Tok → Except Err (List (Str × Str) × List Tok)
  | l, .sign '(' :: .word a :: .sign ',' :: .word b :: .sign ')' :: r => moreTuples (l ++ [(a, b)]) r
  | l, .sign ',' :: .sign '(' :: .word a :: .sign ',' :: .word b :: .sign ')' :: r => moreTuples (l ++ [(a, b)]) r
  | _, .sign '(' :: _ => .error parseError
  | _, .sign ',' :: .sign '(' :: _ => .error parseError
  | _, .sign ',' :: r => .error (emptyErr .indexError r)
  | l, ts => .ok (l, ts)

/-- `one_or_more_tuples`; capirca/lib/policy.py:2800-2827. Simplified: a list that starts with a comma is a
`ParseError` here; the code reads it as a list whose first element is `None`, without the tuple after the comma. -/
def parseTuples : List Tok → Except Err (List (Str × Str) × List Tok)
  | .sign '[' :: r =>
    match parseTuples r with
    | .error e => .error e
    | .ok (l, .sign ']' :: r') => moreTuples l r'
    | .ok _ => .error parseError
  | .sign '(' :: .word a :: .sign ',' :: .word b :: .sign ')' :: r => moreTuples [(a, b)] r
  | ts => .error (emptyErr .typeError ts)

/-- The value after `keyword ::`; capirca/lib/policy.py:2210-2857. -/
def parseVal : Kind → List Tok → Except Err (Val × List Tok)
  | .strs, ts => nonEmpty (takeWords ts)
  | .strsInts, ts => nonEmpty (takeWordsInts ts)
  | .ints, ts =>
    let x := takeInts ts
    if x.1.isEmpty then .error (emptyErr .typeError x.2) else .ok (.nums x.1, x.2)
  | .intsOpt, ts => let x := takeInts ts; .ok (.nums x.1, x.2)
  | .str, .word s :: r => .ok (.text s, r)
  | .int, .int s :: r => .ok (.text s, r)
  | .span, .int a :: .sign '-' :: .int b :: r => .ok (.span a (some b), r)
  | .span, .int a :: r => .ok (.span a none, r)
  | .dscp, .dscp s :: r => .ok (.text s, r)
  | .dscp, .int s :: r => .ok (.text s, r)
  | .dscps, ts =>
    let x := takeDscps ts
    if x.1.isEmpty then .error parseError else .ok (.words x.1, x.2)
  | .quoted, .quoted s :: r => .ok (.text s, r)
  | .limit, .int a :: .sign '/' :: .word b :: r => .ok (.pair a b, r)
  | .date, .int y :: .sign '-' :: .int m :: .sign '-' :: .int d :: r =>
    match mkDate (digitsVal y) (digitsVal m) (digitsVal d) with
    | .error e => .error e
    | .ok v => .ok (v, r)
  | .verbatim, .word p :: .quoted s :: r => .ok (.pair p s, r)
  | .verbatim, .word p :: .escaped s :: r => .ok (.pair p s, r)
  | .vpn, .word a :: .word b :: r => .ok (.pair a b, r)
  | .vpn, .word a :: r => .ok (.pair a [], r)
  | .flex, ts => parseFlex ts
  | .tuples, ts =>
    match parseTuples ts with
    | .error e => .error e
    | .ok (l, r) => .ok (.pairs l, r)
  | _, _ => .error parseError

/-- `header_spec` and `term_spec` up to the closing brace; capirca/lib/policy.py:2191-2294. The number bounds the
recursion; the number of tokens is enough. -/
def parseItems (table : List (String × Kind)) : Nat → List Tok → Except Err (List Item × List Tok)
  | _, .sign '}' :: r => .ok ([], r)
  | n + 1, .key k :: .sign ':' :: .sign ':' :: r =>
    match (table.map fun e => (e.1.toList, e.2)).lookup k with
    | none => .error parseError
    | some kind =>
      match parseVal kind r with
      | .error e => .error e
      | .ok (v, r') =>
        match parseItems table n r' with
        | .error e => .error e
        | .ok (is, r'') => .ok (⟨k, v⟩ :: is, r'')
  | _, _ => .error parseError

/-- A term as it is written; capirca/lib/policy.py:2215-2226. -/
structure RawItems where
  name : Str
  items : List Item
deriving DecidableEq, Repr

/-- A header and its terms as they are written; capirca/lib/policy.py:2173-2188. -/
structure RawFilter where
  header : List Item
  terms : List RawItems
deriving DecidableEq, Repr

/-- `terms`; capirca/lib/policy.py:2215-2226. A term without content is `None`, which has no attributes. -/
def parseTerms : Nat → List Tok → Except Err (List RawItems × List Tok)
  | n + 1, .key ['t', 'e', 'r', 'm'] :: .word name :: .sign '{' :: r =>
    match parseItems termTable r.length r with
    | .error e => .error e
    | .ok ([], _) => .error .attributeError
    | .ok (i :: is, r') =>
      match parseTerms n r' with
      | .error e => .error e
      | .ok (ts, r'') => .ok (⟨name, i :: is⟩ :: ts, r'')
  | 0, .key ['t', 'e', 'r', 'm'] :: _ => .error parseError
  | _ + 1, .key ['t', 'e', 'r', 'm'] :: _ => .error parseError
  | _, ts => .ok ([], ts)

/-- `target`: headers, each with its terms; capirca/lib/policy.py:2173-2188. -/
def parseFilters : Nat → List Tok → Except Err (List RawFilter)
  | _, [] => .ok []
  | n + 1, .key ['h', 'e', 'a', 'd', 'e', 'r'] :: .sign '{' :: r =>
    match parseItems headerTable r.length r with
    | .error e => .error e
    | .ok (h, r') =>
      match parseTerms r'.length r' with
      | .error e => .error e
      | .ok (ts, r'') =>
        match parseFilters n r'' with
        | .error e => .error e
        | .ok fs => .ok (⟨h, ts⟩ :: fs)
  | _, _ => .error parseError

/-- `parser.parse`, without what the actions build; capirca/lib/policy.py:3038. Where several errors apply, the
code may raise another one first: it builds terms while it parses. -/
def parse (ts : List Tok) : Except Err (List RawFilter) := parseFilters ts.length ts

/-! ### terms -/

/-- How `AddObject` enters a value: appended to the values the attribute has, or in place of them;
capirca/lib/policy.py:1217-1410. -/
inductive How where
  | append
  | replace
deriving DecidableEq, Repr

/-- The attributes that `AddObject` assigns to; it appends to the others; capirca/lib/policy.py:1312-1410. -/
def assigned : List String :=
  ["restrict-address-family", "owner", "expiration", "loss-priority", "routing-instance", "precedence", "next-ip",
   "next-interface", "next-hop-group", "counter", "encapsulate", "decapsulate", "port-mirror",
   "traffic-class-count", "log-limit", "log_name", "policer", "priority", "qos", "traffic-class", "packet-length",
   "fragment-offset", "hop-limit", "source-interface", "destination-interface", "timeout", "dscp-set", "vpn",
   "ttl", "filter-term"]

/-- How a keyword enters its value; capirca/lib/policy.py:1217-1410. -/
def how (k : Str) : How := if (assigned.map String.toList).contains k then .replace else .append

/-- One element of an attribute: the `value` of a `VarType`; capirca/lib/policy.py:1217-1410, 1776-1783. -/
inductive Atom where
  | word (s : Str)
  | num (n : Nat)
  | span (a : Str) (b : Option Str)
  | pair (a b : Str)
  | date (y m d : Nat)
deriving DecidableEq, Repr

/-- The elements of a value: one per element of a list; capirca/lib/policy.py:1217-1240 (`for x in obj`), 1358-1361
(`extend`). -/
def atoms : Val → List Atom
  | .words l => l.map .word
  | .nums l => l.map .num
  | .text s => [.word s]
  | .span a b => [.span a b]
  | .pair a b => [.pair a b]
  | .pairs l => l.map fun p => .pair p.1 p.2
  | .date y m d => [.date y m d]

/-- The attributes of a term under construction, by the keyword that sets them; capirca/lib/policy.py:437-531. -/
abbrev Attrs := Str → List Atom

/-- Whether `AddObject` accepts a value: actions and logging have fixed values; capirca/lib/policy.py:1344-1347,
1362-1367. -/
def accepts (i : Item) : Except Err Unit :=
  match i.val with
  | .text s =>
    if i.key == "action".toList &&
        !(["accept", "count", "deny", "reject", "next", "reject-with-tcp-rst"].map String.toList).contains s then
      .error (.raised "InvalidTermActionError")
    else if i.key == "logging".toList &&
        !(["true", "True", "syslog", "local", "disable", "log-both"].map String.toList).contains s then
      .error (.raised "InvalidTermLoggingError")
    else .ok ()
  | _ => .ok ()

/-- The attributes with those of a keyword set; capirca/lib/policy.py:1217-1410. -/
def setAttr (a : Attrs) (k : Str) (l : List Atom) : Attrs := fun k' => if k' == k then l else a k'

/-- `Term.AddObject(obj)`; capirca/lib/policy.py:1203-1410. -/
def addObject (a : Attrs) (i : Item) : Except Err Attrs :=
  match accepts i with
  | .error e => .error e
  | .ok () =>
    match how i.key with
    | .append => .ok (setAttr a i.key (a i.key ++ atoms i.val))
    | .replace => .ok (setAttr a i.key (atoms i.val))

/-- `Term(obj)` and the calls of `AddObject` for the rest of the term; capirca/lib/policy.py:437-531, 2287-2294. -/
def addAll : Attrs → List Item → Except Err Attrs
  | a, [] => .ok a
  | a, i :: is =>
    match addObject a i with
    | .error e => .error e
    | .ok a' => addAll a' is

/-- `s.strip('"')`; capirca/lib/policy.py:2682, 1779. -/
def stripDq (s : Str) : Str := ((s.dropWhile (· == '"')).reverse.dropWhile (· == '"')).reverse

/-- `s.replace('\\"', '"')`; capirca/lib/policy.py:2682. -/
def unescape : Str → Str
  | '\\' :: '"' :: r => '"' :: unescape r
  | c :: r => c :: unescape r
  | [] => []

/-- The text of a VERBATIM; capirca/lib/policy.py:2677-2682. -/
def verbatimText (s : Str) : Str := unescape (stripDq s)

/-- Words of an attribute as lists of characters; the lists of capirca/lib/policy.py:447-531. -/
def strs (l : List Atom) : List Str := l.filterMap fun | .word s => some s | _ => none

/-- Words of an attribute as strings; the lists of capirca/lib/policy.py:447-531. -/
def strings (l : List Atom) : List String := (strs l).map String.ofList

/-- Numbers of an attribute (`precedence`, `icmp_code`); capirca/lib/policy.py:2312-2314, 2410-2412. -/
def nats (l : List Atom) : List Nat := l.filterMap fun | .num n => some n | _ => none

/-- The integers of an `'a'` or `'a-b'` attribute; capirca/lib/policy.py:2420-2450. -/
def spans (l : List Atom) : List Nat :=
  match l with
  | [.span a none] => [digitsVal a]
  | [.span a (some b)] => [digitsVal a, digitsVal b]
  | _ => []

/-- Pairs of an attribute (`verbatim`, `flexible_match_range`); capirca/lib/policy.py:2317-2321, 2677-2682. -/
def pairs (l : List Atom) : List (Str × Str) := l.filterMap fun | .pair a b => some (a, b) | _ => none

/-- The only word of an assigned attribute, if it is set; capirca/lib/policy.py:1314-1406. -/
def one (l : List Atom) : Option Str := (strs l).head?

/-- The term of the attributes: the values `policy.Term` holds before translation; capirca/lib/policy.py:437-531,
2221. Attributes the model of `policy.Term` leaves out are left out; `next-ip` is not resolved. -/
def toRaw (name : Str) (a : Attrs) : RawTerm where
  rest := {
    name := name
    action := strings (a "action".toList)
    restrictAddressFamily := (one (a "restrict-address-family".toList)).map String.ofList
    protocol := strings (a "protocol".toList)
    protocolExcept := strings (a "protocol-except".toList)
    sourcePrefix := strings (a "source-prefix".toList)
    sourcePrefixExcept := strings (a "source-prefix-except".toList)
    destinationPrefix := strings (a "destination-prefix".toList)
    destinationPrefixExcept := strings (a "destination-prefix-except".toList)
    sourceTag := strings (a "source-tag".toList)
    destinationTag := strings (a "destination-tag".toList)
    precedence := (nats (a "precedence".toList)).map toString
    option := strings (a "option".toList)
    forwardingClass := strings (a "forwarding-class".toList)
    forwardingClassExcept := strings (a "forwarding-class-except".toList)
    fragmentOffset := spans (a "fragment-offset".toList)
    hopLimit := spans (a "hop-limit".toList)
    packetLength := spans (a "packet-length".toList)
    icmpType := strings (a "icmp-type".toList)
    icmpCode := nats (a "icmp-code".toList)
    etherType := strings (a "ether-type".toList)
    trafficType := strings (a "traffic-type".toList)
    dscpMatch := strings (a "dscp-match".toList)
    dscpExcept := strings (a "dscp-except".toList)
    ttl := (one (a "ttl".toList)).map digitsVal
    trafficClass := (one (a "traffic-class".toList)).map digitsVal
    sourceInterface := (one (a "source-interface".toList)).map String.ofList
    destinationInterface := (one (a "destination-interface".toList)).map String.ofList
    flexibleMatchRange := (pairs (a "flexible-match-range".toList)).map fun p => String.ofList (p.1 ++ ' ' :: p.2)
    platform := strings (a "platform".toList)
    platformExclude := strings (a "platform-exclude".toList)
    sourceZone := strings (a "source-zone".toList)
    destinationZone := strings (a "destination-zone".toList)
    verbatim := (pairs (a "verbatim".toList)).map fun p => (String.ofList p.1, String.ofList (verbatimText p.2))
    logging := strings (a "logging".toList)
    routingInstance := (one (a "routing-instance".toList)).isSome
    nextIp := (one (a "next-ip".toList)).isSome
    nextInterface := (one (a "next-interface".toList)).isSome
    nextHopGroup := (one (a "next-hop-group".toList)).isSome
    encapsulate := (one (a "encapsulate".toList)).isSome
    decapsulate := (one (a "decapsulate".toList)).isSome
    filterTerm := (one (a "filter-term".toList)).isSome
    portMirror := (one (a "port-mirror".toList)).isSome }
  address := strs (a "address".toList)
  addressExclude := strs (a "address-exclude".toList)
  sourceAddress := strs (a "source-address".toList)
  sourceAddressExclude := strs (a "source-exclude".toList)
  destinationAddress := strs (a "destination-address".toList)
  destinationAddressExclude := strs (a "destination-exclude".toList)
  port := strs (a "port".toList)
  sourcePort := strs (a "source-port".toList)
  destinationPort := strs (a "destination-port".toList)

/-- A term from its items; capirca/lib/policy.py:2215-2294. -/
def buildTerm (t : RawItems) : Except Err RawTerm :=
  match addAll (fun _ => []) t.items with
  | .error e => .error e
  | .ok a => .ok (toRaw t.name a)

/-- `Target(...)` for one item of a header; capirca/lib/policy.py:1911-1913, 2210-2212. The list is not empty. -/
def targetOf (i : Item) : List (String × List String) :=
  match i.val with
  | .words (p :: opts) => if i.key == "target".toList then [(String.ofList p, opts.map String.ofList)] else []
  | _ => []

/-- `Header.AddObject` for the items of a header; capirca/lib/policy.py:1807-1830. Comments and apply-groups are
not part of the model of `Header`. -/
def buildHeader (is : List Item) : Header := { target := is.flatMap targetOf }

/-- A filter from what is written; capirca/lib/policy.py:2173-2188. -/
def buildFilter (f : RawFilter) : Except Err (Header × List RawTerm) :=
  match listM buildTerm f.terms with
  | .error e => .error e
  | .ok ts => .ok (buildHeader f.header, ts)

/-- The policy of a text after preprocessing: lexer, parser, terms, translation; a text without headers gives
`None`, which has no attributes; capirca/lib/policy.py:3034-3040. -/
def readPolicy (e : Env) (text : Str) : Except Err (List (Header × List Term)) :=
  match parse (tokens text) with
  | .error err => .error err
  | .ok [] => .error .attributeError
  | .ok (f :: fs) =>
    match listM buildFilter (f :: fs) with
    | .error err => .error err
    | .ok l => buildPolicy e l

/-- `ParsePolicy(data, ...)`: `none` is the result `False`; capirca/lib/policy.py:3002-3043. -/
def parsePolicy (files : Include.Files) (e : Env) (data : Str) : Except Err (Option (List (Header × List Term))) :=
  match (Include.preprocess files 5 data).2 with
  | .error .indexError => .ok none
  | .error err => .error err
  | .ok ls =>
    match readPolicy e (['\n'].intercalate ls) with
    | .error .indexError => .ok none
    | .error err => .error err
    | .ok p => .ok (some p)

end PolicyText
end Verif
