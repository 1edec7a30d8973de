import Verif.Model.Translate

/-!
Model of capirca/lib/aclgenerator.py: keyword check, protocol and icmp-type normalisation, high-port
fixing, name shortening, comment truncation. `WrapWords` and `HexDigest` are not modelled.
-/

namespace Verif
namespace Aclgenerator
open Policy PyStr

/-! ### generic term -/

/-- `ICMP_TYPE[4]`; capirca/lib/policy.py:377-396. -/
def icmp4 : List (String × Nat) :=
  [("echo-reply", 0), ("unreachable", 3), ("source-quench", 4), ("redirect", 5), ("alternate-address", 6),
   ("echo-request", 8), ("router-advertisement", 9), ("router-solicitation", 10), ("time-exceeded", 11),
   ("parameter-problem", 12), ("timestamp-request", 13), ("timestamp-reply", 14), ("information-request", 15),
   ("information-reply", 16), ("mask-request", 17), ("mask-reply", 18), ("conversion-error", 31),
   ("mobile-redirect", 32)]

/-- `ICMP_TYPE[6]`; capirca/lib/policy.py:397-427. -/
def icmp6 : List (String × Nat) :=
  [("destination-unreachable", 1), ("packet-too-big", 2), ("time-exceeded", 3), ("parameter-problem", 4),
   ("echo-request", 128), ("echo-reply", 129), ("multicast-listener-query", 130),
   ("multicast-listener-report", 131), ("multicast-listener-done", 132), ("router-solicit", 133),
   ("router-advertisement", 134), ("neighbor-solicit", 135), ("neighbor-advertisement", 136),
   ("redirect-message", 137), ("router-renumbering", 138), ("icmp-node-information-query", 139),
   ("icmp-node-information-response", 140), ("inverse-neighbor-discovery-solicitation", 141),
   ("inverse-neighbor-discovery-advertisement", 142), ("version-2-multicast-listener-report", 143),
   ("home-agent-address-discovery-request", 144), ("home-agent-address-discovery-reply", 145),
   ("mobile-prefix-solicitation", 146), ("mobile-prefix-advertisement", 147),
   ("certification-path-solicitation", 148), ("certification-path-advertisement", 149),
   ("multicast-router-advertisement", 151), ("multicast-router-solicitation", 152),
   ("multicast-router-termination", 153)]

/-- `PROTO_MAP`; capirca/lib/aclgenerator.py:72-99. -/
def protoMap : List (String × Int) :=
  [("hopopt", 0), ("icmp", 1), ("igmp", 2), ("ggp", 3), ("ipip", 4), ("tcp", 6), ("egp", 8), ("igp", 9),
   ("udp", 17), ("rdp", 27), ("ipv6", 41), ("ipv6-route", 43), ("fragment", 44), ("rsvp", 46), ("gre", 47),
   ("esp", 50), ("ah", 51), ("icmpv6", 58), ("ipv6-nonxt", 59), ("ipv6-opts", 60), ("ospf", 89), ("pim", 103),
   ("vrrp", 112), ("l2tp", 115), ("sctp", 132), ("udplite", 136), ("all", -1)]

/-- `AF_MAP`; capirca/lib/aclgenerator.py:100-103. -/
def afMap : List (String × Nat) := [("inet", 4), ("inet6", 6), ("bridge", 4)]

/-- An address family argument: a number or a name; capirca/lib/aclgenerator.py:135-155. -/
inductive Af where
  | num (n : Nat)
  | name (s : String)

/-- `NormalizeAddressFamily`; capirca/lib/aclgenerator.py:135-155. `AF_MAP_BY_NUMBER` has the keys 4, 6. -/
def normalizeAf : Af → Except Err Nat
  | .num n => if (afMap.map Prod.snd).contains n then .ok n else .error (.raised "UnsupportedAFError")
  | .name s =>
    match afMap.lookup s with
    | some n => .ok n
    | none => .error (.raised "UnsupportedAFError")

/-- `ICMP_TYPE[af]`; capirca/lib/aclgenerator.py:70, 190. -/
def icmpTable (af : Nat) : List (String × Nat) := if af = 4 then icmp4 else icmp6

/-- The checks and the translation of `NormalizeIcmpTypes` once the family is a number;
capirca/lib/aclgenerator.py:180-198. -/
def icmpNumbers (types protocols : List String) (af : Nat) : Except Err (List (Option Nat)) :=
  if (af ≠ 4 ∧ protocols = ["icmp"]) ∨ (af ≠ 6 ∧ protocols = ["icmpv6"]) then
    .error (.raised "MismatchIcmpInetError")
  else if types.any fun x => ((icmpTable af).lookup x).isNone then .error (.raised "UnknownIcmpTypeError")
  else .ok ((isort (fun a b => decide (a ≤ b)) (types.filterMap fun x => (icmpTable af).lookup x)).map some)

/-- `NormalizeIcmpTypes`; capirca/lib/aclgenerator.py:157-198. `none` stands for the empty string in
`['']`. -/
def normalizeIcmpTypes (types protocols : List String) (af : Af) : Except Err (List (Option Nat)) :=
  if types.isEmpty then .ok [none]
  else if protocols ≠ ["icmp"] ∧ protocols ≠ ["icmpv6"] then .error (.raised "UnsupportedFilterError")
  else
    match normalizeAf af with
    | .error e => .error e
    | .ok n => icmpNumbers types protocols n

/-- A protocol of a term: the name (or number text) read from the policy, or a number put there by
`Term.__init__`; capirca/lib/aclgenerator.py:121-133. -/
inductive Proto where
  | str (s : String)
  | num (n : Int)
deriving DecidableEq, Repr

/-- `str(protocol)`; capirca/lib/aclgenerator.py:125. -/
def Proto.text : Proto → String
  | .str s => s
  | .num n => toString n

/-- `protocol in self.PROTO_MAP`; capirca/lib/aclgenerator.py:124. -/
def Proto.known : Proto → Bool
  | .str s => (protoMap.map Prod.fst).contains s
  | .num _ => false

/-- `ProtocolNameToNumber(protocols, ['ipip'], PROTO_MAP)` for one protocol;
capirca/lib/aclgenerator.py:522-543, 108. -/
def protoNumber : Proto → Proto
  | .str s => if s == "ipip" then .num ((protoMap.lookup s).getD 0) else .str s
  | p => p

/-- The protocol part of `Term.__init__`; capirca/lib/aclgenerator.py:121-133. -/
def termProtocols (ps : List Proto) : Except Err (List Proto) :=
  if ps.any fun p => !p.known && !(protoMap.map fun e => toString e.2).contains p.text then
    .error (.raised "UnsupportedFilterError")
  else .ok (ps.map protoNumber)

/-! ### keyword check -/

/-- The value of a term attribute as far as the keyword check looks at it: false (`None`, empty, 0), a
non-empty list of words, or something else. -/
inductive Val where
  | falsy
  | words (l : List String)
  | other

/-- Truth value; capirca/lib/aclgenerator.py:290. -/
def Val.truthy : Val → Bool
  | .falsy => false
  | .words l => !l.isEmpty
  | .other => true

/-- The attributes of a term as the keyword check sees them (`term.__dict__`);
capirca/lib/aclgenerator.py:280-288. -/
structure KTerm where
  platform : List String := []
  platformExclude : List String := []
  attrs : List (String × Val) := []

/-- The tables of a generator: `_PLATFORM`, `_GetSupportedTokens`, `WARN_IF_UNSUPPORTED`;
capirca/lib/aclgenerator.py:206-229, 271, 336-381. -/
structure Tables where
  platform : String
  tokens : List String
  subTokens : List (String × List String)
  warnOnly : List String

/-- `WARN_IF_UNSUPPORTED`; capirca/lib/aclgenerator.py:218-229. -/
def warnIfUnsupported : List String :=
  ["restrict_address_family", "counter", "destination_tag", "filter_term", "logging", "loss_priority", "owner",
   "qos", "routing_instance", "policer", "source_tag"]

/-- The default tables of `_BuildTokens`; capirca/lib/aclgenerator.py:336-381. -/
def baseTables (platform : String) : Tables where
  platform := platform
  tokens := ["action", "comment", "destination_address", "destination_address_exclude", "destination_port",
    "expiration", "icmp_type", "stateless_reply", "name", "option", "protocol", "platform", "platform_exclude",
    "source_address", "source_address_exclude", "source_port", "translated", "verbatim"]
  subTokens := [("option", ["established", "first-fragment", "is-fragment", "initial", "rst", "sample",
      "tcp-established"]),
    ("action", ["accept", "deny", "next", "reject", "reject-with-tcp-rst"]),
    ("icmp_type", (icmp4 ++ icmp6).map Prod.fst)]
  warnOnly := warnIfUnsupported

/-- `str.startswith`; capirca/lib/aclgenerator.py:291. -/
def startsWith (p s : String) : Bool := p.toList.isPrefixOf s.toList

/-- The unsupported sub-keywords of one attribute; capirca/lib/aclgenerator.py:297-304. -/
def badSubs (g : Tables) (el : String) : Val → List String
  | .words l =>
    match g.subTokens.lookup el with
    | none => []
    | some ok => if ok.contains ".*" then [] else l.filter fun v => !ok.contains v
  | _ => []

/-- The entries of `err` for one attribute; capirca/lib/aclgenerator.py:288-304. The sub-keywords are kept
apart instead of joined in one text. -/
def attrErrors (g : Tables) (a : String × Val) : List String :=
  (if a.2.truthy && !g.tokens.contains a.1 && !startsWith "flatten" a.1 && !g.warnOnly.contains a.1 then [a.1]
   else []) ++ badSubs g a.1 a.2

/-- The term is rendered for the platform; capirca/lib/aclgenerator.py:280-285. -/
def active (g : Tables) (t : KTerm) : Bool :=
  (t.platform.isEmpty || t.platform.contains g.platform) &&
  !(!t.platformExclude.isEmpty && t.platformExclude.contains g.platform)

/-- `err` of one term, empty if the term is skipped; capirca/lib/aclgenerator.py:279-308. -/
def termErrors (g : Tables) (t : KTerm) : List String :=
  if active g t then t.attrs.flatMap (attrErrors g) else []

/-- `_GetSupportedTokens`: sub-keyword tables must belong to supported keywords;
capirca/lib/aclgenerator.py:383-399. -/
def tablesOk (g : Tables) : Bool := g.subTokens.all fun e => g.tokens.contains e.1

/-- `ACLGenerator.__init__` up to `_TranslatePolicy`: filters are the platforms of the header and the
terms; capirca/lib/aclgenerator.py:269-321. -/
def initCheck (g : Tables) (filters : List (List String × List KTerm)) : Except Err Unit :=
  if !tablesOk g then .error (.raised "UnsupportedFilterError")
  else if filters.any fun f => f.1.contains g.platform && f.2.any fun t => !(termErrors g t).isEmpty then
    .error (.raised "UnsupportedFilterError")
  else .ok ()

/-! ### high ports -/

/-- Class attributes used by `FixHighPorts`; capirca/lib/aclgenerator.py:210-214. -/
structure HighPorts where
  defaultProtocol : String := "ip"
  supportedAf : List String := ["inet", "inet6"]
  blacklist : List (String × List String) := []

/-- `protocols` of the term; capirca/lib/aclgenerator.py:421-425. -/
def protocolsOf (c : HighPorts) (t : Term) : List String :=
  if t.protocol.isEmpty then [c.defaultProtocol] else t.protocol

/-- The `established` part of `FixHighPorts`; capirca/lib/aclgenerator.py:443-457. -/
def fixEstablished (c : HighPorts) (t : Term) (stateful : Bool) : Except Err Term :=
  if t.option.any fun o => startsWith "established" o then
    if (protocolsOf c t).all fun p => p == "tcp" || p == "udp" then
      .ok { t with destinationPort :=
        collapsePortList (if stateful then t.destinationPort else t.destinationPort ++ [(1024, 65535)]) }
    else if stateful then .ok t
    else .error (.raised "EstablishedError")
  else .ok t

/-- `FixHighPorts`; capirca/lib/aclgenerator.py:402-459. The input object is never changed by the code
(it works on a deep copy), the model returns a new value. -/
def fixHighPorts (c : HighPorts) (t : Term) (af : String) (stateful : Bool) : Except Err Term :=
  if !c.supportedAf.contains af then .error (.raised "UnsupportedAFError")
  else if ((c.blacklist.lookup af).getD []).any fun p => (protocolsOf c t).contains p then
    .error (.raised "UnsupportedFilterError")
  else fixEstablished c t stateful

/-! ### names -/

/-- `re.sub(word, abbrev, s)` for a non-empty word without special characters (all words of the shipped
tables): replace the leftmost non-overlapping occurrences; capirca/lib/aclgenerator.py:491. The first
argument bounds the number of steps, the length of `s` suffices. -/
def subAll (word short : Str) : Nat → Str → Str
  | 0, s => s
  | _ + 1, [] => []
  | n + 1, c :: cs =>
    if word.isPrefixOf (c :: cs) then short ++ subAll word short n ((c :: cs).drop word.length)
    else c :: subAll word short n cs

/-- `_ABBREVIATION_TABLE`; capirca/lib/aclgenerator.py:240-264. -/
def abbreviations : List (Str × Str) :=
  [("experiment", "EXP"), ("wifi-radius", "W-R"), ("customer", "CUST"), ("server", "SRV"), ("global", "GBL"),
   ("google", "GOOG"), ("service", "SVC"), ("router", "RTR"), ("internal", "INT"), ("external", "EXT"),
   ("transit", "TRNS"), ("management", "MGMT"), ("established", "EST"), ("unreachable", "UNR"),
   ("fragment", "FRAG"), ("accept", "ACC"), ("discard", "DISC"), ("reject", "REJ"), ("replies", "RPL"),
   ("request", "REQ")].map fun e => (e.1.toList, e.2.toList)

/-- The abbreviation loop: `.inl` is the early `return`; capirca/lib/aclgenerator.py:487-491. -/
def abbreviate (limit : Nat) : List (Str × Str) → Str → Sum Str Str
  | [], s => .inr s
  | (w, a) :: tbl, s => if s.length ≤ limit then .inl s else abbreviate limit tbl (subAll w a s.length s)

/-- The part of `FixTermLength` after the loop; capirca/lib/aclgenerator.py:492-502. -/
def truncateName (limit : Nat) (truncate : Bool) (s : Str) : Except Err Str :=
  let s' := if truncate then s.take limit else s
  if s'.length ≤ limit then .ok s' else .error (.raised "TermNameTooLongError")

/-- `FixTermLength` with table and limit of the generator; capirca/lib/aclgenerator.py:461-502. -/
def fixTermLength (tbl : List (Str × Str)) (limit : Nat) (name : Str) (abbr truncate : Bool) : Except Err Str :=
  if abbr then
    match abbreviate limit tbl name with
    | .inl s => .ok s
    | .inr s => truncateName limit truncate s
  else truncateName limit truncate name

/-! ### comments -/

/-- `i.replace('\n', ' ').replace('"', '\'')`; capirca/lib/aclgenerator.py:621. -/
def sanitize (s : Str) : Str := (s.map fun c => if c = '\n' then ' ' else c).map fun c => if c = '"' then '\'' else c

/-- `' '.join(l)`; capirca/lib/aclgenerator.py:622. -/
def joinBlank : List Str → Str
  | [] => []
  | [a] => a
  | a :: b :: l => a ++ ' ' :: joinBlank (b :: l)

/-- `TruncateWords(input_text, char_limit)`: `.inl` is a list of texts, `.inr` one text;
capirca/lib/aclgenerator.py:601-625. -/
def truncateWords (input : Sum (List Str) Str) (limit : Nat) : Str :=
  let limit := if limit > 126 then 126 else limit
  let comment := match input with
    | .inl l => joinBlank (l.map sanitize)
    | .inr s => s
  '"' :: (comment.take limit ++ ['"'])

end Aclgenerator
end Verif
